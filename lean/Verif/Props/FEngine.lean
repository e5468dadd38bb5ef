import Verif.Lemmas.FEngine
/-!
# C73: the F engine
-/
namespace Verif.FEngine
open Verif.CMem
open Lean.Grind (CommRing)

variable {C : Type} [CommRing C]

/-! ## Writing all windows -/

/-- The windows of the main loop. -/
def blocks (a : Args C) (step n : Nat) : List (List (Int × C) × (Int × Nat)) :=
  (List.range (a.nStand * n)).map fun ij =>
    ((List.range a.nChan).map (fun k => (((a.nChan * n * (ij / n) + n * k + ij % n : Nat) : Int), cell a step (ij / n) (ij % n) k)),
      (((n * (ij / n) + ij % n : Nat) : Int), if (raw a step (ij / n) (ij % n)).any a.over then 0 else 1))

theorem address_inj {nChan n i j k i' j' k' : Nat} (hj : j < n) (hj' : j' < n) (hk : k < nChan) (hk' : k' < nChan)
    (h : nChan * n * i + n * k + j = nChan * n * i' + n * k' + j') : i = i' ∧ k = k' ∧ j = j' := by
  have e : ∀ i k j, nChan * n * i + n * k + j = n * (nChan * i + k) + j := by
    intro i k j; rw [Nat.mul_add, ← Nat.mul_assoc n, Nat.mul_comm n nChan]
  rw [e, e] at h
  have ⟨h1, h2⟩ := pair_inj hj hj' h
  have ⟨h3, h4⟩ := pair_inj hk hk' h1
  exact ⟨h3, h4, h2⟩

theorem address_lt {nChan n nStand i j k : Nat} (hi : i < nStand) (hj : j < n) (hk : k < nChan) :
    nChan * n * i + n * k + j < nStand * nChan * n := by
  have e : nChan * n * i + n * k + j = n * (nChan * i + k) + j := by
    rw [Nat.mul_add, ← Nat.mul_assoc n, Nat.mul_comm n nChan]
  rw [e, Nat.mul_comm _ n, Nat.mul_comm nStand]
  exact pair_lt hj (pair_lt hk hi)

theorem ij_lt {n m ij : Nat} (h : ij < m * n) : ij / n < m ∧ ij % n < n := by
  have hn : 0 < n := by cases n with
    | zero => simp at h
    | succ n => omega
  exact ⟨(Nat.div_lt_iff_lt_mul hn).2 h, Nat.mod_lt _ hn⟩

/-- No two windows, and no two channels of a window, write to the same cell: the iterations of the parallel loop
do not interfere (core.cpp:166-169, 278-281). -/
theorem C73_no_race {nChan n ij ij' k k' : Nat} (hn : 0 < n) (hk : k < nChan) (hk' : k' < nChan)
    (h : nChan * n * (ij / n) + n * k + ij % n = nChan * n * (ij' / n) + n * k' + ij' % n) : ij = ij' ∧ k = k' := by
  have ⟨h1, h2, h3⟩ := address_inj (Nat.mod_lt ij hn) (Nat.mod_lt ij' hn) hk hk' h
  refine ⟨?_, h2⟩
  rw [← Nat.div_add_mod ij n, ← Nat.div_add_mod ij' n, h1, h3]

theorem blocks_nodup (a : Args C) (step n : Nat) : (((blocks a step n).flatMap (·.1)).map (·.1)).Nodup := by
  unfold blocks
  rw [List.flatMap_map, List.map_flatMap]
  unfold List.Nodup
  rw [List.pairwise_flatMap]
  constructor
  · intro ij hij
    have ⟨_, hj⟩ := ij_lt (List.mem_range.1 hij)
    simp only [List.map_map]
    rw [List.pairwise_map]
    apply List.Pairwise.imp_of_mem _ (List.nodup_range (n := a.nChan))
    intro k k' hk hk' hne e
    have e' : a.nChan * n * (ij / n) + n * k + ij % n = a.nChan * n * (ij / n) + n * k' + ij % n := by
      simp only [Function.comp_apply] at e; exact Int.ofNat.inj e
    exact hne (address_inj hj hj (List.mem_range.1 hk) (List.mem_range.1 hk') e').2.1
  · apply List.Pairwise.imp_of_mem _ (List.nodup_range (n := a.nStand * n))
    intro ij ij' hij hij' hne x hx y hy e
    simp only [List.map_map, List.mem_map, Function.comp_apply] at hx hy
    obtain ⟨k, hk, rfl⟩ := hx
    obtain ⟨k', hk', rfl⟩ := hy
    have hn : 0 < n := by have := (ij_lt (List.mem_range.1 hij)).2; omega
    exact hne (C73_no_race hn (List.mem_range.1 hk) (List.mem_range.1 hk') (Int.ofNat.inj e)).1

/-- With a step of a whole number of samples and room for one window, every read stays in the row of its own stand,
every write in the output arrays, and every cell of the output has the delayed, weighted and phase rotated spectrum of its
own window; windows with a sample at the clip level are zero and marked. -/
theorem C73_value_partial {a : Args C} {step o : Nat} (h : Ok a step o) (hn : (a.len : Int) ≤ (a.nSamps : Int) - a.fifoMax) :
    ∃ f v, a.run = .ok (f, v) ∧ f.length = a.nStand * a.nChan * Spec.windows a step ∧
      v.length = a.nStand * Spec.windows a step ∧
      ∀ i j, i < a.nStand → j < Spec.windows a step →
        (Spec.clipped a step i j → v[Spec.windows a step * i + j]? = some 0 ∧
          ∀ k, k < a.nChan → f[a.nChan * Spec.windows a step * i + Spec.windows a step * k + j]? = some 0) ∧
        (¬Spec.clipped a step i j → v[Spec.windows a step * i + j]? = some 1 ∧
          ∀ k, k < a.nChan → f[a.nChan * Spec.windows a step * i + Spec.windows a step * k + j]? =
            some (Spec.spectrum a step i j (Spec.bin a k) * a.rot i k)) := by
  have hw := windows_eq h hn
  generalize hnn : Spec.windows a step = n at *
  have hb : all (fun ij => a.block n (ij / n) (ij % n)) (List.range (a.nStand * n)) = .ok (blocks a step n) := by
    apply all_ok
    intro ij hij
    have ⟨h1, h2⟩ := ij_lt (List.mem_range.1 hij)
    exact block_ok h n _ _ h1 (by rw [hnn]; exact h2)
  have ⟨f, f1, f2, f3, _⟩ := wrs_ok (List.replicate (a.nStand * a.nChan * n) (0 : C)) ((blocks a step n).flatMap (·.1))
    (by
      intro w hw
      rw [List.mem_flatMap] at hw
      obtain ⟨b, hb, hw⟩ := hw
      unfold blocks at hb
      rw [List.mem_map] at hb
      obtain ⟨ij, hij, rfl⟩ := hb
      rw [List.mem_map] at hw
      obtain ⟨k, hk, rfl⟩ := hw
      have ⟨h1, h2⟩ := ij_lt (List.mem_range.1 hij)
      have := address_lt h1 h2 (List.mem_range.1 hk)
      simp only [List.length_replicate]
      omega)
    (blocks_nodup a step n)
  have ⟨v, v1, v2, v3, _⟩ := wrs_ok (List.replicate (a.nStand * n) 0) ((blocks a step n).map (·.2))
    (by
      intro w hw
      unfold blocks at hw
      rw [List.map_map, List.mem_map] at hw
      obtain ⟨ij, hij, rfl⟩ := hw
      have := List.mem_range.1 hij
      simp only [Function.comp_apply, List.length_replicate]
      rw [Nat.div_add_mod]
      omega)
    (by
      unfold blocks
      rw [List.map_map, List.map_map]
      unfold List.Nodup
      rw [List.pairwise_map]
      apply List.Pairwise.imp _ (List.nodup_range (n := a.nStand * n))
      intro x y hne e
      simp only [Function.comp_apply, Nat.div_add_mod] at e
      exact hne (Int.ofNat.inj e))
  refine ⟨f, v, ?_, by rw [f2, List.length_replicate], by rw [v2, List.length_replicate], ?_⟩
  · unfold Args.run
    rw [hw]
    show (if ((n : Nat) : Int) < 0 then (.error .refused : Run _) else _) = _
    rw [if_neg (by omega)]
    simp only [Int.toNat_natCast]
    rw [hb]
    show ((wrs _ ((blocks a step n).flatMap (·.1))).bind _ : Run _) = _
    rw [f1]
    show ((wrs _ ((blocks a step n).map (·.2))).bind _ : Run _) = _
    rw [v1]
    rfl
  · intro i j hi hj
    have hmem : n * i + j ∈ List.range (a.nStand * n) := by
      rw [List.mem_range, Nat.mul_comm a.nStand]; exact pair_lt hj hi
    have hd : (n * i + j) / n = i := by rw [Nat.mul_add_div (by omega), Nat.div_eq_of_lt hj]; omega
    have hm : (n * i + j) % n = j := by rw [Nat.mul_add_mod, Nat.mod_eq_of_lt hj]
    have hv := v3 (((n * i + j : Nat) : Int), if (raw a step i j).any a.over then 0 else 1)
      (List.mem_map.2 ⟨_, List.mem_map.2 ⟨n * i + j, hmem, rfl⟩, by rw [hd, hm]⟩)
    have hf : ∀ k, k < a.nChan → f[a.nChan * n * i + n * k + j]? = some (cell a step i j k) := by
      intro k hk
      exact f3 (((a.nChan * n * i + n * k + j : Nat) : Int), cell a step i j k)
        (List.mem_flatMap.2 ⟨_, List.mem_map.2 ⟨n * i + j, hmem, rfl⟩, by
          rw [hd, hm]; exact List.mem_map.2 ⟨k, List.mem_range.2 hk, rfl⟩⟩)
    simp only [Int.toNat_natCast] at hv
    constructor
    · intro hc
      rw [← any_raw] at hc
      rw [hc] at hv
      refine ⟨hv, ?_⟩
      intro k hk
      rw [hf k hk]
      unfold cell
      rw [hc]
      congr 1
      show (0 : C) * _ * _ = 0
      grind
    · intro hc
      rw [← any_raw, Bool.not_eq_true] at hc
      rw [hc] at hv
      refine ⟨hv, ?_⟩
      intro k hk
      rw [hf k hk]
      unfold cell
      rw [hc]
      congr 1
      show (1 : C) * _ * _ = _
      grind

/-- Too few samples for a window: nothing, or an exception. -/
theorem C73_short_partial {a : Args C} {step o : Nat} (h : Ok a step o) (hn : (a.nSamps : Int) - a.fifoMax < (a.len : Int)) :
    a.run = .error .refused ∨ a.run = .ok ([], []) := by
  unfold Args.run
  rw [h.overlap]
  rw [show ((a.len : Nat) : Int) = ((o * step : Nat) : Int) by rw [h.divides], nFFT_eq _ _ step o h.steps h.pos]
  have hle : ((a.nSamps : Int) - a.fifoMax).tdiv step - o + 1 ≤ 0 := by
    have hs := h.steps
    by_cases h0 : (a.nSamps : Int) - a.fifoMax < 0
    · have e : (a.nSamps : Int) - a.fifoMax = -(a.fifoMax - (a.nSamps : Int)) := by omega
      have p : 0 ≤ (a.fifoMax - (a.nSamps : Int)).tdiv step := Int.tdiv_nonneg (by omega) (by omega)
      have := h.pos
      rw [e, Int.neg_tdiv]
      omega
    · rw [Int.tdiv_eq_ediv_of_nonneg (by omega)]
      have : ((a.nSamps : Int) - a.fifoMax) / step < o := by
        apply Int.ediv_lt_of_lt_mul (by omega)
        rw [h.divides, Int.natCast_mul] at hn
        exact hn
      omega
  show (if _ then (.error .refused : Run _) else _) = _ ∨ _
  by_cases hz : ((a.nSamps : Int) - a.fifoMax).tdiv step - o + 1 < 0
  · rw [if_pos hz]; exact Or.inl rfl
  · right
    have : ((a.nSamps : Int) - a.fifoMax).tdiv step - o + 1 = 0 := by omega
    show (if ((a.nSamps : Int) - a.fifoMax).tdiv step - o + 1 < 0 then (.error .refused : Run _) else _) = _
    rw [this, if_neg (by omega)]
    simp [all, wrs, Except.bind]

/-- The taps of the filter bank: adding the transforms is the transform of the sum. -/
theorem C73_taps (a : Args C) (step i j b : Nat) :
    Spec.spectrum a step i j b = dft a.e a.len (fun t => sumN a.nTap fun l =>
      Spec.row a i (Spec.start a step i j + ((l * a.len + t : Nat) : Int)) * Spec.weight a (l * a.len + t)) b := by
  unfold Spec.spectrum dft
  rw [sumN_comm]
  apply sumN_congr
  intro t _
  have := sumN_mul (a.e (-((b : Rat) * (t : Rat) / (a.len : Rat)))) a.nTap
    (fun l => Spec.row a i (Spec.start a step i j + ((l * a.len + t : Nat) : Int)) * Spec.weight a (l * a.len + t))
  rw [show ∀ x y : C, x * y = y * x by intro x y; grind] at this
  rw [← this]
  apply sumN_congr
  intro l _
  grind

/-! ## Delays and phases -/

omit [CommRing C] in
theorem lround_near (x : Rat) : (lround x : Rat) - x ≤ 1 / 2 ∧ x - (lround x : Rat) ≤ 1 / 2 := by
  unfold lround
  split
  · have h1 := Rat.floor_le (x + 1 / 2)
    have h2 := @Rat.lt_floor (x + 1 / 2)
    grind
  · have h1 := Rat.floor_le (-x + 1 / 2)
    have h2 := @Rat.lt_floor (-x + 1 / 2)
    rw [Rat.intCast_neg]
    grind

omit [CommRing C] in
/-- After reading from sample `fifo` on, at most half a sample of the delay of the middle channel is left. -/
theorem C73_rest (a : Args C) (hs : 0 < a.sr) (i : Nat) :
    -(1 / 2) ≤ a.frac i (a.nChan / 2) * a.sr ∧ a.frac i (a.nChan / 2) * a.sr ≤ 1 / 2 := by
  have h := lround_near (a.delay i (a.nChan / 2) * a.sr)
  unfold Args.frac Args.fifo
  have e : ∀ x y : Rat, (x - y / a.sr) * a.sr = x * a.sr - y := by intro x y; grind
  rw [e]
  grind

omit [CommRing C] in
/-- The turns of phase from reading `fifo` samples later, at the frequency relative to the reference channel, and from
the two rotations add up to the frequency times the delay. -/
theorem C73_phase (a : Args C) (i k : Nat) :
    (a.freq k - a.freq a.ref) * ((a.fifo i : Rat) / a.sr) + a.freq k * a.frac i k +
      a.freq a.ref / a.sr * (a.fifo i : Rat) = a.freq k * a.delay i k := by
  unfold Args.frac
  grind

/-- A wave at the frequency of channel `k`: stand `i` gets it `delay i k` late; the samples are relative to the reference
frequency. -/
def Wave (a : Args C) (k : Nat) (amp : C) : Prop :=
  ∀ i t, i < a.nStand → t < a.nSamps →
    a.data.getD (a.nSamps * i + t) 0 =
      amp * a.e ((a.freq k - a.freq a.ref) * ((t : Rat) / a.sr)) * a.e (-(a.freq k * a.delay i k))

/-- Such a wave gives the same value in channel `k` for all stands: the delays are taken out exactly.  The window has to
lie inside the data. -/
theorem C73_wave {a : Args C} {step o : Nat} (h : Ok a step o)
    (he : ∀ x y, a.e (x + y) = a.e x * a.e y) (k : Nat) (amp : C) (hw : Wave a k amp)
    (i i' j b : Nat) (hi : i < a.nStand) (hi' : i' < a.nStand) (hj : j < Spec.windows a step)
    (h0 : 0 ≤ Spec.start a step i j) (h0' : 0 ≤ Spec.start a step i' j) :
    Spec.spectrum a step i j b * a.rot i k = Spec.spectrum a step i' j b * a.rot i' k := by
  have key : ∀ i, i < a.nStand → 0 ≤ Spec.start a step i j →
      Spec.spectrum a step i j b * a.rot i k =
      sumN a.nTap fun l => sumN a.len fun t =>
        amp * a.e ((a.freq k - a.freq a.ref) * ((((step * j : Nat) : Int) - ((a.len * (a.nTap - 1) : Nat) : Int) + ((l * a.len + t : Nat) : Int) : Int) : Rat) / a.sr) *
          Spec.weight a (l * a.len + t) * a.e (-((b : Rat) * (t : Rat) / (a.len : Rat))) * a.g := by
    intro i hi h0
    rw [show ∀ x y : C, x * y = y * x by intro x y; grind]
    unfold Spec.spectrum
    rw [← sumN_mul]
    apply sumN_congr
    intro l hl
    rw [← sumN_mul]
    apply sumN_congr
    intro t ht
    have hu : l * a.len + t < a.len * a.nTap := by have := pair_lt ht hl; rw [Nat.mul_comm l]; omega
    generalize hU : l * a.len + t = u at *
    have htap : a.len * a.nTap = a.len * (a.nTap - 1) + a.len := by
      rw [← Nat.mul_succ]; congr 1; have := h.taps; omega
    have hlast := windows_last h j hj
    have hfi := fifo_le a i hi
    unfold Spec.start at h0 ⊢
    generalize hQ : a.len * (a.nTap - 1) = q at *
    generalize hT : a.fifo i + ((step * j : Nat) : Int) - (q : Nat) + (u : Int) = T
    have hT0 : 0 ≤ T := by omega
    have hr : Spec.row a i T = amp * a.e ((a.freq k - a.freq a.ref) * ((T : Rat) / a.sr)) * a.e (-(a.freq k * a.delay i k)) := by
      unfold Spec.row
      rw [if_neg (by omega), hw i T.toNat hi (by omega)]
      rw [show ((T.toNat : Nat) : Rat) = (T : Rat) by
        rw [← Rat.intCast_natCast, Int.toNat_of_nonneg hT0]]
    rw [hr]
    unfold Args.rot
    have hph : a.e ((a.freq k - a.freq a.ref) * ((T : Rat) / a.sr)) * a.e (-(a.freq k * a.delay i k)) *
        (a.e (a.freq k * a.frac i k) * a.e (a.freq a.ref / a.sr * (a.fifo i : Rat))) =
        a.e ((a.freq k - a.freq a.ref) * ((((step * j : Nat) : Int) - (q : Int) + (u : Int) : Int) : Rat) / a.sr) := by
      rw [← he, ← he, ← he]
      congr 1
      have p := C73_phase a i k
      have : (T : Rat) = (a.fifo i : Rat) + ((((step * j : Nat) : Int) - (q : Int) + (u : Int) : Int) : Rat) := by
        rw [← Rat.intCast_add]; congr 1; omega
      rw [this]
      grind
    rw [← hph]
    grind
  rw [key i hi h0, key i' hi' h0']

/-! ## The frequency axis -/

theorem fftfreq_get (n : Nat) (sr : Rat) (k : Nat) (hk : k < n) :
    (fftfreq n sr)[k]? = some (((if k < (n - 1) / 2 + 1 then (k : Int) else (k : Int) - n : Int) : Rat) * (sr / (n : Rat))) := by
  unfold fftfreq
  rw [List.getElem?_map]
  by_cases h : k < (n - 1) / 2 + 1
  · rw [List.getElem?_append_left (by simpa using h), if_pos h]
    simp [List.getElem?_map, List.getElem?_range h]
  · rw [List.getElem?_append_right (by simp; omega), if_neg h]
    simp only [List.length_map, List.length_range]
    rw [List.getElem?_map, List.getElem?_range (by omega)]
    simp only [Option.map_some]
    congr 3
    omega

theorem fftfreq_length (n : Nat) (hn : 0 < n) (sr : Rat) : (fftfreq n sr).length = n := by
  unfold fftfreq; simp; omega

theorem fftshift_get {α : Type} (x : List α) (k : Nat) (hk : k < x.length) :
    (fftshift x)[k]? = x[(k + (x.length - x.length / 2)) % x.length]? := by
  unfold fftshift
  by_cases h : k < x.length / 2
  · rw [List.getElem?_append_left (by simp; omega), List.getElem?_drop, Nat.mod_eq_of_lt (by omega), Nat.add_comm]
  · rw [List.getElem?_append_right (by simp; omega), List.length_drop, Nat.mod_eq_sub_mod (by omega), Nat.mod_eq_of_lt (by omega),
      List.getElem?_take_of_lt (by omega)]
    congr 1
    omega

/-- The frequencies given to the F engine are evenly spaced, from zero for real data, and around the central frequency
at channel `lfft/2` for complex data. -/
theorem C73_axis (real : Bool) (lfft : Nat) (sr central : Rat) (k : Nat) (hk : k < lfft) :
    (freqAxis real lfft sr central)[k]? =
      some (if real then (k : Rat) * (sr / ((2 * lfft : Nat) : Rat))
        else (((k : Int) - ((lfft / 2 : Nat) : Int) : Int) : Rat) * (sr / (lfft : Rat)) + central) := by
  unfold freqAxis
  cases real with
  | true =>
    simp only [if_true]
    rw [List.getElem?_take_of_lt hk, fftfreq_get _ _ _ (by omega), if_pos (by omega), Rat.intCast_natCast]
  | false =>
    simp only [Bool.false_eq_true, if_false]
    have hl : ((fftfreq lfft sr).map (· + central)).length = lfft := by rw [List.length_map, fftfreq_length _ (by omega)]
    rw [List.getElem?_take_of_lt hk, fftshift_get _ _ (by omega), hl, List.getElem?_map,
      fftfreq_get _ _ _ (Nat.mod_lt _ (by omega))]
    simp only [Option.map_some]
    congr 4
    by_cases h : k < lfft / 2
    · rw [Nat.mod_eq_of_lt (by omega), if_neg (by omega)]; omega
    · rw [Nat.mod_eq_sub_mod (by omega), Nat.mod_eq_of_lt (by omega), if_pos (by omega)]; omega

omit [CommRing C] in
/-- The entry of the transform put in channel `k` is that of the frequency of channel `k`: the difference to the reference
frequency is `bin` times the resolution, but for a multiple of the sample rate. -/
theorem C73_bin (a : Args C) (central : Rat) (hf : ∀ k, k < a.nChan → (freqAxis a.real a.nChan a.sr central)[k]? = some (a.freq k))
    (k : Nat) (hk : k < a.nChan) :
    ∃ z : Int, a.freq k - a.freq a.ref = (Spec.bin a k : Rat) * (a.sr / (a.len : Rat)) + (z : Rat) * a.sr := by
  have h1 := hf k hk
  have h2 := hf a.ref (by unfold Args.ref; split <;> omega)
  rw [C73_axis _ _ _ _ _ hk] at h1
  rw [C73_axis _ _ _ _ _ (by unfold Args.ref; split <;> omega)] at h2
  have h1 := Option.some.inj h1
  have h2 := Option.some.inj h2
  rw [← h1, ← h2]
  unfold Args.ref Args.len Spec.bin
  have hn : ((a.nChan : Nat) : Rat) ≠ 0 := by
    rw [← Rat.intCast_natCast]; intro e
    have := Rat.intCast_eq_zero_iff.1 e
    omega
  cases a.real with
  | true =>
    simp only [if_true]
    refine ⟨0, ?_⟩
    simp
    grind
  | false =>
    simp only [Bool.false_eq_true, if_false]
    by_cases h : k < a.nChan / 2
    · refine ⟨-1, ?_⟩
      rw [Nat.mod_eq_of_lt (by omega)]
      have : ((k + (a.nChan - a.nChan / 2) : Nat) : Rat) = (k : Rat) + ((a.nChan : Rat) - ((a.nChan / 2 : Nat) : Rat)) := by
        rw [← Rat.intCast_natCast, ← Rat.intCast_natCast, ← Rat.intCast_natCast, ← Rat.intCast_natCast, ← Rat.intCast_sub, ← Rat.intCast_add]
        congr 1; omega
      rw [this]
      simp only [Rat.intCast_sub, Rat.intCast_natCast]
      grind
    · refine ⟨0, ?_⟩
      rw [Nat.mod_eq_sub_mod (by omega), Nat.mod_eq_of_lt (by omega)]
      have : ((k + (a.nChan - a.nChan / 2) - a.nChan : Nat) : Rat) = (k : Rat) - ((a.nChan / 2 : Nat) : Rat) := by
        rw [← Rat.intCast_natCast, ← Rat.intCast_natCast, ← Rat.intCast_natCast, ← Rat.intCast_sub]
        congr 1; omega
      rw [this]
      simp only [Rat.intCast_sub, Rat.intCast_natCast]
      grind

end Verif.FEngine
