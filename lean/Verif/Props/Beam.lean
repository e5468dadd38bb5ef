import Verif.Lemmas.Beam
/-!
# C77: beam forming
-/
namespace Verif.Beam
open Verif.CMem
open Lean.Grind (CommRing)

theorem inv_eq (v : List Nat) : inv (Spec.chosen v) = if Spec.chosen v = 0 then 0 else 1 / (Spec.chosen v : Rat) := by
  unfold inv
  by_cases h : Spec.chosen v = 0
  · rw [h]; rfl
  · rw [if_pos (by omega), if_neg h]

section
variable {C : Type} [CommRing C] (mk : Rat → Rat → C)

/-- The engine stays inside its arrays and gives, for any number of stands, channels and times, the two means: first
that over the antennas of the first list, then that over the antennas of the second. -/
theorem C77_engine (cplx : Bool) (n nchan ntime : Nat) (coeffs : List C) (data : List Rat) (v0 v1 : List Nat)
    (hd : data.length = (if cplx then 2 else 1) * (n * nchan * ntime)) (hl : coeffs.length = n * nchan)
    (h0 : v0.length = n) (h1 : v1.length = n) :
    ∃ out, phaseAndSum mk cplx n nchan ntime coeffs data v0 v1 = .ok out ∧ out.length = 2 * (nchan * ntime) ∧
      ∀ c t, c < nchan → t < ntime →
        out[c * ntime + t]? = some (Spec.beam mk n nchan coeffs (Spec.sample mk cplx data nchan ntime) v0 c t) ∧
        out[nchan * ntime + (c * ntime + t)]? = some (Spec.beam mk n nchan coeffs (Spec.sample mk cplx data nchan ntime) v1 c t) := by
  let val (v : List Nat) (q : Nat) : C :=
    sumN n (part mk cplx nchan ntime coeffs data v (q / ntime) (q % ntime)) * mk (inv (Spec.chosen v)) 0
  let m := nchan * ntime
  let F (q : Nat) : C := if q < m then val v0 q else val v1 (q - m)
  have hval : ∀ v c t, t < ntime → val v (c * ntime + t) = Spec.beam mk n nchan coeffs (Spec.sample mk cplx data nchan ntime) v c t := by
    intro v c t ht
    show sumN n (part mk cplx nchan ntime coeffs data v ((c * ntime + t) / ntime) ((c * ntime + t) % ntime)) * _ = _
    rw [show (c * ntime + t) / ntime = c from by rw [Nat.mul_comm, Nat.mul_add_div (by omega), Nat.div_eq_of_lt ht, Nat.add_zero],
      show (c * ntime + t) % ntime = t from by rw [Nat.mul_comm, Nat.mul_add_mod, Nat.mod_eq_of_lt ht], inv_eq]
    rfl
  have hw : phaseAndSum mk cplx n nchan ntime coeffs data v0 v1 = .ok ((List.range (2 * m)).map F) := by
    unfold phaseAndSum
    rw [onePol_ok mk cplx n nchan ntime coeffs data v0 hd hl h0, onePol_ok mk cplx n nchan ntime coeffs data v1 hd hl h1]
    simp only [Except.bind]
    have e : (((List.range (nchan * ntime)).map fun q => (((0 * nchan * ntime + q : Nat) : Int), val v0 q)) ++
        ((List.range (nchan * ntime)).map fun q => (((1 * nchan * ntime + q : Nat) : Int), val v1 q))) =
        (List.range (2 * m)).map fun (q : Nat) => ((q : Int), F q) := by
      rw [show 2 * m = m + m from by omega, List.range_add, List.map_append, List.map_map]
      congr 1
      · apply List.map_congr_left
        intro q hq
        have hq : q < m := List.mem_range.mp hq
        simp [F, hq]
      · apply List.map_congr_left
        intro q hq
        simp only [F, Function.comp, m]
        rw [if_neg (by omega), Nat.add_sub_cancel_left, Nat.one_mul]
    show wrs _ (_ ++ _) = _
    rw [e, Nat.mul_assoc, wrs_front (0 : C) _ (2 * m) (by simp [m])]
    congr 1
    rw [List.length_replicate]
    apply List.map_congr_left
    intro q hq
    have hq : q < 2 * m := List.mem_range.mp hq
    rw [if_pos hq]
  refine ⟨_, hw, by simp [m], ?_⟩
  intro c t hc ht
  have hq : c * ntime + t < m := by
    have : (c + 1) * ntime ≤ nchan * ntime := Nat.mul_le_mul_right _ hc
    rw [Nat.succ_mul] at this
    show _ < nchan * ntime
    omega
  constructor
  · rw [List.getElem?_map, List.getElem?_range (by omega)]
    simp only [Option.map_some, F, if_pos hq]
    rw [hval _ _ _ ht]
  · have h2 : nchan * ntime + (c * ntime + t) = m + (c * ntime + t) := rfl
    rw [List.getElem?_map, List.getElem?_range (by omega)]
    simp only [Option.map_some, F]
    rw [if_neg (by omega), h2, Nat.add_sub_cancel_left, hval _ _ _ ht]

/-- The engine called from python: for arrays of three dimensions and for pairs of bytes. -/
theorem C77_bengine_partial (n nchan : Nat) (coeffs : List C) (s : Signals) (v0 v1 : List Nat) (hs : Spec.Whole s)
    (hl : coeffs.length = n * nchan) (hn : s.shape.getD 0 0 = n) (hc : s.shape.getD 1 0 = nchan) (h0 : v0.length = n)
    (h1 : v1.length = n) :
    ∃ out, bengine mk n nchan coeffs s v0 v1 = .ok out ∧ out.length = 2 * (nchan * s.shape.getD 2 0) ∧
      ∀ c t, c < nchan → t < s.shape.getD 2 0 →
        out[c * s.shape.getD 2 0 + t]? =
          some (Spec.beam mk n nchan coeffs (Spec.sample mk (Spec.pairs s) s.parts nchan (s.shape.getD 2 0)) v0 c t) ∧
        out[nchan * s.shape.getD 2 0 + (c * s.shape.getD 2 0 + t)]? =
          some (Spec.beam mk n nchan coeffs (Spec.sample mk (Spec.pairs s) s.parts nchan (s.shape.getD 2 0)) v1 c t) := by
  obtain ⟨hshape, hparts⟩ := hs
  have hlen : s.shape.length = 3 ∨ s.shape.length = 4 := by
    rcases hshape with h | ⟨_, h, _⟩
    · exact .inl h
    · exact .inr h
  have hp : Spec.pairs s = decide (s.kind = .complex ∨ s.shape.length = 4) := by
    unfold Spec.pairs
    rcases hshape with h | ⟨h, h', _⟩
    · simp [h]
    · simp [h, h']
  unfold bengine
  rw [if_neg (by omega), if_neg (by omega)]
  apply C77_engine mk (Spec.pairs s) n nchan _ coeffs s.parts v0 v1 _ hl h0 h1
  rw [hparts, hp, hn, hc]
  by_cases h : s.kind = .complex ∨ s.shape.length = 4 <;> simp [h]

end

example : ∃ s : Signals, Spec.Whole s ∧ s.shape = [1, 1, 2, 2] ∧ Spec.pairs s = true :=
  ⟨⟨.int8, [1, 1, 2, 2], [1, 2, 3, 4]⟩, ⟨.inr ⟨rfl, rfl, rfl⟩, rfl⟩, rfl, rfl⟩

/-- Bytes in four dimensions that are no pairs are read beyond their end. -/
theorem C77_not_pairs :
    bengine Cx.mk 1 1 [1] ⟨.int8, [1, 1, 1, 1], [5]⟩ [1] [0] = .error .ub ∧
    bengine Cx.mk 1 1 [1] ⟨.int8, [1, 1, 2, 2], [5, 6, 7, 8]⟩ [1] [0] = .ok [(⟨5, 6⟩ : Cx), ⟨7, 8⟩, 0, 0] := by decide +kernel

/-- Other numbers in four dimensions are accepted, and the last dimension is forgotten. -/
theorem C77_not_dimensions :
    bengine Cx.mk 1 1 [1] ⟨.real, [1, 1, 2, 2], [5, 6, 7, 8]⟩ [1] [0] = .ok [⟨5, 0⟩, ⟨6, 0⟩, 0, 0] ∧
    bengine Cx.mk 2 1 [1, 1] ⟨.real, [2, 1, 1, 2], [5, 6, 7, 8]⟩ [0, 1] [0, 0] = .ok [⟨6, 0⟩, 0] := by decide +kernel

/-! ### pointing -/

section
variable {C : Type} [CommRing C] (mk : Rat → Rat → C) (hmk : Spec.Mean mk)

/-- The sum over the chosen antennas of one value. -/
theorem sum_chosen (v : List Nat) (z : C) (f : Nat → C) (hf : ∀ i, i < v.length → v.getD i 0 ≠ 0 → f i = z) :
    sumN v.length (fun i => if v.getD i 0 = 0 then 0 else f i) = (sumN (Spec.chosen v) fun _ => (1 : C)) * z := by
  have key : ∀ n, n ≤ v.length → sumN n (fun i => if v.getD i 0 = 0 then 0 else f i) =
      (sumN ((v.take n).countP (· ≠ 0)) fun _ => (1 : C)) * z := by
    intro n
    induction n with
    | zero => intro _; simp only [List.take_zero, List.countP_nil]; show (0 : C) = 0 * z; grind
    | succ n ih =>
      intro hn
      rw [List.take_add_one, List.countP_append, List.getElem?_eq_getElem (by omega)]
      show _ + (if v.getD n 0 = 0 then 0 else f n) = _
      rw [ih (by omega)]
      have hg : v.getD n 0 = v[n] := by simp [List.getD, show n < v.length by omega]
      by_cases h : v[n] = 0
      · rw [if_pos (by rw [hg, h])]
        simp [h]; grind
      · rw [if_neg (by rw [hg]; exact h), hf n (by omega) (by rw [hg]; exact h)]
        simp only [Option.toList_some, List.countP_cons, List.countP_nil, ne_eq, h, not_false_eq_true, decide_true, if_true, Nat.zero_add]
        show _ = (sumN _ _ + 1) * z
        grind
  have := key v.length (Nat.le_refl _)
  rw [List.take_length] at this
  exact this

include hmk in
/-- If all chosen antennas give the same, that is the beam. -/
theorem C77_agree (nchan : Nat) (coeffs : List C) (x : Nat → Nat → Nat → C) (v : List Nat) (c t : Nat) (z : C)
    (hv : Spec.chosen v ≠ 0) (h : ∀ i, i < v.length → v.getD i 0 ≠ 0 → coeffs.getD (i * nchan + c) 0 * x i c t = z) :
    Spec.beam mk v.length nchan coeffs x v c t = z := by
  unfold Spec.beam
  rw [if_neg hv, sum_chosen v z _ h]
  have := hmk (Spec.chosen v) (by omega)
  grind

end

theorem least_some {l : List Rat} (h : l ≠ []) : ∃ x, least l = some x := by
  cases l with
  | nil => exact absurd rfl h
  | cons a l => exact ⟨_, rfl⟩

theorem foldl_least (l : List Rat) (x : Rat) :
    let m := l.foldl (fun m y => if y < m then y else m) x
    (m = x ∨ m ∈ l) ∧ m ≤ x ∧ ∀ y ∈ l, m ≤ y := by
  induction l generalizing x with
  | nil => exact ⟨.inl rfl, Rat.le_refl, by simp⟩
  | cons a l ih =>
    simp only [List.foldl_cons]
    obtain ⟨h1, h2, h3⟩ := ih (if a < x then a else x)
    by_cases h : a < x
    · simp only [if_pos h] at h1 h2 h3 ⊢
      refine ⟨?_, by grind, ?_⟩
      · rcases h1 with h1 | h1
        · right; rw [h1]; simp
        · right; simp [h1]
      · intro y hy
        rcases List.mem_cons.mp hy with rfl | hy
        · exact h2
        · exact h3 y hy
    · simp only [if_neg h] at h1 h2 h3 ⊢
      refine ⟨?_, h2, ?_⟩
      · rcases h1 with h1 | h1
        · exact .inl h1
        · right; simp [h1]
      · intro y hy
        rcases List.mem_cons.mp hy with rfl | hy
        · grind
        · exact h3 y hy

/-- The delays are made relative to the smallest of all antennas and frequencies: none is negative, and one is zero. -/
theorem C77_least (l : List Rat) (x : Rat) (h : least l = some x) :
    (∃ y ∈ l, y - x = 0) ∧ ∀ y ∈ l, 0 ≤ y - x := by
  cases l with
  | nil => cases h
  | cons a l =>
    have h := Option.some.inj h
    obtain ⟨h1, h2, h3⟩ := foldl_least l a
    rw [h] at h1 h2 h3
    refine ⟨⟨x, ?_, by grind⟩, ?_⟩
    · rcases h1 with h1 | h1
      · simp [h1]
      · simp [h1]
    · intro y hy
      rcases List.mem_cons.mp hy with rfl | hy
      · grind
      · have := h3 y hy; grind

theorem chosen_valid (p : Nat) (as : List Ant) : Spec.chosen (valid p as) = 0 ↔ as.filter (fun a => a.pol = p ∧ a.status = 33) = [] := by
  unfold Spec.chosen valid
  rw [List.countP_eq_zero, List.filter_eq_nil_iff]
  constructor
  · intro h a ha hc
    have := h _ (List.mem_map.mpr ⟨a, ha, rfl⟩)
    simp at hc
    simp [hc] at this
  · intro h w hw
    obtain ⟨a, ha, rfl⟩ := List.mem_map.mp hw
    have := h a ha
    simp at this ⊢
    exact this

/-- The delay of an antenna is the arrival of the wave, up to a time common to all antennas and frequencies. -/
theorem C77_delay (src : Rat × Rat × Rat) (light : Rat) (mid : Rat × Rat × Rat) (a : Ant) (f : Nat) :
    delay src light mid a f = Spec.arrival src light a f + dot src mid / light := by
  unfold delay Spec.arrival dot
  simp only
  grind

/-- Delays are refused exactly for directions outside the ranges. -/
theorem C77_ranges (az alt : Rat) (src : Rat × Rat × Rat) (light : Rat) (n : Nat) (as : List Ant) :
    (∃ r, calcDelay az alt src light n as = .ok r) ↔ (0 ≤ alt ∧ alt ≤ 90) ∧ (0 ≤ az ∧ az ≤ 360) := by
  unfold calcDelay
  by_cases h1 : alt < 0 ∨ 90 < alt
  · rw [if_pos h1]; simp; intro h2 h3; grind
  · rw [if_neg h1]
    by_cases h2 : az < 0 ∨ 360 < az
    · rw [if_pos h2]; simp; intro _ _ h3; grind
    · rw [if_neg h2]; simp; grind

/-- With no antenna in the first 256 stands there is no centre, and no delay is a number. -/
theorem C77_not_outriggers (src : Rat × Rat × Rat) (light : Rat) (n : Nat) :
    calcDelay 0 90 src light n [⟨257, 0, 33, (1, 2, 3), fun _ => 0⟩] = .ok none := by
  unfold calcDelay
  rw [if_neg (by decide +kernel), if_neg (by decide +kernel)]
  rfl

theorem flatten_get {α : Type} (n : Nat) (ls : List (List α)) (h : ∀ l ∈ ls, l.length = n) (i c : Nat) (hc : c < n) :
    ls.flatten[i * n + c]? = ls[i]?.bind (·[c]?) := by
  induction ls generalizing i with
  | nil => simp
  | cons l ls ih =>
    have hl := h l (by simp)
    rw [List.flatten_cons]
    cases i with
    | zero => rw [List.getElem?_append_left (by omega)]; simp
    | succ i =>
      rw [List.getElem?_append_right (by rw [Nat.succ_mul]; omega)]
      rw [show (i + 1) * n + c - l.length = i * n + c from by rw [Nat.succ_mul]; omega]
      rw [ih (fun l hl => h l (by simp [hl]))]
      simp

section
variable {C : Type} [CommRing C] (mk : Rat → Rat → C) (hmk : Spec.Mean mk)

include hmk in
/-- Coherence.  If the signals are those of a plane wave from the direction of the beam, seen by every working antenna after its
arrival time, then the beam is that wave, at one common reference time: no antenna is off, and it does not matter how many
there are, where they are, what cables they have and what the others record. -/
theorem C77_coherent_partial (e : Rat → C) (he : Spec.Exp e) (freq : Nat → Rat) (az alt : Rat) (src : Rat × Rat × Rat)
    (light : Rat) (nchan : Nat) (as : List Ant) (ds : List (List Rat)) (hds : calcDelay az alt src light nchan as = .ok (some ds))
    (hn : 0 < nchan) (sig : Signals) (hs : Spec.Whole sig) (h0 : sig.shape.getD 0 0 = as.length) (h1 : sig.shape.getD 1 0 = nchan)
    (s : Nat → Nat → C)
    (hsig : ∀ (i : Nat) (a : Ant), as[i]? = some a → a.status = 33 → ∀ c t, c < nchan → t < sig.shape.getD 2 0 →
      Spec.sample mk (Spec.pairs sig) sig.parts nchan (sig.shape.getD 2 0) i c t = s c t * e (-(freq c * Spec.arrival src light a c)))
    (hgood : ∃ a ∈ as, a.status = 33 ∧ (a.pol = 0 ∨ a.pol = 1)) :
    ∃ rows κ, formBeam mk e freq nchan (sig.shape.getD 2 0) ds as sig = .ok rows ∧
      rows.length = (if Spec.chosen (valid 0 as) = 0 ∨ Spec.chosen (valid 1 as) = 0 then 1 else 2) ∧
      ∀ r ∈ rows, r.length = nchan * sig.shape.getD 2 0 ∧ ∀ c t, c < nchan → t < sig.shape.getD 2 0 →
        r[c * sig.shape.getD 2 0 + t]? = some (s c t * e (freq c * κ)) := by
  unfold calcDelay at hds
  split at hds
  · cases hds
  · split at hds
    · cases hds
    · rename_i hA hB
      have hds := Except.ok.inj hds
      obtain ⟨mid, hmid, rfl⟩ := Option.map_eq_some_iff.mp hds
      obtain ⟨g, hg, hg33, hgp⟩ := hgood
      have hne : (as.map fun a => (List.range nchan).map fun f => delay src light mid a f).flatten ≠ [] := by
        intro h
        rw [List.flatten_eq_nil_iff] at h
        have := h _ (List.mem_map.mpr ⟨g, hg, rfl⟩)
        simp at this
        omega
      obtain ⟨low, hlow⟩ := least_some hne
      unfold formBeam
      rw [hlow]
      simp only
      let bln := ((as.map fun a => (List.range nchan).map fun f => delay src light mid a f).map fun r =>
        r.mapIdx fun f d => coeff e freq low d f).flatten
      show ∃ rows κ, (bengine mk as.length nchan bln sig (valid 0 as) (valid 1 as)).map _ = _ ∧ _
      have hrow : ∀ l ∈ ((as.map fun a => (List.range nchan).map fun f => delay src light mid a f).map fun r =>
        r.mapIdx fun f d => coeff e freq low d f), l.length = nchan := by
        intro l hl
        obtain ⟨r, hr, rfl⟩ := List.mem_map.mp hl
        obtain ⟨a, ha, rfl⟩ := List.mem_map.mp hr
        simp
      have hbl : bln.length = as.length * nchan := by
        show (List.flatten _).length = _
        rw [List.length_flatten, List.map_congr_left (g := fun _ => nchan) hrow, List.map_const', List.sum_replicate_nat]
        simp
      have hbg : ∀ (i : Nat) (a : Ant) (c : Nat), as[i]? = some a → c < nchan →
          bln.getD (i * nchan + c) 0 = coeff e freq low (delay src light mid a c) c := by
        intro i a c ha hc
        show (List.flatten _).getD _ _ = _
        rw [List.getD, flatten_get nchan _ hrow i c hc]
        simp only [List.getElem?_map, ha, Option.map_some, Option.bind_some, List.getElem?_mapIdx, List.getElem?_range hc, Option.getD_some]
      obtain ⟨out, ho, hol, hoc⟩ := C77_bengine_partial mk as.length nchan bln sig (valid 0 as) (valid 1 as) hs hbl h0 h1
        (by simp [valid]) (by simp [valid])
      let κ := dot src mid / light - low
      have hmean : ∀ p c t, c < nchan → t < sig.shape.getD 2 0 → Spec.chosen (valid p as) ≠ 0 →
          Spec.beam mk as.length nchan bln (Spec.sample mk (Spec.pairs sig) sig.parts nchan (sig.shape.getD 2 0)) (valid p as) c t =
            s c t * e (freq c * κ) := by
        intro p c t hc ht hp
        have hlen : (valid p as).length = as.length := by simp [valid]
        rw [← hlen]
        apply C77_agree mk hmk nchan bln _ (valid p as) c t _ hp
        intro i hi hv
        rw [hlen] at hi
        have ha : as[i]? = some as[i] := List.getElem?_eq_getElem hi
        have h33 : as[i].status = 33 := by
          apply Classical.byContradiction
          intro hno
          apply hv
          simp [valid, List.getD, hi, hno]
        rw [hbg i as[i] c ha hc, hsig i as[i] ha h33 c t hc ht, C77_delay]
        unfold coeff
        have : e (freq c * (Spec.arrival src light as[i] c + dot src mid / light - low)) =
            e (freq c * Spec.arrival src light as[i] c) * e (freq c * κ) := by
          rw [← he.add]; congr 1; show _ = _ + freq c * (dot src mid / light - low); grind
        rw [this]
        have h2 : e (freq c * Spec.arrival src light as[i] c) * e (-(freq c * Spec.arrival src light as[i] c)) = 1 := by
          rw [← he.add, ← he.zero]; congr 1; grind
        grind
      have hr0 : Spec.chosen (valid 0 as) ≠ 0 → (out.take (nchan * sig.shape.getD 2 0)).length = nchan * sig.shape.getD 2 0 ∧
          ∀ c t, c < nchan → t < sig.shape.getD 2 0 →
          (out.take (nchan * sig.shape.getD 2 0))[c * sig.shape.getD 2 0 + t]? = some (s c t * e (freq c * κ)) := by
        intro hp
        refine ⟨by rw [List.length_take]; omega, ?_⟩
        intro c t hc ht
        have hq : c * sig.shape.getD 2 0 + t < nchan * sig.shape.getD 2 0 := by
          have : (c + 1) * sig.shape.getD 2 0 ≤ nchan * sig.shape.getD 2 0 := Nat.mul_le_mul_right _ hc
          rw [Nat.succ_mul] at this; omega
        rw [List.getElem?_take_of_lt hq, (hoc c t hc ht).1, hmean 0 c t hc ht hp]
      have hr1 : Spec.chosen (valid 1 as) ≠ 0 →
          ((out.drop (nchan * sig.shape.getD 2 0)).take (nchan * sig.shape.getD 2 0)).length = nchan * sig.shape.getD 2 0 ∧
          ∀ c t, c < nchan → t < sig.shape.getD 2 0 →
          ((out.drop (nchan * sig.shape.getD 2 0)).take (nchan * sig.shape.getD 2 0))[c * sig.shape.getD 2 0 + t]? =
            some (s c t * e (freq c * κ)) := by
        intro hp
        refine ⟨by rw [List.length_take, List.length_drop]; omega, ?_⟩
        intro c t hc ht
        have hq : c * sig.shape.getD 2 0 + t < nchan * sig.shape.getD 2 0 := by
          have : (c + 1) * sig.shape.getD 2 0 ≤ nchan * sig.shape.getD 2 0 := Nat.mul_le_mul_right _ hc
          rw [Nat.succ_mul] at this; omega
        rw [List.getElem?_take_of_lt hq, List.getElem?_drop, (hoc c t hc ht).2, hmean 1 c t hc ht hp]
      have hsome : Spec.chosen (valid 0 as) ≠ 0 ∨ Spec.chosen (valid 1 as) ≠ 0 := by
        rcases hgp with h | h
        · left
          intro h0
          have := (chosen_valid 0 as).mp h0
          rw [List.filter_eq_nil_iff] at this
          exact this g hg (by simp [h, hg33])
        · right
          intro h0
          have := (chosen_valid 1 as).mp h0
          rw [List.filter_eq_nil_iff] at this
          exact this g hg (by simp [h, hg33])
      refine ⟨_, κ, by rw [ho]; rfl, ?_⟩
      unfold rowsOf
      simp only [← chosen_valid]
      by_cases c0 : Spec.chosen (valid 0 as) = 0
      · have c1 : Spec.chosen (valid 1 as) ≠ 0 := by omega
        rw [if_pos c0, if_pos (.inl c0)]
        refine ⟨rfl, ?_⟩
        intro r hr
        rw [List.mem_singleton] at hr
        subst hr
        exact hr1 c1
      · rw [if_neg c0]
        by_cases c1 : Spec.chosen (valid 1 as) = 0
        · rw [if_pos c1, if_pos (.inr c1)]
          refine ⟨rfl, ?_⟩
          intro r hr
          rw [List.mem_singleton] at hr
          subst hr
          exact hr0 c0
        · rw [if_neg c1, if_neg (by omega)]
          refine ⟨rfl, ?_⟩
          intro r hr
          rcases List.mem_cons.mp hr with rfl | hr
          · exact hr0 c0
          · rw [List.mem_singleton] at hr
            subst hr
            exact hr1 c1

end

/-- The hypotheses of the theorem can be met, with two antennas at different places. -/
example : ∃ (e : Rat → Cx) (as : List Ant) (ds : List (List Rat)) (sig : Signals), Spec.Exp e ∧ as.length = 2 ∧
    calcDelay 0 90 (0, 0, 1) 1 1 as = .ok (some ds) ∧ ds = [[3], [1]] ∧ Spec.Whole sig :=
  ⟨fun _ => 1, [⟨1, 0, 33, (0, 0, 1), fun _ => 2⟩, ⟨2, 1, 33, (0, 0, 3), fun _ => 2⟩], [[3], [1]],
    ⟨.complex, [2, 1, 1], [1, 0, 1, 0]⟩, ⟨rfl, fun _ _ => by decide +kernel⟩, rfl, by
      unfold calcDelay
      rw [if_neg (by decide +kernel), if_neg (by decide +kernel)]
      congr 1
      decide +kernel, by decide +kernel, .inl rfl, rfl⟩

/-- Which polarization a single row is of cannot be told from the shape; with no working antenna it is a row of zeros. -/
theorem C77_not_which (b0 b1 : List Cx) :
    rowsOf [⟨1, 0, 33, (0, 0, 0), fun _ => 0⟩] b0 b1 = [b0] ∧ rowsOf [⟨1, 1, 33, (0, 0, 0), fun _ => 0⟩] b0 b1 = [b1] ∧
    rowsOf [⟨1, 1, 32, (0, 0, 0), fun _ => 0⟩] b0 b1 = [b1] ∧
    (formBeam Cx.mk (fun _ => 1) (fun _ => 1) 1 1 [[0]] [⟨1, 0, 32, (0, 0, 0), fun _ => 0⟩] ⟨.real, [1, 1, 1], [7]⟩) = .ok [[0]] :=
  ⟨rfl, rfl, rfl, by decide +kernel⟩

/-- Circular polarizations keep the power, and their difference is the circular part `V` of the linear ones; the other convention swaps
the two. -/
theorem C77_circularize (x y : Cx) (iau : Bool) :
    (circularize x y iau).1.norm + (circularize x y iau).2.norm = 2 * (x.norm + y.norm) ∧
    (circularize x y true).2.norm - (circularize x y true).1.norm = 4 * (x.re * y.im - x.im * y.re) ∧
    circularize x y (!iau) = ((circularize x y iau).2, (circularize x y iau).1) ∧
    (circularize x y iau).1 + (circularize x y iau).2 = 2 * x := by
  have hI : Cx.I = ⟨0, 1⟩ := rfl
  have h2 : (2 : Cx) = ⟨2, 0⟩ := by decide +kernel
  refine ⟨?_, ?_, ?_, ?_⟩
  · cases iau <;> simp [circularize, Cx.norm, hI] <;> grind
  · simp [circularize, Cx.norm, hI]; grind
  · cases iau <;> (apply Prod.ext <;> apply Cx.ext' <;> simp [circularize, hI] <;> grind)
  · cases iau <;> (rw [h2]; apply Cx.ext' <;> simp [circularize, hI] <;> grind)

end Verif.Beam
