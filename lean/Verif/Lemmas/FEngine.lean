import Verif.Lemmas.CMem
import Verif.Spec.FEngine
/-!
# Lemmas about the F engine
-/
namespace Verif.FEngine
open Verif.CMem
open Lean.Grind (CommRing)

/-- `n*q + j` determines `q` and `j`. -/
theorem pair_inj {n q j q' j' : Nat} (hj : j < n) (hj' : j' < n) (h : n * q + j = n * q' + j') : q = q' ∧ j = j' := by
  have a : (n * q + j) / n = q := by rw [Nat.mul_add_div (by omega), Nat.div_eq_of_lt hj]; omega
  have b : (n * q' + j') / n = q' := by rw [Nat.mul_add_div (by omega), Nat.div_eq_of_lt hj']; omega
  have : q = q' := by rw [← a, ← b, h]
  subst this
  exact ⟨rfl, by omega⟩

theorem pair_lt {n q j m : Nat} (hj : j < n) (hq : q < m) : n * q + j < n * m := by
  have : n * (q + 1) ≤ n * m := Nat.mul_le_mul (Nat.le_refl n) hq
  rw [Nat.mul_add] at this; omega

theorem flat_length {α : Type} (n s : Nat) (f : Nat → Nat → α) :
    ((List.range n).flatMap fun l => (List.range s).map (f l)).length = s * n := by
  induction n with
  | zero => simp
  | succ n ih => rw [List.range_succ, List.flatMap_append, List.length_append, ih]; simp [Nat.mul_add]

theorem flat_get {α : Type} (n s : Nat) (f : Nat → Nat → α) (l k : Nat) (hl : l < n) (hk : k < s) :
    ((List.range n).flatMap fun l => (List.range s).map (f l))[s * l + k]? = some (f l k) := by
  induction n with
  | zero => omega
  | succ n ih =>
    rw [List.range_succ, List.flatMap_append]
    by_cases h : l < n
    · rw [List.getElem?_append_left (by rw [flat_length]; exact pair_lt hk h)]
      exact ih h
    · have : l = n := by omega
      subst this
      rw [List.getElem?_append_right (by rw [flat_length]; omega), flat_length]
      simp [hk, List.getElem?_range]

variable {C : Type}

/-! ## Delays -/

theorem foldl_max (f : Nat → Int) (l : List Nat) (m : Int) :
    m ≤ l.foldl (fun m i => if f i > m then f i else m) m ∧
      ∀ i ∈ l, f i ≤ l.foldl (fun m i => if f i > m then f i else m) m := by
  induction l generalizing m with
  | nil => simp
  | cons i l ih =>
    simp only [List.foldl_cons]
    by_cases h : f i > m
    · simp only [if_pos h]
      have := ih (f i)
      refine ⟨by omega, ?_⟩
      intro x hx
      rcases List.mem_cons.1 hx with e | e
      · subst e; exact this.1
      · exact this.2 x e
    · simp only [if_neg h]
      have := ih m
      refine ⟨this.1, ?_⟩
      intro x hx
      rcases List.mem_cons.1 hx with e | e
      · subst e; omega
      · exact this.2 x e

theorem fifo_le (a : Args C) (i : Nat) (hi : i < a.nStand) : a.fifo i ≤ a.fifoMax :=
  (foldl_max a.fifo _ 0).2 i (List.mem_range.2 hi)

theorem fifoMax_nonneg (a : Args C) : 0 ≤ a.fifoMax := (foldl_max a.fifo _ 0).1

/-! ## Number of windows -/

theorem nFFT_eq (N f : Int) (step o : Nat) (hs : 0 < step) (ho : 0 < o) :
    nFFT N f ((o * step : Nat) : Int) (o : Int) = .ok ((N - f).tdiv step - o + 1) := by
  have h1 : ((o * step : Nat) : Int).tdiv (o : Int) = step := by
    rw [Int.natCast_mul]; exact Int.mul_tdiv_cancel_left _ (by omega)
  have h2 : ((o * step : Nat) : Int).tdiv (step : Int) = o := by
    rw [Int.natCast_mul]; exact Int.mul_tdiv_cancel _ (by omega)
  unfold nFFT cdiv
  rw [if_neg (by omega), h1]
  show ((if (step : Int) = 0 then (.error Fault.ub : Run Int) else _).bind _) = _
  rw [if_neg (by omega)]
  show ((if (step : Int) = 0 then (.error Fault.ub : Run Int) else _).bind _) = _
  rw [if_neg (by omega), h2]
  rfl

/-- What is asked of the arguments for the F engine to work. -/
structure Ok (a : Args C) (step o : Nat) : Prop where
  size : a.data.length = a.nStand * a.nSamps
  steps : 0 < step
  pos : 0 < o
  overlap : a.overlap = (o : Int)
  divides : a.len = o * step
  taps : 0 < a.nTap
  window : ∀ w, a.window = some w → a.len * a.nTap ≤ w.length

theorem windows_eq {a : Args C} {step o : Nat} (h : Ok a step o) [CommRing C] (hn : (a.len : Int) ≤ (a.nSamps : Int) - a.fifoMax) :
    nFFT a.nSamps a.fifoMax a.len a.overlap = .ok (Spec.windows a step : Nat) := by
  rw [h.divides, h.overlap, nFFT_eq _ _ step o h.steps h.pos]
  unfold Spec.windows
  rw [if_neg (by omega)]
  congr 1
  have hl := h.divides
  rw [Int.tdiv_eq_ediv_of_nonneg (by omega)]
  have e : (a.nSamps : Int) - a.fifoMax - a.len = (a.nSamps : Int) - a.fifoMax + (-(o : Int)) * step := by
    rw [hl, Int.natCast_mul, Int.neg_mul]; omega
  have : ((a.nSamps : Int) - a.fifoMax - a.len) / step = ((a.nSamps : Int) - a.fifoMax) / step - o := by
    rw [e, Int.add_mul_ediv_right _ _ (by have := h.steps; omega)]; omega
  have p : 0 ≤ ((a.nSamps : Int) - a.fifoMax - a.len) / step := Int.ediv_nonneg (by omega) (by omega)
  omega

theorem windows_last {a : Args C} {step o : Nat} (h : Ok a step o) [CommRing C] (j : Nat) (hj : j < Spec.windows a step) :
    a.fifoMax + ((step * j : Nat) : Int) + a.len ≤ a.nSamps := by
  unfold Spec.windows at hj
  by_cases hn : (a.nSamps : Int) - a.fifoMax < a.len
  · rw [if_pos hn] at hj; omega
  · rw [if_neg hn] at hj
    have p : 0 ≤ ((a.nSamps : Int) - a.fifoMax - a.len) / step := Int.ediv_nonneg (by omega) (by omega)
    have hj' : (j : Int) ≤ ((a.nSamps : Int) - a.fifoMax - a.len) / step := by omega
    have := Int.mul_le_mul_of_nonneg_left hj' (show (0 : Int) ≤ step by omega)
    have q := Int.mul_ediv_self_le (x := (a.nSamps : Int) - a.fifoMax - a.len) (k := step) (by have := h.steps; omega)
    rw [Int.natCast_mul]
    omega

/-! ## One window -/

variable [CommRing C]

theorem secStart_ok {a : Args C} {step o : Nat} (h : Ok a step o) (i j : Nat) :
    a.secStart i j = .ok (a.fifo i + (a.nSamps * i : Nat) + (step * j : Nat)) := by
  unfold Args.secStart cdiv
  have := h.pos
  rw [if_neg (by rw [h.overlap]; omega), h.divides, h.overlap]
  have : ((o * step * j : Nat) : Int).tdiv (o : Int) = (step * j : Nat) := by
    rw [Nat.mul_assoc, Int.natCast_mul]; exact Int.mul_tdiv_cancel_left _ (by omega)
  rw [this]; rfl

theorem taps_cast {a : Args C} {step o : Nat} (h : Ok a step o) :
    (a.len : Int) * ((a.nTap : Int) - 1) = ((a.len * (a.nTap - 1) : Nat) : Int) := by
  have := h.taps
  rw [Int.natCast_mul, Int.natCast_sub (by omega)]; rfl

theorem sample_ok {a : Args C} {step o : Nat} (h : Ok a step o) (i j k : Nat) (hi : i < a.nStand)
    (hj : j < Spec.windows a step) (hk : k < a.len * a.nTap) :
    a.sample i (a.fifo i + (a.nSamps * i : Nat) + (step * j : Nat)) k = .ok (Spec.row a i (Spec.start a step i j + k)) := by
  unfold Args.sample Spec.row Spec.start
  simp only
  rw [taps_cast h]
  have ht : a.len * a.nTap = a.len * (a.nTap - 1) + a.len := by
    rw [← Nat.mul_succ]; congr 1; have := h.taps; omega
  have hl := windows_last h j hj
  have hf := fifo_le a i hi
  generalize a.len * (a.nTap - 1) = q at *
  by_cases hz : a.fifo i + (step * j : Nat) - (q : Nat) + k < 0
  · rw [if_pos (by omega), if_pos (by omega)]
  · rw [if_neg (by omega), if_neg (by omega)]
    have hb : a.nSamps * (i + 1) ≤ a.nStand * a.nSamps := by
      rw [Nat.mul_comm a.nStand]; exact Nat.mul_le_mul (Nat.le_refl _) hi
    rw [Nat.mul_add, ← h.size] at hb
    rw [rd_ok _ _ 0 (by omega) (by omega)]
    congr 2
    omega

/-- The samples of a window. -/
def raw (a : Args C) (step i j : Nat) : List C :=
  (List.range (a.len * a.nTap)).map (fun u => Spec.row a i (Spec.start a step i j + (u : Nat)))

/-- The weighted samples of a window. -/
def weighed (a : Args C) (step i j : Nat) : List C :=
  (List.range (a.len * a.nTap)).map (fun u => Spec.row a i (Spec.start a step i j + (u : Nat)) * Spec.weight a u)

theorem raw_getD (a : Args C) (step i j u : Nat) (hu : u < a.len * a.nTap) :
    (raw a step i j).getD u 0 = Spec.row a i (Spec.start a step i j + (u : Nat)) := by
  unfold raw
  simp [List.getD, List.getElem?_map, List.getElem?_range hu]

theorem weighed_getD (a : Args C) (step i j u : Nat) (hu : u < a.len * a.nTap) :
    (weighed a step i j).getD u 0 = Spec.row a i (Spec.start a step i j + (u : Nat)) * Spec.weight a u := by
  unfold weighed
  simp [List.getD, List.getElem?_map, List.getElem?_range hu]

theorem weigh_ok {a : Args C} {step o : Nat} (h : Ok a step o) (i j : Nat) :
    a.weigh (raw a step i j) = .ok (weighed a step i j) := by
  unfold Args.weigh
  cases hw : a.window with
  | none =>
    simp only
    congr 1
    unfold raw weighed
    apply List.map_congr_left
    intro u _
    unfold Spec.weight
    rw [hw]
    simp only
    grind
  | some w =>
    have hl := h.window w hw
    simp only
    rw [all_ok _ (fun k => (raw a step i j).getD k 0 * Spec.weight a k)]
    · congr 1
      have : (raw a step i j).length = a.len * a.nTap := by unfold raw; simp
      rw [this]
      unfold weighed
      apply List.map_congr_left
      intro u hu
      rw [raw_getD _ _ _ _ _ (List.mem_range.1 hu)]
    · intro u hu
      have : (raw a step i j).length = a.len * a.nTap := by unfold raw; simp
      rw [this, List.mem_range] at hu
      rw [rd_ok w (u : Int) 0 (by omega) (by simp; omega)]
      unfold Spec.weight
      rw [hw]
      simp [Except.map]

theorem outBuf_get (a : Args C) (ins : List C) (l k : Nat) (hl : l < a.nTap) (hk : k < a.stride) :
    rd (a.outBuf ins) ((k + l * a.stride : Nat) : Int) = .ok (dft a.e a.len (fun t => ins.getD (l * a.len + t) 0) k) := by
  have := flat_get a.nTap a.stride (fun l k => dft a.e a.len (fun t => ins.getD (l * a.len + t) 0) k) l k hl hk
  unfold rd
  rw [if_neg (by omega)]
  rw [show ((k + l * a.stride : Nat) : Int).toNat = a.stride * l + k by rw [Int.toNat_natCast, Nat.mul_comm, Nat.add_comm]]
  unfold Args.outBuf
  rw [this]

theorem tapSum_ok {a : Args C} {step o : Nat} (h : Ok a step o) (ins : List C) (k : Nat) (hk : k < a.stride) :
    a.tapSum (a.outBuf ins) k = .ok (sumN a.nTap fun l => dft a.e a.len (fun t => ins.getD (l * a.len + t) 0) k) := by
  have key : ∀ n, n < a.nTap →
      (List.range n).foldl (fun (acc : Run C) l => acc.bind fun s =>
        (rd (a.outBuf ins) ((k + (l + 1) * a.stride : Nat) : Int)).map (fun v => s + v)) (rd (a.outBuf ins) (k : Int)) =
      .ok (sumN (n + 1) fun l => dft a.e a.len (fun t => ins.getD (l * a.len + t) 0) k) := by
    intro n hn
    induction n with
    | zero =>
      have := outBuf_get a ins 0 k hn hk
      simp only [List.range_zero, List.foldl_nil, sumN]
      rw [Nat.zero_mul, Nat.add_zero] at this
      rw [this]
      congr 1
      grind
    | succ n ih =>
      rw [List.range_succ, List.foldl_append, ih (by omega)]
      simp only [List.foldl_cons, List.foldl_nil]
      rw [outBuf_get a ins (n + 1) k hn hk]
      rfl
  unfold Args.tapSum
  have := key (a.nTap - 1) (by have := h.taps; omega)
  rw [this, show a.nTap - 1 + 1 = a.nTap by have := h.taps; omega]

theorem bin_eq (a : Args C) (k : Nat) (hk : k < a.nChan) : a.bin k = Spec.bin a k := by
  unfold Args.bin Spec.bin
  cases a.real with
  | true => rfl
  | false =>
    simp only [Bool.false_eq_true, if_false]
    by_cases h : k < a.nChan / 2
    · rw [if_pos h, Nat.mod_eq_of_lt (a := k + (a.nChan - a.nChan / 2)) (by omega)]; omega
    · rw [if_neg h, Nat.mod_eq_sub_mod (by omega), Nat.mod_eq_of_lt (by omega)]; omega

theorem bin_lt (a : Args C) (k : Nat) (hk : k < a.nChan) : Spec.bin a k < a.stride := by
  unfold Spec.bin Args.stride
  cases a.real with
  | true => simp; omega
  | false => simp; exact Nat.mod_lt _ (by omega)

theorem any_raw (a : Args C) (step i j : Nat) : (raw a step i j).any a.over = true ↔ Spec.clipped a step i j := by
  unfold raw Spec.clipped
  rw [List.any_eq_true]
  constructor
  · rintro ⟨x, hx, hx'⟩
    rw [List.mem_map] at hx
    obtain ⟨u, hu, rfl⟩ := hx
    exact ⟨u, List.mem_range.1 hu, hx'⟩
  · rintro ⟨u, hu, hx⟩
    exact ⟨_, List.mem_map.2 ⟨u, List.mem_range.2 hu, rfl⟩, hx⟩

theorem spectrum_eq (a : Args C) (step i j b : Nat) :
    (sumN a.nTap fun l => dft a.e a.len (fun t => (weighed a step i j).getD (l * a.len + t) 0) b) = Spec.spectrum a step i j b := by
  unfold Spec.spectrum dft
  apply sumN_congr
  intro l hl
  apply sumN_congr
  intro t ht
  simp only
  rw [weighed_getD]
  have := pair_lt ht hl
  rw [Nat.mul_comm l]; omega

/-- What a window writes. -/
def cell (a : Args C) (step i j k : Nat) : C :=
  (if (raw a step i j).any a.over then 0 else 1) * Spec.spectrum a step i j (Spec.bin a k) * a.rot i k

theorem block_ok {a : Args C} {step o : Nat} (h : Ok a step o) (n i j : Nat) (hi : i < a.nStand) (hj : j < Spec.windows a step) :
    a.block n i j = .ok ((List.range a.nChan).map (fun k => (((a.nChan * n * i + n * k + j : Nat) : Int), cell a step i j k)),
      (((n * i + j : Nat) : Int), if (raw a step i j).any a.over then 0 else 1)) := by
  unfold Args.block
  rw [secStart_ok h]
  show ((all _ _).bind _ : Run _) = _
  rw [all_ok _ (fun u => Spec.row a i (Spec.start a step i j + (u : Nat)))
    _ (fun k hk => sample_ok h i j k hi hj (List.mem_range.1 hk))]
  show ((a.weigh (raw a step i j)).bind _ : Run _) = _
  rw [weigh_ok h]
  show ((all _ _).bind _ : Run _) = _
  rw [all_ok _ (fun k => (((a.nChan * n * i + n * k + j : Nat) : Int), cell a step i j k))]
  · show Except.ok _ = _
    congr 2
    change (_, _) = _
    cases hb : (raw a step i j).any a.over with
    | true => unfold raw at hb; simp [hb]
    | false => unfold raw at hb; simp [hb]
  · intro k hk
    have hk := List.mem_range.1 hk
    rw [bin_eq a k hk, tapSum_ok h _ _ (bin_lt a k hk), spectrum_eq]
    unfold cell
    cases hb : (raw a step i j).any a.over with
    | true => unfold raw at hb; simp [hb, Except.map]
    | false => unfold raw at hb; simp [hb, Except.map]

end Verif.FEngine
