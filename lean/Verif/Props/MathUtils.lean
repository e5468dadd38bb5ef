import Verif.Model.MathUtils
/-!
# C43 downsampling, C44 and C62 spherical harmonics, C63 smoothing
-/
namespace Verif.MathUtils

theorem total_append (a b : List Rat) : total (a ++ b) = total a + total b := by
  induction a with
  | nil => simp [total]; grind
  | cons x a ih => simp only [total, List.cons_append, List.foldr_cons] at *; grind

theorem total_cons (x : Rat) (b : List Rat) : total (x :: b) = x + total b := rfl

theorem total_div (l : List Rat) (c : Rat) : total (l.map (· / c)) = total l / c := by
  induction l with
  | nil => simp [total]; grind
  | cons x a ih => simp only [List.map_cons, total_cons, ih]; grind

theorem total_mul (l : List Rat) (c : Rat) : total (l.map (· * c)) = total l * c := by
  induction l with
  | nil => simp [total]
  | cons x a ih => simp only [List.map_cons, total_cons, ih]; grind

theorem take_block (v : List Rat) (n r : Nat) (h : r < v.length / n) :
    ((v.take (v.length / n * n)).drop (r * n)).take n = (v.drop (r * n)).take n := by
  rw [List.drop_take, List.take_take]
  congr 1
  have : (r + 1) * n ≤ v.length / n * n := Nat.mul_le_mul_right _ h
  have e : (r + 1) * n = r * n + n := by rw [Nat.succ_mul]
  omega

/-- C43: `floor(N/n)` values, value `r` is the sum of the samples `r*n .. r*n+n-1` (with `rescale` its mean). -/
theorem C43_values (v : List Rat) (n : Nat) (hn : 1 ≤ n) (rescale : Bool) :
    ∃ out, downsample v n rescale = some out ∧ out.length = v.length / n ∧
      ∀ r, r < v.length / n → out.getD r 0 =
        total ((v.drop (r * n)).take n) / (if rescale then (n : Rat) else 1) := by
  have hn0 : n ≠ 0 := by omega
  have hlen : v.length / n * n ≤ v.length := Nat.div_mul_le_self _ _
  have hv : (if v.length % n ≠ 0 then v.take (v.length / n * n) else v) = v.take (v.length / n * n) := by
    split
    · rfl
    · next h =>
      have := Nat.div_add_mod v.length n
      rw [List.take_of_length_le]; rw [Nat.mul_comm]; omega
  have hl : (v.take (v.length / n * n)).length / n = v.length / n := by
    rw [List.length_take, Nat.min_eq_left hlen, Nat.mul_div_cancel _ (by omega)]
  refine ⟨_, by simp only [downsample, hn0, if_false, hv, hl]; rfl, ?_, ?_⟩
  · cases rescale <;> simp [reshape]
  · intro r hr
    cases rescale
    · simp [reshape, List.getD_eq_getElem?_getD, hr, take_block v n r hr]; grind
    · simp [reshape, List.getD_eq_getElem?_getD, hr, take_block v n r hr, -List.map_take, -List.map_drop, total_div]

theorem total_blocks (v : List Rat) (n k : Nat) (h : k * n ≤ v.length) :
    total ((List.range k).map (fun r => total ((v.drop (r * n)).take n))) = total (v.take (k * n)) := by
  induction k with
  | zero => simp
  | succ k ih =>
    have e : (k + 1) * n = k * n + n := Nat.succ_mul _ _
    rw [List.range_succ, List.map_append, total_append, ih (by omega), e, List.take_add, total_append]
    simp [total]; grind

/-- C43: the total of the downsampled vector is the total of the samples used. -/
theorem C43_total (v : List Rat) (n : Nat) (hn : 1 ≤ n) :
    (downsample v n false).map total = some (total (v.take (v.length / n * n))) := by
  obtain ⟨out, h, hlen, hval⟩ := C43_values v n hn false
  have : out = (List.range (v.length / n)).map (fun r => total ((v.drop (r * n)).take n)) := by
    apply List.ext_getElem (by simp [hlen])
    intro i h1 h2
    have := hval i (by omega)
    rw [List.getD_eq_getElem?_getD, List.getElem?_eq_getElem h1] at this
    simp at this ⊢; rw [this]; grind
  rw [h, Option.map_some, this, total_blocks v n _ (Nat.div_mul_le_self _ _)]

/-- C43: a factor of zero is an error. -/
theorem C43_zero (v : List Rat) (r : Bool) : downsample v 0 r = none := rfl

example : downsample [1, 2, 3, 4, 5] 2 false = some [3, 7] := by decide +kernel
example : downsample [1, 2, 3, 4, 5] 2 true = some [3/2, 7/2] := by decide +kernel

/-! ## C44 -/

theorem isqrt_spec (n : Nat) : isqrt n * isqrt n ≤ n ∧ n < (isqrt n + 1) * (isqrt n + 1) := by
  induction n with
  | zero => decide
  | succ n ih =>
    simp only [isqrt]
    split
    · next h =>
      refine ⟨h, ?_⟩
      have e : (isqrt n + 1 + 1) * (isqrt n + 1 + 1) = (isqrt n + 1) * (isqrt n + 1) + 2 * isqrt n + 3 := by grind
      omega
    · next h => exact ⟨by omega, by omega⟩

theorem isqrt_sq (k : Nat) : isqrt (k * k) = k := by
  obtain ⟨h1, h2⟩ := isqrt_spec (k * k)
  have a : isqrt (k * k) ≤ k := by
    refine Nat.le_of_not_lt fun h => ?_
    have := Nat.mul_le_mul (Nat.succ_le_of_lt h) (Nat.succ_le_of_lt h)
    have e : (k + 1) * (k + 1) = k * k + 2 * k + 1 := by grind
    simp only [Nat.succ_eq_add_one] at this; omega
  have b : k < isqrt (k * k) + 1 := by
    refine Nat.lt_of_not_le fun h => ?_
    have := Nat.mul_le_mul h h
    omega
  omega

theorem tri_even (l : Nat) : l * (l + 1) % 2 = 0 := by
  have : l % 2 = 0 ∨ l % 2 = 1 := by omega
  rcases this with h | h <;> simp [Nat.mul_mod, Nat.add_mod, h]

theorem nTerms_real (l : Nat) : 2 * nTerms true l = (l + 1) * (l + 2) := by
  have h := tri_even (l + 1)
  have e : l * (l + 3) + 2 = (l + 1) * (l + 1 + 1) := by grind
  simp only [nTerms, if_true, e]; rw [show l + 2 = l + 1 + 1 from rfl]; omega

/-- C44: evaluating a fit uses the degree of the fit. -/
theorem C44_degree (realOnly : Bool) (l : Nat) : degreesOf realOnly (nTerms realOnly l) = l + 1 := by
  cases realOnly
  · simp only [degreesOf, nTerms, Bool.false_eq_true, if_false, Nat.pow_two, isqrt_sq]
  · have h := nTerms_real l
    have : 1 + 8 * nTerms true l = (2 * l + 3) * (2 * l + 3) := by grind
    simp only [degreesOf, if_true, this, isqrt_sq]; omega

theorem irange_cons (lo : Int) (n : Nat) : irange lo (n + 1) = lo :: irange (lo + 1) n := by
  simp only [irange, List.range_succ_eq_map, List.map_cons, List.map_map]
  congr 1
  · simp
  · apply List.map_congr_left; intro a _; simp; omega

theorem mem_irange (lo m : Int) (n : Nat) : m ∈ irange lo n ↔ lo ≤ m ∧ m < lo + n := by
  simp only [irange, List.mem_map, List.mem_range]
  constructor
  · rintro ⟨a, h, rfl⟩; omega
  · rintro ⟨h1, h2⟩; exact ⟨(m - lo).toNat, by omega, by omega⟩

/-- C44: the terms are used in the order in which they were stored. -/
theorem C44_order (realOnly : Bool) (l : Nat) : valOrder realOnly (nTerms realOnly l) = fitOrder realOnly l := by
  simp only [valOrder, fitOrder, C44_degree]
  cases realOnly <;> simp [irange_cons]

/-- C44: every slot of the array is filled, none is missing. -/
theorem C44_count (realOnly : Bool) (l : Nat) : (fitOrder realOnly l).length = nTerms realOnly l := by
  induction l with
  | zero => cases realOnly <;> decide
  | succ l ih =>
    rw [fitOrder, List.range_succ, List.flatMap_append, List.length_append]
    rw [fitOrder] at ih
    rw [ih]
    cases realOnly
    · simp [irange, nTerms]; grind
    · have h1 := nTerms_real l
      have h2 := nTerms_real (l + 1)
      simp [irange]; grind

/-- C44: the terms are those of the modes `-l..l` (`0..l` for real-only) of the degrees `0..lmax`. -/
theorem C44_terms (realOnly : Bool) (lmax l : Nat) (m : Int) :
    (l, m) ∈ fitOrder realOnly lmax ↔ l ≤ lmax ∧ (if realOnly then (0 : Int) else -l) ≤ m ∧ m ≤ l := by
  cases realOnly
  · simp [fitOrder, mem_irange]; grind
  · simp [fitOrder, mem_irange]; grind

/-- Increasing degree, then increasing mode. -/
def Before (a b : Nat × Int) : Prop := a.1 < b.1 ∨ a.1 = b.1 ∧ a.2 < b.2

theorem irange_sorted (lo : Int) (n l : Nat) : ((irange lo n).map (fun m => (l, m))).Pairwise Before := by
  induction n generalizing lo with
  | zero => simp [irange]
  | succ n ih =>
    rw [irange_cons, List.map_cons, List.pairwise_cons]
    refine ⟨?_, ih _⟩
    intro b hb
    simp only [List.mem_map, mem_irange] at hb
    obtain ⟨m, hm, rfl⟩ := hb
    exact Or.inr ⟨rfl, by simp; omega⟩

/-- C44: the terms are stored in the documented order, each once. -/
theorem C44_sorted (realOnly : Bool) (lmax : Nat) : (fitOrder realOnly lmax).Pairwise Before := by
  induction lmax with
  | zero => cases realOnly <;> simp [fitOrder, irange]
  | succ n ih =>
    rw [fitOrder, List.range_succ, List.flatMap_append]
    rw [fitOrder] at ih
    rw [List.pairwise_append]
    refine ⟨ih, ?_, ?_⟩
    · cases realOnly
      · simpa using irange_sorted _ _ _
      · simpa using irange_sorted _ _ _
    · intro a ha b hb
      left
      have h1 : a.1 ≤ n := by
        have := (C44_terms realOnly n a.1 a.2).1 ha
        exact this.1
      have h2 : b.1 = n + 1 := by
        cases realOnly <;> simp at hb <;> grind
      omega

theorem valOrder_eq (realOnly : Bool) (n d : Nat) (h : degreesOf realOnly n = d + 1) :
    valOrder realOnly n = fitOrder realOnly d := by
  rw [← C44_order]; simp only [valOrder, C44_degree, h]

/-- C44: evaluating never looks beyond the end of the coefficients, whatever their number. -/
theorem C44_in_bounds (realOnly : Bool) (n : Nat) : (valOrder realOnly n).length ≤ n := by
  rcases hd : degreesOf realOnly n with _ | d
  · simp [valOrder, hd]
  · rw [valOrder_eq _ _ _ hd, C44_count]
    cases realOnly
    · simp only [degreesOf, Bool.false_eq_true, if_false] at hd
      have := (isqrt_spec n).1
      rw [hd] at this
      simpa [nTerms, Nat.pow_two] using this
    · simp only [degreesOf, if_true] at hd
      have h1 := (isqrt_spec (1 + 8 * n)).1
      have h2 : 2 * d + 3 ≤ isqrt (1 + 8 * n) := by omega
      have h3 := Nat.mul_le_mul h2 h2
      have h4 := nTerms_real d
      have : (2 * d + 3) * (2 * d + 3) = 4 * ((d + 1) * (d + 2)) + 1 := by grind
      omega

example : fitOrder false 1 = [(0, 0), (1, -1), (1, 0), (1, 1)] := by decide
example : valOrder true 4 = [(0, 0), (1, 0), (1, 1)] := by decide +kernel

/-! ## C62 -/

/-- The value at a point of the function itself: `Y_{l,-m} = (-1)^m conj(Y_lm)`. -/
def mirror (m : Nat) (y : C) : C := C.smul (sgn m) y.conj

theorem sgn_sq (m : Nat) : sgn m * sgn m = 1 := by unfold sgn; split <;> decide +kernel
theorem sgn_inv (m : Nat) : 1 / sgn m = sgn m := by unfold sgn; split <;> decide +kernel

/-- For real data the term of the mode `-m` is the mirrored term of the mode `m`. -/
theorem C62_negative_term (m : Nat) (dA : Rat) (grid : List (Rat × C)) :
    fitTerm false dA (grid.map (fun g => (g.1, mirror m g.2))) = mirror m (fitTerm false dA grid) := by
  simp only [fitTerm, Bool.false_eq_true, if_false]
  induction grid with
  | nil => simp [mirror, C.smul, C.conj]
  | cons g t ih =>
    simp only [List.map_cons, List.foldr_cons, ih]
    simp only [mirror, C.smul, C.conj, C.add, C.mk.injEq]
    constructor <;> grind

/-- So the full expansion adds twice the real part of the product. -/
theorem C62_full_pair (m : Nat) (t y : C) :
    fullPair t y (mirror m t) (mirror m y) = ⟨2 * (t.mul y).re, 0⟩ := by
  have h := sgn_sq m
  simp only [fullPair, mirror, C.mul, C.smul, C.conj, C.add, C.mk.injEq]
  constructor <;> grind

/-- C62: the real-only evaluation adds the same only if the product of the imaginary parts (even modes) or of the
real parts (odd modes) vanishes. -/
theorem C62_pair_partial (m : Nat) (t y : C) :
    realPair m t y = (fullPair t y (mirror m t) (mirror m y)).re ↔
      (if m % 2 = 0 then t.im * y.im = 0 else t.re * y.re = 0) := by
  rw [C62_full_pair]
  simp only [realPair, sgn_inv, C.mul, C.smul, C.conj]
  unfold sgn
  split <;> constructor <;> intro h <;> grind

/-- C62: with `t = Y = i` the full expansion gives -2 and the real-only one 0. -/
theorem C62_pair_witness : realPair 2 ⟨0, 1⟩ ⟨0, 1⟩ = 0 ∧
    fullPair ⟨0, 1⟩ ⟨0, 1⟩ (mirror 2 ⟨0, 1⟩) (mirror 2 ⟨0, 1⟩) = ⟨-2, 0⟩ := by
  constructor <;> decide +kernel

/-- C62: the terms of the two fits differ by the size of a cell of the grid. -/
theorem C62_scale (dA : Rat) (grid : List (Rat × C)) :
    fitTerm true dA grid = C.smul dA (fitTerm false dA grid) := rfl

theorem C62_scale_witness : ∃ (dA : Rat) (grid : List (Rat × C)), dA ≠ 0 ∧
    fitTerm true dA grid ≠ fitTerm false dA grid :=
  ⟨1/100, [(1, ⟨1, 0⟩)], by decide +kernel, by decide +kernel⟩

/-! ## C63 -/

theorem sliceDown_length (x : List Rat) (w : Nat) : (sliceDown x w).length = min (w + 1) x.length - 2 := by
  simp [sliceDown]

theorem extended_length (x : List Rat) (w : Nat) :
    (extended x w).length = (min (w + 1) x.length - 2) + x.length + min (w - 1) x.length := by
  simp [extended, sliceDown_length]; omega

theorem smooth_eq (x win : List Rat) (h1 : win.length ≤ x.length) (h2 : 3 ≤ win.length) :
    smooth x win = some (((convolveSame (win.map (· / total win)) (extended x win.length)).take
      ((extended x win.length).length - (win.length - 1))).drop (win.length - 1)) := by
  simp [smooth, show ¬ x.length < win.length by omega, show ¬ win.length < 3 by omega, convolveSame]

/-- C63: a signal longer than the window keeps its length. -/
theorem C63_length_partial (x win : List Rat) (h : win.length < x.length) :
    (smooth x win).map List.length = some x.length := by
  by_cases h3 : win.length < 3
  · simp [smooth, h3, show ¬ x.length < win.length by omega]
  · rw [smooth_eq x win (by omega) (by omega)]
    simp [convolveSame, extended_length]; omega

/-- C63: a signal as long as the window loses a sample. -/
theorem C63_length_equal (x win : List Rat) (h : win.length = x.length) (h3 : 3 ≤ win.length) :
    (smooth x win).map List.length = some (x.length - 1) := by
  rw [smooth_eq x win (by omega) (by omega)]
  simp [convolveSame, extended_length]; omega

/-- Output sample `i` as a sum over the extended signal. -/
theorem smooth_get (x win out : List Rat) (h1 : win.length ≤ x.length) (h2 : 3 ≤ win.length)
    (h : smooth x win = some out) (i : Nat) (hi : i < out.length) :
    i + 2 * (win.length - 1) < (extended x win.length).length ∧
    out.getD i 0 = total ((List.range win.length).map (fun j => win.getD j 0 / total win *
      (extended x win.length).getD (i + (win.length - 1) + (win.length - 1) / 2 - j) 0)) := by
  rw [smooth_eq x win h1 h2] at h
  have h := (Option.some.inj h).symm
  subst h
  have hi' : i + 2 * (win.length - 1) < (extended x win.length).length := by
    simp [convolveSame] at hi; omega
  refine ⟨hi', ?_⟩
  simp only [convolveSame, List.getD_eq_getElem?_getD, List.getElem?_drop, List.getElem?_take, List.getElem?_map,
    List.length_map]
  rw [if_pos (by omega), List.getElem?_range (by omega)]
  simp only [Option.map_some, Option.getD_some]
  congr 1
  apply List.map_congr_left
  intro j hj
  have hj := List.mem_range.1 hj
  rw [if_pos (by omega), List.getElem?_eq_getElem hj]
  simp only [Option.map_some, Option.getD_some]
  congr 4
  omega

/-- C63: away from the ends the output is the weighted mean of the samples around, with the window centred. -/
theorem C63_inner (x win out : List Rat) (h1 : win.length < x.length) (h2 : 3 ≤ win.length)
    (h : smooth x win = some out) (i : Nat) (hlo : win.length - 1 ≤ i + (win.length - 1) / 2)
    (hhi : i + (win.length - 1) / 2 < x.length) :
    out.getD i 0 = total ((List.range win.length).map (fun j => win.getD j 0 / total win *
      x.getD (i + (win.length - 1) / 2 - j) 0)) := by
  have hl : out.length = x.length := by
    have := C63_length_partial x win h1
    rw [h] at this; simpa using this
  obtain ⟨_, he⟩ := smooth_get x win out (by omega) h2 h i (by omega)
  rw [he]
  congr 1
  apply List.map_congr_left
  intro j hj
  have hj := List.mem_range.1 hj
  congr 1
  have hs := sliceDown_length x win.length
  simp only [extended, List.getD_eq_getElem?_getD, List.append_assoc]
  rw [List.getElem?_append_right (by simp; omega), List.getElem?_append_left (by simp; omega)]
  congr 2
  simp; omega

theorem extended_const (c : Rat) (N w k : Nat) (hN : 1 ≤ N) (hk : k < (extended (List.replicate N c) w).length) :
    (extended (List.replicate N c) w).getD k 0 = c := by
  have h : ∀ v ∈ extended (List.replicate N c) w, v = c := by
    have hh : (List.replicate N c).headD 0 = c := by cases N <;> simp_all [List.replicate]
    have ht : (List.replicate N c).getLastD 0 = c := by
      rw [List.getLastD_eq_getLast?, List.getLast?_replicate]; simp [show N ≠ 0 by omega]
    intro v hv
    simp only [extended, List.mem_append, hh, ht, List.mem_map] at hv
    rcases hv with (⟨a, ha, rfl⟩ | hv) | ⟨a, ha, rfl⟩
    · have : a ∈ List.replicate N c := by
        simp only [sliceDown, List.mem_reverse] at ha
        exact List.mem_of_mem_take (List.mem_of_mem_drop ha)
      rw [List.eq_of_mem_replicate this]; grind
    · exact List.eq_of_mem_replicate hv
    · have : a ∈ List.replicate N c := by
        have := List.mem_of_mem_take ha
        simpa using this
      rw [List.eq_of_mem_replicate this]; grind
  rw [List.getD_eq_getElem?_getD, List.getElem?_eq_getElem hk]
  exact h _ (List.getElem_mem hk)

theorem map_getD_range (l : List Rat) : (List.range l.length).map (fun j => l.getD j 0) = l := by
  apply List.ext_getElem (by simp)
  intro i h1 h2
  simp [List.getD_eq_getElem?_getD, List.getElem?_eq_getElem h2]

/-- C63: a constant signal is not changed, also at its ends. -/
theorem C63_constant (c : Rat) (N : Nat) (win out : List Rat) (h1 : win.length ≤ N) (h2 : 3 ≤ win.length)
    (hw : total win ≠ 0) (h : smooth (List.replicate N c) win = some out) (i : Nat) (hi : i < out.length) :
    out.getD i 0 = c := by
  obtain ⟨hb, he⟩ := smooth_get _ win out (by simpa using h1) h2 h i hi
  rw [he]
  have : (List.range win.length).map (fun j => win.getD j 0 / total win *
      (extended (List.replicate N c) win.length).getD (i + (win.length - 1) + (win.length - 1) / 2 - j) 0) =
      (win.map (· / total win)).map (· * c) := by
    conv => rhs; rw [← map_getD_range win]
    rw [List.map_map, List.map_map]
    apply List.map_congr_left
    intro j hj
    rw [extended_const c N _ _ (by omega) (by omega)]
    simp only [Function.comp_apply, map_getD_range]
  rw [this, total_mul, total_div]
  grind

/-- C63: a straight line is not kept at the ends: the reflected copies are one sample off on both sides. -/
theorem C63_line_witness : smooth [0, 1, 2, 3, 4, 5] [1, 1, 1] = some [-1/3, 1, 2, 3, 4, 14/3] := by
  decide +kernel

/-- C63: three samples smoothed over three come back as two. -/
theorem C63_length_witness : smooth [5, 5, 5] [1, 1, 1] = some [5, 5] := by decide +kernel

end Verif.MathUtils
