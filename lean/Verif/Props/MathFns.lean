import Verif.Model.MathFns

/-! C114: regridding and the parameters of Gaussian data. -/

namespace Verif.MathFns

/-! Regridding -/

theorem takeWhile_length (p : Rat → Bool) : ∀ (l : List Rat) (j : Nat), j ≤ l.length →
    (∀ i (_ : i < j), p (l.getD i 0) = true) → (j < l.length → p (l.getD j 0) = false) →
    (l.takeWhile p).length = j := by
  intro l
  induction l with
  | nil => intro j hj _ _; simp at hj; simp [hj]
  | cons a l ih =>
    intro j hj h1 h2
    cases j with
    | zero =>
      have := h2 (by simp)
      simp only [List.getD_cons_zero] at this
      simp [List.takeWhile_cons, this]
    | succ j =>
      have h0 := h1 0 (by omega)
      simp only [List.getD_cons_zero] at h0
      rw [List.takeWhile_cons, h0]
      simp only [↓reduceIte, List.length_cons]
      congr 1
      refine ih j (by simpa using hj) (fun i hi => ?_) (fun hl => ?_)
      · have := h1 (i + 1) (by omega)
        simpa using this
      · have := h2 (by simpa using hl)
        simpa using this

/-- Strictly increasing abscissas. -/
theorem mono {xs : List Rat} (hs : xs.Pairwise (· < ·)) {i j : Nat} (hij : i < j)
    (hj : j < xs.length) : xs.getD i 0 < xs.getD j 0 := by
  have hi : i < xs.length := by omega
  simp only [List.getD_eq_getElem?_getD, List.getElem?_eq_getElem hi,
    List.getElem?_eq_getElem hj, Option.getD_some]
  exact List.pairwise_iff_getElem.mp hs i j hi hj hij

theorem mono_le {xs : List Rat} (hs : xs.Pairwise (· < ·)) {i j : Nat} (hij : i ≤ j)
    (hj : j < xs.length) : xs.getD i 0 ≤ xs.getD j 0 := by
  rcases Nat.lt_or_eq_of_le hij with h | h
  · exact Rat.le_of_lt (mono hs h hj)
  · subst h; exact Rat.le_refl

theorem tail_getD (xs : List Rat) (i : Nat) : xs.tail.getD i 0 = xs.getD (i + 1) 0 := by
  cases xs with
  | nil => simp
  | cons a l => simp

theorem locate_eq {xs : List Rat} (hs : xs.Pairwise (· < ·)) {k : Rat} {j : Nat}
    (hj : j < xs.length) (h1 : xs.getD j 0 ≤ k)
    (h2 : j + 1 < xs.length → k < xs.getD (j + 1) 0) : locate xs k = j := by
  unfold locate
  apply takeWhile_length
  · simp; omega
  · intro i hi
    rw [tail_getD]
    have := mono_le hs (i := i + 1) (j := j) hi hj
    exact decide_eq_true (Rat.le_trans this h1)
  · intro hl
    rw [tail_getD]
    have := h2 (by simp at hl; omega)
    exact decide_eq_false (by grind)

/-- At the old abscissas the values are the old ones. -/
theorem C114_nodes (xs ys : List Rat) (hs : xs.Pairwise (· < ·)) (j : Nat)
    (hj : j < xs.length) : interp xs ys (xs.getD j 0) = ys.getD j 0 := by
  have hl := locate_eq hs hj Rat.le_refl (fun h => mono hs (Nat.lt_succ_self j) h)
  have h1 := mono_le hs (i := j) (j := xs.length - 1) (by omega) (by omega)
  have h2 := mono_le hs (i := 0) (j := j) (by omega) hj
  unfold interp
  simp only [hl]
  rw [if_neg (by grind), if_neg (by grind)]
  split
  · rename_i e; rw [e]
  · simp

/-- Between two abscissas the values are on the line between the old ones. -/
theorem C114_between_partial (xs ys : List Rat) (hs : xs.Pairwise (· < ·)) (j : Nat) (k : Rat)
    (hj : j + 1 < xs.length) (h1 : xs.getD j 0 ≤ k) (h2 : k ≤ xs.getD (j + 1) 0) :
    OnLine (xs.getD j 0) (ys.getD j 0) (xs.getD (j + 1) 0) (ys.getD (j + 1) 0) k
      (interp xs ys k) := by
  have hlt := mono hs (Nat.lt_succ_self j) hj
  by_cases he : k = xs.getD (j + 1) 0
  · subst he
    rw [C114_nodes xs ys hs (j + 1) hj]
    rfl
  by_cases h0 : xs.getD j 0 = k
  · subst h0
    rw [C114_nodes xs ys hs j (by omega)]
    unfold OnLine
    grind
  have h2' : k < xs.getD (j + 1) 0 := by grind
  have hl := locate_eq hs (by omega : j < xs.length) h1 (fun _ => h2')
  have a1 := mono_le hs (i := j + 1) (j := xs.length - 1) (by omega) (by omega)
  have a2 := mono_le hs (i := 0) (j := j) (by omega) (by omega)
  unfold interp
  simp only [hl]
  rw [if_neg (by grind), if_neg (by grind), if_neg (by omega), if_neg h0]
  unfold OnLine
  generalize ys.getD (j + 1) 0 = y1
  generalize ys.getD j 0 = y0
  generalize xs.getD (j + 1) 0 = x1 at *
  generalize xs.getD j 0 = x0 at *
  have hd : x1 - x0 ≠ 0 := by grind
  have e : (y1 - y0) / (x1 - x0) * (x1 - x0) = y1 - y0 := by
    rw [Rat.div_def, Rat.mul_assoc, Rat.inv_mul_cancel _ hd]
    grind
  have : ((y1 - y0) / (x1 - x0) * (k - x0) + y0 - y0) * (x1 - x0)
      = (y1 - y0) / (x1 - x0) * (x1 - x0) * (k - x0) := by grind
  rw [this, e]

/-- Every key within the abscissas is between two neighbours or is the last. -/
theorem bracket : ∀ (xs : List Rat) (k : Rat) (n : Nat), n + 1 = xs.length →
    xs.getD 0 0 ≤ k → k ≤ xs.getD n 0 →
    (∃ j, j + 1 < xs.length ∧ xs.getD j 0 ≤ k ∧ k ≤ xs.getD (j + 1) 0) ∨ k = xs.getD n 0 := by
  intro xs
  induction xs with
  | nil => intro k n h; simp at h
  | cons a l ih =>
    intro k n hn h0 h1
    cases l with
    | nil =>
      right
      have : n = 0 := by simpa using hn
      subst this
      simp only [List.getD_cons_zero] at h0 h1 ⊢
      grind
    | cons b l =>
      have hn' : n = (n - 1) + 1 := by simp at hn; omega
      by_cases hb : k ≤ b
      · left
        exact ⟨0, by simp, h0, by simpa using hb⟩
      · have := ih k (n - 1) (by simp at hn ⊢; omega) (by simp; grind) (by
          rw [hn'] at h1
          simpa using h1)
        rcases this with ⟨j, hj, h2, h3⟩ | h
        · left
          exact ⟨j + 1, by simpa using hj, by simpa using h2, by simpa using h3⟩
        · right
          rw [hn']
          simpa using h

/-- A straight line is kept by regridding. -/
theorem C114_line (xs : List Rat) (a b k : Rat) (hs : xs.Pairwise (· < ·)) (n : Nat)
    (hn : n + 1 = xs.length) (h0 : xs.getD 0 0 ≤ k) (h1 : k ≤ xs.getD n 0) :
    interp xs (xs.map fun x => a * x + b) k = a * k + b := by
  have hy : ∀ j, j < xs.length → (xs.map fun x => a * x + b).getD j 0 = a * xs.getD j 0 + b := by
    intro j hj
    simp [List.getD_eq_getElem?_getD, List.getElem?_eq_getElem hj]
  rcases bracket xs k n hn h0 h1 with ⟨j, hj, h2, h3⟩ | h
  · have h := C114_between_partial xs (xs.map fun x => a * x + b) hs j k hj h2 h3
    have hlt := mono hs (Nat.lt_succ_self j) hj
    unfold OnLine at h
    rw [hy j (by omega), hy (j + 1) hj] at h
    generalize interp xs (xs.map fun x => a * x + b) k = v at *
    generalize xs.getD (j + 1) 0 = x1 at *
    generalize xs.getD j 0 = x0 at *
    have e : (v - (a * k + b)) * (x1 - x0) = 0 := by grind
    rcases Rat.mul_eq_zero.mp e with e | e <;> grind
  · rw [h, C114_nodes xs _ hs n (by omega), hy n (by omega)]

theorem minOf_le : ∀ (l : List Rat) (a : Rat), minOf a l ≤ a ∧ ∀ b ∈ l, minOf a l ≤ b := by
  intro l
  induction l with
  | nil => intro a; exact ⟨Rat.le_refl, by simp⟩
  | cons c l ih =>
    intro a
    obtain ⟨h1, h2⟩ := ih (if c < a then c else a)
    have e : minOf a (c :: l) = minOf (if c < a then c else a) l := rfl
    rw [e]
    refine ⟨?_, fun b hb => ?_⟩
    · split at h1 <;> grind
    · rw [List.mem_cons] at hb
      rcases hb with rfl | hb
      · split at h1 <;> grind
      · exact h2 b hb

theorem minOf_mem : ∀ (l : List Rat) (a : Rat), minOf a l ∈ a :: l := by
  intro l
  induction l with
  | nil => intro a; simp [minOf]
  | cons c l ih =>
    intro a
    have e : minOf a (c :: l) = minOf (if c < a then c else a) l := rfl
    rw [e]
    have := ih (if c < a then c else a)
    rw [List.mem_cons] at this
    rcases this with h | h
    · rw [h]; split <;> simp
    · simp [h]

theorem le_maxOf : ∀ (l : List Rat) (a : Rat), a ≤ maxOf a l ∧ ∀ b ∈ l, b ≤ maxOf a l := by
  intro l
  induction l with
  | nil => intro a; exact ⟨Rat.le_refl, by simp⟩
  | cons c l ih =>
    intro a
    obtain ⟨h1, h2⟩ := ih (if a < c then c else a)
    have e : maxOf a (c :: l) = maxOf (if a < c then c else a) l := rfl
    rw [e]
    refine ⟨?_, fun b hb => ?_⟩
    · split at h1 <;> grind
    · rw [List.mem_cons] at hb
      rcases hb with rfl | hb
      · split at h1 <;> grind
      · exact h2 b hb

theorem maxOf_mem : ∀ (l : List Rat) (a : Rat), maxOf a l ∈ a :: l := by
  intro l
  induction l with
  | nil => intro a; simp [maxOf]
  | cons c l ih =>
    intro a
    have e : maxOf a (c :: l) = maxOf (if a < c then c else a) l := rfl
    rw [e]
    have := ih (if a < c then c else a)
    rw [List.mem_cons] at this
    rcases this with h | h
    · rw [h]; split <;> simp
    · simp [h]

/-- Keys are refused exactly when one is outside the abscissas, whatever their order. -/
theorem C114_refused (xs ys new : List Rat) (hx : xs ≠ []) (hn : new ≠ []) :
    (∃ r, regrid xs ys new = some r) ↔
      ∀ k ∈ new, (∃ a ∈ xs, a ≤ k) ∧ ∃ b ∈ xs, k ≤ b := by
  match xs, new, hx, hn with
  | x :: xr, k :: kr, _, _ =>
    obtain ⟨m1, m2⟩ := minOf_le kr k
    obtain ⟨m3, m4⟩ := minOf_le xr x
    obtain ⟨m5, m6⟩ := le_maxOf kr k
    obtain ⟨m7, m8⟩ := le_maxOf xr x
    have hmin : ∀ a ∈ x :: xr, minOf x xr ≤ a := by
      intro a ha
      rw [List.mem_cons] at ha
      rcases ha with rfl | ha
      · exact m3
      · exact m4 a ha
    have hmax : ∀ a ∈ x :: xr, a ≤ maxOf x xr := by
      intro a ha
      rw [List.mem_cons] at ha
      rcases ha with rfl | ha
      · exact m7
      · exact m8 a ha
    constructor
    · rintro ⟨r, hr⟩ q hq
      unfold regrid at hr
      simp only at hr
      split at hr
      · simp at hr
      · split at hr
        · simp at hr
        · rename_i h1 h2
          have hq1 : minOf k kr ≤ q := by
            rw [List.mem_cons] at hq
            rcases hq with rfl | hq
            · exact m1
            · exact m2 q hq
          have hq2 : q ≤ maxOf k kr := by
            rw [List.mem_cons] at hq
            rcases hq with rfl | hq
            · exact m5
            · exact m6 q hq
          exact ⟨⟨_, minOf_mem xr x, by grind⟩, ⟨_, maxOf_mem xr x, by grind⟩⟩
    · intro h
      obtain ⟨⟨a, ha, ha'⟩, -⟩ := h _ (minOf_mem kr k)
      obtain ⟨-, b, hb, hb'⟩ := h _ (maxOf_mem kr k)
      have := hmin a ha
      have := hmax b hb
      refine ⟨(k :: kr).map (interp (x :: xr) ys), ?_⟩
      unfold regrid
      simp only
      rw [if_neg (by grind), if_neg (by grind)]

/-- The new values are those at the keys, in their order. -/
theorem C114_values (xs ys new r : List Rat) (h : regrid xs ys new = some r) :
    r = new.map (interp xs ys) := by
  unfold regrid at h
  split at h
  · split at h
    · simp at h
    · split at h
      · simp at h
      · simp only [Option.some.injEq] at h
        exact h.symm
  · simp at h

/-- With decreasing abscissas (a frequency axis from above) every key but the last
abscissa gets the last value, without an error. -/
theorem C114_not_decreasing (xs ys : List Rat) (k : Rat)
    (h : xs.getD (xs.length - 1) 0 < k) :
    interp xs ys k = ys.getD (xs.length - 1) 0 := by
  unfold interp
  simp only [h, ↓reduceIte]

example : regrid [3, 2, 1] [30, 20, 10] [2, 3] = some [10, 10] := by decide +kernel
example : regrid [1, 2, 4] [10, 20, 60] [3, 1, 4, 3 / 2] = some [40, 10, 60, 15] := by
  decide +kernel
example : regrid [1, 2, 4] [10, 20, 60] [5] = none := by decide +kernel

/-! Parameters of Gaussian data -/

theorem sumTo_congr (n : Nat) (f g : Nat → Rat) (h : ∀ i, i < n → f i = g i) :
    sumTo n f = sumTo n g := by
  induction n with
  | zero => rfl
  | succ n ih =>
    simp only [sumTo]
    rw [ih (fun i hi => h i (by omega)), h n (by omega)]

theorem sumTo_mul (n : Nat) (f : Nat → Rat) (c : Rat) :
    sumTo n (fun i => f i * c) = sumTo n f * c := by
  induction n with
  | zero => simp [sumTo]
  | succ n ih => simp only [sumTo, ih]; grind

theorem sumTo_add (n : Nat) (f g : Nat → Rat) :
    sumTo n (fun i => f i + g i) = sumTo n f + sumTo n g := by
  induction n with
  | zero => simp only [sumTo]; grind
  | succ n ih => simp only [sumTo, ih]; grind

theorem sumTo_head (n : Nat) (f : Nat → Rat) :
    sumTo (n + 1) f = f 0 + sumTo n fun i => f (i + 1) := by
  induction n with
  | zero => simp only [sumTo]; grind
  | succ n ih =>
    have e : sumTo (n + 1 + 1) f = sumTo (n + 1) f + f (n + 1) := rfl
    rw [e, ih]
    simp only [sumTo]
    grind

theorem sumTo_reverse (n : Nat) (f : Nat → Rat) :
    sumTo n f = sumTo n fun i => f (n - 1 - i) := by
  induction n generalizing f with
  | zero => rfl
  | succ n ih =>
    have e : sumTo (n + 1) f = sumTo n f + f n := rfl
    rw [e, ih, sumTo_head]
    have : sumTo n (fun i => f (n - 1 - i)) = sumTo n fun i => f (n + 1 - 1 - (i + 1)) := by
      apply sumTo_congr
      intro i hi
      congr 1
      omega
    rw [this]
    simp only [Nat.add_sub_cancel, Nat.sub_zero]
    grind

theorem sumTo_swap (m n : Nat) (f : Nat → Nat → Rat) :
    sumTo m (fun i => sumTo n (f i)) = sumTo n fun j => sumTo m fun i => f i j := by
  induction m with
  | zero =>
    simp only [sumTo]
    induction n with
    | zero => rfl
    | succ n ih => simp only [sumTo]; rw [← ih]; grind
  | succ m ih =>
    simp only [sumTo]
    rw [ih, sumTo_add]

theorem maxTo_mul (n : Nat) (f : Nat → Rat) (c : Rat) (hc : 0 < c) :
    maxTo n (fun i => f i * c) = maxTo n f * c := by
  induction n with
  | zero => rfl
  | succ n ih =>
    simp only [maxTo, ih]
    by_cases h : maxTo n f < f (n + 1)
    · rw [if_pos h, if_pos (Rat.mul_lt_mul_of_pos_right h hc)]
    · rw [if_neg h, if_neg]
      have : f (n + 1) ≤ maxTo n f := by grind
      have := Rat.mul_le_mul_of_nonneg_right this (Rat.le_of_lt hc)
      grind

/-- The height is the greatest of the data. -/
theorem C114_height (n : Nat) (data x : Nat → Rat) :
    (∀ i, i ≤ n → data i ≤ (gauss1 n data x).height) ∧
      ∃ i, i ≤ n ∧ (gauss1 n data x).height = data i := by
  show (∀ i, i ≤ n → data i ≤ maxTo n data) ∧ ∃ i, i ≤ n ∧ maxTo n data = data i
  induction n with
  | zero =>
    refine ⟨fun i hi => ?_, 0, Nat.le_refl _, rfl⟩
    have : i = 0 := by omega
    subst this
    exact Rat.le_refl
  | succ n ih =>
    obtain ⟨h1, j, hj, h2⟩ := ih
    simp only [maxTo]
    constructor
    · intro i hi
      by_cases he : i = n + 1
      · subst he; split <;> grind
      · have := h1 i (by omega)
        split <;> grind
    · split
      · exact ⟨n + 1, Nat.le_refl _, rfl⟩
      · exact ⟨j, by omega, h2⟩

theorem div_scale (a b c : Rat) (hc : c ≠ 0) : a * c / (b * c) = a / b := by
  rw [Rat.div_def, Rat.div_def, Rat.inv_mul_rev]
  have : a * c * (c⁻¹ * b⁻¹) = a * b⁻¹ * (c * c⁻¹) := by grind
  rw [this, Rat.mul_inv_cancel _ hc]
  grind

theorem center_scale (n : Nat) (data x : Nat → Rat) (c : Rat) (hc : c ≠ 0) :
    (gauss1 n (fun i => data i * c) x).center = (gauss1 n data x).center := by
  simp only [gauss1]
  have : (fun i => x i * (data i * c)) = fun i => (x i * data i) * c := by
    funext i; grind
  rw [this, sumTo_mul, sumTo_mul, div_scale _ _ _ hc]

theorem width_scale (n : Nat) (data x : Nat → Rat) (c : Rat) (hc : c ≠ 0) :
    (gauss1 n (fun i => data i * c) x).width2 = (gauss1 n data x).width2 := by
  have h := center_scale n data x c hc
  simp only [gauss1] at h ⊢
  rw [h]
  generalize sumTo (n + 1) (fun i => x i * data i) / sumTo (n + 1) data = m
  have : (fun i => (x i - m) * (x i - m) * (data i * c)) =
      fun i => ((x i - m) * (x i - m) * data i) * c := by
    funext i; grind
  rw [this, sumTo_mul, sumTo_mul, div_scale _ _ _ hc]

/-- Brighter data have the same center and width, and a height that is as much
greater. -/
theorem C114_scale (n : Nat) (data x : Nat → Rat) (c : Rat) (hc : 0 < c) :
    gauss1 n (fun i => data i * c) x =
      ⟨(gauss1 n data x).height * c, (gauss1 n data x).center, (gauss1 n data x).width2⟩ := by
  have h0 : c ≠ 0 := by grind
  have h1 := center_scale n data x c h0
  have h2 := width_scale n data x c h0
  have h3 : (gauss1 n (fun i => data i * c) x).height = (gauss1 n data x).height * c :=
    maxTo_mul n data c hc
  rw [← h1, ← h2, ← h3]

/-- Data moved along the axis have a center that is moved as much. -/
theorem C114_shift (n : Nat) (data x : Nat → Rat) (s : Rat)
    (h0 : sumTo (n + 1) data ≠ 0) :
    gauss1 n data (fun i => x i + s) =
      ⟨(gauss1 n data x).height, (gauss1 n data x).center + s, (gauss1 n data x).width2⟩ := by
  have hc : sumTo (n + 1) (fun i => (x i + s) * data i) / sumTo (n + 1) data =
      sumTo (n + 1) (fun i => x i * data i) / sumTo (n + 1) data + s := by
    have : (fun i => (x i + s) * data i) = fun i => x i * data i + data i * s := by
      funext i; grind
    rw [this, sumTo_add, sumTo_mul]
    generalize sumTo (n + 1) data = t at *
    rw [Rat.div_def, Rat.div_def, Rat.add_mul]
    have : t * s * t⁻¹ = s * (t * t⁻¹) := by grind
    rw [this, Rat.mul_inv_cancel _ h0]
    grind
  simp only [gauss1, hc]
  congr 3
  generalize sumTo (n + 1) (fun i => x i * data i) / sumTo (n + 1) data = m
  apply sumTo_congr
  intro i _
  have : x i + s - (m + s) = x i - m := by grind
  rw [this]

/-- The center of symmetric data is their middle. -/
theorem C114_symmetric (n : Nat) (data x : Nat → Rat) (c : Rat)
    (hd : ∀ i, i ≤ n → data (n - i) = data i) (hx : ∀ i, i ≤ n → x i + x (n - i) = 2 * c)
    (h0 : sumTo (n + 1) data ≠ 0) : (gauss1 n data x).center = c := by
  show sumTo (n + 1) (fun i => x i * data i) / sumTo (n + 1) data = c
  have h1 : sumTo (n + 1) (fun i => x i * data i) =
      sumTo (n + 1) fun i => x (n - i) * data i := by
    rw [sumTo_reverse]
    apply sumTo_congr
    intro i hi
    rw [Nat.add_sub_cancel, hd i (by omega)]
  have h2 : sumTo (n + 1) (fun i => x i * data i) + sumTo (n + 1) (fun i => x i * data i) =
      sumTo (n + 1) data * (2 * c) := by
    conv => lhs; rhs; rw [h1]
    rw [← sumTo_add, ← sumTo_mul]
    apply sumTo_congr
    intro i hi
    rw [← Rat.add_mul, hx i (by omega), Rat.mul_comm]
  generalize sumTo (n + 1) (fun i => x i * data i) = a at *
  generalize sumTo (n + 1) data = t at *
  have e : a = c * t := by grind
  rw [e, Rat.div_def, Rat.mul_assoc, Rat.mul_inv_cancel _ h0]
  grind

/-- The width is that of a spread: it is not negative, and zero for one peak. -/
theorem C114_peak (n k : Nat) (x : Nat → Rat) (h : Rat) (hk : k ≤ n) (hh : h ≠ 0) :
    (gauss1 n (fun i => if i = k then h else 0) x).center = x k ∧
      (gauss1 n (fun i => if i = k then h else 0) x).width2 = 0 := by
  have one : ∀ (f : Nat → Rat) m, sumTo m (fun i => f i * (if i = k then h else 0)) =
      if k < m then f k * h else 0 := by
    intro f m
    induction m with
    | zero => simp [sumTo]
    | succ m ih =>
      simp only [sumTo, ih]
      by_cases h1 : k < m
      · rw [if_pos h1, if_neg (by omega : ¬ m = k), if_pos (by omega : k < m + 1)]; grind
      · by_cases h2 : m = k
        · subst h2; rw [if_neg h1, if_pos rfl, if_pos (by omega)]; grind
        · rw [if_neg h1, if_neg h2, if_neg (by omega)]; grind
  have ht : sumTo (n + 1) (fun i => if i = k then h else 0) = h := by
    have := one (fun _ => 1) (n + 1)
    rw [if_pos (by omega)] at this
    simp only [Rat.one_mul] at this
    exact this
  have hc : (gauss1 n (fun i => if i = k then h else 0) x).center = x k := by
    show sumTo _ _ / sumTo _ _ = _
    rw [ht, one, if_pos (by omega), Rat.div_def, Rat.mul_assoc, Rat.mul_inv_cancel _ hh]
    grind
  refine ⟨hc, ?_⟩
  have hc' : sumTo (n + 1) (fun i => x i * (if i = k then h else 0)) /
      sumTo (n + 1) (fun i => if i = k then h else 0) = x k := hc
  simp only [gauss1]
  rw [hc', ht, one (fun i => (x i - x k) * (x i - x k)), if_pos (by omega)]
  have : (x k - x k) * (x k - x k) * h = 0 := by grind
  rw [this, Rat.div_def, Rat.zero_mul]
  rfl

theorem C114_width (n : Nat) (data x : Nat → Rat) : 0 ≤ (gauss1 n data x).width2 := by
  show 0 ≤ absR _
  unfold absR
  split <;> grind

/-- In the plane the centers are those of all data. -/
theorem C114_plane (m n : Nat) (data : Nat → Nat → Rat) (x y : Nat → Rat)
    (hx : maxPlane m n data / maxTo m (fun i => sumTo (n + 1) (data i)) ≠ 0)
    (hy : maxPlane m n data / maxTo n (fun j => sumTo (m + 1) fun i => data i j) ≠ 0) :
    ∃ p q, gauss2 false m n data (some x) (some y) = some (p, q) ∧
      p.center = sumTo (m + 1) (fun i => sumTo (n + 1) fun j => data i j * x i) /
        sumTo (m + 1) (fun i => sumTo (n + 1) (data i)) ∧
      q.center = sumTo (m + 1) (fun i => sumTo (n + 1) fun j => data i j * y j) /
        sumTo (m + 1) (fun i => sumTo (n + 1) (data i)) := by
  refine ⟨_, _, rfl, ?_, ?_⟩
  · show (gauss1 m (fun i => sumTo (n + 1) (data i) * _) x).center = _
    rw [center_scale _ _ _ _ hx]
    simp only [gauss1]
    congr 1
    apply sumTo_congr
    intro i _
    rw [sumTo_mul, Rat.mul_comm]
  · show (gauss1 n (fun j => sumTo (m + 1) (fun i => data i j) * _) y).center = _
    rw [center_scale _ _ _ _ hy]
    simp only [gauss1]
    rw [sumTo_swap (m + 1) (n + 1) data, sumTo_swap (m + 1) (n + 1)]
    congr 1
    apply sumTo_congr
    intro j _
    rw [sumTo_mul, Rat.mul_comm]

/-- Both profiles have the height of the data. -/
theorem C114_plane_height (m n : Nat) (data : Nat → Nat → Rat) (x y : Option (Nat → Rat))
    (h : 0 < maxPlane m n data) (hx : 0 < maxTo m (fun i => sumTo (n + 1) (data i)))
    (hy : 0 < maxTo n (fun j => sumTo (m + 1) fun i => data i j)) :
    ∃ p q, gauss2 false m n data x y = some (p, q) ∧
      p.height = maxPlane m n data ∧ q.height = maxPlane m n data := by
  have key : ∀ k (f : Nat → Rat) (M : Rat), 0 < M → 0 < maxTo k f →
      maxTo k (fun i => f i * (M / maxTo k f)) = M := by
    intro k f M hM hf
    have h0 : maxTo k f ≠ 0 := by grind
    rw [maxTo_mul _ _ _ (by rw [Rat.div_def]; exact Rat.mul_pos hM (Rat.inv_pos.mpr hf))]
    rw [Rat.div_def, Rat.mul_comm M, ← Rat.mul_assoc, Rat.mul_inv_cancel _ h0]
    grind
  exact ⟨_, _, rfl, key m _ _ h hx, key n _ _ h hy⟩

/-- A background moves the center. -/
theorem C114_not_background :
    (gauss1 2 (fun i => if i = 2 then 4 else 0) (fun i => (i : Rat))).center = 2 ∧
    (gauss1 2 (fun i => (if i = 2 then 4 else 0) + 1) (fun i => (i : Rat))).center ≠ 2 := by
  decide +kernel

/-- Images of integers are refused, and an axis given alone is not used. -/
theorem C114_not_integers (m n : Nat) (data : Nat → Nat → Rat) (x : Nat → Rat) :
    gauss2 true m n data none none = none ∧
      gauss2 false m n data (some x) none = gauss2 false m n data none none :=
  ⟨rfl, rfl⟩

example : gauss1 2 (fun i => if i = 1 then 2 else 1) (fun i => (i : Rat)) =
    ⟨2, 1, 1 / 2⟩ := by decide +kernel

example : gauss2 false 1 1 (fun i j => if i = 1 then (if j = 1 then 6 else 2) else 0) none none =
    some (⟨6, 1, 0⟩, ⟨6, 3 / 4, 3 / 16⟩) := by decide +kernel

end Verif.MathFns
