import Verif.Props.Robust
import Verif.Model.RobustFit
import Verif.Spec.RobustFit
import Mathlib.Tactic.LinearCombination
/-!
# C87: robust fits
-/
namespace Verif.Robust
open Spec

/-! ## Least squares -/

theorem lineResidual_expand (w x y : List ℝ) (hx : x.length = w.length) (hy : y.length = w.length) (m c : ℝ) :
    lineResidual w x y m c = wsum w (prods y y) - 2 * c * wsum w y - 2 * m * wsum w (prods x y) + c ^ 2 * w.sum +
      2 * m * c * wsum w x + m ^ 2 * wsum w (prods x x) := by
  induction w generalizing x y with
  | nil =>
    obtain rfl := List.length_eq_zero_iff.1 hx
    obtain rfl := List.length_eq_zero_iff.1 hy
    simp [lineResidual, wsum, prods]
  | cons a w ih =>
    match x, y, hx, hy with
    | b :: x, d :: y, hx, hy =>
      have := ih x y (by simpa using hx) (by simpa using hy)
      simp only [lineResidual, this, wsum, prods, List.zipWith_cons_cons, List.sum_cons]
      ring

theorem lineResidual_nonneg (w x y : List ℝ) (hw : ∀ v ∈ w, 0 ≤ v) (m c : ℝ) : 0 ≤ lineResidual w x y m c := by
  induction w generalizing x y with
  | nil => simp [lineResidual]
  | cons a w ih =>
    match x, y with
    | [], _ => simp [lineResidual]
    | _ :: _, [] => simp [lineResidual]
    | b :: x, d :: y =>
      have h1 := ih x y fun v hv => hw v (by simp [hv])
      have h2 := hw a (by simp)
      simp only [lineResidual]
      positivity

/-- The line with weights that add up to one is that of least squares. -/
theorem C87_weighted (w x y : List ℝ) (hx : x.length = w.length) (hy : y.length = w.length) (hw : ∀ v ∈ w, 0 ≤ v)
    (hs : w.sum = 1) (s i : ℝ) (h : wlsq w x y = some (s, i)) (m c : ℝ) : lineResidual w x y s i ≤ lineResidual w x y m c := by
  unfold wlsq solve at h
  simp only at h
  split_ifs at h with hd
  simp only [Option.some.injEq, Prod.mk.injEq] at h
  have heps : (0 : ℝ) < eps := by unfold eps; positivity
  have hd0 : wsum w (prods x x) - wsum w x * wsum w x ≠ 0 := by
    intro h0; rw [h0] at hd; simp at hd; linarith
  -- the variance is not negative
  have hv : 0 ≤ wsum w (prods x x) - wsum w x * wsum w x := by
    have h1 := lineResidual_nonneg w x x hw 0 (wsum w x)
    rw [lineResidual_expand w x x hx hx, hs] at h1
    nlinarith
  rw [lineResidual_expand w x y hx hy, lineResidual_expand w x y hx hy, hs]
  generalize wsum w (prods x x) = sxx at *
  generalize wsum w x = sx at *
  generalize wsum w y = sy at *
  generalize wsum w (prods x y) = sxy at *
  have e1 : s * (sxx - sx * sx) = sxy - sx * sy := by rw [← h.1]; exact div_mul_cancel₀ _ hd0
  have e2 : i * (sxx - sx * sx) = sxx * sy - sx * sxy := by rw [← h.2]; exact div_mul_cancel₀ _ hd0
  have e3 : i = sy - s * sx := by
    have : i * (sxx - sx * sx) = (sy - s * sx) * (sxx - sx * sx) := by rw [e2]; linear_combination sx * e1
    exact mul_right_cancel₀ hd0 this
  have e4 : sxy = s * (sxx - sx * sx) + sx * sy := by linarith
  rw [e4, e3]
  nlinarith [mul_nonneg hv (sq_nonneg (m - s)), sq_nonneg ((c - (sy - s * sx)) + sx * (m - s))]

/-- Without weights, on data with a mean of zero, too. -/
theorem C87_plain (x y : List ℝ) (hxy : y.length = x.length) (hx : x.sum = 0) (hy : y.sum = 0) (s i : ℝ)
    (h : lsq x y = some (s, i)) (m c : ℝ) :
    lineResidual (List.replicate x.length 1) x y s i ≤ lineResidual (List.replicate x.length 1) x y m c := by
  have h1 : ∀ z : List ℝ, z.length = x.length → wsum (List.replicate x.length 1) z = z.sum := by
    intro z hz
    rw [← hz]
    unfold wsum
    clear hz
    induction z with
    | nil => simp
    | cons a z ih =>
      rw [List.length_cons, List.replicate_succ, List.zipWith_cons_cons, List.sum_cons, ih]; simp
  unfold lsq solve at h
  simp only at h
  rw [hx, hy] at h
  split_ifs at h with hd
  simp only [Option.some.injEq, Prod.mk.injEq] at h
  have heps : (0 : ℝ) < eps := by unfold eps; positivity
  have hd0 : (prods x x).sum ≠ 0 := by
    intro h0; rw [h0] at hd; simp at hd; linarith
  have hpl : ∀ z : List ℝ, z.length = x.length → (prods x z).length = x.length := by
    intro z hz; simp [prods, hz]
  have hpy : (prods y y).length = x.length := by simp [prods, hxy]
  have hpos : 0 ≤ (prods x x).sum := by
    have : ∀ z : List ℝ, 0 ≤ (prods z z).sum := by
      intro z
      induction z with
      | nil => simp [prods]
      | cons a z ih =>
        have : (prods (a :: z) (a :: z)).sum = a * a + (prods z z).sum := by simp [prods]
        rw [this]; nlinarith [mul_self_nonneg a]
    exact this x
  rw [lineResidual_expand _ x y (by simp) (by simpa using hxy), lineResidual_expand _ x y (by simp) (by simpa using hxy),
    h1 _ hpy, h1 _ hxy, h1 _ (hpl _ hxy), h1 _ rfl, h1 _ (hpl _ rfl), hx, hy]
  have hn : (0 : ℝ) ≤ (List.replicate x.length (1 : ℝ)).sum := by simp
  generalize (List.replicate x.length (1 : ℝ)).sum = n at *
  generalize (prods x x).sum = sxx at *
  generalize (prods x y).sum = sxy at *
  have e1 : s * sxx = sxy := by rw [← h.1]; simp; field_simp
  have e2 : i = 0 := by rw [← h.2]; simp
  rw [e2, ← e1]
  nlinarith [mul_nonneg hpos (sq_nonneg (m - s)), mul_nonneg hn (sq_nonneg c)]

/-! ## The weights of a fit -/

theorem rawWeight_range (limit sigma dev : ℝ) (hl : 0 < limit) (hs : 0 < sigma) :
    0 ≤ rawWeight limit sigma dev ∧ rawWeight limit sigma dev ≤ 1 ∧
      (limit * sigma ≤ |dev| ↔ rawWeight limit sigma dev = 0) := by
  have hp : 0 < limit * sigma := mul_pos hl hs
  have h0 : 0 ≤ |dev| / (limit * sigma) := by positivity
  unfold rawWeight scaled
  split_ifs with h
  · refine ⟨by norm_num, by norm_num, ?_⟩
    rw [lt_div_iff₀ hp, one_mul] at h
    constructor
    · intro _; norm_num
    · intro _; exact h.le
  · have h1 := not_lt.1 h
    refine ⟨by nlinarith, by nlinarith, ?_⟩
    constructor
    · intro h2
      have : |dev| / (limit * sigma) = 1 := le_antisymm h1 (by rw [le_div_iff₀ hp, one_mul]; exact h2)
      rw [this]; norm_num
    · intro h2
      have h3 : (|dev| / (limit * sigma)) ^ 2 = 1 := by linarith
      have : |dev| / (limit * sigma) = 1 := by nlinarith
      rw [div_eq_one_iff_eq hp.ne'] at this
      exact this.ge

theorem sum_div (l : List ℝ) (k : ℝ) : (l.map (· / k)).sum = l.sum / k := by
  induction l with
  | nil => simp
  | cons a l ih => simp only [List.map_cons, List.sum_cons, ih, add_div]

/-- The weights add up to one and are not negative, so that the line with them is one of least squares. -/
theorem C87_weights (limit sigma : ℝ) (hl : 0 < limit) (hs : 0 < sigma) (devs : List ℝ)
    (hd : ∃ d ∈ devs, |d| < limit * sigma) :
    (biweights limit sigma devs).sum = 1 ∧ ∀ v ∈ biweights limit sigma devs, 0 ≤ v := by
  have hnn : ∀ l : List ℝ, 0 ≤ (l.map (rawWeight limit sigma)).sum := by
    intro l
    induction l with
    | nil => simp
    | cons a l ih =>
      simp only [List.map_cons, List.sum_cons]
      have := (rawWeight_range limit sigma a hl hs).1
      linarith
  have hpos : 0 < (devs.map (rawWeight limit sigma)).sum := by
    obtain ⟨d, hd, hlt⟩ := hd
    obtain ⟨A, B, rfl⟩ := List.append_of_mem hd
    simp only [List.map_append, List.map_cons, List.sum_append, List.sum_cons]
    have h1 := rawWeight_range limit sigma d hl hs
    have h2 : rawWeight limit sigma d ≠ 0 := fun h => absurd (h1.2.2.2 h) (not_le.2 hlt)
    have h3 : 0 < rawWeight limit sigma d := lt_of_le_of_ne h1.1 (Ne.symm h2)
    linarith [hnn A, hnn B]
  unfold biweights
  refine ⟨by rw [sum_div, div_self hpos.ne'], ?_⟩
  intro v hv
  obtain ⟨w, hw, rfl⟩ := List.mem_map.1 hv
  obtain ⟨d, _, rfl⟩ := List.mem_map.1 hw
  exact div_nonneg (rawWeight_range limit sigma d hl hs).1 hpos.le

/-- A point has no weight exactly from the limit on. -/
theorem C87_rejected (limit sigma dev : ℝ) (hl : 0 < limit) (hs : 0 < sigma) :
    limit * sigma ≤ |dev| ↔ rawWeight limit sigma dev = 0 := (rawWeight_range limit sigma dev hl hs).2.2

/-- The weights are not the squares that the name says: half-way to the limit it is three quarters and not nine sixteenths. -/
theorem C87_not_bisquare (limit sigma : ℝ) (hl : 0 < limit) (hs : 0 < sigma) :
    rawWeight limit sigma (limit * sigma / 2) = 3 / 4 ∧
      rawWeight limit sigma (limit * sigma / 2) ≠ (1 - (1 / 2 : ℝ) ^ 2) ^ 2 := by
  have hp : 0 < limit * sigma := mul_pos hl hs
  have h : |limit * sigma / 2| / (limit * sigma) = 1 / 2 := by
    rw [abs_of_pos (by positivity)]; field_simp
  have e : rawWeight limit sigma (limit * sigma / 2) = 3 / 4 := by
    unfold rawWeight scaled
    rw [h]; norm_num
  rw [e]
  norm_num

/-! ## Fits that are exact -/

theorem std_zeros (n : ℕ) : std true (List.replicate n 0) = some 0 := by
  have heps : (0 : ℝ) < eps := by unfold eps; positivity
  rcases Nat.eq_zero_or_pos n with rfl | hn
  · simp [std, stdAt, spread, devs, median, sort, avg, heps]
  · unfold std stdAt
    simp only [if_true]
    rw [spread_constant n hn, if_pos heps]

/-- A fit without residuals is accepted. -/
theorem C87_check_exact (data : List ℝ) (limit : ℝ) : checkfit data data limit = some ⟨false, 0, 0, 0, []⟩ := by
  have heps : (0 : ℝ) < eps := by unfold eps; positivity
  have e : List.zipWith (· - ·) data data = List.replicate data.length (0 : ℝ) := by
    induction data with
    | nil => rfl
    | cons a l ih => simp [List.replicate_succ]
  unfold checkfit
  simp only
  rw [e, std_zeros, Option.map_some, if_pos heps]

/-- A fit that is zero is accepted whatever the residuals, as is every line with `bisector=True`, for which zero is given. -/
theorem C87_not_zero (data : List ℝ) (limit s : ℝ)
    (hs : std true (List.zipWith (· - ·) data (List.replicate data.length 0)) = some s) :
    ∃ c, checkfit data (List.replicate data.length 0) limit = some c ∧ c.status = false ∧ c.nGood = 0 ∧ c.sigma = s := by
  have heps : (0 : ℝ) < eps := by unfold eps; positivity
  have hd : (0 : ℝ) < delta := by unfold delta; positivity
  have hf : fracDev data (List.replicate data.length 0) = 0 := by
    unfold fracDev
    simp only
    rw [if_pos]
    have : (data.zip (List.replicate data.length (0 : ℝ))).filter (fun p => decide (eps < |p.2|)) = [] := by
      rw [List.filter_eq_nil_iff]
      rintro ⟨a, b⟩ hp
      have := List.eq_of_mem_replicate (List.of_mem_zip hp).2
      have hb : b = 0 := this
      subst hb
      simp only [abs_zero, decide_eq_true_eq, not_lt]
      exact heps.le
    rw [this]; simp
  unfold checkfit
  simp only
  rw [hs, Option.map_some, hf, if_pos hd]
  by_cases h : s < eps
  · rw [if_pos h]; exact ⟨_, rfl, rfl, rfl, rfl⟩
  · rw [if_neg h]; exact ⟨_, rfl, rfl, rfl, rfl⟩

theorem avg_line (a b : ℝ) (x : List ℝ) (hne : x ≠ []) : avg (x.map fun v => a + b * v) = a + b * avg x := by
  have := avg_affine b a x hne
  rw [show (fun v => a + b * v) = fun v => b * v + a by funext v; ring, this]; ring

theorem centred_sum (x : List ℝ) : (x.map (· - avg x)).sum = 0 := by
  rcases eq_or_ne x [] with rfl | hne
  · simp
  · have hl : (x.length : ℝ) ≠ 0 := by exact_mod_cast (List.length_pos_iff.2 hne).ne'
    have : ∀ (m : ℝ) (l : List ℝ), (l.map (· - m)).sum = l.sum - l.length * m := by
      intro m l
      induction l with
      | nil => simp
      | cons a l ih => simp only [List.map_cons, List.sum_cons, ih, List.length_cons]; push_cast; ring
    rw [this]; unfold avg; field_simp; ring

theorem prods_scale (b : ℝ) (x : List ℝ) : (prods x (x.map (b * ·))).sum = b * (prods x x).sum := by
  induction x with
  | nil => simp [prods]
  | cons a l ih =>
    simp only [prods] at ih
    simp only [prods, List.map_cons, List.zipWith_cons_cons, List.sum_cons, ih]; ring

/-- The spread of the positions. -/
noncomputable def sxx (x : List ℝ) : ℝ := (prods (x.map (· - avg x)) (x.map (· - avg x))).sum

theorem lsq_exact (b : ℝ) (x : List ℝ) (hx : x.sum = 0) (hd : eps ≤ (prods x x).sum) :
    lsq x (x.map (b * ·)) = some (b, 0) := by
  have heps : (0 : ℝ) < eps := by unfold eps; positivity
  have hy : (x.map (b * ·)).sum = 0 := by
    rw [List.sum_map_mul_left]; simp [hx]
  unfold lsq solve
  simp only
  rw [hx, hy, prods_scale]
  have h0 : 0 < (prods x x).sum := lt_of_lt_of_le heps hd
  rw [if_neg (by rw [mul_zero, sub_zero, abs_of_pos h0]; exact not_lt.2 hd)]
  congr 2
  · simp only [mul_zero, sub_zero]; exact mul_div_cancel_right₀ _ h0.ne'
  · simp

theorem byLsq_exact (b : ℝ) (x : List ℝ) (hx : x.sum = 0) (x0 y0 limit close : ℝ) (k : ℕ) :
    byLsq x (x.map (b * ·)) x0 y0 limit close k =
      some (if eps ≤ (prods x x).sum then (b, y0 - b * x0) else (0, 0)) := by
  unfold byLsq
  by_cases hd : eps ≤ (prods x x).sum
  · rw [lsq_exact b x hx hd, if_pos hd]
    simp only
    have e : lineAt (b, 0) x = x.map (b * ·) := by
      unfold lineAt; apply List.map_congr_left; intro v _; simp
    rw [e, C87_check_exact]
    simp [finish, uncentre]
  · have hy : (x.map (b * ·)).sum = 0 := by
      rw [List.sum_map_mul_left]; simp [hx]
    have hpos : 0 ≤ (prods x x).sum := by
      clear hx hy hd
      induction x with
      | nil => simp [prods]
      | cons a z ih =>
        have : (prods (a :: z) (a :: z)).sum = a * a + (prods z z).sum := by simp [prods]
        rw [this]; nlinarith [mul_self_nonneg a]
    have : lsq x (x.map (b * ·)) = none := by
      unfold lsq solve
      simp only
      rw [hx, mul_zero, sub_zero, abs_of_nonneg hpos, if_pos (not_le.1 hd)]
    rw [this, if_neg hd]

/-- Half of the points. -/
theorem halves_exact (b : ℝ) (u : List ℝ) (h2 : 2 ≤ u.length) (hu : u.getD 0 0 ≠ u.getD (u.length - 1) 0) :
    halves u (u.map (b * ·)) = (b, 0) := by
  have heps : (0 : ℝ) < eps := by unfold eps; positivity
  have m1 : ∀ l : List ℝ, l ≠ [] → median (l.map (b * ·)) = b * median l := by
    intro l hl
    have := median_affine b 0 l hl
    simpa using this
  have t1 : u.take (u.length / 2) ≠ [] := by
    intro h; have := congrArg List.length h; rw [List.length_take, List.length_nil] at this; omega
  have t2 : u.drop (u.length / 2) ≠ [] := by
    intro h; have := congrArg List.length h; rw [List.length_drop, List.length_nil] at this; omega
  have k : ∀ p q : ℝ, p ≠ q → (b * q - b * p) / (q - p) = b := by
    intro p q h
    have : q - p ≠ 0 := sub_ne_zero.2 (Ne.symm h)
    field_simp
  unfold halves
  simp only
  rw [← List.map_take, ← List.map_drop, m1 _ t1, m1 _ t2]
  split_ifs with hc
  · simp only
    rw [getD_map _ _ _ (by omega), getD_map _ _ _ (by omega), k _ _ hu]; simp
  · simp only
    have : median (u.take (u.length / 2)) ≠ median (u.drop (u.length / 2)) := by
      intro h; rw [h] at hc; simp at hc; linarith
    rw [k _ _ this]; simp

/-- Points on a line give that line, however many there are, unless they are held to be at one position; then the result is zero. -/
theorem C87_line (order : List (ℝ × ℝ) → List (ℝ × ℝ)) (ho : ∀ l, (order l).Perm l ∧ (order l).Pairwise fun p q => p.1 ≤ q.1)
    (a b : ℝ) (x : List ℝ) (hne : x ≠ []) (k : ℕ) (limit close : ℝ) (hd : x.length ≤ 5 ∨ ∃ p ∈ x, ∃ q ∈ x, p ≠ q) :
    linefit order x (x.map fun v => a + b * v) k limit close =
      some (if eps ≤ sxx x then (b, a) else (0, 0)) := by
  have hy : (x.map fun v => a + b * v).map (· - avg (x.map fun v => a + b * v)) = (x.map (· - avg x)).map (b * ·) := by
    rw [avg_line a b x hne, List.map_map, List.map_map]
    apply List.map_congr_left
    intro v _; simp only [Function.comp]; ring
  have hs := centred_sum x
  have fin : ∀ cl, byLsq (x.map (· - avg x)) ((x.map (· - avg x)).map (b * ·)) (avg x) (avg (x.map fun v => a + b * v))
      limit cl k = some (if eps ≤ sxx x then (b, a) else (0, 0)) := by
    intro cl
    rw [byLsq_exact b _ hs, avg_line a b x hne]
    unfold sxx
    congr 2
    rw [Prod.mk.injEq]
    exact ⟨rfl, by ring⟩
  unfold linefit
  simp only
  rw [hy]
  by_cases h5 : 5 < x.length
  · rw [if_pos h5]
    have hd' := hd.resolve_left (by omega)
    set c := x.map (· - avg x) with hc
    obtain ⟨hp, hpw⟩ := ho (c.zip (c.map (b * ·)))
    have hz : c.zip (c.map (b * ·)) = c.map fun v => (v, b * v) := by
      clear_value c
      clear hc hp hpw fin hs hy
      induction c with
      | nil => rfl
      | cons v l ih => simp only [List.map_cons, List.zip_cons_cons, ih]
    rw [hz] at hp hpw ⊢
    generalize order (c.map fun v => (v, b * v)) = s at hp hpw
    have hsnd : s.map (·.2) = (s.map (·.1)).map (b * ·) := by
      rw [List.map_map]
      apply List.map_congr_left
      intro p hp'
      obtain ⟨v, _, rfl⟩ := List.mem_map.1 (hp.mem_iff.1 hp')
      rfl
    have hlen : (s.map (·.1)).length = x.length := by
      rw [List.length_map, hp.length_eq, List.length_map, hc, List.length_map]
    have hpw' : (s.map (·.1)).Pairwise (· ≤ ·) := by rw [List.pairwise_map]; exact hpw
    have hmem : ∀ v ∈ c, v ∈ s.map (·.1) := by
      intro v hv
      exact List.mem_map.2 ⟨(v, b * v), hp.mem_iff.2 (List.mem_map.2 ⟨v, hv, rfl⟩), rfl⟩
    have hends : (s.map (·.1)).getD 0 0 ≠ (s.map (·.1)).getD ((s.map (·.1)).length - 1) 0 := by
      intro heq
      obtain ⟨p, hpx, q, hqx, hpq⟩ := hd'
      have key : ∀ v ∈ s.map (·.1), v = (s.map (·.1)).getD 0 0 := by
        intro v hv
        obtain ⟨i, hi, rfl⟩ := List.mem_iff_getElem.1 hv
        have e : (s.map (·.1))[i] = (s.map (·.1)).getD i 0 := by
          simp only [List.getD_eq_getElem?_getD, List.getElem?_eq_getElem hi, Option.getD_some]
        rw [e]
        apply le_antisymm
        · rw [heq]; exact sorted_le hpw' (by omega) (by omega)
        · exact sorted_le hpw' (by omega) hi
      have e1 := key _ (hmem (p - avg x) (List.mem_map.2 ⟨p, hpx, rfl⟩))
      have e2 := key _ (hmem (q - avg x) (List.mem_map.2 ⟨q, hqx, rfl⟩))
      apply hpq
      linarith
    rw [hsnd, halves_exact b _ (by omega) hends]
    have e : lineAt (b, 0) c = c.map (b * ·) := by
      unfold lineAt; apply List.map_congr_left; intro v _; simp
    rw [e, C87_check_exact]
    simp only [Option.bind_some]
    rw [if_pos (by omega)]
    exact fin _
  · rw [if_neg h5]
    exact fin _

/-- There is such an order. -/
example : ∃ order : List (ℝ × ℝ) → List (ℝ × ℝ), ∀ l, (order l).Perm l ∧ (order l).Pairwise fun p q => p.1 ≤ q.1 := by
  refine ⟨fun l => l.mergeSort fun p q => decide (p.1 ≤ q.1), fun l => ⟨List.mergeSort_perm _ _, ?_⟩⟩
  have := List.pairwise_mergeSort (le := fun p q : ℝ × ℝ => decide (p.1 ≤ q.1))
    (fun a b c h1 h2 => by simp only [decide_eq_true_eq] at *; exact le_trans h1 h2)
    (fun a b => by simp only [Bool.or_eq_true, decide_eq_true_eq]; exact le_total _ _) l
  exact this.imp fun h => by simpa using h

/-- A single point gives zero and not its value. -/
theorem C87_not_single (order : List (ℝ × ℝ) → List (ℝ × ℝ)) (ho : ∀ l, (order l).Perm l ∧ (order l).Pairwise fun p q => p.1 ≤ q.1)
    (x y : ℝ) (k : ℕ) (limit close : ℝ) : linefit order [x] [y] k limit close = some (0, 0) := by
  have := C87_line order ho y 0 [x] (by simp) k limit close (Or.inl (by simp))
  have heps : (0 : ℝ) < eps := by unfold eps; positivity
  have hs : sxx [x] = 0 := by simp [sxx, avg, prods]
  rw [hs, if_neg (not_le.2 heps)] at this
  simpa using this

/-! ## Polynomials -/

/-- The coefficients put back are those of the polynomial moved by the means, for orders one to five. -/
theorem C87_rescale (c : List ℝ) (h1 : 2 ≤ c.length) (h2 : c.length ≤ 6) (x0 y0 x : ℝ) :
    eval (rescale c x0 y0) x = evalLow c (x - x0) + y0 := by
  match c, h1, h2 with
  | [c0, c1], _, _ => simp [rescale, eval, evalLow]; ring
  | [c0, c1, c2], _, _ => simp [rescale, eval, evalLow]; ring
  | [c0, c1, c2, c3], _, _ => simp [rescale, eval, evalLow]; ring
  | [c0, c1, c2, c3, c4], _, _ => simp [rescale, eval, evalLow]; ring
  | [c0, c1, c2, c3, c4, c5], _, _ => simp [rescale, eval, evalLow]; ring
  | _ :: _ :: _ :: _ :: _ :: _ :: _ :: _, _, h2 => simp only [List.length_cons] at h2; omega

theorem eval_reverse (c : List ℝ) (x : ℝ) : eval c.reverse x = evalLow c x := by
  induction c with
  | nil => rfl
  | cons a c ih =>
    unfold eval at *
    rw [List.reverse_cons, List.foldl_append, ih]
    simp only [List.foldl_cons, List.foldl_nil, evalLow]; ring

/-- For higher orders there is nothing to put back. -/
theorem C87_rescale_high (c : List ℝ) (h : 7 ≤ c.length) (x0 y0 x : ℝ) : eval (rescale c x0 y0) x = evalLow c x := by
  match c, h with
  | a :: b :: d :: e :: f :: g :: k :: l, _ =>
    rw [← eval_reverse]; rfl

/-- For order zero the mean is lost. -/
theorem C87_not_order_zero (c x0 y0 x : ℝ) : eval (rescale [c] x0 y0) x = c := by
  simp [rescale, eval]

theorem polyval_eq (c : List ℝ) (x : ℝ) : polyval c x = evalLow c x := by
  induction c with
  | nil => rfl
  | cons a c ih =>
    unfold polyval at *
    rw [List.foldr_cons, ih]; rfl

theorem polyResidual_nonneg (c u v : List ℝ) : 0 ≤ polyResidual c u v := by
  unfold polyResidual
  induction u generalizing v with
  | nil => simp
  | cons a u ih =>
    cases v with
    | nil => simp
    | cons b v => simp only [List.zipWith_cons_cons, List.sum_cons]; have := ih v; positivity

theorem polyResidual_zero (c u v : List ℝ) (hl : u.length = v.length) (h : polyResidual c u v = 0) :
    u.map (evalLow c) = v := by
  induction u generalizing v with
  | nil => cases v with
    | nil => rfl
    | cons _ _ => simp at hl
  | cons a u ih =>
    cases v with
    | nil => simp at hl
    | cons b v =>
      have e : polyResidual c (a :: u) (b :: v) = (b - evalLow c a) ^ 2 + polyResidual c u v := by simp [polyResidual]
      rw [e] at h
      have h1 := polyResidual_nonneg c u v
      have h2 : 0 ≤ (b - evalLow c a) ^ 2 := sq_nonneg _
      have h3 : (b - evalLow c a) ^ 2 = 0 := by linarith
      have h4 : polyResidual c u v = 0 := by linarith
      have h5 : b - evalLow c a = 0 := pow_eq_zero_iff two_ne_zero |>.1 h3
      rw [List.map_cons, ih v (by simpa using hl) h4]
      congr 1; linarith

theorem polyResidual_exact (c u : List ℝ) : polyResidual c u (u.map (evalLow c)) = 0 := by
  unfold polyResidual
  induction u with
  | nil => rfl
  | cons a u ih => simp only [List.map_cons, List.zipWith_cons_cons, List.sum_cons, ih]; ring

/-- Least squares go through the points when that can be. -/
theorem C87_exact (fit : List ℝ → List ℝ → ℕ → List ℝ) (h : LeastSquares fit) : Exact fit := by
  intro u v n hl
  refine ⟨(h u v n hl).1, ?_⟩
  rintro ⟨c, hc, h0⟩
  exact le_antisymm (h0 ▸ (h u v n hl).2 c hc) (polyResidual_nonneg _ _ _)

/-- There are such fits. -/
example : ∃ fit, Exact fit := by
  classical
  refine ⟨fun u v n => if h : ∃ c : List ℝ, c.length = n + 1 ∧ polyResidual c u v = 0 then h.choose else List.replicate (n + 1) 0, ?_⟩
  intro u v n _
  by_cases h : ∃ c : List ℝ, c.length = n + 1 ∧ polyResidual c u v = 0
  · simp only [dif_pos h]
    exact ⟨h.choose_spec.1, fun _ => h.choose_spec.2⟩
  · simp only [dif_neg h]
    exact ⟨by simp, fun h' => absurd h' h⟩

theorem evalLow_add (c d : List ℝ) (h : c.length = d.length) (x : ℝ) :
    evalLow (List.zipWith (· + ·) c d) x = evalLow c x + evalLow d x := by
  induction c generalizing d with
  | nil => cases d with
    | nil => simp [evalLow]
    | cons _ _ => simp at h
  | cons a c ih =>
    cases d with
    | nil => simp at h
    | cons b d =>
      rw [List.zipWith_cons_cons, evalLow, evalLow, evalLow, ih d (by simpa using h)]; ring

theorem evalLow_scale (k : ℝ) (c : List ℝ) (x : ℝ) : evalLow (c.map (k * ·)) x = k * evalLow c x := by
  induction c with
  | nil => simp [evalLow]
  | cons a c ih => rw [List.map_cons, evalLow, evalLow, ih]; ring

/-- A polynomial moved along is a polynomial of the same order. -/
theorem shift_poly (t : ℝ) (c : List ℝ) : ∃ d : List ℝ, d.length = c.length ∧ ∀ x, evalLow d x = evalLow c (x + t) := by
  induction c with
  | nil => exact ⟨[], rfl, fun x => rfl⟩
  | cons a c ih =>
    obtain ⟨d, hl, hd⟩ := ih
    -- a + (x + t) d(x)
    refine ⟨List.zipWith (· + ·) (a :: d) ((d.map (t * ·)) ++ [0]), by simp [hl], ?_⟩
    intro x
    rw [evalLow_add _ _ (by simp)]
    have e0 : ∀ l : List ℝ, evalLow (l ++ [0]) x = evalLow l x := by
      intro l
      induction l with
      | nil => simp [evalLow]
      | cons b l ih => rw [List.cons_append, evalLow, evalLow, ih]
    rw [e0, evalLow_scale, evalLow, evalLow, hd]; ring

/-- Points on a polynomial give a polynomial through them all, for every order from one. -/
theorem C87_poly_partial (fit : List ℝ → List ℝ → ℕ → List ℝ) (hf : Exact fit) (go : List ℝ → Check → Option (List ℝ))
    (p x : List ℝ) (order : ℕ) (h1 : 1 ≤ order) (hp : p.length = order + 1) :
    ∃ r, polyfit fit go x (x.map (evalLow p)) order = some r ∧ r.length = order + 1 ∧
      ∀ v ∈ x, eval r v = evalLow p v := by
  have exact : ∀ (u v : List ℝ) (d : List ℝ), d.length = order + 1 → v = u.map (evalLow d) →
      u.map (polyval (fit u v order)) = v ∧ (fit u v order).length = order + 1 := by
    intro u v d hd hv
    have hl : u.length = v.length := by rw [hv, List.length_map]
    have h2 := hf u v order hl
    have h4 : polyResidual d u v = 0 := by rw [hv]; exact polyResidual_exact d u
    have h5 := h2.2 ⟨d, hd, h4⟩
    refine ⟨?_, h2.1⟩
    have h6 := polyResidual_zero _ _ _ hl h5
    rw [← h6]
    rw [h6]
    conv_rhs => rw [← h6]
    apply List.map_congr_left
    intro a _; exact polyval_eq _ _
  unfold polyfit
  simp only
  by_cases h6 : order < 6
  · simp only [h6, if_true]
    set x0 := avg x
    set y0 := avg (x.map (evalLow p))
    obtain ⟨d, hdl, hd⟩ := shift_poly x0 p
    obtain ⟨a, d', rfl⟩ : ∃ a d', d = a :: d' := by
      cases d with
      | nil => simp at hdl; omega
      | cons a d' => exact ⟨a, d', rfl⟩
    have hv : (x.map (evalLow p)).map (· - y0) = (x.map (· - x0)).map (evalLow ((a - y0) :: d')) := by
      rw [List.map_map, List.map_map]
      apply List.map_congr_left
      intro v _
      simp only [Function.comp]
      have := hd (v - x0)
      rw [sub_add_cancel] at this
      rw [← this, evalLow, evalLow]; ring
    obtain ⟨e1, e2⟩ := exact (x.map (· - x0)) _ ((a - y0) :: d') (by simpa using hdl.trans hp) hv
    rw [e1, C87_check_exact]
    simp only [Option.bind_some, if_true]
    refine ⟨_, rfl, ?_, ?_⟩
    · generalize fit (x.map (· - x0)) ((x.map (evalLow p)).map (· - y0)) order = c at e2
      rw [← e2]
      unfold rescale
      rw [List.length_reverse]
      split <;> simp
    · intro v hvx
      rw [C87_rescale _ (by omega) (by omega)]
      have := (List.map_eq_map_iff (l := x)
        (f := fun w => polyval (fit (x.map (· - x0)) ((x.map (evalLow p)).map (· - y0)) order) (w - x0))
        (g := fun w => evalLow p w - y0)).1 (by
          have := e1
          rw [List.map_map] at this
          conv at this => rhs; rw [List.map_map]
          exact this) v hvx
      rw [← polyval_eq, this]; ring
  · simp only [h6, if_false]
    obtain ⟨e1, e2⟩ := exact x _ p hp rfl
    rw [e1, C87_check_exact]
    simp only [Option.bind_some, if_true]
    refine ⟨_, rfl, ?_, ?_⟩
    · generalize fit x (x.map (evalLow p)) order = c at e2
      rw [← e2]
      unfold rescale
      rw [List.length_reverse]
      split <;> simp
    · intro v hvx
      rw [C87_rescale_high _ (by omega)]
      have := (List.map_eq_map_iff).1 e1 v hvx
      rw [← polyval_eq]; exact this

/-- Order zero gives zero instead of the mean. -/
theorem C87_not_mean (fit : List ℝ → List ℝ → ℕ → List ℝ) (hf : Exact fit) (go : List ℝ → Check → Option (List ℝ))
    (x : List ℝ) (hne : x ≠ []) (c : ℝ) : polyfit fit go x (x.map fun _ => c) 0 = some [0] := by
  have hl : (x.length : ℝ) ≠ 0 := by exact_mod_cast (List.length_pos_iff.2 hne).ne'
  have ha : avg (x.map fun _ => c) = c := by
    unfold avg
    rw [List.map_const', List.sum_replicate, List.length_replicate]; simp; field_simp
  unfold polyfit
  simp only [show (0 : ℕ) < 6 by omega, if_true]
  rw [ha, List.map_map]
  set u := x.map (· - avg x) with hu
  have hv : x.map ((· - c) ∘ fun _ => c) = u.map (evalLow [0]) := by
    rw [hu, List.map_map]; apply List.map_congr_left; intro v _; simp [evalLow]
  rw [hv]
  have hul : u.length = (u.map (evalLow [0])).length := by simp
  have h2 := hf u (u.map (evalLow [0])) 0 hul
  have h5 := h2.2 ⟨[0], rfl, polyResidual_exact _ _⟩
  have h6 := polyResidual_zero _ _ _ hul h5
  generalize fit u (u.map (evalLow [0])) 0 = d at h2 h6
  obtain ⟨a, rfl⟩ := List.length_eq_one_iff.1 h2.1
  have he : u.map (polyval [a]) = u.map (evalLow [0]) := by
    rw [← h6]; apply List.map_congr_left; intro v _; exact polyval_eq _ _
  rw [he, C87_check_exact]
  have ha0 : a = 0 := by
    obtain ⟨w, t, rfl⟩ := List.exists_cons_of_ne_nil hne
    have := (List.map_eq_map_iff).1 h6 (w - avg (w :: t)) (by rw [hu]; simp)
    simpa [evalLow] using this
  simp [rescale, ha0]

/-! ## How many are good -/

/-- Of the points those are good that are not beyond the limit. -/
theorem C87_good (data fit : List ℝ) (limit : ℝ) (hl : 0 < limit) (hlen : fit.length = data.length) (c : Check)
    (h : checkfit data fit limit = some c) (hst : c.status = true) :
    c.nGood = ((List.zipWith (· - ·) data fit).filter fun d => |d| ≤ limit * c.sigma).length ∧ eps ≤ c.sigma ∧
      c.weights = biweights limit c.sigma (List.zipWith (· - ·) data fit) := by
  have heps : (0 : ℝ) < eps := by unfold eps; positivity
  unfold checkfit at h
  simp only at h
  rw [Option.map_eq_some_iff] at h
  obtain ⟨s, _, h⟩ := h
  split_ifs at h with h1 h2
  · subst h; simp at hst
  · subst h; simp at hst
  · subst h
    refine ⟨?_, not_lt.1 h1, rfl⟩
    have hp : 0 < limit * s := mul_pos hl (lt_of_lt_of_le heps (not_lt.1 h1))
    have key : ∀ l : List ℝ, (l.filter fun d => decide (1 < |d| / (limit * s))).length +
        (l.filter fun d => decide (|d| ≤ limit * s)).length = l.length := by
      intro l
      induction l with
      | nil => rfl
      | cons a l ih =>
        by_cases ha : |a| ≤ limit * s
        · have hb : ¬ 1 < |a| / (limit * s) := by rw [lt_div_iff₀ hp, one_mul]; exact not_lt.2 ha
          simp only [List.filter_cons, ha, hb, decide_true, decide_false, if_true, Bool.false_eq_true, if_false, List.length_cons]
          omega
        · have hb : 1 < |a| / (limit * s) := by rw [lt_div_iff₀ hp, one_mul]; exact not_le.1 ha
          simp only [List.filter_cons, ha, hb, decide_true, decide_false, if_true, Bool.false_eq_true, if_false, List.length_cons]
          omega
    have := key (List.zipWith (· - ·) data fit)
    rw [List.length_zipWith, hlen, Nat.min_self] at this
    simp only
    omega

/-! ## Moved data -/

/-- The line after a move of the data. -/
def moved (s t : ℝ) (cc : ℝ × ℝ) : ℝ × ℝ := (cc.1, cc.2 + t - cc.1 * s)

/-- The results are those of the same line, or both were given up. -/
def Same (s t : ℝ) (r r' : Option (ℝ × ℝ)) : Prop := (r = some (0, 0) ∧ r' = some (0, 0)) ∨ r' = r.map (moved s t)

theorem same_uncentre (s t x0 y0 : ℝ) (cc : ℝ × ℝ) :
    Same s t (some (uncentre x0 y0 cc)) (some (uncentre (x0 + s) (y0 + t) cc)) := by
  right
  simp only [uncentre, moved, Option.map_some, Option.some.injEq, Prod.mk.injEq, true_and]
  ring

theorem same_none (s t : ℝ) : Same s t none none := Or.inr rfl

theorem lineLoop_moved (x y : List ℝ) (x0 y0 s t limit close : ℝ) (k : ℕ) (sg s1 : ℝ) (w : List ℝ) (cc : ℝ × ℝ) :
    Same s t (lineLoop x y x0 y0 limit close k sg s1 w cc) (lineLoop x y (x0 + s) (y0 + t) limit close k sg s1 w cc) := by
  induction k generalizing sg s1 w cc with
  | zero => exact same_uncentre ..
  | succ k ih =>
    unfold lineLoop
    cases wlsq w x y with
    | none => exact Or.inl ⟨rfl, rfl⟩
    | some c =>
      simp only
      cases checkfit y (lineAt c x) limit with
      | none => exact same_none s t
      | some q =>
        simp only [Option.bind_some]
        split_ifs
        · exact same_uncentre ..
        · exact ih ..
        · exact same_uncentre ..

theorem finish_moved (x y : List ℝ) (x0 y0 s t limit close : ℝ) (k : ℕ) (cc : ℝ × ℝ) (c : Check) :
    Same s t (finish x y x0 y0 limit close k cc c) (finish x y (x0 + s) (y0 + t) limit close k cc c) := by
  unfold finish
  split_ifs
  · exact same_uncentre ..
  · exact lineLoop_moved ..

theorem byLsq_moved (x y : List ℝ) (x0 y0 s t limit close : ℝ) (k : ℕ) :
    Same s t (byLsq x y x0 y0 limit close k) (byLsq x y (x0 + s) (y0 + t) limit close k) := by
  unfold byLsq
  cases lsq x y with
  | none => exact Or.inl ⟨rfl, rfl⟩
  | some c =>
    simp only
    cases checkfit y (lineAt c x) 6 with
    | none => exact same_none s t
    | some q => exact finish_moved ..

theorem avg_move (s : ℝ) (x : List ℝ) (hne : x ≠ []) : avg (x.map (· + s)) = avg x + s := by
  have := avg_affine 1 s x hne
  simpa using this

/-- Data moved along or up give the line moved along or up, with however many outliers. -/
theorem C87_move (order : List (ℝ × ℝ) → List (ℝ × ℝ)) (x y : List ℝ) (hx : x ≠ []) (hy : y ≠ []) (s t : ℝ) (k : ℕ)
    (limit close : ℝ) :
    Same s t (linefit order x y k limit close) (linefit order (x.map (· + s)) (y.map (· + t)) k limit close) := by
  have e : ∀ (z : List ℝ) (q : ℝ), z ≠ [] → (z.map (· + q)).map (· - (avg z + q)) = z.map (· - avg z) := by
    intro z q _
    rw [List.map_map]; apply List.map_congr_left; intro v _; simp only [Function.comp]; ring
  unfold linefit
  simp only [avg_move s x hx, avg_move t y hy, e x s hx, e y t hy, List.length_map]
  split_ifs with h5
  · generalize checkfit _ _ 6 = r
    cases r with
    | none => exact same_none s t
    | some q =>
      simp only [Option.bind_some]
      split_ifs
      · exact byLsq_moved ..
      · exact finish_moved ..
  · exact byLsq_moved ..

/-! ## What the passes end with -/

/-- The line has the least sum of squares for some weights, not all of which are zero. -/
def Weighted (x y : List ℝ) (cc : ℝ × ℝ) : Prop :=
  ∃ w : List ℝ, w.length = x.length ∧ (∀ v ∈ w, 0 ≤ v) ∧ 0 < w.sum ∧
    ∀ m c, lineResidual w x y cc.1 cc.2 ≤ lineResidual w x y m c

theorem wsum_zero (w z : List ℝ) (h : ∀ v ∈ w, v = 0) : wsum w z = 0 := by
  unfold wsum
  induction w generalizing z with
  | nil => simp
  | cons a w ih =>
    cases z with
    | nil => simp
    | cons b z =>
      rw [List.zipWith_cons_cons, List.sum_cons, ih z fun v hv => h v (by simp [hv]), h a (by simp)]; simp

theorem wlsq_weighted (limit sigma : ℝ) (hl : 0 < limit) (hs : 0 < sigma) (devs x y : List ℝ) (hx : x.length = devs.length)
    (hy : y.length = devs.length) (cc : ℝ × ℝ) (h : wlsq (biweights limit sigma devs) x y = some cc) : Weighted x y cc := by
  have heps : (0 : ℝ) < eps := by unfold eps; positivity
  have hlen : (biweights limit sigma devs).length = devs.length := by simp [biweights]
  by_cases hd : ∃ d ∈ devs, |d| < limit * sigma
  · obtain ⟨h1, h2⟩ := C87_weights limit sigma hl hs devs hd
    exact ⟨_, by omega, h2, by rw [h1]; norm_num,
      fun m c => C87_weighted _ x y (by omega) (by omega) h2 h1 cc.1 cc.2 h m c⟩
  · exfalso
    have hz : ∀ v ∈ biweights limit sigma devs, v = 0 := by
      intro v hv
      unfold biweights at hv
      obtain ⟨w, hw, rfl⟩ := List.mem_map.1 hv
      obtain ⟨d, hdm, rfl⟩ := List.mem_map.1 hw
      have : limit * sigma ≤ |d| := by
        by_contra hlt
        exact hd ⟨d, hdm, not_le.1 hlt⟩
      rw [(C87_rejected limit sigma d hl hs).1 this, zero_div]
    unfold wlsq solve at h
    simp only [wsum_zero _ _ hz] at h
    simp [heps] at h

theorem check_weights (data fit : List ℝ) (limit : ℝ) (c : Check) (h : checkfit data fit limit = some c)
    (hg : ¬ (c.nGood < 2)) : 0 < c.sigma ∧ c.weights = biweights limit c.sigma (List.zipWith (· - ·) data fit) := by
  have heps : (0 : ℝ) < eps := by unfold eps; positivity
  unfold checkfit at h
  simp only at h
  rw [Option.map_eq_some_iff] at h
  obtain ⟨s, _, h⟩ := h
  split_ifs at h with h1 h2
  · subst h; simp at hg
  · subst h; simp at hg
  · subst h
    exact ⟨lt_of_lt_of_le heps (not_lt.1 h1), rfl⟩

theorem lineResidual_move (w x y : List ℝ) (x0 y0 m c : ℝ) :
    lineResidual w (x.map (· - x0)) (y.map (· - y0)) m c = lineResidual w x y m (c + y0 - m * x0) := by
  induction w generalizing x y with
  | nil => simp [lineResidual]
  | cons a w ih =>
    match x, y with
    | [], _ => simp [lineResidual]
    | _ :: _, [] => simp [lineResidual]
    | p :: x, q :: y => simp only [List.map_cons, lineResidual, ih]; ring

theorem weighted_uncentre (x y : List ℝ) (x0 y0 : ℝ) (cc : ℝ × ℝ)
    (h : Weighted (x.map (· - x0)) (y.map (· - y0)) cc) : Weighted x y (uncentre x0 y0 cc) := by
  obtain ⟨w, h1, h2, h3, h4⟩ := h
  refine ⟨w, by simpa using h1, h2, h3, ?_⟩
  intro m c
  have := h4 m (c - y0 + m * x0)
  rw [lineResidual_move, lineResidual_move] at this
  simp only [uncentre]
  rw [show c - y0 + m * x0 + y0 - m * x0 = c by ring] at this
  exact this

/-- What is returned: zero, or a line of weighted least squares. -/
def Outcome (x y : List ℝ) (r : Option (ℝ × ℝ)) : Prop := ∀ cc, r = some cc → cc = (0, 0) ∨ Weighted x y cc

theorem outcome_uncentre (x y : List ℝ) (x0 y0 : ℝ) (cc : ℝ × ℝ) (h : Weighted (x.map (· - x0)) (y.map (· - y0)) cc) :
    Outcome x y (some (uncentre x0 y0 cc)) := by
  intro r hr
  rw [← Option.some.inj hr]
  exact Or.inr (weighted_uncentre x y x0 y0 cc h)

theorem lineLoop_outcome (x y : List ℝ) (hxy : y.length = x.length) (x0 y0 limit close : ℝ) (hl : 0 < limit) (k : ℕ)
    (sg s1 : ℝ) (w : List ℝ) (cc : ℝ × ℝ)
    (hw : ∃ l s devs, 0 < l ∧ 0 < s ∧ devs.length = x.length ∧ w = biweights l s devs)
    (hc : k = 0 → Weighted (x.map (· - x0)) (y.map (· - y0)) cc) :
    Outcome x y (lineLoop (x.map (· - x0)) (y.map (· - y0)) x0 y0 limit close k sg s1 w cc) := by
  induction k generalizing sg s1 w cc with
  | zero => exact outcome_uncentre _ _ _ _ _ (hc rfl)
  | succ k ih =>
    obtain ⟨l, s, devs, hl0, hs0, hdl, rfl⟩ := hw
    unfold lineLoop
    cases hq : wlsq (biweights l s devs) (x.map (· - x0)) (y.map (· - y0)) with
    | none => intro r hr; left; exact (Option.some.inj hr).symm
    | some c =>
      have hcw := wlsq_weighted l s hl0 hs0 devs _ _ (by simp [hdl]) (by simp [hdl, hxy]) c hq
      simp only
      cases hk : checkfit (y.map (· - y0)) (lineAt c (x.map (· - x0))) limit with
      | none => intro r hr; simp at hr
      | some q =>
        simp only [Option.bind_some]
        split_ifs with g1 g2
        · exact outcome_uncentre _ _ _ _ _ hcw
        · rw [not_or] at g1
          obtain ⟨e1, e2⟩ := check_weights _ _ _ _ hk g1.2
          exact ih _ _ _ _ ⟨limit, q.sigma, _, hl, e1, by simp [lineAt, hxy], e2⟩ fun _ => hcw
        · exact outcome_uncentre _ _ _ _ _ hcw

theorem lsq_weighted (x y : List ℝ) (hne : x ≠ []) (hxy : y.length = x.length) (hx : x.sum = 0) (hy : y.sum = 0) (cc : ℝ × ℝ)
    (h : lsq x y = some cc) : Weighted x y cc := by
  refine ⟨List.replicate x.length 1, by simp, ?_, ?_, fun m c => C87_plain x y hxy hx hy cc.1 cc.2 h m c⟩
  · intro v hv; rw [List.eq_of_mem_replicate hv]; norm_num
  · have := List.length_pos_iff.2 hne
    simp; exact_mod_cast this

theorem byLsq_outcome (x y : List ℝ) (hne : x ≠ []) (hxy : y.length = x.length) (limit close : ℝ) (hl : 0 < limit) (k : ℕ) :
    Outcome x y (byLsq (x.map (· - avg x)) (y.map (· - avg y)) (avg x) (avg y) limit close k) := by
  unfold byLsq
  cases hq : lsq (x.map (· - avg x)) (y.map (· - avg y)) with
  | none => intro r hr; left; exact (Option.some.inj hr).symm
  | some c =>
    have hcw := lsq_weighted _ _ (by simpa using hne) (by simp [hxy]) (centred_sum x) (centred_sum y) c hq
    simp only
    cases hk : checkfit (y.map (· - avg y)) (lineAt c (x.map (· - avg x))) 6 with
    | none => intro r hr; simp at hr
    | some q =>
      simp only [Option.bind_some]
      unfold finish
      split_ifs with g
      · exact outcome_uncentre _ _ _ _ _ hcw
      · obtain ⟨e1, e2⟩ := check_weights _ _ _ _ hk g
        exact lineLoop_outcome x y hxy _ _ _ _ hl _ _ _ _ _ ⟨6, q.sigma, _, by norm_num, e1, by simp [lineAt, hxy], e2⟩
          fun _ => hcw

/-- The result, if it is not zero, is the line of least squares of the data for some weights that are not negative. -/
theorem C87_outcome (order : List (ℝ × ℝ) → List (ℝ × ℝ)) (x y : List ℝ) (hne : x ≠ []) (hxy : y.length = x.length) (k : ℕ)
    (hk : 1 ≤ k) (limit close : ℝ) (hl : 0 < limit) (cc : ℝ × ℝ) (h : linefit order x y k limit close = some cc) :
    cc = (0, 0) ∨ Weighted x y cc := by
  suffices hO : Outcome x y (linefit order x y k limit close) from hO cc h
  clear h
  unfold linefit
  simp only
  split_ifs with h5
  · generalize halves _ _ = c0
    cases hq : checkfit (y.map (· - avg y)) (lineAt c0 (x.map (· - avg x))) 6 with
    | none => intro r hr; simp at hr
    | some q =>
      simp only [Option.bind_some]
      split_ifs with g
      · exact byLsq_outcome x y hne hxy _ _ hl _
      · unfold finish
        rw [if_neg g]
        obtain ⟨e1, e2⟩ := check_weights _ _ _ _ hq g
        exact lineLoop_outcome x y hxy _ _ _ _ hl _ _ _ _ _ ⟨6, q.sigma, _, by norm_num, e1, by simp [lineAt, hxy], e2⟩
          fun h0 => by omega
  · exact byLsq_outcome x y hne hxy _ _ hl _

/-! ## Segments -/

theorem segments_foldl (rest : List ℕ) (b : ℕ) (acc : List (ℕ × ℕ)) :
    (rest.foldl (fun (s : ℕ × List (ℕ × ℕ)) m => (s.1 + m, s.2 ++ [(s.1, s.1 + m)])) (b, acc)).1 = b + rest.sum := by
  induction rest generalizing b acc with
  | nil => simp
  | cons m rest ih => rw [List.foldl_cons, ih, List.sum_cons]; omega

/-- The segments of a large fit end one point before the last, and the second begins with the last point of the first. -/
theorem C87_not_segments (k m : ℕ) (hk : 1 ≤ k) (rest : List ℕ) :
    (∃ q, (segments (k :: m :: rest)) = (0, k) :: (k - 1, k - 1 + m) :: q) ∧
      ((segments (k :: m :: rest)).getLastD (0, 0)).2 + 1 = (k :: m :: rest).sum := by
  have key : ∀ (rest : List ℕ) (b : ℕ) (acc : List (ℕ × ℕ)) (d : ℕ × ℕ), acc.getLastD d = (d.1, b) ∨ (acc.getLastD d).2 = b →
      ((rest.foldl (fun (s : ℕ × List (ℕ × ℕ)) m => (s.1 + m, s.2 ++ [(s.1, s.1 + m)])) (b, acc)).2.getLastD d).2 = b + rest.sum := by
    intro rest
    induction rest with
    | nil => intro b acc d h; rw [List.foldl_nil, List.sum_nil]; rcases h with h | h <;> rw [h] <;> rfl
    | cons m rest ih =>
      intro b acc d _
      rw [List.foldl_cons, ih _ _ _ (Or.inr (by simp)), List.sum_cons]; omega
  have pre : ∀ (rest : List ℕ) (b : ℕ) (acc : List (ℕ × ℕ)),
      ∃ q, (rest.foldl (fun (s : ℕ × List (ℕ × ℕ)) m => (s.1 + m, s.2 ++ [(s.1, s.1 + m)])) (b, acc)).2 = acc ++ q := by
    intro rest
    induction rest with
    | nil => intro b acc; exact ⟨[], by simp⟩
    | cons m rest ih =>
      intro b acc
      obtain ⟨q, hq⟩ := ih (b + m) (acc ++ [(b, b + m)])
      exact ⟨(b, b + m) :: q, by rw [List.foldl_cons, hq]; simp⟩
  constructor
  · obtain ⟨q, hq⟩ := pre rest (k - 1 + m) [(k - 1, k - 1 + m)]
    refine ⟨q, ?_⟩
    show (0, k) :: (rest.foldl _ (k - 1 + m, [(k - 1, k - 1 + m)])).2 = _
    rw [hq]; rfl
  · have h2 := key rest (k - 1 + m) [(k - 1, k - 1 + m)] (0, k) (Or.inr (by simp))
    show (((0, k) :: (rest.foldl _ (k - 1 + m, [(k - 1, k - 1 + m)])).2).getLastD (0, 0)).2 + 1 = _
    rw [List.getLastD_cons, h2, List.sum_cons, List.sum_cons]; omega

/-- The segments hold as many points as there are. -/
theorem C87_sizes (n order : ℕ) : (nPerSeg n order).sum = n := by
  have key : ∀ (c a r j : ℕ), j < c → ((List.replicate c a).modify j (· + r)).sum = c * a + r := by
    intro c
    induction c with
    | zero => intro a r j h; omega
    | succ c ih =>
      intro a r j h
      cases j with
      | zero => simp [List.replicate_succ]; ring
      | succ j =>
        rw [List.replicate_succ, List.modify_succ_cons, List.sum_cons, ih a r j (by omega)]; ring
  unfold nPerSeg
  simp only
  have hpos : ∀ c : ℕ, 0 < c → ((List.replicate c (n / c)).modify (c / 2) (· + (n - n / c * c))).sum = n := by
    intro c hc
    rw [key _ _ _ _ (by omega)]
    have := Nat.div_mul_le_self n c
    rw [Nat.mul_comm c]; omega
  exact hpos _ (by split <;> omega)

/-- There is an odd number of segments. -/
theorem C87_odd (n order : ℕ) : (nPerSeg n order).length % 2 = 1 := by
  unfold nPerSeg
  simp only [List.length_modify, List.length_replicate]
  split <;> omega

example : segments (nPerSeg 10000 2) = [(0, 2000), (1999, 3999), (3999, 5999), (5999, 7999), (7999, 9999)] := by decide +kernel

end Verif.Robust
