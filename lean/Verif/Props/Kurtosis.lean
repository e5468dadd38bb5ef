import Verif.Model.Kurtosis
import Verif.Spec.Kurtosis
import Mathlib.Tactic.FieldSimp
import Mathlib.Tactic.Ring
import Mathlib.Tactic.LinearCombination
import Mathlib.Tactic.Positivity
import Mathlib.Tactic.NormNum
import Mathlib.Tactic.Linarith
import Mathlib.Algebra.BigOperators.Group.List.Basic
/-!
# C85: spectral kurtosis
-/
namespace Verif.Kurtosis
open Spec

/-- With the average of the sum of squares for noise the kurtosis is one. -/
theorem C85_mean (M N : ℕ) (hM : 2 ≤ M) (hN : 1 ≤ N) :
    ((M : ℝ) * s1 M N - 1) * ((M * N + 1) / (M - 1)) = 1 := by
  have hm : (2 : ℝ) ≤ M := by exact_mod_cast hM
  have hn : (1 : ℝ) ≤ N := by exact_mod_cast hN
  have h1 : (M : ℝ) - 1 ≠ 0 := by linarith
  have h2 : (M : ℝ) ≠ 0 := by linarith
  have h3 : (N : ℝ) ≠ 0 := by linarith
  have h4 : (M : ℝ) * N + 1 ≠ 0 := by positivity
  simp only [s1, moment, rising, List.map, List.prod_cons, List.prod_nil, List.sum_cons, List.sum_nil]
  norm_num [rising]
  field_simp
  ring

/-- The variance is that of the kurtosis of noise. -/
theorem C85_var (M N : ℕ) (hM : 2 ≤ M) (hN : 1 ≤ N) :
    var M N = ((M : ℝ) * ((M * N + 1) / (M - 1))) ^ 2 * (s2 M N - s1 M N ^ 2) := by
  have hm : (2 : ℝ) ≤ M := by exact_mod_cast hM
  have hn : (1 : ℝ) ≤ N := by exact_mod_cast hN
  have h1 : (M : ℝ) - 1 ≠ 0 := by linarith
  have h2 : (M : ℝ) ≠ 0 := by linarith
  have h3 : (N : ℝ) ≠ 0 := by linarith
  have h4 : (M : ℝ) * N + 1 ≠ 0 := by positivity
  have h5 : (M : ℝ) * N + 2 ≠ 0 := by positivity
  have h6 : (M : ℝ) * N + 3 ≠ 0 := by positivity
  simp only [var, s1, s2, moment, List.map, List.prod_cons, List.prod_nil, List.sum_cons, List.sum_nil]
  norm_num [rising]
  field_simp
  ring

/-- The third moment is that of the kurtosis of noise. -/
theorem C85_skew (M N : ℕ) (hM : 2 ≤ M) (hN : 1 ≤ N) :
    skew M N = ((M : ℝ) * ((M * N + 1) / (M - 1))) ^ 3 *
      (s3 M N - 3 * s1 M N * s2 M N + 2 * s1 M N ^ 3) := by
  have hm : (2 : ℝ) ≤ M := by exact_mod_cast hM
  have hn : (1 : ℝ) ≤ N := by exact_mod_cast hN
  have h1 : (M : ℝ) - 1 ≠ 0 := by linarith
  have h2 : (M : ℝ) ≠ 0 := by linarith
  have h3 : (N : ℝ) ≠ 0 := by linarith
  have h4 : (M : ℝ) * N + 1 ≠ 0 := by positivity
  have h5 : (M : ℝ) * N + 2 ≠ 0 := by positivity
  have h6 : (M : ℝ) * N + 3 ≠ 0 := by positivity
  have h7 : (M : ℝ) * N + 4 ≠ 0 := by positivity
  have h8 : (M : ℝ) * N + 5 ≠ 0 := by positivity
  simp only [skew, var, s1, s2, s3, moment, List.map, List.prod_cons, List.prod_nil, List.sum_cons, List.sum_nil]
  norm_num [rising]
  field_simp
  ring

theorem var_pos (M N : ℕ) (hM : 2 ≤ M) (hN : 1 ≤ N) : 0 < var M N := by
  have hm : (2 : ℝ) ≤ M := by exact_mod_cast hM
  have hn : (1 : ℝ) ≤ N := by exact_mod_cast hN
  have h1 : (0 : ℝ) < M - 1 := by linarith
  unfold var
  positivity

theorem skew_pos (M N : ℕ) (hM : 2 ≤ M) (hN : 1 ≤ N) : 0 < skew M N := by
  have hm : (2 : ℝ) ≤ M := by exact_mod_cast hM
  have hn : (1 : ℝ) ≤ N := by exact_mod_cast hN
  have h1 : (0 : ℝ) < M - 1 := by linarith
  have hv := var_pos M N hM hN
  have h2 : (0 : ℝ) < (N + 4) * M * N - 5 * N - 2 := by
    nlinarith [mul_nonneg (sub_nonneg.2 hm) (sub_nonneg.2 hn),
      mul_nonneg (mul_nonneg (sub_nonneg.2 hm) (sub_nonneg.2 hn)) (sub_nonneg.2 hn), mul_nonneg (sub_nonneg.2 hn) (sub_nonneg.2 hn)]
  unfold skew
  positivity

/-- The parameters of the distribution are in the range where its first three moments exist. -/
theorem C85_beta (m2 m3 : ℝ) (h2 : 0 < m2) (h3 : 0 < m3) : 3 < beta m2 m3 := by
  have hr : 0 ≤ root m2 m3 := Real.sqrt_nonneg _
  unfold beta
  have : 0 < 2 * m2 / m3 ^ 2 * (4 * m2 ^ 2 + root m2 m3) := by positivity
  linarith

theorem root_sq (m2 m3 : ℝ) (h2 : 0 < m2) : root m2 m3 ^ 2 = 16 * m2 ^ 4 + 4 * m3 ^ 2 * m2 + m3 ^ 2 :=
  Real.sq_sqrt (by positivity)

/-- The distribution has a mean of one. -/
theorem C85_pearson_mean (a b : ℝ) (hb : b ≠ 1) : pMean a b (delta a b) = 1 := by
  have : b - 1 ≠ 0 := sub_ne_zero.2 hb
  unfold pMean delta
  field_simp
  ring

/-- It has the variance asked for. -/
theorem C85_pearson_var (m2 m3 : ℝ) (h2 : 0 < m2) (h3 : 0 < m3) : pVar (alpha m2 m3) (beta m2 m3) = m2 := by
  have hs := root_sq m2 m3 h2
  have hb := C85_beta m2 m3 h2 h3
  have hb1 : beta m2 m3 - 1 ≠ 0 := by linarith
  have hb2 : beta m2 m3 - 2 ≠ 0 := by linarith
  unfold pVar
  rw [div_eq_iff (by positivity)]
  unfold alpha beta
  generalize root m2 m3 = r at *
  field_simp
  clear hb hb1 hb2
  grind

/-- It has the third moment asked for. -/
theorem C85_pearson_third (m2 m3 : ℝ) (h2 : 0 < m2) (h3 : 0 < m3) : pThird (alpha m2 m3) (beta m2 m3) = m3 := by
  have hs := root_sq m2 m3 h2
  have hb := C85_beta m2 m3 h2 h3
  have hb1 : beta m2 m3 - 1 ≠ 0 := by linarith
  have hb2 : beta m2 m3 - 2 ≠ 0 := by linarith
  have hb3 : beta m2 m3 - 3 ≠ 0 := by linarith
  unfold pThird
  rw [div_eq_iff (by positivity)]
  unfold alpha beta
  generalize root m2 m3 = r at *
  field_simp
  clear hb hb1 hb2 hb3
  grind

/-- The other parameter is positive too, so that there is such a distribution. -/
theorem C85_alpha (m2 m3 : ℝ) (h2 : 0 < m2) (h3 : 0 < m3) : 0 < alpha m2 m3 := by
  have hb := C85_beta m2 m3 h2 h3
  have hv := C85_pearson_var m2 m3 h2 h3
  have ht := C85_pearson_third m2 m3 h2 h3
  generalize alpha m2 m3 = a at *
  generalize beta m2 m3 = b at *
  unfold pVar at hv
  unfold pThird at ht
  have d1 : 0 < b - 1 := by linarith
  have d2 : 0 < b - 2 := by linarith
  have d3 : 0 < b - 3 := by linarith
  rw [div_eq_iff (by positivity)] at hv ht
  have e1 : 0 < a * (a + b - 1) := by rw [hv]; positivity
  have e2 : 0 < a * (a + b - 1) * (2 * a + b - 1) := by
    have : a * (a + b - 1) * (2 * a + b - 1) * 2 = m3 * ((b - 3) * (b - 2) * (b - 1) ^ 3) := by rw [← ht]; ring
    have : 0 < m3 * ((b - 3) * (b - 2) * (b - 1) ^ 3) := by positivity
    linarith
  have e3 : 0 < 2 * a + b - 1 := (mul_pos_iff_of_pos_left e1).1 e2
  rcases mul_pos_iff.1 e1 with h | h <;> linarith [h.1, h.2]

/-- The distribution that the limits are taken from has the mean, the variance and the third moment of the kurtosis of noise. -/
theorem C85_limits (M N : ℕ) (hM : 2 ≤ M) (hN : 1 ≤ N) :
    let a := alpha (var M N) (skew M N)
    let b := beta (var M N) (skew M N)
    pMean a b (delta a b) = ((M : ℝ) * s1 M N - 1) * ((M * N + 1) / (M - 1)) ∧
    pVar a b = ((M : ℝ) * ((M * N + 1) / (M - 1))) ^ 2 * (s2 M N - s1 M N ^ 2) ∧
    pThird a b = ((M : ℝ) * ((M * N + 1) / (M - 1))) ^ 3 * (s3 M N - 3 * s1 M N * s2 M N + 2 * s1 M N ^ 3) ∧
    0 < a ∧ 3 < b := by
  have hv := var_pos M N hM hN
  have hs := skew_pos M N hM hN
  have hb := C85_beta _ _ hv hs
  refine ⟨?_, ?_, ?_, C85_alpha _ _ hv hs, hb⟩
  · rw [C85_mean M N hM hN, C85_pearson_mean _ _ (by linarith)]
  · rw [C85_pearson_var _ _ hv hs, C85_var M N hM hN]
  · rw [C85_pearson_third _ _ hv hs, C85_skew M N hM hN]

/-! ## The estimator -/

theorem sum_scale (c : ℝ) (x : List ℝ) : (x.map (c * ·)).sum = c * x.sum ∧
    ((x.map (c * ·)).map (· ^ 2)).sum = c ^ 2 * (x.map (· ^ 2)).sum := by
  induction x with
  | nil => simp
  | cons a l ih =>
    simp only [List.map_cons, List.sum_cons, ih.1, ih.2]
    constructor <;> ring

/-- The unit of power plays no part. -/
theorem C85_scale (c : ℝ) (hc : c ≠ 0) (N : ℕ) (x : List ℝ) : power1 N (x.map (c * ·)) = power1 N x := by
  unfold power1 power
  rw [(sum_scale c x).1, (sum_scale c x).2, List.length_map]
  congr 2
  by_cases h : x.sum = 0
  · simp [h]
  · field_simp

/-- Nor does the order. -/
theorem C85_perm (N : ℕ) (x y : List ℝ) (h : x.Perm y) : power1 N x = power1 N y := by
  unfold power1 power
  rw [h.length_eq, h.sum_eq, (h.map _).sum_eq]

theorem sum_dev (m : ℝ) (x : List ℝ) : (x.map fun v => (v - m) ^ 2).sum =
    (x.map (· ^ 2)).sum - 2 * m * x.sum + x.length * m ^ 2 := by
  induction x with
  | nil => simp
  | cons a l ih => simp only [List.map_cons, List.sum_cons, ih, List.length_cons]; push_cast; ring

theorem sq_sum_nonneg (x : List ℝ) (m : ℝ) : 0 ≤ (x.map fun v => (v - m) ^ 2).sum := by
  induction x with
  | nil => simp
  | cons a l ih => simp only [List.map_cons, List.sum_cons]; positivity

/-- The kurtosis in terms of the spread about the mean. -/
theorem C85_spread (N : ℕ) (x : List ℝ) (hl : 2 ≤ x.length) (hs : x.sum ≠ 0) :
    power1 N x = (x.map fun v => (v - x.sum / x.length) ^ 2).sum *
      (x.length * (x.length * N + 1) / ((x.length - 1) * x.sum ^ 2)) := by
  have h : (2 : ℝ) ≤ x.length := by exact_mod_cast hl
  have h1 : (x.length : ℝ) - 1 ≠ 0 := by linarith
  have h2 : (x.length : ℝ) ≠ 0 := by linarith
  rw [sum_dev]
  unfold power1 power
  field_simp
  ring

/-- It is not negative. -/
theorem C85_nonneg (N : ℕ) (x : List ℝ) (hl : 2 ≤ x.length) (hs : x.sum ≠ 0) : 0 ≤ power1 N x := by
  have h : (2 : ℝ) ≤ x.length := by exact_mod_cast hl
  have h1 : 0 < (x.length : ℝ) - 1 := by linarith
  rw [C85_spread N x hl hs]
  have := sq_sum_nonneg x (x.sum / x.length)
  positivity

theorem all_eq (x : List ℝ) (m : ℝ) (h : (x.map fun v => (v - m) ^ 2).sum = 0) : ∀ v ∈ x, v = m := by
  induction x with
  | nil => simp
  | cons a l ih =>
    simp only [List.map_cons, List.sum_cons] at h
    have h1 := sq_sum_nonneg l m
    have h2 : 0 ≤ (a - m) ^ 2 := sq_nonneg _
    have h3 : (a - m) ^ 2 = 0 := by linarith
    have h4 : (l.map fun v => (v - m) ^ 2).sum = 0 := by linarith
    intro v hv
    rcases List.mem_cons.1 hv with rfl | hv
    · have := pow_eq_zero_iff (two_ne_zero) |>.1 h3; linarith
    · exact ih h4 v hv

/-- It is zero exactly for a constant power. -/
theorem C85_constant (N : ℕ) (x : List ℝ) (hl : 2 ≤ x.length) (hs : x.sum ≠ 0) :
    power1 N x = 0 ↔ ∃ c, x = List.replicate x.length c := by
  have h : (2 : ℝ) ≤ x.length := by exact_mod_cast hl
  have h1 : 0 < (x.length : ℝ) - 1 := by linarith
  have hp : 0 < (x.length : ℝ) * (x.length * N + 1) / ((x.length - 1) * x.sum ^ 2) := by
    have : 0 < x.sum ^ 2 := by positivity
    positivity
  constructor
  · intro h0
    rw [C85_spread N x hl hs] at h0
    have h2 := (mul_eq_zero.1 h0).resolve_right (ne_of_gt hp)
    exact ⟨_, List.eq_replicate_iff.2 ⟨rfl, all_eq _ _ h2⟩⟩
  · rintro ⟨c, hc⟩
    generalize hn : x.length = n at *
    subst hc
    have h2 : (n : ℝ) ≠ 0 := by linarith
    simp only [List.sum_replicate, nsmul_eq_mul] at hs
    have hc : c ≠ 0 := by
      intro h0; apply hs; rw [h0]; simp
    unfold power1 power
    simp only [List.length_replicate, List.map_replicate, List.sum_replicate, nsmul_eq_mul]
    field_simp
    simp

theorem sum_nonneg' (x : List ℝ) (h : ∀ v ∈ x, 0 ≤ v) : 0 ≤ x.sum ∧ (x.map (· ^ 2)).sum ≤ x.sum ^ 2 := by
  induction x with
  | nil => simp
  | cons a l ih =>
    have h1 := ih (fun v hv => h v (by simp [hv]))
    have h2 := h a (by simp)
    simp only [List.map_cons, List.sum_cons]
    refine ⟨by linarith [h1.1], ?_⟩
    nlinarith [mul_nonneg h2 h1.1]

/-- It is at most one more than the number of spectra. -/
theorem C85_upper (N : ℕ) (x : List ℝ) (hl : 2 ≤ x.length) (hs : x.sum ≠ 0) (h0 : ∀ v ∈ x, 0 ≤ v) :
    power1 N x ≤ x.length * N + 1 := by
  have h : (2 : ℝ) ≤ x.length := by exact_mod_cast hl
  have h1 : 0 < (x.length : ℝ) - 1 := by linarith
  have h2 := (sum_nonneg' x h0).2
  have hp : 0 < x.sum ^ 2 := by positivity
  unfold power1 power
  have h3 : (x.length : ℝ) * (x.map (· ^ 2)).sum / x.sum ^ 2 ≤ x.length := by
    rw [div_le_iff₀ hp]
    exact mul_le_mul_of_nonneg_left h2 (by positivity)
  have h4 : (x.length : ℝ) * (x.map (· ^ 2)).sum / x.sum ^ 2 - 1 ≤ x.length - 1 := by linarith
  have h5 : 0 ≤ ((x.length : ℝ) * N + 1) / (x.length - 1) := by positivity
  calc _ ≤ ((x.length : ℝ) - 1) * (((x.length : ℝ) * N + 1) / (x.length - 1)) := mul_le_mul_of_nonneg_right h4 h5
    _ = x.length * N + 1 := by field_simp

/-- A single burst reaches that. -/
theorem C85_burst (N n : ℕ) (v : ℝ) (hv : v ≠ 0) (hn : 1 ≤ n) :
    power1 N (v :: List.replicate n 0) = ((n + 1 : ℕ) : ℝ) * N + 1 := by
  have h : (1 : ℝ) ≤ n := by exact_mod_cast hn
  have h1 : (n : ℝ) ≠ 0 := by linarith
  unfold power1 power
  simp
  field_simp
  ring

/-- Along the second axis the length of the first is used: constant power has a kurtosis that is not zero whenever the two
lengths differ. -/
theorem C85_not_axis (R T N : ℕ) (hR : 2 ≤ R) (hT : 1 ≤ T) (c : ℝ) (hc : c ≠ 0) (hne : R ≠ T) (k : ℝ)
    (hk : k ∈ powerRows N (List.replicate R (List.replicate T c))) : k ≠ 0 ∧ (R < T → k < 0) := by
  have h : (2 : ℝ) ≤ R := by exact_mod_cast hR
  have ht : (1 : ℝ) ≤ T := by exact_mod_cast hT
  have h1 : 0 < (R : ℝ) - 1 := by linarith
  have h2 : (T : ℝ) ≠ 0 := by linarith
  have e : k = ((R : ℝ) / T - 1) * ((R * N + 1) / (R - 1)) := by
    simp only [powerRows, List.map_replicate, List.mem_replicate, List.length_replicate] at hk
    rw [hk.2]
    unfold power
    simp only [List.map_replicate, List.sum_replicate, nsmul_eq_mul]
    congr 2
    field_simp
  have hp : 0 < ((R : ℝ) * N + 1) / (R - 1) := by positivity
  rw [e]
  constructor
  · apply mul_ne_zero _ (ne_of_gt hp)
    intro h0
    have : (R : ℝ) = T := by field_simp at h0; linarith
    exact hne (by exact_mod_cast this)
  · intro hlt
    have : (R : ℝ) < T := by exact_mod_cast hlt
    apply mul_neg_of_neg_of_pos _ hp
    have : (R : ℝ) / T < 1 := by rw [div_lt_one (by linarith)]; exact this
    linarith

/-- The error levels are as found after a return, overflow or not. -/
theorem C85_restored (s : Levels) (p l u : Outcome) (h : (limitsLevels s p l u).2 = true) :
    (limitsLevels s p l u).1 = s := by
  revert h; cases s <;> cases p <;> cases l <;> cases u <;> decide

/-- An error in finding the parameters, as for one measurement, is left with all floating point errors raising. -/
theorem C85_not_restored : limitsLevels .asFound .other .done .done = (.raise, false) ∧
    limitsLevels .asFound .floatingPoint .done .done = (.raise, false) := by decide

example : power1 1 [1, 3] = 3 / 4 := by
  unfold power1 power; norm_num

end Verif.Kurtosis
