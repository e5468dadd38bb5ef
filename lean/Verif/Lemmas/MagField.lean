import Verif.Spec.MagField
import Mathlib.Analysis.Calculus.Deriv.Polynomial
import Mathlib.Analysis.SpecialFunctions.Trigonometric.Deriv
import Mathlib.Tactic.LinearCombination
import Mathlib.Tactic.FieldSimp
import Mathlib.Tactic.Ring
import Mathlib.Tactic.Positivity
import Mathlib.Tactic.Linarith
/-! # Legendre polynomials and derivatives of the potential -/
namespace Verif.MagField
open Polynomial Spec

/-- The `m`-th derivative. -/
noncomputable def q (n m : ℕ) : ℝ[X] := derivative^[m] (leg n)

theorem q_zero (n : ℕ) : q n 0 = leg n := rfl
theorem q_succ (n m : ℕ) : q n (m + 1) = derivative (q n m) := Function.iterate_succ_apply' _ _ _

/-- Bonnet's recursion without the division. -/
theorem bonnet (n : ℕ) : ((n : ℝ[X]) + 2) * leg (n + 2) = (2 * (n : ℝ[X]) + 3) * X * leg (n + 1) - ((n : ℝ[X]) + 1) * leg n := by
  have hc : ((n : ℝ[X]) + 2) * C (1 / ((n : ℝ) + 2)) = 1 := by
    have h1 : ((n : ℝ[X]) + 2) = C ((n : ℝ) + 2) := by simp only [C_add, map_natCast, map_ofNat]
    rw [h1, ← C_mul]
    have : ((n : ℝ) + 2) * (1 / ((n : ℝ) + 2)) = 1 := by
      have : (n : ℝ) + 2 ≠ 0 := by positivity
      field_simp
    rw [this]; exact C_1
  have h2 : (C (2 * (n : ℝ) + 3) : ℝ[X]) = 2 * (n : ℝ[X]) + 3 := by simp only [C_add, C_mul, map_natCast, map_ofNat]
  have h3 : (C ((n : ℝ) + 1) : ℝ[X]) = (n : ℝ[X]) + 1 := by simp [C_add]
  simp only [leg, h2, h3]
  linear_combination ((2 * (n : ℝ[X]) + 3) * X * leg (n + 1) - ((n : ℝ[X]) + 1) * leg n) * hc

theorem bonnet_deriv (n : ℕ) : ((n : ℝ[X]) + 2) * q (n + 2) 1 =
    (2 * (n : ℝ[X]) + 3) * (leg (n + 1) + X * q (n + 1) 1) - ((n : ℝ[X]) + 1) * q n 1 := by
  have h := congrArg derivative (bonnet n)
  have hn : derivative (n : ℝ[X]) = 0 := derivative_natCast
  have h2 : derivative (2 : ℝ[X]) = 0 := by exact_mod_cast derivative_natCast (R := ℝ) (n := 2)
  have h3 : derivative (3 : ℝ[X]) = 0 := by exact_mod_cast derivative_natCast (R := ℝ) (n := 3)
  simp only [derivative_mul, derivative_add, derivative_sub, derivative_X, derivative_one, hn, h2, h3] at h
  simp only [q_succ, q_zero]
  linear_combination h

/-- The two relations between derivatives of neighbouring polynomials. -/
theorem relations (n : ℕ) : X * q (n + 1) 1 - q n 1 = ((n : ℝ[X]) + 1) * leg (n + 1) ∧ q (n + 1) 1 - X * q n 1 = ((n : ℝ[X]) + 1) * leg n := by
  induction n with
  | zero => constructor <;> simp [q_succ, q_zero, leg]
  | succ n ih =>
    obtain ⟨h1, h2⟩ := ih
    have hb := bonnet n
    have hd := bonnet_deriv n
    have hk : ((n : ℝ[X]) + 2) ≠ 0 := by
      have : ((n : ℝ[X]) + 2) = ((n + 2 : ℕ) : ℝ[X]) := by push_cast; ring
      rw [this]
      exact_mod_cast Nat.succ_ne_zero (n + 1)
    have hsec : q (n + 2) 1 - X * q (n + 1) 1 = ((n : ℝ[X]) + 2) * leg (n + 1) := by
      apply mul_left_cancel₀ hk
      linear_combination hd + ((n : ℝ[X]) + 1) * h1
    have hx : (X ^ 2 - 1) * q (n + 1) 1 = ((n : ℝ[X]) + 1) * (X * leg (n + 1) - leg n) := by
      linear_combination X * h1 - h2
    constructor
    · push_cast
      linear_combination X * hsec + hx - hb
    · push_cast
      linear_combination hsec

/-- Order by order. -/
theorem relA (n m : ℕ) : X * q (n + 1) (m + 1) - q n (m + 1) = ((n : ℝ[X]) + 1 - (m : ℝ[X])) * q (n + 1) m := by
  induction m with
  | zero => simpa [q_zero] using (relations n).1
  | succ m ih =>
    have h := congrArg derivative ih
    have hn : derivative (n : ℝ[X]) = 0 := derivative_natCast
    have hm : derivative (m : ℝ[X]) = 0 := derivative_natCast
    simp only [derivative_mul, derivative_add, derivative_sub, derivative_X, derivative_one, hn, hm, ← q_succ] at h
    push_cast
    linear_combination h

theorem relB (n m : ℕ) : (X ^ 2 - 1) * q (n + 1) (m + 1) = ((n : ℝ[X]) + 1 - (m : ℝ[X])) * X * q (n + 1) m - ((n : ℝ[X]) + 1 + (m : ℝ[X])) * q n m := by
  induction m with
  | zero =>
    obtain ⟨h1, h2⟩ := relations n
    simp only [q_zero]
    push_cast
    linear_combination X * h1 - h2
  | succ m ih =>
    have h := congrArg derivative ih
    have hn : derivative (n : ℝ[X]) = 0 := derivative_natCast
    have hm : derivative (m : ℝ[X]) = 0 := derivative_natCast
    simp only [derivative_mul, derivative_add, derivative_sub, derivative_X, derivative_one, derivative_X_pow, hn, hm, ← q_succ] at h
    have ha := relA n m
    push_cast at h ⊢
    simp only [map_ofNat] at h
    linear_combination h - ha

/-- Legendre's equation, differentiated `m` times. -/
theorem legendre (n m : ℕ) : (X ^ 2 - 1) * q (n + 1) (m + 2) =
    -(2 * ((m : ℝ[X]) + 1)) * X * q (n + 1) (m + 1) + ((n : ℝ[X]) + 1 - (m : ℝ[X])) * ((n : ℝ[X]) + 2 + (m : ℝ[X])) * q (n + 1) m := by
  have hb := relB n (m + 1)
  have ha := relA n m
  push_cast at hb
  linear_combination hb + ((n : ℝ[X]) + 2 + (m : ℝ[X])) * ha

/-! ## At real latitudes -/

theorem schmidt_eq (n m : ℕ) : Snm n m = schmidt n m := by
  unfold Snm schmidt
  split <;> simp

theorem sqrt_cos (lt : ℝ) (h : 0 ≤ Real.cos lt) : Real.sqrt (1 - Real.sin lt ^ 2) = Real.cos lt := by
  rw [← Real.cos_sq', Real.sqrt_sq h]

theorem Pnm_eq (n m : ℕ) (lt : ℝ) (h : 0 ≤ Real.cos lt) : Pnm n m (Real.sin lt) = P n m lt := by
  unfold Pnm lpmv P
  rw [sqrt_cos lt h, ← mul_assoc, ← mul_assoc, ← mul_pow]
  simp

theorem pow_pred (c : ℝ) (m : ℕ) : c * ((m : ℝ) * c ^ (m - 1)) = (m : ℝ) * c ^ m := by
  cases m with
  | zero => simp
  | succ m => rw [Nat.add_sub_cancel, pow_succ]; ring

/-- The derivative of `P_n^m`. -/
noncomputable def P' (n m : ℕ) (lt : ℝ) : ℝ :=
  (m : ℝ) * Real.cos lt ^ (m - 1) * (-Real.sin lt) * (q n m).eval (Real.sin lt) + Real.cos lt ^ m * ((q n (m + 1)).eval (Real.sin lt) * Real.cos lt)

theorem eval_deriv (n m : ℕ) (lt : ℝ) : HasDerivAt (fun t => (q n m).eval (Real.sin t)) ((q n (m + 1)).eval (Real.sin lt) * Real.cos lt) lt := by
  have h := (q n m).hasDerivAt (Real.sin lt)
  rw [← q_succ] at h
  exact h.comp lt (Real.hasDerivAt_sin lt)

theorem P_deriv (n m : ℕ) (lt : ℝ) : HasDerivAt (P n m) (P' n m lt) lt :=
  ((Real.hasDerivAt_cos lt).pow m).mul (eval_deriv n m lt)

theorem relB_eval (n m : ℕ) (x : ℝ) : (x ^ 2 - 1) * (q (n + 1) (m + 1)).eval x =
    ((n : ℝ) + 1 - m) * x * (q (n + 1) m).eval x - ((n : ℝ) + 1 + m) * (q n m).eval x := by
  have h := congrArg (eval x) (relB n m)
  simpa using h

theorem legendre_eval (n m : ℕ) (x : ℝ) : (x ^ 2 - 1) * (q (n + 1) (m + 2)).eval x =
    -(2 * ((m : ℝ) + 1)) * x * (q (n + 1) (m + 1)).eval x + ((n : ℝ) + 1 - m) * ((n : ℝ) + 2 + m) * (q (n + 1) m).eval x := by
  have h := congrArg (eval x) (legendre n m)
  simpa using h

/-- The code's derivative is that with respect to the polar distance. -/
theorem dPnm_eq (n m : ℕ) (hn : 1 ≤ n) (lt : ℝ) (h : 0 < Real.cos lt) : dPnm n m (Real.sin lt) = -P' n m lt := by
  obtain ⟨k, rfl⟩ : ∃ k, n = k + 1 := ⟨n - 1, by omega⟩
  unfold dPnm
  rw [Nat.add_sub_cancel, sqrt_cos lt h.le, Pnm_eq _ _ _ h.le, Pnm_eq _ _ _ h.le, div_eq_iff h.ne']
  have hp := pow_pred (Real.cos lt) m
  have hb := relB_eval k m (Real.sin lt)
  have hc := Real.sin_sq_add_cos_sq lt
  unfold P' P
  change ((k + 1 : ℕ) : ℝ) * Real.sin lt * (Real.cos lt ^ m * (q (k + 1) m).eval (Real.sin lt)) - (((k + 1 : ℕ) : ℝ) + m) * (Real.cos lt ^ m * (q k m).eval (Real.sin lt)) = _
  push_cast
  linear_combination (-(Real.sin lt) * (q (k + 1) m).eval (Real.sin lt)) * hp + Real.cos lt ^ m * (q (k + 1) (m + 1)).eval (Real.sin lt) * hc - Real.cos lt ^ m * hb

/-! ## Sums -/

theorem total_mul (c : Coeffs) (f : ℕ → ℕ → ℝ) (k : ℝ) : total c f * k = total c (fun n m => f n m * k) := by
  unfold total; rw [Finset.sum_mul]; apply Finset.sum_congr rfl; intro n _; rw [Finset.sum_mul]

theorem total_add (c : Coeffs) (f g : ℕ → ℕ → ℝ) : total c f + total c g = total c (fun n m => f n m + g n m) := by
  unfold total; rw [← Finset.sum_add_distrib]; apply Finset.sum_congr rfl; intro n _; rw [← Finset.sum_add_distrib]

theorem total_congr (c : Coeffs) (f g : ℕ → ℕ → ℝ) (h : ∀ n ∈ c.degrees, ∀ m, f n m = g n m) : total c f = total c g := by
  unfold total
  apply Finset.sum_congr rfl; intro n hn
  apply Finset.sum_congr rfl; intro m _
  exact h n hn m

theorem total_deriv (c : Coeffs) (f : ℝ → ℕ → ℕ → ℝ) (f' : ℕ → ℕ → ℝ) (t : ℝ) (h : ∀ n ∈ c.degrees, ∀ m, HasDerivAt (fun x => f x n m) (f' n m) t) :
    HasDerivAt (fun x => total c (f x)) (total c f') t := by
  unfold total
  apply HasDerivAt.fun_sum; intro n hn
  apply HasDerivAt.fun_sum; intro m _
  exact h n hn m

/-! ## The potential along a path -/

theorem radial_deriv (a : ℝ) (n : ℕ) (r : ℝ → ℝ) (r' t : ℝ) (hr : HasDerivAt r r' t) (h0 : r t ≠ 0) :
    HasDerivAt (fun x => a * (a / r x) ^ (n + 1)) (-(((n : ℝ) + 1) * (a / r t) ^ (n + 2) * r')) t := by
  have h1 : HasDerivAt (fun x => a / r x) (-(a * r') / r t ^ 2) t := by
    refine ((hasDerivAt_const t a).div hr h0).congr_deriv ?_
    ring
  have h2 := (h1.pow (n + 1)).const_mul a
  refine h2.congr_deriv ?_
  rw [Nat.add_sub_cancel]
  push_cast
  have : (a / r t) ^ (n + 2) = (a / r t) ^ n * (a ^ 2 / r t ^ 2) := by rw [pow_add, div_pow a (r t) 2]
  rw [this]
  field_simp

/-- The dependence on the longitude. -/
noncomputable def az (c : Coeffs) (n m : ℕ) (ln : ℝ) : ℝ := c.g n m * Real.cos (m * ln) + c.h n m * Real.sin (m * ln)
noncomputable def az' (c : Coeffs) (n m : ℕ) (ln : ℝ) : ℝ := -(c.g n m * m * Real.sin (m * ln)) + c.h n m * m * Real.cos (m * ln)

theorem az_deriv (c : Coeffs) (n m : ℕ) (ln : ℝ) : HasDerivAt (az c n m) (az' c n m ln) ln := by
  have h1 : HasDerivAt (fun x : ℝ => (m : ℝ) * x) m ln := by simpa using (hasDerivAt_id ln).const_mul (m : ℝ)
  have hc := ((Real.hasDerivAt_cos (m * ln)).comp ln h1).const_mul (c.g n m)
  have hs := ((Real.hasDerivAt_sin (m * ln)).comp ln h1).const_mul (c.h n m)
  refine (hc.add hs).congr_deriv ?_
  unfold az'; ring

theorem potential_eq (a : ℝ) (c : Coeffs) (r lt ln : ℝ) :
    potential a c r lt ln = total c (fun n m => a * (a / r) ^ (n + 1) * az c n m ln * (schmidt n m * P n m lt)) := by
  unfold potential total az
  rw [Finset.mul_sum]; apply Finset.sum_congr rfl; intro n _
  rw [Finset.mul_sum]; apply Finset.sum_congr rfl; intro m _
  ring

theorem fieldR_eq (a : ℝ) (c : Coeffs) (r lt ln : ℝ) (h : 0 < Real.cos lt) :
    fieldR a c r lt ln = total c (fun n m => ((n : ℝ) + 1) * (a / r) ^ (n + 2) * az c n m ln * (schmidt n m * P n m lt)) := by
  apply total_congr; intro n _ m
  rw [Pnm_eq n m lt h.le, schmidt_eq]; unfold az; ring

theorem fieldT_eq (a : ℝ) (c : Coeffs) (r lt ln : ℝ) (hd : ∀ n ∈ c.degrees, 1 ≤ n) (h : 0 < Real.cos lt) :
    fieldT a c r lt ln = total c (fun n m => (a / r) ^ (n + 2) * az c n m ln * (schmidt n m * P' n m lt)) := by
  apply total_congr; intro n hn m
  rw [dPnm_eq n m (hd n hn) lt h, schmidt_eq]; unfold az; ring

theorem fieldP_eq (a : ℝ) (c : Coeffs) (r lt ln : ℝ) (h : 0 < Real.cos lt) :
    fieldP a c r lt ln = total c (fun n m => -((a / r) ^ (n + 2) * az' c n m ln * (schmidt n m * P n m lt)) / Real.cos lt) := by
  apply total_congr; intro n _ m
  rw [Pnm_eq n m lt h.le, schmidt_eq]; unfold az'; ring

/-- The potential changes along a path by minus the components of the field. -/
theorem potential_deriv (a : ℝ) (c : Coeffs) (hd : ∀ n ∈ c.degrees, 1 ≤ n) (r lt ln : ℝ → ℝ) (r' lt' ln' t : ℝ) (hr : HasDerivAt r r' t)
    (hl : HasDerivAt lt lt' t) (hn : HasDerivAt ln ln' t) (h0 : r t ≠ 0) (hc : 0 < Real.cos (lt t)) :
    HasDerivAt (fun x => potential a c (r x) (lt x) (ln x))
      (-(fieldR a c (r t) (lt t) (ln t) * r' - fieldT a c (r t) (lt t) (ln t) * (r t * lt') + fieldP a c (r t) (lt t) (ln t) * (r t * Real.cos (lt t) * ln'))) t := by
  simp only [potential_eq]
  rw [fieldR_eq a c _ _ _ hc, fieldT_eq a c _ _ _ hd hc, fieldP_eq a c _ _ _ hc]
  have hsum : -(total c (fun n m => ((n : ℝ) + 1) * (a / r t) ^ (n + 2) * az c n m (ln t) * (schmidt n m * P n m (lt t))) * r'
      - total c (fun n m => (a / r t) ^ (n + 2) * az c n m (ln t) * (schmidt n m * P' n m (lt t))) * (r t * lt')
      + total c (fun n m => -((a / r t) ^ (n + 2) * az' c n m (ln t) * (schmidt n m * P n m (lt t))) / Real.cos (lt t)) * (r t * Real.cos (lt t) * ln')) =
      total c (fun n m => ((n : ℝ) + 1) * (a / r t) ^ (n + 2) * az c n m (ln t) * (schmidt n m * P n m (lt t)) * (-r')
      + ((a / r t) ^ (n + 2) * az c n m (ln t) * (schmidt n m * P' n m (lt t)) * (r t * lt')
      + -((a / r t) ^ (n + 2) * az' c n m (ln t) * (schmidt n m * P n m (lt t))) / Real.cos (lt t) * (-(r t * Real.cos (lt t) * ln')))) := by
    rw [← total_add, ← total_add, ← total_mul, ← total_mul, ← total_mul]; ring
  rw [hsum]
  apply total_deriv
  intro n hnn m
  have d1 := radial_deriv a n r r' t hr h0
  have d2 := (az_deriv c n m (ln t)).comp t hn
  have d3 := ((P_deriv n m (lt t)).comp t hl).const_mul (schmidt n m)
  refine ((d1.mul d2).mul d3).congr_deriv ?_
  simp only [Function.comp_apply]
  have e : a * (a / r t) ^ (n + 1) = (a / r t) ^ (n + 2) * r t := by
    rw [pow_succ (a / r t) (n + 1)]; field_simp
  have hc2 := hc.ne'
  simp only [Pi.mul_apply, Function.comp_apply]
  rw [e]
  field_simp
  ring

/-! ## Vectors -/

theorem dot_place (br bt bp r lt ln r' lt' ln' : ℝ) :
    dot (toEcef br bt bp lt ln)
      (r' * (Real.cos lt * Real.cos ln) + r * (-Real.sin lt * lt' * Real.cos ln + Real.cos lt * (-Real.sin ln * ln')),
       r' * (Real.cos lt * Real.sin ln) + r * (-Real.sin lt * lt' * Real.sin ln + Real.cos lt * (Real.cos ln * ln')),
       r' * Real.sin lt + r * (Real.cos lt * lt')) = br * r' - bt * (r * lt') + bp * (r * Real.cos lt * ln') := by
  have h1 := Real.sin_sq_add_cos_sq lt
  have h2 := Real.sin_sq_add_cos_sq ln
  unfold dot toEcef
  simp only
  generalize Real.sin lt = s at *
  generalize Real.cos lt = c at *
  generalize Real.sin ln = u at *
  generalize Real.cos ln = v at *
  linear_combination (br * r' * c ^ 2 - br * r * lt' * c * s + bt * r' * s * c - bt * r * lt' * s ^ 2 + bp * r * c * ln') * h2 + (br * r' - bt * r * lt') * h1

end Verif.MagField
