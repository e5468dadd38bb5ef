import Verif.Model.NecPhase
import Mathlib.Analysis.Real.Pi.Bounds
import Mathlib.Analysis.SpecialFunctions.Complex.Log
import Mathlib.Analysis.SpecialFunctions.Log.Base
/-!
# C111: the complex patterns of antennas
-/
namespace Verif.Nec
open Complex

/-- The complex pattern of currents has the current as its absolute value. -/
theorem C111_amplitude (x : ℝ) (h : 0 < x) : amplitude x = x := by
  unfold amplitude
  have : 10 * Real.logb 10 x / 10 = Real.logb 10 x := by ring
  rw [this, Real.rpow_logb (by norm_num) (by norm_num) h]

/-- A full turn is no phase. -/
theorem C111_phase (d : ℝ) (n : ℤ) : phaseCurrent (d + 360 * n) = phaseCurrent d := by
  unfold phaseCurrent
  have : I * ((d + 360 * n : ℝ) : ℂ) * Real.pi / 180 = I * d * Real.pi / 180 + n * (2 * Real.pi * I) := by
    push_cast
    ring
  rw [this, exp_add, exp_int_mul_two_pi_mul_I, mul_one]

/-- The phases of gains are turned the wrong way into radians: a full turn is not the same as none. -/
theorem C111_not_phase : phaseGain 360 ≠ phaseGain 0 := by
  have h0 : phaseGain 0 = 1 := by simp [phaseGain]
  rw [h0]
  unfold phaseGain
  intro h
  obtain ⟨n, hn⟩ := exp_eq_one_iff.mp h
  have hpi := Real.pi_pos
  have hne : (Real.pi : ℂ) ≠ 0 := by exact_mod_cast Real.pi_ne_zero
  have h2 : (64800 : ℝ) = n * (2 * Real.pi * Real.pi) := by
    have h3 : (I * (360 : ℝ) * 180 : ℂ) = n * (2 * Real.pi * I) * Real.pi := by
      rw [← hn]
      field_simp
    have h4 : I * ((64800 : ℝ) : ℂ) = I * ((n * (2 * Real.pi * Real.pi) : ℝ) : ℂ) := by
      push_cast at h3 ⊢
      linear_combination h3
    exact_mod_cast mul_left_cancel₀ I_ne_zero h4
  have g := Real.pi_gt_d6
  have l := Real.pi_lt_d6
  have a : 3282 < (n : ℝ) := by
    by_contra hc
    have hc : (n : ℝ) ≤ 3282 := not_lt.mp hc
    nlinarith [mul_pos hpi hpi, mul_self_nonneg Real.pi]
  have b : (n : ℝ) < 3283 := by
    by_contra hc
    have hc : 3283 ≤ (n : ℝ) := not_lt.mp hc
    nlinarith [mul_pos hpi hpi, mul_self_nonneg Real.pi]
  have a' : (3282 : ℤ) < n := by exact_mod_cast a
  have b' : n < (3283 : ℤ) := by exact_mod_cast b
  omega

end Verif.Nec
