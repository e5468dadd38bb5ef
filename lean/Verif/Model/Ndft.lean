import Verif.Spec.Ndft
import Mathlib.Analysis.SpecialFunctions.Complex.Arg

/-! Polar numbers and the transform of data at any times
(lsl/misc/mathutils.py:158-224, 243-273).

Simplification: real and complex numbers are exact. -/

namespace Verif.Ndft

open Finset

/-- `cpolar` (mathutils.py:174-184). -/
noncomputable def cpolar (z : ℂ) : ℝ × ℝ := (‖z‖, z.arg)

/-- `crect` (mathutils.py:187-224). -/
noncomputable def crect (p : ℝ × ℝ) : ℂ := ⟨p.1 * Real.cos p.2, p.1 * Real.sin p.2⟩

/-- `t.max()` of `n + 1` times. -/
noncomputable def tmax (t : ℕ → ℝ) : ℕ → ℝ
  | 0 => t 0
  | n + 1 => max (tmax t n) (t (n + 1))

/-- `t.min()` of `n + 1` times. -/
noncomputable def tmin (t : ℕ → ℝ) : ℕ → ℝ
  | 0 => t 0
  | n + 1 => min (tmin t n) (t (n + 1))

/-- `mPrime` (mathutils.py:260, 269). -/
def mPrime (N m : ℕ) : ℤ := (N / 2 : ℕ) - (m : ℤ)

/-- `t.max() - t.min()` of `N` times. -/
noncomputable def span (N : ℕ) (t : ℕ → ℝ) : ℝ := tmax t (N - 1) - tmin t (N - 1)

/-- `out[m]` of `ndft` (mathutils.py:259-264). -/
noncomputable def out (N : ℕ) (t : ℕ → ℝ) (x : ℕ → ℂ) (m : ℕ) : ℂ :=
  ∑ n ∈ range N,
    x n * Complex.exp (-2 * Complex.I * Real.pi * t n * (mPrime N m : ℂ) / (span N t : ℂ))

/-- `f[m]` of `ndft` (mathutils.py:267-270) for times of floating point numbers. -/
noncomputable def freq (N : ℕ) (t : ℕ → ℝ) (m : ℕ) : ℝ := mPrime N m / span N t

/-- `f[m]` for integer times that are `T` apart at most: the array of frequencies has
the type of the times (mathutils.py:267), so that fractions are dropped. -/
def freqInt (N : ℕ) (T : ℤ) (m : ℕ) : ℤ := Int.tdiv (mPrime N m) T

end Verif.Ndft
