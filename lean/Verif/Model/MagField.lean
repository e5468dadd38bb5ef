import Mathlib.Analysis.SpecialFunctions.Complex.Arg
import Mathlib.Analysis.SpecialFunctions.Sqrt
import Mathlib.Algebra.Polynomial.Derivative
import Mathlib.Analysis.SpecialFunctions.Trigonometric.Inverse
/-!
# The field of the Earth from spherical harmonics: /repo/lsl/misc/ionosphere/__init__.py:179-368

Simplifications: real numbers.  `scipy.special.lpmv(m, n, x)` is `(-1)^m (1-x²)^(m/2)` times the `m`-th derivative of the
Legendre polynomial, which is given by Bonnet's recursion.  A degree at least 1 (the table starts with 1).  Not a
number is `none`.
-/
namespace Verif.MagField
open Polynomial

/-- Legendre polynomials. -/
noncomputable def leg : ℕ → ℝ[X]
  | 0 => 1
  | 1 => X
  | n + 2 => C (1 / ((n : ℝ) + 2)) * (C (2 * (n : ℝ) + 3) * X * leg (n + 1) - C ((n : ℝ) + 1) * leg n)

/-- `lpmv(m, n, x)` of scipy. -/
noncomputable def lpmv (m n : ℕ) (x : ℝ) : ℝ := (-1) ^ m * (Real.sqrt (1 - x ^ 2)) ^ m * (derivative^[m] (leg n)).eval x

/-- `_Snm`, lines 179-189. -/
noncomputable def Snm (n m : ℕ) : ℝ :=
  if m = 0 then Real.sqrt (((n - m).factorial : ℝ) / ((n + m).factorial : ℝ)) else Real.sqrt (2 * ((n - m).factorial : ℝ) / ((n + m).factorial : ℝ))

/-- `_Pnm`, lines 192-199. -/
noncomputable def Pnm (n m : ℕ) (mu : ℝ) : ℝ := (-1) ^ m * lpmv m n mu

/-- `_dPnm`, lines 203-211. -/
noncomputable def dPnm (n m : ℕ) (mu : ℝ) : ℝ :=
  ((n : ℝ) * mu * Pnm n m mu - ((n : ℝ) + m) * Pnm (n - 1) m mu) / Real.sqrt (1 - mu ^ 2)

/-- Coefficients of a year: the degrees, cosine and sine terms. -/
structure Coeffs where
  degrees : Finset ℕ
  g : ℕ → ℕ → ℝ
  h : ℕ → ℕ → ℝ

/-- The sums over degrees and orders, lines 272-273. -/
noncomputable def total (c : Coeffs) (f : ℕ → ℕ → ℝ) : ℝ := ∑ n ∈ c.degrees, ∑ m ∈ Finset.range (n + 1), f n m

/-- Lines 274-275. -/
noncomputable def fieldR (a : ℝ) (c : Coeffs) (r lt ln : ℝ) : ℝ :=
  total c (fun n m => ((n : ℝ) + 1) * (a / r) ^ (n + 2) * Snm n m * c.g n m * Real.cos (m * ln) * Pnm n m (Real.sin lt)
    + ((n : ℝ) + 1) * (a / r) ^ (n + 2) * Snm n m * c.h n m * Real.sin (m * ln) * Pnm n m (Real.sin lt))

/-- Lines 277-278. -/
noncomputable def fieldT (a : ℝ) (c : Coeffs) (r lt ln : ℝ) : ℝ :=
  total c (fun n m => -((a / r) ^ (n + 2) * Snm n m * c.g n m * Real.cos (m * ln) * dPnm n m (Real.sin lt))
    - (a / r) ^ (n + 2) * Snm n m * c.h n m * Real.sin (m * ln) * dPnm n m (Real.sin lt))

/-- Lines 280-281. -/
noncomputable def fieldP (a : ℝ) (c : Coeffs) (r lt ln : ℝ) : ℝ :=
  total c (fun n m => (a / r) ^ (n + 2) / Real.cos lt * Snm n m * c.g n m * m * Real.sin (m * ln) * Pnm n m (Real.sin lt)
    - (a / r) ^ (n + 2) / Real.cos lt * Snm n m * c.h n m * m * Real.cos (m * ln) * Pnm n m (Real.sin lt))

/-- Lines 291-293. -/
noncomputable def toEcef (br bt bp lt ln : ℝ) : ℝ × ℝ × ℝ :=
  (br * Real.cos lt * Real.cos ln + bt * Real.sin lt * Real.cos ln - bp * Real.sin ln,
   br * Real.cos lt * Real.sin ln + bt * Real.sin lt * Real.sin ln + bp * Real.cos ln,
   br * Real.sin lt - bt * Real.cos lt)

/-- Lines 271-293. -/
noncomputable def ecef (a : ℝ) (c : Coeffs) (r lt ln : ℝ) : ℝ × ℝ × ℝ :=
  toEcef (fieldR a c r lt ln) (fieldT a c r lt ln) (fieldP a c r lt ln) lt ln

/-- Lines 312-319: north, east and up. -/
noncomputable def topo (b : ℝ × ℝ × ℝ) (lt ln : ℝ) : ℝ × ℝ × ℝ :=
  (-(Real.sin lt * Real.cos ln * b.1 + Real.sin lt * Real.sin ln * b.2.1 + (-Real.cos lt) * b.2.2),
   -Real.sin ln * b.1 + Real.cos ln * b.2.1 + 0 * b.2.2,
   Real.cos lt * Real.cos ln * b.1 + Real.cos lt * Real.sin ln * b.2.1 + Real.sin lt * b.2.2)

/-- The latitude that is used, lines 253-258 and 304-309, in degrees. -/
noncomputable def offPole (lat : ℝ) : ℝ := if 90 - lat < 0.001 then 89.999 else if 90 + lat < 0.001 then -89.999 else lat

/-- `np.arctan2(y, x)`. -/
noncomputable def arctan2 (y x : ℝ) : ℝ := Complex.arg ⟨x, y⟩

/-- Distance, latitude and longitude from the centre, lines 260-262. -/
noncomputable def geocentric (x y z : ℝ) : ℝ × ℝ × ℝ :=
  (Real.sqrt (x ^ 2 + y ^ 2 + z ^ 2), Real.arcsin (z / Real.sqrt (x ^ 2 + y ^ 2 + z ^ 2)), arctan2 y x)

/-- `compute_magnetic_declination`, lines 338-349, in radians. -/
noncomputable def declination (bn be : ℝ) : Option ℝ :=
  if Real.sqrt (bn ^ 2 + be ^ 2) < 100 then none else some (2 * arctan2 be (Real.sqrt (bn ^ 2 + be ^ 2) + bn))

/-- `compute_magnetic_inclination`, lines 359-367, in radians. -/
noncomputable def inclination (bn be bz : ℝ) : ℝ := arctan2 (-bz) (Real.sqrt (bn ^ 2 + be ^ 2))

end Verif.MagField
