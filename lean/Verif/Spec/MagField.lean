import Verif.Model.MagField
/-!
# The potential of the field of the Earth (specification for C100)

The International Geomagnetic Reference Field is minus the gradient of
`a Σ (a/r)^(n+1) (g cos mφ + h sin mφ) P(sin of the latitude)` with Schmidt's factors.
-/
namespace Verif.MagField.Spec
open Polynomial

/-- Schmidt's factor: `√(ε (n-m)!/(n+m)!)`. -/
noncomputable def schmidt (n m : ℕ) : ℝ := Real.sqrt ((if m = 0 then 1 else 2) * ((n - m).factorial : ℝ) / ((n + m).factorial : ℝ))

/-- `P_n^m` at a latitude, without the factor `(-1)^m`. -/
noncomputable def P (n m : ℕ) (lt : ℝ) : ℝ := Real.cos lt ^ m * (derivative^[m] (leg n)).eval (Real.sin lt)

noncomputable def potential (a : ℝ) (c : Coeffs) (r lt ln : ℝ) : ℝ :=
  a * ∑ n ∈ c.degrees, ∑ m ∈ Finset.range (n + 1),
    (a / r) ^ (n + 1) * (c.g n m * Real.cos (m * ln) + c.h n m * Real.sin (m * ln)) * (schmidt n m * P n m lt)

/-- Position from geocentric distance, latitude and longitude. -/
noncomputable def place (r lt ln : ℝ) : ℝ × ℝ × ℝ := (r * Real.cos lt * Real.cos ln, r * Real.cos lt * Real.sin ln, r * Real.sin lt)

def dot (u v : ℝ × ℝ × ℝ) : ℝ := u.1 * v.1 + u.2.1 * v.2.1 + u.2.2 * v.2.2

/-- Unit vectors at a geodetic place. -/
noncomputable def north (lt ln : ℝ) : ℝ × ℝ × ℝ := (-(Real.sin lt * Real.cos ln), -(Real.sin lt * Real.sin ln), Real.cos lt)
noncomputable def east (ln : ℝ) : ℝ × ℝ × ℝ := (-Real.sin ln, Real.cos ln, 0)
noncomputable def up (lt ln : ℝ) : ℝ × ℝ × ℝ := (Real.cos lt * Real.cos ln, Real.cos lt * Real.sin ln, Real.sin lt)

end Verif.MagField.Spec
