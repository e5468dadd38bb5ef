import Verif.Model.Dipole
/-!
# Stokes parameters of a field, and degrees of an angle
-/
namespace Verif.Dipole.Spec
open Complex ComplexConjugate

/-- The Stokes parameters of the field with components `x` and `y`. -/
noncomputable def stokes (x y : ℂ) : Nat → ℝ
  | 0 => normSq x + normSq y
  | 1 => normSq x - normSq y
  | 2 => 2 * (x * conj y).re
  | _ => -2 * (x * conj y).im

/-- What the two dipoles receive of a field. -/
def receive (j : Jones) (x y : ℂ) : ℂ × ℂ := (j.xe * x + j.xh * y, j.ye * x + j.yh * y)

/-- The degrees of an angle. -/
noncomputable def degreesOf (degrees : Bool) : Angle → ℝ
  | .astro d => d
  | .ephem r => r * 180 / Real.pi
  | .num v => if degrees then v else v * 180 / Real.pi

end Verif.Dipole.Spec
