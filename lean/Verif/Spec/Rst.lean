import Mathlib.Analysis.SpecialFunctions.Trigonometric.Basic
/-! # The daily motion of a star: what altitude and azimuth are -/
namespace Verif.Rst
open Real

/-- The direction of a star with declination `d` at hour angle `H`, seen from latitude `p`. -/
noncomputable def east (d H : ℝ) : ℝ := -(cos d * sin H)
noncomputable def north (p d H : ℝ) : ℝ := sin d * cos p - cos d * sin p * cos H
noncomputable def upward (p d H : ℝ) : ℝ := sin d * sin p + cos d * cos p * cos H

/-- `a` is the azimuth, from north over east, of a direction that is not vertical. -/
def IsAz (p d H a : ℝ) : Prop := 0 ≤ a ∧ a < 2 * π ∧ ∃ r, 0 < r ∧ east d H = r * sin a ∧ north p d H = r * cos a

/-- The hour angle at a time: `H0` at time 0, growing by `w` in a day. -/
noncomputable def hour (H0 w t : ℝ) : ℝ := H0 + w * t

/-- The star has this altitude and azimuth function. -/
structure Star (p d H0 w : ℝ) (alt az : ℝ → ℝ) : Prop where
  alt : ∀ t, -(π / 2) ≤ alt t ∧ alt t ≤ π / 2 ∧ sin (alt t) = upward p d (hour H0 w t)
  az : ∀ t, IsAz p d (hour H0 w t) (az t)

end Verif.Rst
