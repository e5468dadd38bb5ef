import Mathlib.Analysis.SpecialFunctions.Complex.Arg
import Verif.Model.Uvw
/-!
# What simulated visibilities should be

Directions are unit vectors in the frame of the antenna positions: the first axis towards the meridian on the equator, the
second to the east, the third to the pole.
-/
namespace Verif.SimFast.Spec

open Real
open Verif.Uvw (Vec dot)

/-- The direction with an hour angle and a declination. -/
noncomputable def dir (ha dec : ℝ) : Vec := ⟨cos dec * cos ha, -(cos dec * sin ha), sin dec⟩

/-- East and north of that direction on the sky. -/
noncomputable def east (ha : ℝ) : Vec := ⟨sin ha, cos ha, 0⟩

noncomputable def north (ha dec : ℝ) : Vec := ⟨-(sin dec * cos ha), sin dec * sin ha, cos dec⟩

/-- The direction with an azimuth and an elevation, as east, north and up. -/
noncomputable def enu (az el : ℝ) : Vec := ⟨sin az * cos el, cos az * cos el, sin el⟩

/-- A source: where, how bright in each channel, its axes and position angle. -/
structure Src where
  ha : ℝ
  dec : ℝ
  flux : Nat → ℂ
  a0 : ℝ
  a1 : ℝ
  th : ℝ

/-- The response of a baseline to an elliptical disc: `2 J1(x)/x`. -/
noncomputable def disc (j1 : ℝ → ℝ) (x : ℝ) : ℝ := open Classical in if x = 0 then 1 else 2 * j1 x / x

/-- The same for a source, of a baseline `(u, v)`; a source without an axis is a point. -/
noncomputable def shape (j1 : ℝ → ℝ) (resolve : Bool) (s : Src) (u v : ℝ) : ℝ :=
  open Classical in
  if resolve = true ∧ s.a0 ≠ 0 ∧ s.a1 ≠ 0 then
    disc j1 (2 * π * sqrt ((s.a0 * (u * cos s.th - v * sin s.th)) ^ 2 + (s.a1 * (u * sin s.th + v * cos s.th)) ^ 2))
  else 1

/-- The visibility of baseline `b` at frequency `f` in channel `k` for the phase centre `c`: every source with the phase of
its delay relative to that of the phase centre. -/
noncomputable def vis (j1 : ℝ → ℝ) (resolve : Bool) (c : Vec) (b : Vec) (f : ℝ) (k : Nat) (srcs : List Src) : ℂ :=
  (srcs.map fun s =>
    (shape j1 resolve s (f * dot (east s.ha) b) (f * dot (north s.ha s.dec) b) : ℂ) * s.flux k
      * Complex.exp (2 * π * (f * (dot (dir s.ha s.dec) b - dot c b)) * Complex.I)).sum

end Verif.SimFast.Spec
