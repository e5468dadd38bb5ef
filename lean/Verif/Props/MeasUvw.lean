import Verif.Model.MeasUvw
import Mathlib.Tactic.Ring
/-!
# C80: the uvw coordinates of measurement sets
-/
namespace Verif.MeasUvw
open Verif.Uvw

/-- The coordinates read from a measurement set are those that `compute_uvw` gives for the same baseline, phase centre, site
and frequency. -/
theorem C80_uvw (ha dec lat freq : ℝ) (a1 a2 : Vec) :
    scaled freq (getUvw ha dec lat a1 a2) = uvw ha dec lat freq a1 a2 := by
  unfold scaled getUvw uvw Mat.apply Mat.mul dot
  ext <;> simp only <;> ring

/-- The coordinates of a baseline the other way round are opposite. -/
theorem C80_uvw_swap (ha dec lat freq : ℝ) (a1 a2 : Vec) :
    scaled freq (getUvw ha dec lat a2 a1)
      = ⟨-(scaled freq (getUvw ha dec lat a1 a2)).x, -(scaled freq (getUvw ha dec lat a1 a2)).y,
         -(scaled freq (getUvw ha dec lat a1 a2)).z⟩ := by
  unfold scaled getUvw Mat.apply dot Vec.sub
  ext <;> simp only <;> ring

end Verif.MeasUvw
