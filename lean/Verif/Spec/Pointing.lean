import Verif.Model.Pointing
/-!
# What a rotation about an axis is, and the axes at a place on the Earth
-/
namespace Verif.Pointing.Spec

/-- The vector product, right handed. -/
def cross (a b : V) : V := ⟨a.y * b.z - a.z * b.y, a.z * b.x - a.x * b.z, a.x * b.y - a.y * b.x⟩

/-- `f` turns by `psi` about `u` in the right handed sense: it is linear, leaves the axis where it is, and takes what is
perpendicular to the axis round in the plane perpendicular to it. -/
structure Turns (u : V) (psi : ℝ) (f : V → V) : Prop where
  add : ∀ v w, f (v.add w) = (f v).add (f w)
  scale : ∀ c v, f (V.scale c v) = V.scale c (f v)
  fixed : f u = u
  turned : ∀ v, dot u v = 0 → f v = (V.scale (Real.cos psi) v).add (V.scale (Real.sin psi) (cross u v))

/-- The direction to the east, the north and up of azimuth and elevation: azimuth goes from north to east. -/
noncomputable def enu (az el : ℝ) : V := ⟨Real.sin az * Real.cos el, Real.cos az * Real.cos el, Real.sin el⟩

/-- The normal of the ellipsoid at a latitude and longitude. -/
noncomputable def up (lt ln : ℝ) : V := ⟨Real.cos lt * Real.cos ln, Real.cos lt * Real.sin ln, Real.sin lt⟩

/-- The determinant. -/
def det (m : M) : ℝ := dot m.r1 (cross m.r2 m.r3)

end Verif.Pointing.Spec
