import Mathlib.Analysis.SpecialFunctions.Complex.Arg
/-!
# Pointing corrections and directions between places

/repo/lsl/common/mcs.py:797-853 and /repo/lsl/common/stations.py:307-372, 552-556, 636-648.

Simplifications: real numbers.  What astropy does is written out: a `SphericalRepresentation` of azimuth, elevation and 1 is
`(cos el cos az, cos el sin az, sin el)`; back, the longitude is `arctan2(y, x)` brought into `[0, 2π)` and the latitude
`arctan2(z, hypot(x, y))`; `AltAz` seen from a place on the Earth has its axes to the north, the east and the zenith of the
ellipsoid there, without refraction and aberration.
-/
namespace Verif.Pointing

/-- A vector of three numbers. -/
@[ext] structure V where
  x : ℝ
  y : ℝ
  z : ℝ

/-- A 3×3 array, by rows. -/
@[ext] structure M where
  r1 : V
  r2 : V
  r3 : V

def dot (a b : V) : ℝ := a.x * b.x + a.y * b.y + a.z * b.z

/-- `m @ v`. -/
def M.app (m : M) (v : V) : V := ⟨dot m.r1 v, dot m.r2 v, dot m.r3 v⟩

/-- `v + w`. -/
def V.add (v w : V) : V := ⟨v.x + w.x, v.y + w.y, v.z + w.z⟩

/-- `v - w`. -/
def V.sub (v w : V) : V := ⟨v.x - w.x, v.y - w.y, v.z - w.z⟩

/-- `v*c`. -/
def V.scale (c : ℝ) (v : V) : V := ⟨c * v.x, c * v.y, c * v.z⟩

/-- `m + n`. -/
def M.add (m n : M) : M := ⟨m.r1.add n.r1, m.r2.add n.r2, m.r3.add n.r3⟩

/-- `c*m`. -/
def M.scale (c : ℝ) (m : M) : M := ⟨m.r1.scale c, m.r2.scale c, m.r3.scale c⟩

/-- `np.eye(3)`. -/
def eye : M := ⟨⟨1, 0, 0⟩, ⟨0, 1, 0⟩, ⟨0, 0, 1⟩⟩

/-- `np.tensordot(u, v, axes=0)`. -/
def outer (u v : V) : M := ⟨v.scale u.x, v.scale u.y, v.scale u.z⟩

/-- An angle in radians: lines 804-807 and 832-837 of mcs.py. -/
noncomputable def rad (degrees : Bool) (a : ℝ) : ℝ := if degrees then a * Real.pi / 180 else a

/-- An angle as it is returned, mcs.py:846-851. -/
noncomputable def unrad (degrees : Bool) (a : ℝ) : ℝ := if degrees then a * (180 / Real.pi) else a

/-- The axis, mcs.py:810, of angles in radians. -/
noncomputable def axis (theta phi : ℝ) : V :=
  ⟨Real.cos phi * Real.sin theta, Real.sin phi * Real.sin theta, Real.cos theta⟩

/-- `[[0, -u[2], u[1]], [u[2], 0, -u[0]], [-u[1], u[0], 0]]`, mcs.py:814. -/
def crossM (u : V) : M := ⟨⟨0, -u.z, u.y⟩, ⟨u.z, 0, -u.x⟩, ⟨-u.y, u.x, 0⟩⟩

/-- Lines 813-815 of mcs.py for an axis and an angle in radians. -/
noncomputable def turn (u : V) (psi : ℝ) : M :=
  ((eye.scale (Real.cos psi)).add ((crossM u).scale (Real.sin psi))).add ((outer u u).scale (1 - Real.cos psi))

/-- `_get_rotation_matrix(theta, phi, psi, degrees)`, mcs.py:797-817. -/
noncomputable def rotation (degrees : Bool) (theta phi psi : ℝ) : M := turn (axis (rad degrees theta) (rad degrees phi)) (rad degrees psi)

/-- `SphericalRepresentation(az, el, 1).to_cartesian()`, mcs.py:838-839. -/
noncomputable def direction (az el : ℝ) : V := ⟨Real.cos el * Real.cos az, Real.cos el * Real.sin az, Real.sin el⟩

/-- `[[1,0,2]]`, mcs.py:842-843. -/
def V.swap (v : V) : V := ⟨v.y, v.x, v.z⟩

/-- `arctan2(y, x)`. -/
noncomputable def atan2 (y x : ℝ) : ℝ := Complex.arg ⟨x, y⟩

/-- A `Longitude` is in `[0, 2π)`. -/
noncomputable def wrap (a : ℝ) : ℝ := if a < 0 then a + 2 * Real.pi else a

/-- The longitude of `SphericalRepresentation.from_cartesian`. -/
noncomputable def lon (v : V) : ℝ := wrap (atan2 v.y v.x)

/-- `hypot(x, y)`. -/
noncomputable def hypot (x y : ℝ) : ℝ := Real.sqrt (x * x + y * y)

/-- The latitude of `SphericalRepresentation.from_cartesian`. -/
noncomputable def lat (v : V) : ℝ := atan2 v.z (hypot v.x v.y)

/-- The vector after the rotation, mcs.py:842-843. -/
noncomputable def corrected (degrees : Bool) (az el theta phi psi : ℝ) : V :=
  ((rotation degrees theta phi psi).app (direction (rad degrees az) (rad degrees el)).swap).swap

/-- `apply_pointing_correction(az, el, theta, phi, psi, lat, degrees)`, mcs.py:820-853.  `lat` is not used. -/
noncomputable def correct (degrees : Bool) (az el theta phi psi : ℝ) : ℝ × ℝ :=
  (unrad degrees (lon (corrected degrees az el theta phi psi)), unrad degrees (lat (corrected degrees az el theta phi psi)))

/-- `LWAStation.eci_transform_matrix`, stations.py:307-318. -/
noncomputable def eci (lt : ℝ) : M :=
  ⟨⟨0, -Real.sin lt, Real.cos lt⟩, ⟨1, 0, 0⟩, ⟨0, Real.cos lt, Real.sin lt⟩⟩

/-- `LWAStation.eci_inverse_transform_matrix`, stations.py:320-330. -/
noncomputable def eciInv (lt : ℝ) : M :=
  ⟨⟨0, 1, 0⟩, ⟨-Real.sin lt, 0, Real.cos lt⟩, ⟨Real.cos lt, 0, Real.sin lt⟩⟩

/-- A station: its latitude and longitude in radians, stations.py:217-218, and where it is on the Earth. -/
structure Place where
  lat : ℝ
  long : ℝ
  loc : V

/-- The matrix of astropy from `ITRS` to `AltAz`: the components to the north, the east and the zenith. -/
noncomputable def altaz (s : Place) : M :=
  ⟨⟨-Real.sin s.lat * Real.cos s.long, -Real.sin s.lat * Real.sin s.long, Real.cos s.lat⟩,
   ⟨-Real.sin s.long, Real.cos s.long, 0⟩,
   ⟨Real.cos s.lat * Real.cos s.long, Real.cos s.lat * Real.sin s.long, Real.sin s.lat⟩⟩

/-- The matrix of astropy from `AltAz` to `ITRS`. -/
noncomputable def altazInv (s : Place) : M :=
  ⟨⟨-Real.sin s.lat * Real.cos s.long, -Real.sin s.long, Real.cos s.lat * Real.cos s.long⟩,
   ⟨-Real.sin s.lat * Real.sin s.long, Real.cos s.long, Real.cos s.lat * Real.sin s.long⟩,
   ⟨Real.cos s.lat, 0, Real.sin s.lat⟩⟩

/-- `LWAStation.get_pointing_and_distance(locTo)`, stations.py:346-371, from the location on: azimuth, altitude and distance. -/
noncomputable def pointing (s : Place) (p : V) : ℝ × ℝ × ℝ :=
  (lon ((altaz s).app (p.sub s.loc)), lat ((altaz s).app (p.sub s.loc)),
   Real.sqrt (dot ((altaz s).app (p.sub s.loc)) ((altaz s).app (p.sub s.loc))))

/-- `LWAStation.get_enz_offset(locTo)`, stations.py:332-344. -/
noncomputable def enzOffset (s : Place) (p : V) : V :=
  V.scale (pointing s p).2.2
    ⟨Real.sin (pointing s p).1 * Real.cos (pointing s p).2.1, Real.cos (pointing s p).1 * Real.cos (pointing s p).2.1,
      Real.sin (pointing s p).2.1⟩

/-- `Stand.earth_location`, stations.py:637-648, of a stand with these coordinates. -/
noncomputable def standLocation (s : Place) (stand : V) : V := ((altazInv s).app ⟨stand.y, stand.x, stand.z⟩).add s.loc

end Verif.Pointing
