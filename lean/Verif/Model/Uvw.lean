import Mathlib.Analysis.SpecialFunctions.Trigonometric.Basic
/-!
# uvw coordinates: /repo/lsl/correlator/uvutils.py, compute_uvw and compute_uv_track

Floats are idealised to real numbers.  Antennas are the positions of their stands (east, north, up).
-/
namespace Verif.Uvw

open Real

@[ext] structure Vec where
  x : ℝ
  y : ℝ
  z : ℝ

/-- `Stand.__sub__`, stations.py:619-630. -/
def Vec.sub (a b : Vec) : Vec := ⟨a.x - b.x, a.y - b.y, a.z - b.z⟩

structure Mat where
  r1 : Vec
  r2 : Vec
  r3 : Vec

def dot (a b : Vec) : ℝ := a.x * b.x + a.y * b.y + a.z * b.z

/-- `np.dot(m, v)`. -/
def Mat.apply (m : Mat) (v : Vec) : Vec := ⟨dot m.r1 v, dot m.r2 v, dot m.r3 v⟩

/-- `a @ b`. -/
def Mat.mul (a b : Mat) : Mat :=
  let c1 : Vec := ⟨b.r1.x, b.r2.x, b.r3.x⟩
  let c2 : Vec := ⟨b.r1.y, b.r2.y, b.r3.y⟩
  let c3 : Vec := ⟨b.r1.z, b.r2.z, b.r3.z⟩
  ⟨⟨dot a.r1 c1, dot a.r1 c2, dot a.r1 c3⟩, ⟨dot a.r2 c1, dot a.r2 c2, dot a.r2 c3⟩,
    ⟨dot a.r3 c1, dot a.r3 c2, dot a.r3 c3⟩⟩

/-- `trans1`, uvutils.py:199-201. -/
noncomputable def trans1 (lat : ℝ) : Mat :=
  ⟨⟨0, -sin lat, cos lat⟩, ⟨1, 0, 0⟩, ⟨0, cos lat, sin lat⟩⟩

/-- `trans2`, uvutils.py:202-204. -/
noncomputable def trans2 (ha dec : ℝ) : Mat :=
  ⟨⟨sin ha, cos ha, 0⟩, ⟨-sin dec * cos ha, sin dec * sin ha, cos dec⟩,
    ⟨cos dec * cos ha, -cos dec * sin ha, sin dec⟩⟩

/-- Hours to radians, uvutils.py:183. -/
noncomputable def haRad (ha : ℝ) : ℝ := ha * 15 * π / 180

/-- Degrees to radians, uvutils.py:191. -/
noncomputable def degRad (dec : ℝ) : ℝ := dec * π / 180

/-- `speedOfLight` in m/s. -/
def c : ℝ := 299792458

/-- One entry of the result, uvutils.py:207-215, for angles in radians. -/
noncomputable def uvw (ha dec lat freq : ℝ) (a1 a2 : Vec) : Vec :=
  let xyz := ((trans2 ha dec).mul (trans1 lat)).apply (a1.sub a2)
  ⟨xyz.x * freq / c, xyz.y * freq / c, xyz.z * freq / c⟩

/-- `compute_uvw(baselines, HA, dec, freq, site)` for plain numbers, uvutils.py:127-219: one row per
baseline, one entry per frequency. -/
noncomputable def computeUvw (baselines : List (Vec × Vec)) (ha dec lat : ℝ) (freqs : List ℝ) :
    List (List Vec) :=
  baselines.map (fun b => freqs.map (fun f => uvw (haRad ha) (degRad dec) lat f b.1 b.2))

/-- Entry `i` of `np.linspace(lo, hi, num=n)`. -/
noncomputable def linspace (lo hi : ℝ) (n i : ℕ) : ℝ := lo + i * ((hi - lo) / (n - 1))

/-- `(u, v)` of entry `k < 512` of the track of a baseline, uvutils.py:283-298. -/
noncomputable def uvTrack (dec lat freq : ℝ) (a1 a2 : Vec) (k : ℕ) : ℝ × ℝ :=
  let xyz := (trans1 lat).apply (a1.sub a2)
  let r := sqrt (xyz.x ^ 2 + xyz.y ^ 2)
  let u := fun i => linspace (-r) r 256 i
  let v1 := fun i => sqrt (xyz.x ^ 2 + xyz.y ^ 2 - u i ^ 2) * sin dec + xyz.z * cos dec
  let v2 := fun i => -sqrt (xyz.x ^ 2 + xyz.y ^ 2 - u i ^ 2) * sin dec + xyz.z * cos dec
  if k < 256 then (u k * freq / c, v1 k * freq / c)
  else (u (511 - k) * freq / c, v2 (511 - k) * freq / c)

end Verif.Uvw
