import Verif.Model.Uvw
/-!
# The uvw coordinates of measurement sets: /repo/lsl/writer/measurementset.py and /repo/lsl/imaging/utils.py

Floats are idealised to real numbers; the coordinates are stored as single precision floats.
-/
namespace Verif.MeasUvw
open Verif.Uvw

/-- A row of `get_uvw`, lines 77-105, for angles in radians, in metres. -/
noncomputable def getUvw (ha dec lat : ℝ) (a1 a2 : Vec) : Vec :=
  (trans2 ha dec).apply ((trans1 lat).apply (a1.sub a2))

/-- `uvw*uscl` for a frequency, utils.py lines 1074-1078. -/
noncomputable def scaled (freq : ℝ) (v : Vec) : Vec := ⟨v.x * (freq / c), v.y * (freq / c), v.z * (freq / c)⟩

end Verif.MeasUvw
