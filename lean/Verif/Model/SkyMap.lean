import Mathlib.Analysis.SpecialFunctions.Pow.Real
import Mathlib.Analysis.SpecialFunctions.Trigonometric.Basic
/-!
# Sky maps and overlays of images

/repo/lsl/skymap.py and /repo/lsl/imaging/overlay.py.  Floats are idealised to real numbers.  `none` is an exception.  Files,
transformations of coordinates and the cubic interpolation of components are given.
-/
namespace Verif.SkyMap

open Classical

/-! ## The map at a frequency -/

/-- `interp1d(x, y, kind='slinear')`, skymap.py line 189, of points in order; values outside raise. -/
noncomputable def linear : List (ℝ × ℝ) → ℝ → Option ℝ
  | p :: q :: l, x =>
    if x < p.1 then none
    else if x ≤ q.1 then some (p.2 + (x - p.1) * ((q.2 - p.2) / (q.1 - p.1)))
    else linear (q :: l) x
  | _, _ => none

/-- The scale at a frequency, skymap.py lines 189 and 198. -/
noncomputable def scale (survey : List (ℝ × ℝ)) (f : ℝ) : Option ℝ :=
  (linear (survey.map fun p => (Real.log p.1, Real.log p.2)) (Real.log f)).map Real.exp

/-- One pixel of the realisation: components times maps, skymap.py lines 195-198. -/
noncomputable def mix (comps maps : List ℝ) (s : ℝ) : ℝ := (List.zipWith (· * ·) comps maps).foldl (· + ·) 0 * s

/-- A pixel: right ascension and declination in degrees and power. -/
structure Pix where
  ra : ℝ
  dec : ℝ
  power : ℝ

/-- Pixels at a frequency, skymap.py lines 169-200, from positions in radians with the maps there. -/
noncomputable def load (survey : List (ℝ × ℝ)) (comps : ℝ → Option (List ℝ)) (data : List ((ℝ × ℝ) × List ℝ)) (f : ℝ) :
    Option (List Pix) :=
  (comps (Real.log f)).bind fun cs => (scale survey f).map fun s =>
    data.map fun d => ⟨d.1.1 / (Real.pi / 180), d.1.2 / (Real.pi / 180), mix cs d.2 s⟩

/-- `compute_total_power`, skymap.py lines 77-84. -/
noncomputable def total (sky : List Pix) : Option ℝ := if sky = [] then none else some (sky.map Pix.power).sum

/-! ## The sky over a site -/

/-- The projected map. -/
structure Proj where
  alt : List ℝ
  az : List ℝ
  power : List ℝ
  normalized : List ℝ
  ra : List ℝ
  dec : List ℝ

/-- The solid angle of a pixel, skymap.py lines 245-248. -/
noncomputable def solid : Option (ℕ × ℕ) → ℝ
  | some (x, y) => (2 * Real.pi) ^ 2 / (x * y)
  | none => 0.00025566346

/-- The factor of powers, skymap.py line 249. -/
noncomputable def fraction (shape : Option (ℕ × ℕ)) : ℝ := 1 / 4 * Real.pi * solid shape

/-- `np.compress`. -/
def compress {α : Type} (m : List Bool) (l : List α) : List α := (List.zip m l).filterMap fun p => if p.1 then some p.2 else none

/-- `ProjectedSkyMap.__init__`, skymap.py lines 215-257, with the transformation to altitude and azimuth in degrees. -/
noncomputable def project (shape : Option (ℕ × ℕ)) (horizontal : ℝ × ℝ → ℝ × ℝ) (sky : List Pix) (lat lon : ℝ) : Option Proj :=
  if (-90 ≤ lat ∧ lat ≤ 90) ∧ (-360 ≤ lon ∧ lon ≤ 360) then
    let alt := sky.map fun p => (horizontal (p.ra, p.dec)).1
    let az := sky.map fun p => (horizontal (p.ra, p.dec)).2
    let visible := alt.map fun a => decide (0 < a)
    some ⟨compress visible alt, compress visible az, compress visible (sky.map Pix.power),
      compress visible (sky.map fun p => p.power * fraction shape), compress visible (sky.map Pix.ra), compress visible (sky.map Pix.dec)⟩
  else none

/-- `get_direction_cosines`, skymap.py lines 259-269. -/
noncomputable def cosines (P : Proj) : List (ℝ × ℝ × ℝ) :=
  List.zipWith (fun alt az =>
    (Real.cos (alt * (Real.pi / 180)) * Real.sin (az * (Real.pi / 180)),
     Real.cos (alt * (Real.pi / 180)) * Real.cos (az * (Real.pi / 180)), Real.sin (alt * (Real.pi / 180)))) P.alt P.az

/-- `compute_visible_power`, skymap.py lines 271-279. -/
noncomputable def visible (P : Proj) : Option ℝ := if P.normalized = [] then none else some (P.normalized.foldl (· + ·) 0)

/-! ## Overlays -/

/-- `_radec_of` for degrees, overlay.py lines 49-69, with the site in degrees, the conversion and the offset of dates. -/
noncomputable def radecDeg (equ : ℝ → ℝ → ℝ → ℝ × ℝ) (date offset az alt : ℝ) : ℝ × ℝ :=
  equ alt (az - 360 * ⌊az / 360⌋) (date + offset)

/-- `_radec_of`, overlay.py lines 35-69. -/
noncomputable def radec (equ : ℝ → ℝ → ℝ → ℝ × ℝ) (date offset az alt : ℝ) (degrees : Bool) : ℝ × ℝ :=
  if degrees then radecDeg equ date offset az alt
  else
    let q := radecDeg equ date offset (az * 180 / Real.pi) (alt * 180 / Real.pi)
    (q.1 * Real.pi / 180, q.2 * Real.pi / 180)

/-- What is drawn. -/
inductive Draw where
  | marker (x y : ℝ)
  | text (x y : ℝ) (s : String)

/-- A source: its position on the image and altitude at a Julian date; computing may raise. -/
abbrev Source := ℝ → Option ((ℝ × ℝ) × ℝ)

/-- The loop of `sources`, overlay.py lines 94-104. -/
noncomputable def drawAll (jd : ℝ) (label : Bool) : List (String × Source) → List Draw × Bool
  | [] => ([], true)
  | (name, src) :: l =>
    match src jd with
    | none => ([], false)
    | some ((x, y), alt) =>
      let here := if 0 ≤ alt then .marker x y :: (if label then [.text x y name] else []) else []
      let (d, ok) := drawAll jd label l
      (here ++ d, ok)

/-- `sources`, overlay.py lines 72-105: what is drawn, whether it returns and the date of the array afterwards. -/
noncomputable def sources (mjd offset old : ℝ) (label : Bool) (srcs : List (String × Source)) : List Draw × Bool × ℝ :=
  let (d, ok) := drawAll (mjd + offset) label srcs
  (d, ok, if ok then old * 1 else mjd + offset)

/-- The place of a label along a line, overlay.py lines 221-224 and 236-239. -/
def labelAt (points : List (Option (ℝ × ℝ))) : Option (ℝ × ℝ) :=
  let valid := points.filterMap id
  if valid.length > 10 then valid[valid.length / 2 - valid.length / 5]? else none

end Verif.SkyMap
