import Verif.Model.McsTime
import Verif.Model.SdfUtils
import Verif.Model.Parser
import Verif.Model.Float64
/-!
# Maps of the electron content of the ionosphere: /repo/lsl/misc/ionosphere

Simplifications: a file is the list of its lines (unpacked, without `\n`).  Numbers are exact; `float` is modelled for
an optional sign, digits and an optional fraction with digits on both sides, surrounded by blanks, and fails otherwise.
A value that is not a number is `none`.  `dt += timedelta(days=1)` adds one to the day number.  A failed
`download_worker` returns `False`.
-/
namespace Verif.Ionex
open Verif.Dec Verif.McsTime
open Verif.Parser (isBlank strip)

abbrev Text := List Char

inductive Err
  | value | name | shape | index | zeroDiv | attr | file
  deriving DecidableEq, Repr

/-- `line.find(p) != -1`. -/
def contains (p : Text) : Text → Bool
  | [] => p.isPrefixOf []
  | c :: l => p.isPrefixOf (c :: l) || contains p l

/-- Pieces between blanks, empty ones included. -/
def splitBlank : Text → List Text
  | [] => [[]]
  | c :: l =>
    if isBlank c then [] :: splitBlank l
    else match splitBlank l with
      | [] => [[c]]
      | p :: ps => (c :: p) :: ps

/-- `line.split(None)`. -/
def words (l : Text) : List Text := (splitBlank l).filter (· ≠ [])

/-- `line[a:b]`. -/
def cols (a b : Nat) (l : Text) : Text := (l.drop a).take (b - a)

/-- `float(text)`. -/
def float? (l : Text) : Option Rat :=
  match strip l with
  | '-' :: r => (parseDec? r).map (fun x => -x)
  | '+' :: r => parseDec? r
  | r => parseDec? r

/-- `int(text)`. -/
def int? (l : Text) : Option Int := parseInt? (strip l)

abbrev Row := List (Option Rat)
abbrev Map := List Row

/-- The variables of `_parse_tec_map`.  The maps are objects: `objs` has all that were made, the variable `cmap` is the
last one of them, and `tecMaps`, `rmsMaps` are references. -/
structure St where
  dates : List Rat
  objs : List Map
  tec : List Nat
  rms : List Nat
  inMap : Bool
  inBlock : Bool
  lats : Option (List Rat)
  lngs : Option (List Rat)
  height : Option Rat

/-- _utils.py:192-199. -/
def start : St := ⟨[], [], [], [], false, false, none, none, none⟩

/-- The object `cmap`; none while the variable is not set. -/
def cmap (s : St) : Option Nat := if s.objs = [] then none else some (s.objs.length - 1)

/-- `datetime(...)` of numbers as they are in the file. -/
def datetime? (y mo d h mi s : Int) : Option DateTime :=
  if y < 0 ∨ mo < 0 ∨ d < 0 ∨ h < 0 ∨ mi < 0 ∨ s < 0 then none
  else
    let dt : DateTime := ⟨y.toNat, mo.toNat, d.toNat, h.toNat, mi.toNat, s.toNat, 0⟩
    if SdfUtils.exists? dt then some dt else none

/-- `mjd + mpm/1000.0/3600.0/24.0`. -/
def mjdOf (dt : DateTime) : Rat := toMjd dt + (toMpm dt : Rat) / 86400000

/-- _utils.py:242-252: the MJD, nothing when the line is passed over, or `ValueError`. -/
def epoch (y mo d h mi s : Int) : Except Err (Option Rat) :=
  match datetime? y mo d h mi s with
  | some dt => .ok (some (mjdOf dt))
  | none =>
    if 24 ≤ h then
      match datetime? y mo d (h - 24) mi s with
      | some dt => .ok (some (mjdOf dt + 1))
      | none => .error .value
    else .ok none

/-- The six numbers, _utils.py:234-240. -/
def six (l : Text) : Option (Int × Int × Int × Int × Int × Int) :=
  match ((words l).take 6).mapM int? with
  | some [y, mo, d, h, mi, s] => some (y, mo, d, h, mi, s)
  | _ => none

/-- `np.arange(start, stop, step)`. -/
def arange (a b st : Rat) : Except Err (List Rat) :=
  if st = 0 then .error .zeroDiv
  else .ok ((List.range ((b - a) / st).ceil.toNat).map (fun (i : Nat) => a + (i : Rat) * st))

/-- `float(v)/10.0`, with 9999 for no value, _utils.py:281-282. -/
def cell (v : Rat) : Option Rat := if v / 10 = 9999 / 10 then none else some (v / 10)

/-- Change of the last object. -/
def withLast (f : Map → Map) (l : List Map) : List Map :=
  match l.getLast? with
  | none => l
  | some m => l.dropLast ++ [f m]

/-- `cmap[-1].extend(fields)`. -/
def extend (r : Row) (m : Map) : Map :=
  match m.getLast? with
  | none => m
  | some x => m.dropLast ++ [x ++ r]

/-- The line with the latitude, _utils.py:264-276. -/
def latLine (s : St) (l : Text) : Except Err St :=
  match float? (cols 3 8 l), float? (cols 8 14 l), float? (cols 14 20 l), float? (cols 20 26 l), float? (cols 26 32 l) with
  | some lat, some l1, some l2, some dl, some h =>
    if s.objs = [] then .error .name
    else
      match s.lats with
      | none => .error .name
      | some ls =>
        match arange l1 (l2 + dl) dl with
        | .error e => .error e
        | .ok ln =>
          .ok { s with objs := withLast (· ++ [[]]) s.objs, lats := some (ls ++ [lat]), lngs := some ln, height := some h, inBlock := true }
  | _, _, _, _, _ => .error .value

/-- A line of values, _utils.py:280-285. -/
def dataLine (s : St) (l : Text) : Except Err St :=
  match (words l).mapM float? with
  | none => .error .value
  | some vs =>
    match s.objs.getLast? with
    | none => .error .name
    | some [] => .error .index
    | some _ => .ok { s with objs := withLast (extend (vs.map cell)) s.objs }

/-- The line with the time, _utils.py:232-261. -/
def epochLine (s : St) (l : Text) : Except Err St :=
  match six l with
  | none => .error .value
  | some (y, mo, d, h, mi, se) =>
    match epoch y mo d h mi se with
    | .error e => .error e
    | .ok none => .ok s
    | .ok (some t) =>
      .ok { s with dates := if t ∈ s.dates then s.dates else s.dates ++ [t], objs := s.objs ++ [[]], lats := some [], lngs := some [] }

/-- One line, _utils.py:213-285. -/
def step (s : St) (l : Text) : Except Err St :=
  if contains "START OF TEC MAP".toList l || contains "START OF RMS MAP".toList l then .ok { s with inMap := true }
  else if contains "END OF TEC MAP".toList l || contains "END OF RMS MAP".toList l then
    match cmap s with
    | none => .error .name
    | some k =>
      if contains "TEC".toList l then .ok { s with tec := s.tec ++ [k], inMap := false }
      else .ok { s with rms := s.rms ++ [k], inMap := false }
  else if s.inMap then
    if contains "EPOCH OF CURRENT MAP".toList l then epochLine s l
    else if contains "LAT/LON1/LON2/DLON/H".toList l then latLine s l
    else if s.inBlock then dataLine s l
    else .ok s
  else .ok s

def run (s : St) : List Text → Except Err St
  | [] => .ok s
  | l :: ls =>
    match step s l with
    | .error e => .error e
    | .ok s' => run s' ls

/-- What is returned. -/
structure Data where
  dates : List Rat
  lats : List Rat
  lngs : List Rat
  height : Rat
  tec : List Map
  rms : List Map
  deriving DecidableEq, Repr

/-- `np.array` takes nested lists of one shape only. -/
def Regular? (ms : List Map) : Bool :=
  match ms with
  | [] => true
  | m :: _ => ms.all (fun x => x.length == m.length && x.all (fun r => r.length == (m.headD []).length))

/-- `size` of the array. -/
def size (ms : List Map) : Nat := (ms.map (fun m => (m.map List.length).sum)).sum

/-- _utils.py:290-308. -/
def finish (s : St) : Except Err Data :=
  let tec := s.tec.map (fun k => s.objs.getD k [])
  let rms := s.rms.map (fun k => s.objs.getD k [])
  if !Regular? tec || !Regular? rms then .error .shape
  else
    match s.lats, s.lngs, s.height with
    | some la, some ln, some h =>
      .ok ⟨s.dates, la, ln, h, tec, if size rms = size tec then rms else tec.map (·.map (·.map (·.map (· / 20))))⟩
    | _, _, _ => .error .name

/-- `_parse_tec_map`, _utils.py:176-308. -/
def parse (lines : List Text) : Except Err Data :=
  match run start lines with
  | .error e => .error e
  | .ok s => finish s

/-! ## The value at a time and place, __init__.py:437-495 -/

/-- `best`: the maps closer than `w` in time, `rnd` being the rounding of the difference. -/
def best (rnd : Rat → Rat) (dates : List Rat) (w t : Rat) : List Nat :=
  (List.range dates.length).filter (fun i => decide ((rnd (dates.getD i 0 - t)).abs < w))

/-- Interpolation in time of one point of the maps, __init__.py:462-469. -/
def timeValue (rnd : Rat → Rat) (dates vals : List Rat) (w t : Rat) : Except Err Rat :=
  match (best rnd dates w t).head?, (best rnd dates w t).getLast? with
  | some i, some j =>
    let d (k : Nat) := dates.getD k 0
    let v (k : Nat) := vals.getD k 0
    let slope := if j = i then 0 else (v j - v i) / (d j - d i)
    .ok (slope * (t - d i) + v i)
  | _, _ => .error .index

/-- The window in days: ten minutes, fifteen minutes or two hours, __init__.py:449-460. -/
def window (kind : String) : Rat := if kind = "GLOTEC" then 10 / 1440 else if kind = "USTEC" then 15 / 1440 else 2 / 24

/-- The same in double precision. -/
def window64 (kind : String) : Rat :=
  if kind = "GLOTEC" then fl64 (fl64 (10 / 60) / 24) else if kind = "USTEC" then fl64 (fl64 (15 / 60) / 24) else fl64 (2 / 24)

/-- The time of a map in double precision, `mjd + mpm/1000.0/3600.0/24.0`. -/
def mjd64 (mjd mpm : Int) : Rat := fl64 (mjd + fl64 (fl64 (fl64 ((mpm : Rat) / 1000) / 3600) / 24))

/-- Linear interpolation with the ends going on, one direction of `RectBivariateSpline(…, kx=1, ky=1)`: `xs` ascending. -/
def lerp : List (Rat × Rat) → Rat → Rat
  | [], _ => 0
  | [(_, z)], _ => z
  | (x0, z0) :: (x1, z1) :: r, x =>
    if x ≤ x0 then z0
    else if x ≤ x1 then z0 + (z1 - z0) * (x - x0) / (x1 - x0)
    else lerp ((x1, z1) :: r) x

/-- Interpolation in the place, __init__.py:481-483: the rows of the map are in descending latitude. -/
def placeValue (lats lngs : List Rat) (m : List (List Rat)) (lat lng : Rat) : Rat :=
  lerp ((lats.zip (m.map (fun r => lerp (lngs.zip r) lng))).reverse) lat

/-! ## USTEC and GloTEC -/

/-- The uncertainties of a USTEC map, _ustec.py:179-182: `f` is the interpolated value at a row and column.  Both loops run
over the number of rows. -/
def ustecRms (nlat nlng : Nat) (f : Nat → Nat → Rat) : Except Err (List (List Rat)) :=
  if nlng < nlat then .error .index
  else .ok ((List.range nlat).map (fun i => (List.range nlng).map (fun j => if j < nlat then f i j else 0)))

/-- The height of USTEC, _ustec.py:214-249: the mean of the heights with the values as weights. -/
def ustecHeight (height step : Rat) (data : List Rat) : Rat :=
  (data.zipIdx.map (fun x => (height + (x.2 : Rat) * step - 6371) * x.1)).sum / data.sum

/-- `int((mjd - int(mjd))*24.0*3600.0*1000)`. -/
def mpmOf (mjd : Rat) : Int := ((mjd - mjd.floor) * 86400000).floor

/-- The day whose GloTEC file is downloaded, _glotec.py:34-44. -/
def glotecDownload (mjd : Rat) : Int :=
  if 500 < mpmOf mjd % 1000 then mjd.floor + (mpmOf mjd - mpmOf mjd % 1000 + 1000) / 86400000 else mjd.floor

/-- The day whose GloTEC file is opened, _glotec.py:144-161. -/
def glotecOpen (mjd : Rat) : Int := mjd.floor

/-! ## Which file is read -/

/-- `load_mjd`, _utils.py:332-355: `cached` tells which files are there, a download of `final` or `rapid` makes the file
available when it works.  Returns the file that is opened. -/
def chosen (cached : Bool × Bool) (downloads : Bool × Bool) : Except Err Bool :=
  -- `true` for the final, `false` for the rapid one
  if cached.1 then .ok true
  else if downloads.1 then .ok true
  else if cached.2 then .ok false
  else if downloads.2 then .ok false
  else .error .file

end Verif.Ionex
