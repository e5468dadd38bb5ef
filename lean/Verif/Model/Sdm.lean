import Verif.Model.CStruct
import Verif.Model.FlatMulti
/-!
# The station dynamic MIB: /repo/lsl/common/sdm.py

The file is a list of bytes.  Structures are those of `Verif.Model.CStruct`.
-/
namespace Verif.Sdm
open CStruct

/-- `SUBSYSTEM_STATUS_STRUCT`, mcs.py lines 226-230. -/
def statusS : List Field := [⟨"summary", 4, 1⟩, ⟨"info", 1, 256⟩, ⟨"tv", 8, 2⟩]

/-- `SUBSUBSYSTEM_STATUS_STRUCT`, mcs.py lines 233-241, with the sizes of lines 76-94. -/
def partsS : List Field := [⟨"eFEEStat", 4, 256⟩, ⟨"eRPDStat", 4, 512⟩, ⟨"eSEPStat", 4, 512⟩, ⟨"eARBStat", 4, 512⟩,
  ⟨"eSnapStat", 4, 1024⟩, ⟨"eServerStat", 4, 5⟩, ⟨"eDRStat", 4, 5⟩]

/-- sdm.py lines 287-290. -/
def antennaS : List Field := [⟨"ant_stat", 4, 512⟩, ⟨"ndpo_stat", 4, 5⟩]

/-- `STATION_SETTINGS_STRUCT`, mcs.py lines 198-223. -/
def settingsS : List Field := [⟨"mrp_asp", 2, 1⟩, ⟨"mrp_ndp", 2, 1⟩, ⟨"mrp_dr1", 2, 1⟩, ⟨"mrp_dr2", 2, 1⟩, ⟨"mrp_dr3", 2, 1⟩,
  ⟨"mrp_dr4", 2, 1⟩, ⟨"mrp_dr5", 2, 1⟩, ⟨"mrp_shl", 2, 1⟩, ⟨"mrp_mcs", 2, 1⟩, ⟨"mup_asp", 2, 1⟩, ⟨"mup_ndp", 2, 1⟩,
  ⟨"mup_dr1", 2, 1⟩, ⟨"mup_dr2", 2, 1⟩, ⟨"mup_dr3", 2, 1⟩, ⟨"mup_dr4", 2, 1⟩, ⟨"mup_dr5", 2, 1⟩, ⟨"mup_shl", 2, 1⟩,
  ⟨"mup_mcs", 2, 1⟩, ⟨"fee", 2, 256⟩, ⟨"asp_flt", 2, 256⟩, ⟨"asp_at1", 2, 256⟩, ⟨"asp_at2", 2, 256⟩, ⟨"asp_at3", 2, 256⟩,
  ⟨"drx_gain", 2, 1⟩]

/-- `n` values of `w` bytes from `off`. -/
def ints (mem : Bytes) (off w n : Nat) : List Int := (List.range n).map fun i => getS mem (off + w * i) w

/-- `list(struct.name)` for a field of a structure. -/
def field (l : List Field) (mem : Bytes) (name : String) : List Int :=
  match (offsets 0 l).find? (fun x => x.1.name = name) with
  | some (f, off) => ints mem off f.size f.count
  | none => []

/-- `struct.name` for a plain value. -/
def value (l : List Field) (mem : Bytes) (name : String) : Int := (field l mem name).headD 0

/-- All bytes of an array of characters. -/
def chars (l : List Field) (mem : Bytes) (name : String) : Bytes :=
  match (offsets 0 l).find? (fun x => x.1.name = name) with
  | some (f, off) => slice mem off (f.size * f.count)
  | none => []

/-- `flat_to_multi(values, n, m)`: rows of `m` values. -/
def rows (m : Nat) (l : List Int) : List (List Int) := (FlatMulti.chunks m l).getD []

/-- What `summary` is: a member of the enumeration, as set by the constructor, or the number that is read. -/
inductive Summary
  | member (n : Int)
  | number (n : Int)
  deriving DecidableEq

/-- `SubSystemStatus`. -/
structure Status where
  name : String
  summary : Summary
  info : Bytes
  time : Rat
  deriving DecidableEq

/-- `"UNK"`. -/
def unk : Bytes := [85, 78, 75]

/-- The constructor, lines 25-29, with the defaults. -/
def Status.new (name : String) : Status := ⟨name, .member 6, unk, 0⟩

inductive Err
  | typeError
  | attributeError
  | indexError
  deriving DecidableEq

/-- `__str__`, lines 31-32, up to the text: the code and whether it has a description.  A number has no attribute
`description`; a member of an `enum.Enum` is not a number for `%i`. -/
def Status.str (s : Status) : Except Err (String × Bytes × Int) :=
  match s.summary with
  | .number _ => .error .attributeError
  | .member _ => .error .typeError

/-- A `char` array: the bytes before the first zero. -/
def cChars (l : Bytes) : Bytes := l.takeWhile (· ≠ 0)

/-- `SubSystemStatus.binary_read`, lines 34-48. -/
def Status.read (s : Status) (file : Bytes) : Status × Bytes :=
  let r := readinto (fresh statusS) file
  let tv := field statusS r.1 "tv"
  ({ s with summary := .number (value statusS r.1 "summary"),
            info := cChars (chars statusS r.1 "info"),
            time := (tv.getD 0 0 : Rat) + (tv.getD 1 0 : Rat) / 1000000 }, r.2)

/-- `SubSubSystemStatus`. -/
structure Parts where
  fee : List Int
  rpd : List Int
  sep : List Int
  arb : List (List Int)
  snap : List (List Int)
  server : List Int
  dr : List Int
  deriving DecidableEq

/-- `SubSubSystemStatus.binary_read`, lines 92-111. -/
def Parts.read (file : Bytes) : Parts × Bytes :=
  let r := readinto (fresh partsS) file
  (⟨field partsS r.1 "eFEEStat", field partsS r.1 "eRPDStat", field partsS r.1 "eSEPStat",
    rows 16 (field partsS r.1 "eARBStat"), rows 64 (field partsS r.1 "eSnapStat"),
    field partsS r.1 "eServerStat", field partsS r.1 "eDRStat"⟩, r.2)

/-- A dictionary of reporting or update intervals. -/
abbrev Rates := List (String × Int)

/-- The initial ones, lines 121-129. -/
def noRates : Rates := [("ASP", -1), ("NDP", -1), ("DR1", -1), ("DR2", -1), ("DR3", -1), ("DR4", -1), ("DR5", -1), ("SHL", -1), ("MCS", -1)]

/-- `d[key] = v` for a key that is there. -/
def put (d : Rates) (key : String) (v : Int) : Rates := d.map fun x => if x.1 = key then (key, v) else x

/-- `StationSettings`. -/
structure Settings where
  report : Rates
  update : Rates
  feePower : List Int
  aspFilter : List Int
  atten1 : List Int
  atten2 : List Int
  atten3 : List Int
  drxGain : Int
  deriving DecidableEq

/-- The assignments of lines 172-188: keys and fields. -/
def reportKeys : List (String × String) := [("ASP", "mrp_asp"), ("NDP", "mrp_ndp"), ("DR1", "mrp_dr1"), ("DR2", "mrp_dr2"),
  ("DR3", "mrp_dr3"), ("DR4", "mrp_dr4"), ("SHL", "mrp_shl"), ("MCS", "mrp_mcs")]
def updateKeys : List (String × String) := [("ASP", "mup_asp"), ("NDP", "mup_ndp"), ("DR1", "mup_dr1"), ("DR2", "mup_dr2"),
  ("DR3", "mup_dr3"), ("DR4", "mup_dr4"), ("SHL", "mup_shl"), ("MCS", "mup_mcs")]

/-- The assignments in a row. -/
def assign (mem : Bytes) (d : Rates) (keys : List (String × String)) : Rates :=
  keys.foldl (fun d k => put d k.1 (value settingsS mem k.2)) d

/-- `StationSettings.binary_read`, lines 158-197. -/
def Settings.read (file : Bytes) : Settings × Bytes :=
  let r := readinto (fresh settingsS) file
  (⟨assign r.1 noRates reportKeys, assign r.1 noRates updateKeys, field settingsS r.1 "fee", field settingsS r.1 "asp_flt",
    field settingsS r.1 "asp_at1", field settingsS r.1 "asp_at2", field settingsS r.1 "asp_at3", value settingsS r.1 "drx_gain"⟩, r.2)

/-- `SDM`; `subs` are `station`, `shl`, `asp`, `ndp` and the data recorders. -/
structure Sdm where
  subs : List Status
  parts : Parts
  ants : List (List Int)
  outputs : List Int
  settings : Settings
  deriving DecidableEq

/-- The names of the subsystems in order, lines 207-224. -/
def names : List String := ["station", "shl", "asp", "ndp", "dr1", "dr2", "dr3", "dr4", "dr5"]

/-- Reading one status after the other, lines 276-281. -/
def readStatuses : List Status → Bytes → List Status × Bytes
  | [], file => ([], file)
  | s :: l, file =>
    let r := s.read file
    let t := readStatuses l r.2
    (r.1 :: t.1, t.2)

/-- `parse_sdm`, lines 264-300. -/
def parse (file : Bytes) : Sdm :=
  let r1 := readStatuses (names.map Status.new) file
  let r2 := Parts.read r1.2
  let r3 := readinto (fresh antennaS) r2.2
  let r4 := Settings.read r3.2
  ⟨r1.1, r2.1, rows 2 (field antennaS r3.1 "ant_stat"), field antennaS r3.1 "ndpo_stat", r4.1⟩

/-- `l[i]`. -/
def pyGet {α : Type} (l : List α) (i : Int) : Option α :=
  if 0 ≤ i then l[i.toNat]? else if 0 ≤ i + l.length then l[(i + l.length).toNat]? else none

/-- An antenna: stand, polarization and status. -/
structure Antenna where
  stand : Int
  pol : Int
  status : Int
  deriving DecidableEq

/-- `update_antennas`, lines 247-261; `none` is `IndexError`. -/
def updateAntennas (s : Sdm) (l : List Antenna) : Option (List Antenna) :=
  l.mapM fun a => (pyGet s.ants (a.stand - 1)).bind fun r => (pyGet r a.pol).map fun v => { a with status := v }

end Verif.Sdm
