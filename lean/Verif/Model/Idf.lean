import Verif.Model.SdfParse
import Verif.Model.Ssmif
/-!
# Interferometer definition files: /repo/lsl/common/idf.py, lines 72-278, 385-488, 594-700, 1037-1110, 1192-1532

`Project.render`, `parse_idf` and `_parse_create_scan_object` on the characters of the file, for the first run of a project.

Texts are lists of characters.  Floats are exact rational numbers and `float(text)` is read for plain decimals only (no exponents).
`none` is an exception, of whatever class.  Stations are their names.  The start of a scan goes through `Time` and a text with
milliseconds, which is the identity on the time and only brings the milliseconds into the day.  Negative durations are not read.  The
texts of `SCAN_START`, of file sizes and of bandwidths are given.
-/
namespace Verif.Idf

open Dec Parser

abbrev Text := List Char

/-! ## Numbers -/

/-- `"%.kf"` and `"%+.kf"`. -/
def fixed (k : Nat) (plus : Bool) (x : Rat) : Text :=
  let n := (roundHalfEven (x * ((10 ^ k : Nat) : Rat))).natAbs
  (if x < 0 then ['-'] else if plus then ['+'] else []) ++ (showPad 0 (n / 10 ^ k) ++ '.' :: showPad k (n % 10 ^ k))

/-- `float(text)` of a plain decimal. -/
def float? (s : Text) : Option Rat :=
  match strip s with
  | '-' :: l => (parseDec? l).map fun x => -x
  | '+' :: l => parseDec? l
  | l => parseDec? l

/-! ## What is described -/

inductive Mode where
  | radec | sol | jov
  deriving DecidableEq, Repr

/-- An `AlternatePhaseCenter`, lines 1037-1045. -/
structure Alt where
  target : Text
  intent : Text
  ra : Rat
  dec : Rat
  pm : Rat × Rat
  deriving DecidableEq, Repr

/-- A `Scan`, lines 605-628; `freq1` and `freq2` are tuning words. -/
structure Scan where
  mode : Mode
  target : Text
  intent : Text
  comments : Option Text
  mjd : Int
  mpm : Int
  dur : Nat
  ra : Rat
  dec : Rat
  pm : Rat × Rat
  freq1 : Int
  freq2 : Int
  filter : Int
  alts : List Alt
  asp : Int
  gain : Int
  deriving DecidableEq, Repr

/-- A `Run`, lines 389-407. -/
structure Run where
  id : Int
  name : Option Text
  method : Text
  ucf : Option Text
  comments : Option Text
  channels : Int
  inttime : Rat
  basis : Text
  stations : List Text
  scans : List Scan
  deriving DecidableEq, Repr

/-- A `Project` with one run and its `ProjectOffice`, lines 73-114. -/
structure Project where
  piId : Int
  piName : Text
  id : Text
  name : Text
  comments : Option Text
  poProject : Option Text
  poRuns : List (Option Text)
  poScans : List (List (Option Text))
  run : Run
  deriving DecidableEq, Repr

/-! ## The user name in comments, sdf.py line 95 -/

/-- `[a-zA-Z0-9_]`. -/
def userChar (c : Char) : Bool := c.isAlphanum || c == '_'

/-- `[a-zA-Z0-9\/\+\-_]`. -/
def dirChar (c : Char) : Bool := c.isAlphanum || c == '_' || c == '/' || c == '+' || c == '-'

def ucfWord : Text := "ucfuser:".toList

/-- A match at the start of the text: the name, the directory and the rest. -/
def ucfAt (s : Text) : Option (Text × Option Text × Text) :=
  if ucfWord.isPrefixOf s then
    let r := (s.drop 8).dropWhile fun c => c == ' ' || c == '\t'
    let u := r.takeWhile userChar
    if u = [] then none
    else match r.drop u.length with
      | '/' :: q => if q.takeWhile dirChar = [] then some (u, none, '/' :: q) else some (u, some (q.takeWhile dirChar), q.dropWhile dirChar)
      | q => some (u, none, q)
  else none

/-- `UCF_USERNAME_RE.search`. -/
def ucfFind : Text → Option (Text × Option Text)
  | [] => none
  | c :: l => match ucfAt (c :: l) with
    | some (u, d, _) => some (u, d)
    | none => ucfFind l

/-- `UCF_USERNAME_RE.sub('', text)`; the first number only bounds the steps and is the length of the text. -/
def ucfSubN : Nat → Text → Text
  | 0, s => s
  | _ + 1, [] => []
  | n + 1, c :: l => match ucfAt (c :: l) with
    | some (_, _, r) => ucfSubN n r
    | none => c :: ucfSubN n l

def ucfSub (s : Text) : Text := ucfSubN s.length s

/-- `os.path.join` of two parts. -/
def joinPath (a b : Text) : Text := if b.head? = some '/' then b else a ++ '/' :: b

/-- Lines 1362-1366. -/
def userOf (s : Text) : Option Text :=
  (ucfFind s).map fun p => match p.2 with | some d => joinPath p.1 d | none => p.1

/-! ## Writing -/

/-- The texts that are given. -/
structure Shown where
  start : Int → Int → Text
  size : Scan → Text
  width : Int → Text

/-- A keyword in a column of `w` characters and its value. -/
def row (k : String) (w : Nat) (v : Text) : Text := k.toList ++ (List.replicate (w - k.length) ' ' ++ v)

/-- A keyword with an index. -/
def altRow (k : String) (j gap : Nat) (v : Text) : Text := k.toList ++ '[' :: (showNat j ++ ']' :: (List.replicate gap ' ' ++ v))

/-- `x[:4090] if x else 'None provided'`. -/
def remark : Option Text → Text
  | some (c :: l) => (c :: l).take 4090
  | _ => "None provided".toList

def noneText : Text := "None".toList

/-- Whether there are comments of the project office, `pos != 'None' and pos is not None`. -/
def given? : Option Text → Option Text
  | some t => if t = noneText then none else some t
  | none => none

/-- Lines 191-199: the user name is put in front of the comments, which stay so. -/
def stamp (r : Run) : Run :=
  match r.ucf with
  | none => r
  | some u =>
    let clean := ucfSub (r.comments.getD [])
    { r with comments := some (ucfWord ++ u ++ (if clean = [] then [] else ";;".toList ++ clean)) }

def methodText : Text := "Requested data return method is".toList

/-- Lines 200-202, 226. -/
def runRemark (r : Run) (pos : Option Text) : Text :=
  match given? pos with
  | none => methodText ++ ' ' :: r.method
  | some t => (methodText ++ ' ' :: (r.method ++ (";;".toList ++ t))).take 4090

def Mode.text : Mode → Text
  | .radec => "TRK_RADEC".toList
  | .sol => "TRK_SOL".toList
  | .jov => "TRK_JOV".toList

/-- Lines 258-265. -/
def altLines (j : Nat) (a : Alt) : List Text :=
  [altRow "SCAN_ALT_TARGET" j 4 a.target, altRow "SCAN_ALT_INTENT" j 4 a.intent,
    altRow "SCAN_ALT_RA" j 8 (fixed 9 false a.ra), altRow "SCAN_ALT_DEC" j 7 (fixed 9 true a.dec)] ++
  if a.pm.1 ≠ 0 ∨ a.pm.2 ≠ 0 then
    [altRow "SCAN_ALT_PM_RA" j 7 (fixed 1 true a.pm.1), altRow "SCAN_ALT_PM_DEC" j 6 (fixed 1 true a.pm.2)]
  else []

def altsFrom (j : Nat) : List Alt → List Text
  | [] => []
  | a :: l => altLines j a ++ altsFrom (j + 1) l

/-- Lines 243-248. -/
def pointLines (s : Scan) : List Text :=
  if s.mode = .radec then
    [row "SCAN_RA" 17 (fixed 9 false s.ra), row "SCAN_DEC" 17 (fixed 9 true s.dec)] ++
    if s.pm.1 ≠ 0 ∨ s.pm.2 ≠ 0 then
      [row "SCAN_PM_RA" 17 (fixed 1 true s.pm.1), row "SCAN_PM_DEC" 17 (fixed 1 true s.pm.2)]
    else []
  else []

/-- Lines 232-242. -/
def headLines (w : Shown) (id : Nat) (po : Option Text) (s : Scan) : List Text :=
  [row "SCAN_ID" 17 (showNat id), row "SCAN_TARGET" 17 s.target, row "SCAN_INTENT" 17 s.intent,
    row "SCAN_REMPI" 17 (remark s.comments), row "SCAN_REMPO" 17 ((given? po).getD (w.size s)),
    row "SCAN_START_MJD" 17 (showInt s.mjd), row "SCAN_START_MPM" 17 (showInt s.mpm), row "SCAN_START" 17 (w.start s.mjd s.mpm),
    row "SCAN_DUR" 17 (showNat s.dur), row "SCAN_DUR+" 17 (Sdf.durText s.dur), row "SCAN_MODE" 17 s.mode.text]

/-- Lines 249-254. -/
def tuneLines (w : Shown) (s : Scan) : List Text :=
  [row "SCAN_FREQ1" 17 (showInt s.freq1), row "SCAN_FREQ1+" 17 (fixed 9 false (Words.wordToFreq s.freq1 / 1000000) ++ " MHz".toList),
    row "SCAN_FREQ2" 17 (showInt s.freq2), row "SCAN_FREQ2+" 17 (fixed 9 false (Words.wordToFreq s.freq2 / 1000000) ++ " MHz".toList),
    row "SCAN_BW" 17 (showInt s.filter), row "SCAN_BW+" 17 (w.width s.filter)]

/-- Lines 255-273. -/
def tailLines (s : Scan) : List Text :=
  (if s.alts ≠ [] then row "SCAN_ALT_N" 23 (showNat s.alts.length) :: altsFrom 1 s.alts else []) ++
  ((if s.asp ≠ -1 then [row "SCAN_ASP_FLT" 17 (showInt s.asp)] else []) ++
  ((if s.gain ≠ -1 then [row "SCAN_DRX_GAIN" 17 (showInt s.gain)] else []) ++ [[]]))

/-- Lines 229-273. -/
def scanLines (w : Shown) (id : Nat) (po : Option Text) (s : Scan) : List Text :=
  headLines w id po s ++ (pointLines s ++ (tuneLines w s ++ tailLines s))

/-- The scans, in the order after sorting, with the comments of the project office at the same positions. -/
def scansFrom (w : Shown) (po : List (Option Text)) (id : Nat) : List Scan → List Text
  | [] => []
  | s :: l => scanLines w id (po.headD none) s ++ scansFrom w po.tail (id + 1) l

/-- `','.join`. -/
def joinComma : List Text → Text
  | [] => []
  | [a] => a
  | a :: l => a ++ ',' :: joinComma l

/-- Lines 204-227. -/
def topLines (p : Project) : List Text :=
  [row "PI_ID" 17 (showInt p.piId), row "PI_NAME" 17 p.piName, [],
    row "PROJECT_ID" 17 p.id, row "PROJECT_TITLE" 17 p.name, row "PROJECT_REMPI" 17 (remark p.comments),
    row "PROJECT_REMPO" 17 (p.poProject.getD noneText), [],
    row "RUN_ID" 17 (showInt p.run.id), row "RUN_TITLE" 17 (p.run.name.getD "None provided".toList),
    row "RUN_STATIONS" 17 (joinComma p.run.stations), row "RUN_CHANNELS" 17 (showInt p.run.channels),
    row "RUN_INTTIME" 17 (fixed 3 false p.run.inttime), row "RUN_BASIS" 17 p.run.basis,
    row "RUN_REMPI" 17 (remark p.run.comments), row "RUN_REMPO" 17 (runRemark p.run (p.poRuns.headD none)), []]

/-- The start of a scan in milliseconds. -/
def Scan.at (s : Scan) : Int := s.mjd * 86400000 + s.mpm

/-- `scans.sort()`, line 173: by start, stable. -/
def sorted (r : Run) : Run := { r with scans := r.scans.mergeSort fun a b => a.at ≤ b.at }

/-- What `render` leaves of the run, lines 172-199. -/
def rendered (p : Project) : Project := { p with run := stamp (sorted p.run) }

/-- `render`, lines 163-275, for a valid project. -/
def render (w : Shown) (p : Project) : Text :=
  (topLines (rendered p) ++ scansFrom w (p.poScans.headD []) 1 (rendered p).run.scans).flatMap fun l => l ++ ['\n']

/-! ## Reading -/

/-- Keywords that mean something, lines 1306-1525. -/
inductive Key where
  | piId | piName | projId | projTitle | projRempi | projRempo
  | runId | runTitle | runStations | runChannels | runInttime | runBasis | runRempi | runRempo
  | scanId | target | intent | rempi | rempo | mjd | mpm | dur | mode | ra | dec | pmRa | pmDec | freq1 | freq2 | bw
  | altN | altTarget | altIntent | altRa | altDec | altPmRa | altPmDec | asp | gain | foreign
  deriving DecidableEq, Repr

def keys : List (String × Key) :=
  [("PI_ID", .piId), ("PI_NAME", .piName), ("PROJECT_ID", .projId), ("PROJECT_TITLE", .projTitle), ("PROJECT_REMPI", .projRempi),
    ("PROJECT_REMPO", .projRempo), ("RUN_ID", .runId), ("RUN_TITLE", .runTitle), ("RUN_STATIONS", .runStations),
    ("RUN_CHANNELS", .runChannels), ("RUN_INTTIME", .runInttime), ("RUN_BASIS", .runBasis), ("RUN_REMPI", .runRempi),
    ("RUN_REMPO", .runRempo), ("SCAN_ID", .scanId), ("SCAN_TARGET", .target), ("SCAN_INTENT", .intent), ("SCAN_REMPI", .rempi),
    ("SCAN_REMPO", .rempo), ("SCAN_START_MJD", .mjd), ("SCAN_START_MPM", .mpm), ("SCAN_DUR", .dur), ("SCAN_MODE", .mode),
    ("SCAN_RA", .ra), ("SCAN_DEC", .dec), ("SCAN_PM_RA", .pmRa), ("SCAN_PM_DEC", .pmDec), ("SCAN_FREQ1", .freq1),
    ("SCAN_FREQ2", .freq2), ("SCAN_BW", .bw), ("SCAN_ALT_N", .altN), ("SCAN_ALT_TARGET", .altTarget),
    ("SCAN_ALT_INTENT", .altIntent), ("SCAN_ALT_RA", .altRa), ("SCAN_ALT_DEC", .altDec), ("SCAN_ALT_PM_RA", .altPmRa),
    ("SCAN_ALT_PM_DEC", .altPmDec), ("SCAN_ASP_FLT", .asp), ("SCAN_DRX_GAIN", .gain), ("SESSION_ID", .foreign),
    ("SESSION_DRX_BEAM", .foreign)]

/-- `obs_temp`, lines 1270-1272: one dictionary for all scans of the file. -/
structure Temp where
  id : Int
  target : Text
  intent : Text
  ra : Rat
  dec : Rat
  pm : Rat × Rat
  mjd : Option Int
  mpm : Option Int
  dur : Option Nat
  mode : Text
  freq1 : Int
  freq2 : Int
  filter : Int
  comments : Option Text
  nAlt : Int
  gain : Int
  asp : Int
  deriving DecidableEq, Repr

def Temp.new : Temp := ⟨0, [], [], 0, 0, (0, 0), none, none, none, [], 0, 0, 0, none, 0, -1, -1⟩

/-- An entry of `alt_temps`, line 1273. -/
structure AltTemp where
  id : Int
  target : Text
  intent : Text
  ra : Rat
  dec : Rat
  pm : Rat × Rat
  deriving DecidableEq, Repr

def AltTemp.new : AltTemp := ⟨0, [], [], 0, 0, (0, 0)⟩

structure State where
  p : Project
  t : Temp
  alts : List AltTemp
  deriving DecidableEq, Repr

/-- `value.lower()`. -/
def lower (s : Text) : Text := s.map Char.toLower

/-- The `intent` setters, lines 657-662, 1053-1058. -/
def intent? (s : Text) : Option Text :=
  if lower s ∈ ["fluxcal".toList, "phasecal".toList, "target".toList, "dummy".toList] then some (lower s) else none

/-- An alternate phase center from an entry, lines 1237-1238. -/
def makeAlt (a : AltTemp) : Option Alt :=
  match intent? a.intent with
  | none => none
  | some i => if SdfParse.raDecOk a.ra a.dec then some ⟨a.target, i, a.ra, a.dec, a.pm⟩ else none

/-- The class of a scan, lines 1222-1232. -/
def mode? (s : Text) : Option Mode :=
  if s = Mode.radec.text then some .radec else if s = Mode.sol.text then some .sol else if s = Mode.jov.text then some .jov else none

/-- `_parse_create_scan_object`, lines 1192-1247. -/
def create (t : Temp) (alts : List AltTemp) : Option Scan :=
  match t.mjd, t.mpm, t.dur.bind SdfParse.viaText, mode? t.mode, intent? t.intent, alts.mapM makeAlt with
  | some mjd, some mpm, some dur, some m, some i, some as =>
    if m = .radec ∧ SdfParse.raDecOk t.ra t.dec = false then none
    else if t.nAlt ≠ as.length then none
    else some ⟨m, t.target, i, t.comments, mjd + mpm / 86400000, mpm % 86400000, dur, if m = .radec then t.ra else 0,
      if m = .radec then t.dec else 0, if m = .radec then t.pm else (0, 0), SdfParse.viaFreq t.freq1, SdfParse.viaFreq t.freq2,
      t.filter, as, t.asp, t.gain⟩
  | _, _, _, _, _, _ => none

/-- The entry an alternate phase center line refers to, lines 1449-1514; a new entry is a copy of the last one if `copy`. -/
def onAlt (copy : Bool) (alts : List AltTemp) (id : Int) (f : AltTemp → AltTemp) : List AltTemp :=
  match alts.getLast? with
  | none => [f { AltTemp.new with id := id }]
  | some a => if a.id ≠ id then alts ++ [f { (if copy then a else AltTemp.new) with id := id }] else alts.dropLast ++ [f a]

/-- Lines 1336-1351: the stations of a list of names, `all` for all of them. -/
def pickStations (all plus : List Text) : List Text → List Text → List Text
  | [], acc => acc
  | f :: l, acc =>
    if lower (strip f) = "all".toList then all
    else pickStations all plus l (if strip f ∈ plus then acc ++ [strip f] else acc)

/-- `value.split(';;', 1)`. -/
def cutSemi : Text → Text × Option Text
  | [] => ([], none)
  | ';' :: ';' :: l => ([], some l)
  | c :: l => let q := cutSemi l; (c :: q.1, q.2)

/-- The first entry replaced. -/
def setFirst {α : Type} (x : α) : List α → List α
  | [] => []
  | _ :: l => x :: l

/-- The last entry replaced; `none` is the `IndexError`. -/
def setLast {α : Type} (x : α) (l : List α) : Option (List α) := if l = [] then none else some (l.dropLast ++ [x])

/-- What a keyword does, lines 1306-1525; `all` are the stations, `plus` those with OVRO-LWA. -/
def act (all plus : List Text) (s : State) (k : Key) (id : Int) (v : Text) : Option State :=
  let p := s.p
  let r := p.run
  let t := s.t
  let run (r : Run) : Option State := some { s with p := { p with run := r } }
  let tmp (t : Temp) : Option State := some { s with t := t }
  let alt (c : Bool) (f : AltTemp → AltTemp) : Option State := some { s with alts := onAlt c s.alts id f }
  match k with
  | .piId => (intText? v).bind fun n => some { s with p := { p with piId := n } }
  | .piName => some { s with p := { p with piName := v } }
  | .projId => some { s with p := { p with id := v } }
  | .projTitle => some { s with p := { p with name := v } }
  | .projRempi => some { s with p := { p with comments := some v } }
  | .projRempo => some { s with p := { p with poProject := some v } }
  | .runId => (intText? v).bind fun n => run { r with id := n }
  | .runTitle => run { r with name := some v }
  | .runStations =>
    let l := pickStations all plus (splitOn ',' v) []
    if l.length < 2 then none else run { r with stations := l }
  | .runChannels => (intText? v).bind fun n => if n < 16 ∨ n > 32768 ∨ n % 2 ≠ 0 then none else run { r with channels := n }
  | .runInttime => (float? v).bind fun x => if x < 1 / 10 ∨ x > 10 then none else run { r with inttime := x }
  | .runBasis =>
    if lower v ∈ ["linear".toList, "circular".toList, "stokes".toList] then run { r with basis := v } else none
  | .runRempi => run { r with ucf := (userOf v).or r.ucf, comments := some (ucfSub v) }
  | .runRempo =>
    let q := cutSemi v
    if q.1.take 31 = methodText then
      some { s with p := { p with run := { r with method := q.1.drop 32 }, poRuns := setFirst (some (q.2.getD [])) (p.poRuns ++ [none]) } }
    else some { s with p := { p with poRuns := setFirst (some v) (p.poRuns ++ [none]) } }
  | .scanId =>
    (intText? v).bind fun n =>
      if t.id ≠ 0 then
        (create t s.alts).bind fun o =>
          some ⟨{ p with run := { r with scans := r.scans ++ [o] }, poScans := setFirst (p.poScans.headD [] ++ [none]) p.poScans },
            { t with id := n }, []⟩
      else some ⟨{ p with poScans := setFirst (p.poScans.headD [] ++ [none]) p.poScans }, { t with id := n }, s.alts⟩
  | .target => tmp { t with target := v }
  | .intent => tmp { t with intent := v }
  | .rempi => tmp { t with comments := some v }
  | .rempo => (setLast (some v) (p.poScans.headD [])).bind fun l => some { s with p := { p with poScans := setFirst l p.poScans } }
  | .mjd => (intText? v).bind fun n => tmp { t with mjd := some n }
  | .mpm => (intText? v).bind fun n => tmp { t with mpm := some n }
  | .dur => (intText? v).bind fun n => if n < 0 then none else tmp { t with dur := some n.toNat }
  | .mode => tmp { t with mode := v }
  | .ra => (float? v).bind fun x => tmp { t with ra := x }
  | .dec => (float? v).bind fun x => tmp { t with dec := x }
  | .pmRa => (float? v).bind fun x => tmp { t with pm := (x, t.pm.2) }
  | .pmDec => (float? v).bind fun x => tmp { t with pm := (t.pm.1, x) }
  | .freq1 => (intText? v).bind fun n => tmp { t with freq1 := n }
  | .freq2 => (intText? v).bind fun n => tmp { t with freq2 := n }
  | .bw => (intText? v).bind fun n => tmp { t with filter := n }
  | .altN => (intText? v).bind fun n => tmp { t with nAlt := n }
  | .altTarget => alt true fun a => { a with target := v }
  | .altIntent => alt false fun a => { a with intent := v }
  | .altRa => (float? v).bind fun x => alt false fun a => { a with ra := x }
  | .altDec => (float? v).bind fun x => alt false fun a => { a with dec := x }
  | .altPmRa => (float? v).bind fun x => alt false fun a => { a with pm := (x, a.pm.2) }
  | .altPmDec => (float? v).bind fun x => alt false fun a => { a with pm := (a.pm.1, x) }
  | .asp => (intText? v).bind fun n => tmp { t with asp := n }
  | .gain => (intText? v).bind fun n => tmp { t with gain := n }
  | .foreign => none

/-- `[A-Z_0-9\+]`, line 1258. -/
def isKey (c : Char) : Bool := Ssmif.isKey c || c == '+'

/-- `kwdRE.match` and lines 1291-1299: the keyword and the first index. -/
def keyword? (s : Text) : Option (Text × Int) :=
  let k := s.takeWhile isKey
  if k = [] then none
  else match Ssmif.index? (s.drop k.length) with
    | none => some (k, -1)
    | some (i, _) => some (k, i)

/-- One line, lines 1278-1525. -/
def step (all plus : List Text) (s : State) (line : Text) : Option State :=
  match Ssmif.twoParts line with
  | none => some s
  | some (h, v) =>
    match keyword? h with
    | none => none
    | some (k, id) =>
      if k.getLast? = some '+' then some s
      else match keys.lookup (String.ofList k) with
        | none => some s
        | some a => act all plus s a id v

def steps (all plus : List Text) : State → List Text → Option State
  | s, [] => some s
  | s, l :: ls => (step all plus s l).bind fun s' => steps all plus s' ls

/-- Lines 1262-1274. -/
def start (all : List Text) : State :=
  ⟨⟨0, "observer_name".toList, "project_id".toList, "project_name".toList, none, none, [], [[]],
    ⟨0, some "run_name".toList, "DRSU".toList, none, none, 512, 1, "linear".toList, all, []⟩⟩, Temp.new, []⟩

/-- The lines of a file; every kind of line end is one. -/
def linesOf (t : Text) : List Text := splitOn '\n' (t.map fun c => if c = '\r' then '\n' else c)

/-- Lines 1527-1529. -/
def finish (s : State) : Option Project :=
  if s.t.id ≠ 0 then (create s.t s.alts).map fun o => { s.p with run := { s.p.run with scans := s.p.run.scans ++ [o] } }
  else some s.p

/-- `parse_idf`, lines 1250-1532. -/
def parse (all plus : List Text) (t : Text) : Option Project := (steps all plus (start all) (linesOf t)).bind finish

end Verif.Idf
