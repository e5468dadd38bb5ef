import Verif.Model.Parser
/-!
# Station files: /repo/lsl/common/stations.py, lines 71-160, 404-470, 1072-1580, 1743-1911

Texts are lists of characters, a file is the list of its lines.  `float(text)` is a parameter: nothing depends on
which function it is.  Floats are rational numbers.  `none` is an exception, of whatever class.  `locals()` is a
function from names to values.  The binary file is not decoded here: it gives `Tables` directly.
-/
namespace Verif.Ssmif
open Dec Parser

/-! ## Values -/

inductive Val where
  | int (n : Int)
  | flt (x : Rat)
  | str (s : Str)
  deriving DecidableEq

/-- A local variable: a value, a list or a list of lists. -/
inductive Var where
  | one (v : Val)
  | list (l : List Val)
  | table (t : List (List Val))
  deriving DecidableEq

abbrev Env := String → Option Var

def Env.put (e : Env) (x : String) (v : Var) : Env := fun y => if y = x then some v else e y

/-- Names and values of several assignments, the first one first. -/
def Env.puts (e : Env) : List (String × Var) → Env
  | [] => e
  | (x, v) :: r => (e.put x v).puts r

/-- Position of python index `i` in a list of `n`: negative ones count from the end. -/
def pyIdx (n : Nat) (i : Int) : Option Nat :=
  if 0 ≤ i then (if i < n then some i.toNat else none)
  else if 0 ≤ i + n then some (i + n).toNat else none

/-- `l[i] = v`. -/
def setAt {α : Type} (l : List α) (i : Int) (v : α) : Option (List α) :=
  (pyIdx l.length i).map (fun p => l.set p v)

/-- `l[i][j] = v`. -/
def setCell {α : Type} (t : List (List α)) (i j : Int) (v : α) : Option (List (List α)) :=
  match pyIdx t.length i with
  | none => none
  | some p =>
    match t[p]? with
    | none => none
    | some r => (setAt r j v).map (fun r' => t.set p r')

/-! ## What the lines do -/

/-- `int(value)`, `float(value)`, the text itself, or lines 1379-1382. -/
inductive Conv where
  | int | flt | str | intOrStr

def Conv.run (fl : Str → Option Rat) : Conv → Str → Option Val
  | .int, s => (intText? s).map .int
  | .flt, s => (fl s).map .flt
  | .str, s => some (.str s)
  | .intOrStr, s => some (match intText? s with | some n => .int n | none => .str s)

inductive Act where
  /-- lines 1117-1120 -/
  | version
  /-- `var = conv(value)` -/
  | scalar (var : String) (c : Conv)
  /-- `var = int(value)` and new lists of that length -/
  | size (var : String) (new : Nat → List (String × Var))
  /-- the same with rows for each of `outer` -/
  | size2 (var outer : String) (new : Nat → Nat → List (String × Var))
  /-- `arr[ids[0]-1] = conv(value)` -/
  | entry (arr : String) (c : Conv)
  /-- the same, with all of `n` entries when there is no index -/
  | entryOrAll (arr n : String) (c : Conv)
  /-- `arr[ids[0]-1][ids[1]-1] = conv(value)` -/
  | cell (arr : String) (c : Conv)
  /-- `stdPos[ids[0]-1][k] = float(value)` -/
  | axis (k : Nat)
  /-- `tmp = int(value)`, all of `arr` is `tmp` or one entry of `arr` is `src`, lines 1531-1565 -/
  | asp (tmp arr src : String)

/-- `[v for n in range(n)]`. -/
def fill (n : Nat) (v : Val) : Var := .list (List.replicate n v)

def upTo (n : Nat) (f : Nat → Int) : Var := .list ((List.range n).map (fun i => .int (f i)))

def fill2 (n m : Nat) (v : Val) : Var := .table (List.replicate n (List.replicate m v))

def upTo2 (n m : Nat) : Var :=
  .table ((List.range n).map (fun i => (List.range m).map (fun c => .int ((i * m + c + 1 : Nat) : Int))))

def unk : Val := .str ['U', 'N', 'K']

/-- Lines 1143-1160. -/
def newStands (n : Nat) : List (String × Var) :=
  [("stdPos", .table (List.replicate n [.flt 0, .flt 0, .flt 0])),
   ("stdAnt", upTo (2 * n) (fun i => (i / 2 + 1 : Nat))),
   ("stdOrie", upTo (2 * n) (fun i => (i % 2 : Nat))),
   ("stdStat", fill (2 * n) (.int 3)), ("stdTheta", fill (2 * n) (.flt 0)), ("stdPhi", fill (2 * n) (.flt 0)),
   ("stdDesi", fill (2 * n) (.int 1)), ("aspFlt", fill n (.int (-1))),
   ("aspAT1", fill n (.int 0)), ("aspAT2", fill n (.int 0)), ("aspAT3", fill n (.int 0))]

/-- Lines 1197-1208. -/
def newFees (n : Nat) : List (String × Var) :=
  [("feeID", fill n unk), ("feeStat", fill n (.int 3)), ("feeDesi", fill n (.int 1)),
   ("feeGai1", fill n (.flt (357 / 10))), ("feeGai2", fill n (.flt (357 / 10))),
   ("feeAnt1", upTo n (fun i => (2 * i + 1 : Nat))), ("feeAnt2", upTo n (fun i => (2 * i + 2 : Nat)))]

/-- Lines 1237-1252. -/
def newCables (n : Nat) : List (String × Var) :=
  [("rpdID", fill n unk), ("rpdStat", fill n (.int 3)), ("rpdLeng", fill n (.flt 0)), ("rpdVF", fill n (.flt 83)),
   ("rpdDD", fill n (.flt (24 / 10))), ("rpdA0", fill n (.flt (428 / 100000))), ("rpdA1", fill n (.flt 0)),
   ("rpdFre", fill n (.flt 10000000)), ("rpdStr", fill n (.flt 1)), ("rpdDesi", fill n (.int 1)),
   ("rpdAnt", upTo n (fun i => (i + 1 : Nat)))]

/-- Lines 1317-1326. -/
def newSep (n : Nat) : List (String × Var) :=
  [("sepCbl", fill n unk), ("sepLeng", fill n (.flt 0)), ("sepDesi", fill n (.int 1)), ("sepGain", fill n (.flt 0)),
   ("sepAnt", upTo n (fun i => (i + 1 : Nat)))]

/-- Lines 1353-1362. -/
def newArx (n : Nat) : List (String × Var) :=
  [("arxID", fill n unk), ("arxSlot", fill n (.int 0)), ("arxDesi", fill n (.int 0)), ("arxRack", fill n (.int 0)),
   ("arxPort", fill n (.int 0))]

/-- Lines 1364-1372. -/
def newArxChannels (n m : Nat) : List (String × Var) :=
  [("arxStat", fill2 n m (.int 3)), ("arxAnt", upTo2 n m), ("arxIn", fill2 n m unk), ("arxOut", fill2 n m unk)]

/-- Lines 1418-1425. -/
def newSnap (n : Nat) : List (String × Var) :=
  [("snapID", fill n unk), ("snapSlot", fill n (.int 0)), ("snapDesi", fill n (.int 1))]

/-- Lines 1427-1435. -/
def newSnapChannels (n m : Nat) : List (String × Var) :=
  [("snapStat", fill2 n m (.int 3)), ("snapInR", fill2 n m unk), ("snapInC", fill2 n m unk), ("snapAnt", upTo2 n m)]

/-- Lines 1465-1473. -/
def newServer (n : Nat) : List (String × Var) :=
  [("serverID", fill n unk), ("serverSlot", fill n unk), ("serverStat", fill n (.int 3)),
   ("serverDesi", fill n (.int 1))]

/-- Lines 1496-1505. -/
def newDr (n : Nat) : List (String × Var) :=
  [("drStat", fill n (.int 0)), ("drID", fill n unk), ("drShlf", fill n (.int 0)), ("drPC", fill n unk),
   ("drNDP", fill n (.int 0))]

/-- The keywords in their order, lines 1117-1573. -/
def acts : List (String × Act) :=
  [("FORMAT_VERSION", .version), ("STATION_ID", .scalar "idn" .str), ("GEO_N", .scalar "lat" .flt),
   ("GEO_E", .scalar "lon" .flt), ("GEO_EL", .scalar "elv" .flt),
   ("N_STD", .size "nStand" newStands),
   ("STD_LX", .axis 0), ("STD_LY", .axis 1), ("STD_LZ", .axis 2),
   ("ANT_STD", .entry "stdAnt" .int), ("ANT_ORIE", .entry "stdOrie" .int), ("ANT_STAT", .entry "stdStat" .int),
   ("ANT_THETA", .entry "stdTheta" .flt), ("ANT_PHI", .entry "stdPhi" .flt),
   ("N_FEE", .size "nFee" newFees),
   ("FEE_ID", .entry "feeID" .str), ("FEE_STAT", .entry "feeStat" .int), ("FEE_DESI", .entry "feeDesi" .int),
   ("FEE_GAI1", .entry "feeGai1" .flt), ("FEE_GAI2", .entry "feeGai2" .flt),
   ("FEE_ANT1", .entry "feeAnt1" .int), ("FEE_ANT2", .entry "feeAnt2" .int),
   ("N_RPD", .size "nRPD" newCables),
   ("RPD_ID", .entry "rpdID" .str), ("RPD_STAT", .entry "rpdStat" .int), ("RPD_LENG", .entry "rpdLeng" .flt),
   ("RPD_VF", .entryOrAll "rpdVF" "nRPD" .flt), ("RPD_DD", .entryOrAll "rpdDD" "nRPD" .flt),
   ("RPD_A0", .entryOrAll "rpdA0" "nRPD" .flt), ("RPD_A1", .entryOrAll "rpdA1" "nRPD" .flt),
   ("RPD_FREF", .entryOrAll "rpdFre" "nRPD" .flt), ("RPD_STR", .entryOrAll "rpdStr" "nRPD" .flt),
   ("RPD_DESI", .entry "rpdDesi" .str), ("RPD_ANT", .entry "rpdAnt" .int),
   ("N_SEP", .size "nSEP" newSep),
   ("SEP_CABL", .entry "sepCbl" .str), ("SEP_LENG", .entry "sepLeng" .flt), ("SEP_DESI", .entry "sepDesi" .int),
   ("SEP_GAIN", .entry "sepGain" .flt), ("SEP_ANT", .entry "sepAnt" .int),
   ("N_ARB", .size "nARX" newArx), ("N_ARBCH", .size2 "nChanARX" "nARX" newArxChannels),
   ("ARB_ID", .entry "arxID" .str), ("ARB_SLOT", .entry "arxSlot" .intOrStr), ("ARB_DESI", .entry "arxDesi" .int),
   ("ARB_RACK", .entry "arxRack" .int), ("ARB_PORT", .entry "arxRack" .int),
   ("ARB_STAT", .cell "arxStat" .int), ("ARB_ANT", .cell "arxAnt" .int), ("ARB_IN", .cell "arxIn" .str),
   ("ARB_OUT", .cell "arxOut" .str),
   ("N_SNAP", .size "nRoach" newSnap), ("N_SNAPCH", .size2 "nChanRoach" "nRoach" newSnapChannels),
   ("SNAP_ID", .entry "snapID" .str), ("SNAP_SLOT", .entry "snapSlot" .str), ("SNAP_DESI", .entry "snapDesi" .int),
   ("SNAP_STAT", .cell "snapStat" .int), ("SNAP_INR", .cell "snapInR" .str), ("SNAP_INC", .cell "snapInC" .str),
   ("SNAP_ANT", .cell "snapAnt" .int),
   ("N_SERVER", .size "nServer" newServer),
   ("SERVER_ID", .entry "serverID" .str), ("SERVER_SLOT", .entry "serverSlot" .str),
   ("SERVER_STAT", .entry "serverStat" .int), ("SERVER_DESI", .entry "serverDesi" .int),
   ("N_DR", .size "nDR" newDr),
   ("DR_STAT", .entry "drStat" .int), ("DR_ID", .entry "drID" .str), ("DR_SHLF", .entry "drShlf" .int),
   ("DR_PC", .entry "drPC" .str), ("DR_NDP", .entry "drNDP" .int),
   ("ASP_FLT", .asp "flt" "aspFlt" "flt"), ("ASP_AT1", .asp "at1" "aspAT1" "at1"),
   ("ASP_AT2", .asp "at2" "aspAT2" "at2"), ("ASP_AT3", .asp "at3" "aspAT3" "at1"),
   ("DRX_GAIN", .scalar "drxGai" .int)]

/-- `range(x)` of an integer variable. -/
def Env.size? (e : Env) (x : String) : Option Nat :=
  match e x with
  | some (.one (.int n)) => some n.toNat
  | _ => none

/-- `x[i] = v` of a list variable. -/
def Env.setEntry (e : Env) (x : String) (i : Int) (v : Val) : Option Env :=
  match e x with
  | some (.list l) => (setAt l i v).map (fun l' => e.put x (.list l'))
  | _ => none

/-- `x[i][j] = v`. -/
def Env.setCell (e : Env) (x : String) (i j : Int) (v : Val) : Option Env :=
  match e x with
  | some (.table t) => (Ssmif.setCell t i j v).map (fun t' => e.put x (.table t'))
  | _ => none

/-- What one keyword does with its indices (−1 when absent) and value text. -/
def Act.run (fl : Str → Option Rat) (e : Env) (i j : Int) (s : Str) : Act → Option Env
  | .version =>
    match intText? s with
    | some n => if n = 10 then some (e.put "version" (.one (.int n))) else none
    | none => none
  | .scalar x c => (c.run fl s).map (fun v => e.put x (.one v))
  | .size x new => (intText? s).map (fun n => (e.put x (.one (.int n))).puts (new n.toNat))
  | .size2 x outer new =>
    match intText? s, e.size? outer with
    | some n, some m => some ((e.put x (.one (.int n))).puts (new m n.toNat))
    | _, _ => none
  | .entry x c => (c.run fl s).bind (fun v => e.setEntry x (i - 1) v)
  | .entryOrAll x n c =>
    if i = -1 then
      match e.size? n with
      | none => none
      | some 0 => some (e.put x (.list []))
      | some k => (c.run fl s).map (fun v => e.put x (fill k v))
    else (c.run fl s).bind (fun v => e.setEntry x (i - 1) v)
  | .cell x c => (c.run fl s).bind (fun v => e.setCell x (i - 1) (j - 1) v)
  | .axis k => (Conv.flt.run fl s).bind (fun v => e.setCell "stdPos" (i - 1) k v)
  | .asp tmp arr src =>
    match intText? s with
    | none => none
    | some n =>
      let e := e.put tmp (.one (.int n))
      if i = -1 then (e.size? "nStand").map (fun k => e.put arr (fill k (.int n)))
      else
        match e src with
        | some (.one v) => e.setEntry arr (i - 1) v
        | _ => none

/-! ## Lines -/

/-- `[A-Z_0-9]`. -/
def isKey (c : Char) : Bool := c.isUpper || c.isDigit || c == '_'

/-- `(\[([0-9]+?)\])?`: the number and the rest. -/
def index? (s : Str) : Option (Nat × Str) :=
  match s with
  | '[' :: r =>
    match cut ']' r with
    | some (d, r') => (parseNat? d).map (fun n => (n, r'))
    | none => none
  | _ => none

/-- `kwdRE.match` and lines 1103-1111: the keyword and the first two indices; what follows is not looked at. -/
def keyword? (s : Str) : Option (String × Int × Int) :=
  let k := s.takeWhile isKey
  if k = [] then none
  else
    match index? (s.drop k.length) with
    | none => some (String.ofList k, -1, -1)
    | some (i, r) =>
      match index? r with
      | none => some (String.ofList k, i, -1)
      | some (j, _) => some (String.ofList k, i, j)

/-- `line.split(None, 1)`: two parts, or none when there are not two. -/
def twoParts (s : Str) : Option (Str × Str) :=
  let s := s.dropWhile isBlank
  let a := s.takeWhile (fun c => !isBlank c)
  let b := (s.drop a.length).dropWhile isBlank
  if a = [] ∨ b = [] then none else some (a, b)

/-- `value.split('#', 1)[0]`. -/
def uncomment (s : Str) : Str := match cut '#' s with | some (a, _) => a | none => s

/-- One pass of the loop, lines 1092-1573. -/
def step (fl : Str → Option Rat) (e : Env) (line : Str) : Option Env :=
  let line := line.filter (fun c => c ≠ '\n' ∧ c ≠ '\r')
  if line.all isBlank then some e
  else if line.head? = some '#' then some e
  else
    match twoParts line with
    | none => none
    | some (k, v) =>
      match keyword? k with
      | none => none
      | some (key, i, j) =>
        match acts.lookup key with
        | none => some e
        | some a => a.run fl e i j (uncomment v)

/-- `_parse_ssmif_text`. -/
def parseText (fl : Str → Option Rat) : Env → List Str → Option Env
  | e, [] => some e
  | e, l :: ls => (step fl e l).bind (fun e' => parseText fl e' ls)

/-! ## From the variables to the antennas -/

/-- The variables read at lines 1764-1808. -/
structure Tables where
  idn : Val
  stdPos : List (List Val)
  stdAnt : List Int
  stdOrie : List Val
  stdTheta : List Val
  stdPhi : List Val
  stdStat : List Val
  feeID : List Val
  feeGai1 : List Val
  feeGai2 : List Val
  feeStat : List Val
  feeAnt1 : List Int
  feeAnt2 : List Int
  rpdID : List Val
  rpdLeng : List Val
  rpdVF : List Rat
  rpdDD : List Rat
  rpdA0 : List Val
  rpdA1 : List Val
  rpdStr : List Val
  rpdFre : List Val
  rpdAnt : List Int
  nChanARX : Int
  arxID : List Val
  arxAnt : List (List Int)
  arxIn : List (List Val)
  arxOut : List (List Val)
  snapAnt : List (List Int)
  snapInR : List (List Val)
  aspAT1 : List Int
  aspAT2 : List Int
  aspAT3 : List Int

/-- A stand, a FEE, a cable and an ARX channel. -/
structure Stand where
  id : Nat
  pos : List Val
  deriving DecidableEq

structure Fee where
  id : Val
  number : Nat
  gain1 : Val
  gain2 : Val
  status : Val
  deriving DecidableEq

structure Cable where
  id : Val
  length : Val
  vf : Rat
  dd : Rat
  a0 : Val
  a1 : Val
  stretch : Val
  refFreq : Val
  atten : Rat
  deriving DecidableEq

structure Arx where
  id : Int
  channel : Nat
  aspChannel : Int
  input : Val
  output : Val
  deriving DecidableEq

structure Ant where
  id : Nat
  stand : Stand
  pol : Val
  theta : Val
  phi : Val
  status : Val
  fee : Option Fee := none
  feePort : Nat := 1
  cable : Option Cable := none
  arx : Option Arx := none
  board : Nat := 0
  digitizer : Nat := 0
  input : Val := .str []
  deriving DecidableEq

/-- Lines 1813-1817. -/
def stands (t : Tables) : List Stand := t.stdPos.mapIdx (fun i p => ⟨i + 1, p⟩)

/-- Lines 1820-1824. -/
def fees (t : Tables) : List Fee :=
  (t.feeID.zip (t.feeGai1.zip (t.feeGai2.zip t.feeStat))).mapIdx
    (fun i x => ⟨x.1, i + 1, x.2.1, x.2.2.1, x.2.2.2⟩)

/-- Lines 1827-1831. -/
def bareCables (t : Tables) : List Cable :=
  (t.rpdID.zip (t.rpdLeng.zip (t.rpdVF.zip (t.rpdDD.zip (t.rpdA0.zip (t.rpdA1.zip (t.rpdStr.zip t.rpdFre))))))).map
    (fun x => ⟨x.1, x.2.1, x.2.2.1 / 100, x.2.2.2.1 / 1000000000, x.2.2.2.2.1, x.2.2.2.2.2.1, x.2.2.2.2.2.2.1,
      x.2.2.2.2.2.2.2, 0⟩)

/-- Lines 1838-1840. -/
def atten (m1 m2 m3 a1 a2 a3 : Int) : Rat :=
  ((a1 - m1) * 2 : Int) + ((a2 - m2) * 2 : Int) + ((a3 - m3 : Int) : Rat) * (1 / 2)

/-- Lines 1833-1841. -/
def cables (t : Tables) : Option (List Cable) :=
  match t.aspAT1.min?, t.aspAT2.min?, t.aspAT3.min? with
  | some m1, some m2, some m3 =>
    let asp := t.aspAT1.zip (t.aspAT2.zip t.aspAT3)
    some ((bareCables t).mapIdx (fun i c =>
      match asp[i]? with
      | some a => { c with atten := atten m1 m2 m3 a.1 a.2.1 a.2.2 }
      | none => c))
  | _, _, _ => none

/-- Lines 1845-1849. -/
def bareAntennas (t : Tables) : Option (List Ant) :=
  ((t.stdAnt.zip (t.stdOrie.zip (t.stdTheta.zip (t.stdPhi.zip t.stdStat)))).mapIdx (fun i x => (i, x))).mapM
    (fun x =>
      match pyIdx t.stdPos.length (x.2.1 - 1) with
      | none => none
      | some p => (stands t)[p]?.map (fun s => { id := x.1 + 1, stand := s, pol := x.2.2.1, theta := x.2.2.2.1,
                                                  phi := x.2.2.2.2.1, status := x.2.2.2.2.2 }))

/-- A change of `antennas[ant-1]`. -/
structure Job where
  ant : Int
  change : Ant → Ant

/-- A run of `antennas[ant-1]....  = ...`. -/
def plug : List Ant → List Job → Option (List Ant)
  | ants, [] => some ants
  | ants, j :: js => (pyIdx ants.length (j.ant - 1)).bind (fun p => plug (ants.modify p j.change) js)

/-- Lines 1851-1861. -/
def feeJobs (fs : List Fee) (ants : List Int) (port : Nat) : List Job :=
  (fs.zip ants).map (fun x => ⟨x.2, fun a => { a with fee := some x.1, feePort := port }⟩)

/-- Lines 1863-1867. -/
def cableJobs (cs : List Cable) (ants : List Int) : List Job :=
  (cs.zip ants).map (fun x => ⟨x.2, fun a => { a with cable := some x.1 }⟩)

/-- Row, column and entry of every cell. -/
def cells {α : Type} (t : List (List α)) : List (Nat × Nat × α) :=
  (t.mapIdx (fun i r => r.mapIdx (fun j x => (i, j, x)))).flatten

/-- Line 1873. -/
def skipped (ant : Int) : Bool := ant == 0 || 512 < ant

/-- `ARX(...)`: its board number is `int(id, 10)`, lines 886-894. -/
def arxOf (t : Tables) (i j : Nat) : Option Arx :=
  match t.arxID[i]?, (t.arxIn[i]?).bind (fun r => r[j]?), (t.arxOut[i]?).bind (fun r => r[j]?) with
  | some (.str b), some x, some y =>
    (intText? b).map (fun n => ⟨n, j + 1, i * t.nChanARX + j + 1, x, y⟩)
  | _, _, _ => none

/-- Lines 1869-1878. -/
def arxJobs (t : Tables) : Option (List Job) :=
  ((cells t.arxAnt).filter (fun c => !skipped c.2.2)).mapM
    (fun c => (arxOf t c.1 c.2.1).map (fun x => ⟨c.2.2, fun a => { a with arx := some x }⟩))

/-- Board, antenna and connector of every channel, boards in order. -/
def channels (t : Tables) : List (Nat × Int × Val) :=
  ((t.snapAnt.zip t.snapInR).mapIdx (fun i b => (b.1.zip b.2).map (fun c => (i + 1, c.1, c.2)))).flatten

/-- Lines 1880-1889. -/
def snapJobs (t : Tables) : List Job :=
  (channels t).mapIdx (fun j c =>
    ⟨c.2.1, fun a => { a with board := c.1, digitizer := j + 1, input := c.2.2 }⟩)

/-- Lines 1845-1889. -/
def antennas (t : Tables) : Option (List Ant) :=
  match cables t, bareAntennas t, arxJobs t with
  | some cs, some ants, some arx =>
    plug ants (feeJobs (fees t) t.feeAnt1 1 ++ feeJobs (fees t) t.feeAnt2 2 ++ cableJobs cs t.rpdAnt ++ arx ++
      snapJobs t)
  | _, _, _ => none

/-- Where `list.sort` puts an antenna: before the first of those after it with no smaller digitizer. -/
def insert (a : Ant) : List Ant → List Ant
  | [] => [a]
  | b :: l => if a.digitizer ≤ b.digitizer then a :: b :: l else b :: insert a l

/-- `_sort_antennas`, lines 138-146: `list.sort` keeps the order of equals. -/
def sort : List Ant → List Ant
  | [] => []
  | a :: l => insert a (sort l)

structure Station where
  name : String
  antennas : List Ant

/-- `_id2name`, line 34, and lines 1892-1905. -/
def nameOf (idn : Val) : String :=
  match idn with
  | .str ['V', 'L'] => "LWA1"
  | .str ['N', 'A'] => "LWANA"
  | .str ['S', 'V'] => "LWASV"
  | .str ['O', 'V'] => "OVROLWA"
  | _ => "New LWA Station"

/-- `parse_ssmif` from the variables on, lines 1762-1911. -/
def station (t : Tables) : Option Station := (antennas t).map (fun l => ⟨nameOf t.idn, sort l⟩)

/-! ## The variables -/

def Val.int? : Val → Option Int
  | .int n => some n
  | _ => none

def Val.flt? : Val → Option Rat
  | .flt x => some x
  | _ => none

def Env.vals (e : Env) (x : String) : Option (List Val) :=
  match e x with | some (.list l) => some l | _ => none

def Env.rows (e : Env) (x : String) : Option (List (List Val)) :=
  match e x with | some (.table t) => some t | _ => none

def Env.one (e : Env) (x : String) : Option Val :=
  match e x with | some (.one v) => some v | _ => none

def Env.ints (e : Env) (x : String) : Option (List Int) := (e.vals x).bind (fun l => l.mapM Val.int?)
def Env.flts (e : Env) (x : String) : Option (List Rat) := (e.vals x).bind (fun l => l.mapM Val.flt?)
def Env.intRows (e : Env) (x : String) : Option (List (List Int)) :=
  (e.rows x).bind (fun t => t.mapM (fun r => r.mapM Val.int?))

/-- Lines 1762-1810. -/
def tables (e : Env) : Option Tables := do
  let _ ← e.one "lat"
  let _ ← e.one "lon"
  let _ ← e.one "elv"
  let n ← e.one "nChanARX"
  return {
    idn := ← e.one "idn", stdPos := ← e.rows "stdPos", stdAnt := ← e.ints "stdAnt", stdOrie := ← e.vals "stdOrie",
    stdTheta := ← e.vals "stdTheta", stdPhi := ← e.vals "stdPhi", stdStat := ← e.vals "stdStat",
    feeID := ← e.vals "feeID", feeGai1 := ← e.vals "feeGai1", feeGai2 := ← e.vals "feeGai2",
    feeStat := ← e.vals "feeStat", feeAnt1 := ← e.ints "feeAnt1", feeAnt2 := ← e.ints "feeAnt2",
    rpdID := ← e.vals "rpdID", rpdLeng := ← e.vals "rpdLeng", rpdVF := ← e.flts "rpdVF", rpdDD := ← e.flts "rpdDD",
    rpdA0 := ← e.vals "rpdA0", rpdA1 := ← e.vals "rpdA1", rpdStr := ← e.vals "rpdStr", rpdFre := ← e.vals "rpdFre",
    rpdAnt := ← e.ints "rpdAnt", nChanARX := ← n.int?, arxID := ← e.vals "arxID", arxAnt := ← e.intRows "arxAnt",
    arxIn := ← e.rows "arxIn", arxOut := ← e.rows "arxOut", snapAnt := ← e.intRows "snapAnt",
    snapInR := ← e.rows "snapInR", aspAT1 := ← e.ints "aspAT1", aspAT2 := ← e.ints "aspAT2",
    aspAT3 := ← e.ints "aspAT3" }

/-- `parse_ssmif` of a text file. -/
def parseSsmif (fl : Str → Option Rat) (lines : List Str) : Option Station :=
  ((parseText fl (fun _ => none) lines).bind tables).bind station

end Verif.Ssmif
