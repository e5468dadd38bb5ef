import Verif.Model.Ssmif
/-!
# What a station file means
-/
namespace Verif.Ssmif.Spec
open Dec Parser

/-! ## Antennas -/

/-- Whole numbers from 1 to `n`. -/
def oneTo : Nat → List Int
  | 0 => []
  | n + 1 => oneTo n ++ [(n : Int) + 1]

/-- Each antenna has one stand that exists, every FEE port, cable and digitizer channel one antenna, and no antenna
two of a kind.  An ARX channel may be left without antenna by 0. -/
structure OneToOne (t : Tables) (n : Nat) : Prop where
  antennas : t.stdAnt.length = n ∧ t.stdOrie.length = n ∧ t.stdTheta.length = n ∧ t.stdPhi.length = n ∧
    t.stdStat.length = n
  stands : ∀ s ∈ t.stdAnt, 1 ≤ s ∧ s ≤ t.stdPos.length
  feeLength : t.feeAnt1.length = (fees t).length ∧ t.feeAnt2.length = (fees t).length
  feeRange : ∀ a ∈ t.feeAnt1 ++ t.feeAnt2, 1 ≤ a ∧ a ≤ n
  feeOnce : (t.feeAnt1 ++ t.feeAnt2).Nodup
  cableLength : t.rpdAnt.length = (bareCables t).length
  cableRange : ∀ a ∈ t.rpdAnt, 1 ≤ a ∧ a ≤ n
  cableOnce : t.rpdAnt.Nodup
  asp : t.aspAT1 ≠ [] ∧ t.aspAT2 ≠ [] ∧ t.aspAT3 ≠ []
  arxRange : ∀ a ∈ t.arxAnt.flatten, 0 ≤ a ∧ a ≤ n
  arxOnce : (t.arxAnt.flatten.filter (fun a => a ≠ 0)).Nodup
  arxBoards : ∀ (i j : Nat) (a : Int), (t.arxAnt[i]?.bind (fun r => r[j]?)) = some a → a ≠ 0 → (arxOf t i j).isSome
  snapShape : t.snapAnt.map List.length = t.snapInR.map List.length
  snapAll : t.snapAnt.flatten.Perm (oneTo n)

/-- The antenna has the parts whose entries name it, and none other. -/
structure OwnParts (t : Tables) (x : Ant) : Prop where
  stand : ∀ s : Int, t.stdAnt[x.id - 1]? = some s → (stands t)[(s - 1).toNat]? = some x.stand
  pol : t.stdOrie[x.id - 1]? = some x.pol
  theta : t.stdTheta[x.id - 1]? = some x.theta
  phi : t.stdPhi[x.id - 1]? = some x.phi
  status : t.stdStat[x.id - 1]? = some x.status
  fee1 : ∀ i : Nat, t.feeAnt1[i]? = some (x.id : Int) → (fees t)[i]? = x.fee ∧ x.feePort = 1
  fee2 : ∀ i : Nat, t.feeAnt2[i]? = some (x.id : Int) → (fees t)[i]? = x.fee ∧ x.feePort = 2
  noFee : (x.id : Int) ∉ t.feeAnt1 → (x.id : Int) ∉ t.feeAnt2 → x.fee = none
  cable : ∀ i : Nat, t.rpdAnt[i]? = some (x.id : Int) → (cables t).bind (fun cs => cs[i]?) = x.cable
  noCable : (x.id : Int) ∉ t.rpdAnt → x.cable = none
  arx : ∀ i j : Nat, (t.arxAnt[i]?.bind (fun r => r[j]?)) = some (x.id : Int) → arxOf t i j = x.arx
  noArx : (x.id : Int) ∉ t.arxAnt.flatten → x.arx = none
  board : ∀ i j : Nat, (t.snapAnt[i]?.bind (fun r => r[j]?)) = some (x.id : Int) →
    x.board = i + 1 ∧ (t.snapInR[i]?.bind (fun r => r[j]?)) = some x.input ∧
    x.digitizer = ((t.snapAnt.take i).map List.length).sum + j + 1

/-- The antennas in digitizer order, the digitizers being 1 to `n`, each with its own parts. -/
structure Wired (t : Tables) (n : Nat) (l : List Ant) : Prop where
  digitizers : l.map (fun x => (x.digitizer : Int)) = oneTo n
  ids : (l.map (fun x => (x.id : Int))).Perm (oneTo n)
  order : l.map (fun x => (x.id : Int)) = t.snapAnt.flatten
  parts : ∀ x ∈ l, OwnParts t x

/-! ## Lines -/

inductive Kind where
  | entry
  | cell
  | axis (k : Nat)
  deriving DecidableEq

inductive Type' where
  | int | flt | str | slot
  deriving DecidableEq

/-- The list each keyword is about and the sort of its values. -/
def own : List (String × Kind × String × Type') :=
  [("STD_LX", .axis 0, "stdPos", .flt), ("STD_LY", .axis 1, "stdPos", .flt), ("STD_LZ", .axis 2, "stdPos", .flt),
   ("ANT_STD", .entry, "stdAnt", .int), ("ANT_ORIE", .entry, "stdOrie", .int), ("ANT_STAT", .entry, "stdStat", .int),
   ("ANT_THETA", .entry, "stdTheta", .flt), ("ANT_PHI", .entry, "stdPhi", .flt), ("FEE_ID", .entry, "feeID", .str),
   ("FEE_STAT", .entry, "feeStat", .int), ("FEE_DESI", .entry, "feeDesi", .int), ("FEE_GAI1", .entry, "feeGai1", .flt),
   ("FEE_GAI2", .entry, "feeGai2", .flt), ("FEE_ANT1", .entry, "feeAnt1", .int), ("FEE_ANT2", .entry, "feeAnt2", .int),
   ("RPD_ID", .entry, "rpdID", .str), ("RPD_STAT", .entry, "rpdStat", .int), ("RPD_LENG", .entry, "rpdLeng", .flt),
   ("RPD_VF", .entry, "rpdVF", .flt), ("RPD_DD", .entry, "rpdDD", .flt), ("RPD_A0", .entry, "rpdA0", .flt),
   ("RPD_A1", .entry, "rpdA1", .flt), ("RPD_FREF", .entry, "rpdFre", .flt), ("RPD_STR", .entry, "rpdStr", .flt),
   ("RPD_DESI", .entry, "rpdDesi", .str), ("RPD_ANT", .entry, "rpdAnt", .int), ("SEP_CABL", .entry, "sepCbl", .str),
   ("SEP_LENG", .entry, "sepLeng", .flt), ("SEP_DESI", .entry, "sepDesi", .int), ("SEP_GAIN", .entry, "sepGain", .flt),
   ("SEP_ANT", .entry, "sepAnt", .int), ("ARB_ID", .entry, "arxID", .str), ("ARB_SLOT", .entry, "arxSlot", .slot),
   ("ARB_DESI", .entry, "arxDesi", .int), ("ARB_RACK", .entry, "arxRack", .int), ("ARB_PORT", .entry, "arxPort", .int),
   ("ARB_STAT", .cell, "arxStat", .int), ("ARB_ANT", .cell, "arxAnt", .int), ("ARB_IN", .cell, "arxIn", .str),
   ("ARB_OUT", .cell, "arxOut", .str), ("SNAP_ID", .entry, "snapID", .str), ("SNAP_SLOT", .entry, "snapSlot", .str),
   ("SNAP_DESI", .entry, "snapDesi", .int), ("SNAP_STAT", .cell, "snapStat", .int), ("SNAP_INR", .cell, "snapInR", .str),
   ("SNAP_INC", .cell, "snapInC", .str), ("SNAP_ANT", .cell, "snapAnt", .int), ("SERVER_ID", .entry, "serverID", .str),
   ("SERVER_SLOT", .entry, "serverSlot", .str), ("SERVER_STAT", .entry, "serverStat", .int),
   ("SERVER_DESI", .entry, "serverDesi", .int), ("DR_STAT", .entry, "drStat", .int), ("DR_ID", .entry, "drID", .str),
   ("DR_SHLF", .entry, "drShlf", .int), ("DR_PC", .entry, "drPC", .str), ("DR_NDP", .entry, "drNDP", .int),
   ("ASP_FLT", .entry, "aspFlt", .int), ("ASP_AT1", .entry, "aspAT1", .int), ("ASP_AT2", .entry, "aspAT2", .int),
   ("ASP_AT3", .entry, "aspAT3", .int)]

/-- A setting line: keyword, numbers counted from 1, the value's text, blanks before it, and a comment. -/
structure Setting where
  key : String
  i : Nat
  j : Nat
  value : Str
  gap : Nat
  comment : Option Str

/-- The comment with its `#`. -/
def ending : Option Str → Str
  | none => []
  | some c => '#' :: c

/-- `KEY[i]  value#comment`, or `KEY[i][j]  value#comment`. -/
def Setting.text (s : Setting) (k : Kind) : Str :=
  s.key.toList ++ '[' :: showNat s.i ++ ']' :: ((if k = .cell then '[' :: showNat s.j ++ [']'] else []) ++
    (List.replicate (s.gap + 1) ' ' ++ (s.value ++ ending s.comment)))

/-- The value's text stands in one line, is not empty, does not begin with a blank and has no `#`. -/
def Setting.Clean (s : Setting) : Prop :=
  (∃ c r, s.value = c :: r ∧ isBlank c = false) ∧ '#' ∉ s.value ∧ '\n' ∉ s.value ∧ '\r' ∉ s.value ∧
  (∀ c, s.comment = some c → '\n' ∉ c ∧ '\r' ∉ c)

/-- The value of a text. -/
def means (fl : Str → Option Rat) : Type' → Str → Option Val
  | .int, s => (intText? s).map .int
  | .flt, s => (fl s).map .flt
  | .str, s => some (.str s)
  | .slot, s => some (match intText? s with | some n => .int n | none => .str s)

/-- Entry `p` of a list, or entry `q` of row `p`. -/
def valueAt (v : Option Var) (p : Nat) (q : Option Nat) : Option Val :=
  match v, q with
  | some (.list l), none => l[p]?
  | some (.table t), some q => t[p]?.bind (fun r => r[q]?)
  | _, _ => none

/-- Names used only while a line is read. -/
def scratch : List String := ["flt", "at1", "at2", "at3"]

/-- Column of the entry a setting is about. -/
def Setting.column (s : Setting) : Kind → Option Nat
  | .entry => none
  | .cell => some (s.j - 1)
  | .axis k => some k

/-- `e'` is `e` but for one entry. -/
structure OnlyAt (e e' : Env) (x : String) (p : Nat) (q : Option Nat) (v : Val) : Prop where
  new : valueAt (e' x) p q = some v
  rest : ∀ p' q', (p', q') ≠ (p, q) → valueAt (e' x) p' q' = valueAt (e x) p' q'
  others : ∀ y, y ≠ x → y ∉ scratch → e' y = e y
  shape : (∀ l, e x = some (.list l) → ∃ l', e' x = some (.list l') ∧ l'.length = l.length) ∧
    (∀ t, e x = some (.table t) → ∃ t', e' x = some (.table t') ∧ t'.map List.length = t.map List.length)

end Verif.Ssmif.Spec
