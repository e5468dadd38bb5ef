import Verif.Model.Idf
/-!
# What comes out of writing and reading an interferometer definition

The parser keeps one dictionary for all scans, so that settings which are written only if they are set stay in force for later scans.
-/
namespace Verif.Idf.Spec

open Verif.Idf

/-- A number with `k` decimals. -/
def toFixed (k : Nat) (x : Rat) : Rat := (roundHalfEven (x * ((10 ^ k : Nat) : Rat)) : Rat) / ((10 ^ k : Nat) : Rat)

/-- A proper motion as written, or the one in force if there is none. -/
def motion (prev pm : Rat × Rat) : Rat × Rat := if pm.1 ≠ 0 ∨ pm.2 ≠ 0 then (toFixed 1 pm.1, toFixed 1 pm.2) else prev

/-- Alternate phase centers: a proper motion stays in force for those that follow. -/
def receivedAlts : Rat × Rat → List Alt → List Alt
  | _, [] => []
  | prev, a :: l => { a with ra := toFixed 9 a.ra, dec := toFixed 9 a.dec, pm := motion prev a.pm } :: receivedAlts (motion prev a.pm) l

/-- Settings in force. -/
structure Carry where
  pm : Rat × Rat
  gain : Int
  asp : Int
  nAlt : Nat
  deriving DecidableEq

def Carry.none : Carry := ⟨(0, 0), -1, -1, 0⟩

/-- The settings in force from a scan on. -/
def Carry.next (c : Carry) (s : Scan) : Carry :=
  { pm := if s.mode = .radec then motion c.pm s.pm else c.pm
    gain := if s.gain ≠ -1 then s.gain else c.gain
    asp := if s.asp ≠ -1 then s.asp else c.asp
    nAlt := if s.alts ≠ [] then s.alts.length else c.nAlt }

/-- A scan when the settings `c` are in force; it is refused if the number of alternate phase centers in force is not its own. -/
def received (c : Carry) (s : Scan) : Option Scan :=
  if (c.next s).nAlt ≠ s.alts.length then .none
  else some { s with
    comments := some (remark s.comments)
    ra := if s.mode = .radec then toFixed 9 s.ra else 0
    dec := if s.mode = .radec then toFixed 9 s.dec else 0
    pm := if s.mode = .radec then (c.next s).pm else (0, 0)
    gain := (c.next s).gain
    asp := (c.next s).asp
    alts := receivedAlts (0, 0) s.alts }

def receivedAll : Carry → List Scan → Option (List Scan)
  | _, [] => some []
  | c, s :: l => (received c s).bind fun o => (receivedAll (c.next s) l).map fun os => o :: os

/-- Comments of the project office that are read back with the scans. -/
def shownAll (w : Shown) : List (Option Text) → List Scan → List (Option Text)
  | _, [] => []
  | po, s :: l => some ((given? (po.headD none)).getD (w.size s)) :: shownAll w po.tail l

/-- A project with the scans `os` that is read from the text of `p`, the run of which has its user name in its comments already. -/
def receivedProject (w : Shown) (p : Project) (os : List Scan) : Project :=
  { p with
    comments := some (remark p.comments)
    poProject := some (p.poProject.getD noneText)
    poRuns := [some ((given? (p.poRuns.headD none)).getD [])]
    poScans := [shownAll w (p.poScans.headD []) p.run.scans]
    run := { p.run with
      name := some (p.run.name.getD "None provided".toList)
      inttime := toFixed 3 p.run.inttime
      ucf := userOf (remark p.run.comments)
      comments := some (ucfSub (remark p.run.comments))
      scans := os } }

/-- A value that survives on a line: it starts with a character that is not a blank and has no line end. -/
def Clean (v : Text) : Prop := (∃ c r, v = c :: r ∧ Parser.isBlank c = false) ∧ '\n' ∉ v ∧ '\r' ∉ v

/-- The names of intents. -/
def intents : List Text := ["fluxcal".toList, "phasecal".toList, "target".toList, "dummy".toList]

/-- Coordinates that are in range after rounding. -/
def InRange (ra dec : Rat) : Prop := SdfParse.raDecOk (toFixed 9 ra) (toFixed 9 dec) = true

structure AltOk (a : Alt) : Prop where
  target : Clean a.target
  intent : a.intent ∈ intents
  point : InRange a.ra a.dec

structure ScanOk (s : Scan) : Prop where
  target : Clean s.target
  intent : s.intent ∈ intents
  comments : Clean (remark s.comments)
  mpm : 0 ≤ s.mpm ∧ s.mpm < 86400000
  point : s.mode = .radec → InRange s.ra s.dec
  alts : ∀ a ∈ s.alts, AltOk a

/-- Names of stations that can be told apart in a list. -/
structure StationOk (plus : List Text) (n : Text) : Prop where
  known : n ∈ plus
  trim : Parser.strip n = n
  one : ',' ∉ n
  notAll : lower n ≠ "all".toList
  clean : Clean n

structure HeadOk (plus : List Text) (p : Project) : Prop where
  piName : Clean p.piName
  id : Clean p.id
  name : Clean p.name
  comments : Clean (remark p.comments)
  office : Clean (p.poProject.getD noneText)
  runName : Clean (p.run.name.getD "None provided".toList)
  stations : ∀ n ∈ p.run.stations, StationOk plus n
  two : 2 ≤ p.run.stations.length
  channels : 16 ≤ p.run.channels ∧ p.run.channels ≤ 32768 ∧ p.run.channels % 2 = 0
  inttime : 1 / 10 ≤ toFixed 3 p.run.inttime ∧ toFixed 3 p.run.inttime ≤ 10
  basis : lower p.run.basis ∈ ["linear".toList, "circular".toList, "stokes".toList]
  basisClean : Clean p.run.basis
  runComments : Clean (remark p.run.comments)
  method : '\n' ∉ p.run.method ∧ '\r' ∉ p.run.method ∧ ';' ∉ p.run.method
  runOffice : ∀ t, given? (p.poRuns.headD none) = some t → '\n' ∉ t ∧ '\r' ∉ t ∧ 34 + p.run.method.length + t.length ≤ 4090

end Verif.Idf.Spec
