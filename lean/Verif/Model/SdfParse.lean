import Verif.Model.Sdf
import Verif.Model.Words
/-!
# Rendering and parsing session definition files: /repo/lsl/common/sdf.py

`Project.render` (sdf.py:277-515) and `parse_sdf` (2121-2556), the observations of one session.

A file is a list of lines; a line is a keyword with its indices and its value.  Not modelled: the
characters of a line (keyword regular expression, blanks), the comment lines (keywords ending in '+',
skipped by the parser), `OBS_REMPO`, `OBS_START` (not read), PI/project/session lines.  Integers are
written with `%i` and read with `int()` (`Dec.parseInt_showInt`), so a line carries the number.
The start time goes through `Time` and a text with ms (2040-2043); this is the identity on (mjd, mpm)
and not modelled here.  Titles and comments are non-empty texts without newlines or leading blanks.
-/
namespace Verif.SdfParse

open Verif.Sdf

/-- `LWA_MAX_NSTD`, mcs.py. -/
def nstd : Nat := 256

inductive Mode
  | tbt | tbs | radec | sol | jov | lun | stepped
  deriving DecidableEq, Repr

/-- `[[a, b], [c, d]]` of custom gains. -/
structure Gain where
  a : Int
  b : Int
  c : Int
  d : Int
  deriving DecidableEq, Repr

/-- The beam type of a step (`BeamStep.get_beam_type`, sdf.py:1667-1678) with its data. -/
inductive Beam
  | simple
  | highDr
  | spec (delays : List Int) (gains : List Gain)
  deriving DecidableEq, Repr

structure Step where
  c1 : Rat
  c2 : Rat
  dur : Nat
  freq1 : Int
  freq2 : Int
  beam : Beam
  deriving DecidableEq, Repr

/-- Value of `beamDipole`; the gains are multiples of 0.0001 (written with `%6.4f`). -/
structure Dipole where
  stand : Int
  beamGain : Int
  dipoleGain : Int
  pol : Bool
  deriving DecidableEq, Repr

/-- The attributes of an observation that describe it; `freq1`, `freq2` are tuning words. -/
structure Obs where
  mode : Mode
  name : String
  target : String
  comments : String
  mjd : Int
  mpm : Int
  dur : Nat
  dipole : Option Dipole
  ra : Rat
  dec : Rat
  highDr : Bool
  freq1 : Int
  freq2 : Int
  filter : Int
  isRadec : Bool
  steps : List Step
  fee : List (Int × Int)
  flt : List Int
  at1 : List Int
  at2 : List Int
  at3 : List Int
  samples : Nat
  gain : Int
  deriving DecidableEq, Repr

/-- Keyword of the beam type of a step. -/
inductive BeamKw
  | simple | highDr | spec
  deriving DecidableEq, Repr

inductive Line
  | obsId (n : Nat)
  | title (s : String)
  | target (s : String)
  | rempi (s : String)
  | mjd (n : Int)
  | mpm (n : Int)
  | dur (n : Nat)
  | mode (m : Mode)
  | bdm (d : Dipole)
  | ra (n : Int)
  | dec (n : Int)
  | b (high : Bool)
  | freq1 (n : Int)
  | freq2 (n : Int)
  | bw (n : Int)
  | stpRadec (b : Bool)
  | stpC1 (id : Nat) (n : Int)
  | stpC2 (id : Nat) (n : Int)
  | stpT (id : Nat) (n : Nat)
  | stpF1 (id : Nat) (n : Int)
  | stpF2 (id : Nat) (n : Int)
  | stpB (id : Nat) (k : BeamKw)
  | delay (id k : Nat) (v : Int)
  | gains (id k i j : Nat) (v : Int)
  | fee (n j : Nat) (v : Int)
  | flt (n : Nat) (v : Int)
  | at1 (n : Nat) (v : Int)
  | at2 (n : Nat) (v : Int)
  | at3 (n : Nat) (v : Int)
  | samples (n : Nat)
  | gain (n : Int)
  deriving DecidableEq, Repr

/-! ### render -/

/-- `"%.9f"`: the number of 1e-9 units. -/
def to9 (x : Rat) : Int := roundHalfEven (x * 1000000000)

/-- `float()` of such a text. -/
def of9 (n : Int) : Rat := (n : Rat) / 1000000000

/-- Lines of a list of ASP settings, sdf.py:449-503: one line with index 0 if all are the same, none
if they are all -1, else one line for each that is not -1. -/
def arrLines (l : List Int) : List (Nat × Int) :=
  if l.all (fun j => j == l.headD (-1)) then
    if l.headD (-1) ≠ -1 then [(0, l.headD (-1))] else []
  else
    ((l.zipIdx).filter (fun p => p.1 != -1)).map (fun p => (p.2 + 1, p.1))

/-- Lines of the FEE settings, sdf.py:432-447. -/
def feeLines (l : List (Int × Int)) : List (Nat × Nat × Int) :=
  if l.all (fun j => j == l.headD (-1, -1)) then
    if (l.headD (-1, -1)).1 ≠ -1 ∧ (l.headD (-1, -1)).2 ≠ -1 then
      [(0, 1, (l.headD (-1, -1)).1), (0, 2, (l.headD (-1, -1)).2)]
    else []
  else
    (l.zipIdx).flatMap (fun p =>
      (if p.1.1 ≠ -1 then [(p.2 + 1, 1, p.1.1)] else []) ++
      (if p.1.2 ≠ -1 then [(p.2 + 1, 2, p.1.2)] else []))

/-- Lines of one step, sdf.py:408-431. -/
def stepLines (id : Nat) (s : Step) : List Line :=
  [.stpC1 id (to9 s.c1), .stpC2 id (to9 s.c2), .stpT id s.dur, .stpF1 id s.freq1, .stpF2 id s.freq2] ++
  match s.beam with
  | .simple => [.stpB id .simple]
  | .highDr => [.stpB id .highDr]
  | .spec ds gs =>
    .stpB id .spec :: (ds.zipIdx.map (fun p => .delay id (p.2 + 1) p.1) ++
      gs.zipIdx.flatMap (fun p => [.gains id (p.2 + 1) 1 1 p.1.a, .gains id (p.2 + 1) 1 2 p.1.b,
        .gains id (p.2 + 1) 2 1 p.1.c, .gains id (p.2 + 1) 2 2 p.1.d]))

/-- Lines that depend on the mode, sdf.py:361-431. -/
def modeLines (o : Obs) : List Line :=
  match o.mode with
  | .tbt => []
  | .tbs => [.freq1 o.freq1, .bw o.filter]
  | .radec => [.ra (to9 o.ra), .dec (to9 o.dec), .b o.highDr, .freq1 o.freq1, .freq2 o.freq2, .bw o.filter]
  | .sol | .jov | .lun => [.b o.highDr, .freq1 o.freq1, .freq2 o.freq2, .bw o.filter]
  | .stepped => .bw o.filter :: .stpRadec o.isRadec ::
      (o.steps.zipIdx.flatMap (fun p => stepLines (p.2 + 1) p.1))

/-- The text limited to 4090 characters. -/
def cut (s : String) : String := String.ofList (s.toList.take 4090)

/-- `OBS_BDM`, sdf.py:373-374: only when a dipole is set. -/
def bdmLines : Option Dipole → List Line
  | some d => [.bdm d]
  | none => []

/-- Last lines, sdf.py:505-512: TBT samples for TBT, else the DRX gain if it is set. -/
def endLines (o : Obs) : List Line :=
  if o.mode = .tbt then [.samples o.samples] else if o.gain ≠ -1 then [.gain o.gain] else []

/-- Lines of one observation, sdf.py:344-513. -/
def obsLines (id : Nat) (o : Obs) : List Line :=
  [.obsId id, .title o.name, .target o.target, .rempi (cut o.comments), .mjd o.mjd, .mpm o.mpm,
    .dur o.dur, .mode o.mode] ++
  bdmLines o.dipole ++
  modeLines o ++
  (feeLines o.fee).map (fun p => .fee p.1 p.2.1 p.2.2) ++
  (arrLines o.flt).map (fun p => .flt p.1 p.2) ++
  (arrLines o.at1).map (fun p => .at1 p.1 p.2) ++
  (arrLines o.at2).map (fun p => .at2 p.1 p.2) ++
  (arrLines o.at3).map (fun p => .at3 p.1 p.2) ++
  endLines o

/-- The observations of a session (in the order after sorting), sdf.py:344. -/
def renderFrom (id : Nat) : List Obs → List Line
  | [] => []
  | o :: l => obsLines id o ++ renderFrom (id + 1) l

def render (obs : List Obs) : List Line := renderFrom 1 obs

/-! ### parse -/

/-- One entry of `beam_temps`, sdf.py:2151. -/
structure StepTemp where
  id : Nat
  c1 : Rat
  c2 : Rat
  dur : Nat
  freq1 : Int
  freq2 : Int
  highDr : Bool
  delays : Option (List Int)
  gains : Option (List Gain)
  deriving DecidableEq, Repr

def StepTemp.new : StepTemp := ⟨0, 0, 0, 0, 0, 0, false, none, none⟩

/-- `obs_temp`, sdf.py:2145-2150: one dictionary for all observations of the file. -/
structure Temp where
  id : Nat
  name : String
  target : String
  comments : String
  mjd : Int
  mpm : Int
  dur : Nat
  mode : Option Mode
  dipole : Option Dipole
  ra : Rat
  dec : Rat
  highDr : Bool
  freq1 : Int
  freq2 : Int
  filter : Int
  isRadec : Bool
  fee : List (Int × Int)
  flt : List Int
  at1 : List Int
  at2 : List Int
  at3 : List Int
  samples : Nat
  gain : Int
  deriving DecidableEq, Repr

def Temp.new : Temp :=
  ⟨0, "", "", "", 0, 0, 0, none, none, 0, 0, false, 0, 0, 0, true,
    List.replicate nstd (-1, -1), List.replicate nstd (-1), List.replicate nstd (-1),
    List.replicate nstd (-1), List.replicate nstd (-1), 0, -1⟩

/-- Parser state: `obs_temp`, `beam_temps` and the finished observations. -/
structure PState where
  t : Temp
  beams : List StepTemp
  out : List Obs

/-- The words in a file become frequencies and words again (2056-2057, 682-696). -/
def viaFreq (w : Int) : Int := Words.freqToWord (Words.wordToFreq w)

/-- The duration in ms becomes a text and ms again (2050-2052, 606-636). -/
def viaText (n : Nat) : Option Nat := (setDur (.text (parsedText n))).map Int.toNat

/-- `get_beam_type` on a step made from an entry, 1667-1678. -/
def beamOf (s : StepTemp) : Beam :=
  match s.delays, s.gains with
  | some ds, some gs => .spec ds gs
  | _, _ => if s.highDr then .highDr else .simple

/-- The length check of custom delays and gains, sdf.py:2090-2095. -/
def lenOk {α : Type} (o : Option (List α)) (n : Nat) : Bool :=
  match o with
  | some l => l.length == n
  | none => true

/-- A `BeamStep` from an entry, sdf.py:2082-2100. -/
def makeStep (s : StepTemp) : Option Step :=
  if !lenOk s.delays (2 * nstd) then none
  else if !lenOk s.gains nstd then none
  else (viaText s.dur).map fun d => ⟨s.c1, s.c2, d, viaFreq s.freq1, viaFreq s.freq2, beamOf s⟩

def makeSteps : List StepTemp → Option (List Step)
  | [] => some []
  | s :: l => match makeStep s, makeSteps l with
    | some x, some xs => some (x :: xs)
    | _, _ => none

/-- Duration of a TBT observation in ms, sdf.py:841-842. -/
def tbtDur (samples : Nat) : Nat :=
  (roundHalfEven (((samples : Rat) / 196000 + 1) * 150 + 5000)).toNat

/-- The settings copied to every observation, sdf.py:2105-2114. -/
def common (t : Temp) (o : Obs) : Obs :=
  { o with
    dipole := match t.dipole with | some d => some d | none => o.dipole
    fee := t.fee, flt := t.flt, at1 := t.at1, at2 := t.at2, at3 := t.at3 }

/-- An observation with the values every constructor gets; the others are the defaults, 544-571. -/
def bare (m : Mode) (t : Temp) : Obs :=
  ⟨m, t.name, t.target, t.comments, t.mjd, t.mpm, 0, none, 0, 0, false, 0, 0, 0, true, [],
    [], [], [], [], [], 0, -1⟩

/-- `Stepped.update`, 1277-1295: custom steps switch the beam-dipole mode off. -/
def dropDipole (o : Obs) : Obs :=
  if o.steps.any (fun s => match s.beam with | .spec _ _ => true | _ => false) then { o with dipole := none }
  else o

/-- The check of the `ra` and `dec` setters, 645-672. -/
def raDecOk (ra dec : Rat) : Bool := 0 ≤ ra && ra < 24 && -90 ≤ dec && dec ≤ 90

/-- `_parse_create_obs_object`, sdf.py:2028-2118; `none` for an exception. -/
def create (t : Temp) (beams : List StepTemp) : Option Obs :=
  match t.mode with
  | none => none
  | some .tbt =>
    some (common t { bare .tbt t with dur := tbtDur t.samples, filter := 1, samples := t.samples })
  | some .tbs => (viaText t.dur).map fun d =>
      common t { bare .tbs t with dur := d, freq1 := viaFreq t.freq1, filter := t.filter }
  | some .radec =>
    if raDecOk t.ra t.dec then
      (viaText t.dur).map fun d => common t { bare .radec t with
        dur := d, ra := t.ra, dec := t.dec, freq1 := viaFreq t.freq1, freq2 := viaFreq t.freq2,
        filter := t.filter, gain := t.gain, highDr := t.highDr }
    else none
  | some .stepped => (makeSteps beams).map fun ss =>
      dropDipole (common t { bare .stepped t with
        dur := (ss.map Step.dur).sum, filter := t.filter, isRadec := t.isRadec, steps := ss,
        gain := t.gain })
  | some m => (viaText t.dur).map fun d => common t { bare m t with
        dur := d, freq1 := viaFreq t.freq1, freq2 := viaFreq t.freq2,
        filter := t.filter, gain := t.gain, highDr := t.highDr }

/-- The entry a step line refers to, e.g. sdf.py:2353-2362: a new entry is a copy of the last one. -/
def onStep (beams : List StepTemp) (id : Nat) (f : StepTemp → StepTemp) : List StepTemp :=
  match beams.getLast? with
  | none => [f { StepTemp.new with id := id }]
  | some s => if s.id ≠ id then beams ++ [f { s with id := id }] else beams.dropLast ++ [f s]

/-- `OBS_STP_B`, sdf.py:2411-2449. -/
def setBeam (k : BeamKw) (s : StepTemp) : StepTemp :=
  match k with
  | .highDr => { s with highDr := true }
  | .spec => { s with delays := some (List.replicate (2 * nstd) 0), gains := some (List.replicate nstd ⟨0, 0, 0, 0⟩) }
  | .simple => { s with highDr := false }

/-- `OBS_BEAM_DELAY`, sdf.py:2451-2467; an index that does not exist is an error in the code, here no
change. -/
def setDelay (k : Nat) (v : Int) (s : StepTemp) : StepTemp :=
  { s with delays := s.delays.map (fun ds => ds.set (k - 1) v) }

def Gain.set (g : Gain) (i j : Nat) (v : Int) : Gain :=
  if i = 1 then (if j = 1 then { g with a := v } else { g with b := v })
  else (if j = 1 then { g with c := v } else { g with d := v })

/-- `OBS_BEAM_GAIN`, sdf.py:2469-2485. -/
def setGain (k i j : Nat) (v : Int) (s : StepTemp) : StepTemp :=
  { s with gains := s.gains.map (fun gs => gs.modify (k - 1) (fun g => g.set i j v)) }

/-- `OBS_ASP_*`, sdf.py:2498-2537. -/
def setArr (l : List Int) (n : Nat) (v : Int) : List Int :=
  if n = 0 then l.map (fun _ => v) else l.set (n - 1) v

def setPair (p : Int × Int) (j : Nat) (v : Int) : Int × Int := if j = 1 then (v, p.2) else (p.1, v)

/-- `OBS_FEE`, sdf.py:2488-2497. -/
def setFee (l : List (Int × Int)) (n j : Nat) (v : Int) : List (Int × Int) :=
  if n = 0 then l.map (fun p => setPair p j v) else l.modify (n - 1) (fun p => setPair p j v)

/-- One line of the file, sdf.py:2156-2548; `none` for an exception. -/
def parseLine (s : PState) : Line → Option PState
  | .obsId n =>
    if s.t.id ≠ 0 then
      match create s.t s.beams with
      | none => none
      | some o => some ⟨{ s.t with id := n }, [], s.out ++ [o]⟩
    else some { s with t := { s.t with id := n } }
  | .title x => some { s with t := { s.t with name := x } }
  | .target x => some { s with t := { s.t with target := x } }
  | .rempi x => some { s with t := { s.t with comments := x } }
  | .mjd n => some { s with t := { s.t with mjd := n } }
  | .mpm n => some { s with t := { s.t with mpm := n } }
  | .dur n => some { s with t := { s.t with dur := n } }
  | .mode m => some { s with t := { s.t with mode := some m } }
  | .bdm d => some { s with t := { s.t with dipole := some d } }
  | .ra n => some { s with t := { s.t with ra := of9 n } }
  | .dec n => some { s with t := { s.t with dec := of9 n } }
  | .b high => some (if high then { s with t := { s.t with highDr := true } } else s)
  | .freq1 n => some { s with t := { s.t with freq1 := n } }
  | .freq2 n => some { s with t := { s.t with freq2 := n } }
  | .bw n => some { s with t := { s.t with filter := n } }
  | .stpRadec b => some { s with t := { s.t with isRadec := b } }
  | .stpC1 id n => some { s with beams := onStep s.beams id (fun x => { x with c1 := of9 n }) }
  | .stpC2 id n => some { s with beams := onStep s.beams id (fun x => { x with c2 := of9 n }) }
  | .stpT id n => some { s with beams := onStep s.beams id (fun x => { x with dur := n }) }
  | .stpF1 id n => some { s with beams := onStep s.beams id (fun x => { x with freq1 := n }) }
  | .stpF2 id n => some { s with beams := onStep s.beams id (fun x => { x with freq2 := n }) }
  | .stpB id k => some { s with beams := onStep s.beams id (setBeam k) }
  | .delay id k v => some { s with beams := onStep s.beams id (setDelay k v) }
  | .gains id k i j v => some { s with beams := onStep s.beams id (setGain k i j v) }
  | .fee n j v => some { s with t := { s.t with fee := setFee s.t.fee n j v } }
  | .flt n v => some { s with t := { s.t with flt := setArr s.t.flt n v } }
  | .at1 n v => some { s with t := { s.t with at1 := setArr s.t.at1 n v } }
  | .at2 n v => some { s with t := { s.t with at2 := setArr s.t.at2 n v } }
  | .at3 n v => some { s with t := { s.t with at3 := setArr s.t.at3 n v } }
  | .samples n => some { s with t := { s.t with samples := n } }
  | .gain n => some { s with t := { s.t with gain := n } }

def parseLines : PState → List Line → Option PState
  | s, [] => some s
  | s, x :: l => match parseLine s x with
    | none => none
    | some s' => parseLines s' l

/-- `parse_sdf`, sdf.py:2121-2556: the observations. -/
def parse (l : List Line) : Option (List Obs) :=
  match parseLines ⟨Temp.new, [], []⟩ l with
  | none => none
  | some s =>
    if s.t.id ≠ 0 then (create s.t s.beams).map (fun o => s.out ++ [o]) else some s.out

end Verif.SdfParse
