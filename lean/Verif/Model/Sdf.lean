import Verif.Model.Dec
import Verif.Model.PyNum
/-!
# Session definitions: /repo/lsl/common/sdf.py (durations, overlap and step checks)

Floats are idealised to exact rationals.
-/
namespace Verif.Sdf

open Verif.Dec

/-! ### durations -/

/-- The getter of `Observation.duration` and `BeamStep.duration` (sdf.py:595-604, 1593-1602), and of
`Stepped.duration` (1298-1312), for a duration in ms. -/
def durText (dur : Int) : List Char :=
  let s := dur / 1000
  let ms := (dur % 1000).toNat
  let h := s / 3600
  let m := (s / 60 % 60).toNat
  let sec := (s % 60).toNat
  showInt h ++ ':' :: showPad 2 m ++ ':' :: showPad 2 sec ++ '.' :: showPad 3 ms

/-- What can be given as a duration. -/
inductive DurValue
  | text (t : List Char)
  | timedelta (days seconds : Int) (micro : Nat)
  | number (q : Rat)
  | quantity (q : Rat)

/-- `float(fields.pop())`, with whole seconds and milliseconds as in sdf.py:619-623. -/
def secMs (s : Rat) : Int × Int :=
  let ms := roundHalfEven ((s - pyInt s) * 1000)
  if ms ≥ 1000 then (pyInt s + 1, ms - 1000) else (pyInt s, ms)

/-- The text branch of the setter, sdf.py:608-624: fields from the right are seconds, minutes, hours,
missing ones are 0, further ones are ignored. -/
def parseDur (t : List Char) : Option Rat :=
  match (splitOn ':' t).reverse with
  | [] => none
  | f :: rest =>
    match parseDec? f with
    | none => none
    | some s =>
      let m := match rest with
        | [] => some 0
        | x :: _ => parseInt? x
      let h := match rest with
        | _ :: x :: _ => parseInt? x
        | _ => some 0
      match m, h with
      | some m, some h =>
        let (sec, ms) := secMs s
        some (((h * 3600 + m * 60 + sec : Int) : Rat) + (ms : Rat) / 1000)
      | _, _ => none

/-- The setter, sdf.py:606-636: the new `dur` in ms, `none` for an exception.  An astropy quantity
always raises, since `seconds` is used before it is assigned (sdf.py:631-632). -/
def setDur : DurValue → Option Int
  | .text t => (parseDur t).map (fun s => roundHalfEven (s * 1000))
  | .timedelta d s us =>
    some (roundHalfEven ((((d * 86400 + s : Int) : Rat) +
      (roundHalfEven ((us : Rat) / 1000) : Rat) / 1000) * 1000))
  | .number q => some (roundHalfEven (q * 1000))
  | .quantity _ => none

/-- The text made from `OBS_DUR` or `OBS_STP_T` when a file is parsed, sdf.py:2050-2052, 2083-2085. -/
def parsedText (ms : Nat) : List Char :=
  showPad 2 (ms / 3600000) ++ ':' :: showPad 2 (ms % 3600000 / 60000) ++
    ':' :: showPad 2 (ms % 60000 / 1000) ++ '.' :: showPad 3 (ms % 1000)

/-! ### overlap check -/

/-- The attributes used: `mjd`, `mpm` and `dur`. -/
structure Obs where
  mjd : Int
  mpm : Int
  dur : Int
  deriving DecidableEq, Repr

/-- `cStart`, sdf.py:1981. -/
def start (o : Obs) : Int := o.mjd * 24 * 3600 * 1000 + o.mpm

/-- `nOverlaps` for observation `p`, sdf.py:1977-1990. -/
def overlaps (obs : List Obs) (p : Obs) : Nat :=
  (obs.filter (fun c => decide (start p ≥ start c ∧ start p < start c + c.dur))).length

/-- Number of failures added by the overlap check, sdf.py:1972-1994 (idf.py:538-560 is the same
for scans). -/
def overlapFailures (obs : List Obs) : Nat :=
  (obs.filter (fun p => decide (overlaps obs p > 1))).length

/-! ### step count -/

/-- `MAX_STP_N`, mcs.py:106. -/
def maxSteps : Nat := 1024

/-- `stepCount` after the loop, sdf.py:1449-1457: starts at 1, one more per step. -/
def stepCount : Nat → Nat
  | 0 => 1
  | n + 1 => stepCount n + 1

/-- Whether the number of steps is counted as a failure, sdf.py:1459-1461. -/
def tooManySteps (n : Nat) : Bool := stepCount n > maxSteps

end Verif.Sdf
