import Verif.Spec.SdFits
import Verif.Model.UvTable
/-!
# Single dish files: /repo/lsl/writer/sdfits.py, with `WriterBase` of /repo/lsl/writer/fitsidi.py

Simplifications: times are exact (they are modified Julian days, about 5.7e4, so that of the sort keys all but the last 1.2e-4 are
kept).  A spectrum is opaque, `zero` is the one of zeros.  Beams are their numbers.
-/
namespace Verif.SdFits

variable {S : Type}

inductive Err
  | unboundLocal
  | keyError
  deriving DecidableEq

/-- `_SpectrometerData`, lines 56-68. -/
structure DataSet (S : Type) where
  time : Rat
  int : Rat
  beams : List (Nat × S)
  pol : Int

/-- `list.sort`, which is stable. -/
def ins {α : Type} (le : α → α → Bool) (x : α) : List α → List α
  | [] => [x]
  | y :: l => if le x y then x :: y :: l else y :: ins le x l
def sortBy {α : Type} (le : α → α → Bool) : List α → List α
  | [] => []
  | x :: l => ins le x (sortBy le l)

/-- `__sortData`, lines 157-171. -/
def key (d : DataSet S) : Rat := d.time * 10000000 + (d.pol.natAbs : Rat)
def before (a b : DataSet S) : Bool := decide (key a ≤ key b)
def sorted (l : List (DataSet S)) : List (DataSet S) := sortBy before l

/-- Beams of a data set in order, line 247-248. -/
def inOrder (l : List (Nat × S)) : List (Nat × S) := sortBy (fun a b => decide (a.1 ≤ b.1)) l
def order (l : List Nat) : List Nat := sortBy (fun a b => decide (a ≤ b)) l

/-- The variables of the loop, lines 232-240.  `temp` is not there before the first time of line 243. -/
structure St (S : Type) where
  temp : Option (Int → Nat → Option S)
  raw : List Nat
  count : Nat
  heads : List (Nat × Rat × Rat × Nat)
  mats : List (List S)

/-- `tempMList[pol][b] = spec` for all beams. -/
def putAll (p : Int) (bs : List (Nat × S)) (t : Int → Nat → Option S) : Int → Nat → Option S :=
  bs.foldl (fun t x => fun q b => if q = p ∧ b = x.1 then some x.2 else t q b) t

/-- Lines 242-245. -/
def reset (stokes : List Int) (s : St S) (d : DataSet S) : St S :=
  if some d.pol = stokes.head? then { s with temp := some fun _ _ => none } else s

/-- Lines 247-269. -/
def load (stokes : List Int) (s : St S) (d : DataSet S) : Except Err (St S) :=
  if d.beams = [] then .ok s
  else
    match s.temp with
    | none => .error .unboundLocal
    | some t =>
      if d.pol ∉ stokes then .error .keyError
      else if some d.pol = stokes.head? then
        .ok { s with
          temp := some (putAll d.pol (inOrder d.beams) t)
          heads := s.heads ++ (inOrder d.beams).map (fun x => (s.count, d.time, d.int, x.1))
          raw := s.raw ++ (inOrder d.beams).map (·.1) }
      else .ok { s with temp := some (putAll d.pol (inOrder d.beams) t) }

/-- A matrix of a beam, lines 273-282; what is missing is zero. -/
def matrix (zero : S) (stokes : List Int) (t : Option (Int → Nat → Option S)) (b : Nat) : List S :=
  stokes.map fun p => ((t.bind fun t => t p b).getD zero)

/-- Lines 271-284. -/
def finish (zero : S) (stokes : List Int) (s : St S) (d : DataSet S) : St S :=
  if some d.pol = stokes.getLast? then
    { s with mats := s.mats ++ s.raw.map (matrix zero stokes s.temp), count := s.count + 1, raw := [] }
  else s

def step (zero : S) (stokes : List Int) (s : St S) (d : DataSet S) : Except Err (St S) :=
  (load stokes (reset stokes s d) d).map fun s => finish zero stokes s d

def loop (zero : S) (stokes : List Int) : List (DataSet S) → St S → Except Err (St S)
  | [], s => .ok s
  | d :: l, s =>
    match step zero stokes s d with
    | .error e => .error e
    | .ok s' => loop zero stokes l s'

def start : St S := ⟨none, [], 1, [], []⟩

/-- A row has the columns of its number, lines 286-355. -/
def rowOf (x : (Nat × Rat × Rat × Nat) × List S) : Row S := ⟨x.1.1, x.1.2.1, x.1.2.2.1, x.1.2.2.2, x.2⟩

/-- `write`, lines 152-181: the columns `SCAN`, time, `EXPOSURE`, `BEAM` and `DATA`. -/
def write (zero : S) (stokes : List Int) (data : List (DataSet S)) : Except Err (List (Row S)) :=
  (loop zero stokes (sorted data) start).map fun s => (s.heads.zip s.mats).map rowOf

/-! ## Products -/

/-- `STOKES_CODES` and `NUMERIC_STOKES`, lines 37-43. -/
def codes : List (String × Int) :=
  [("I", 1), ("Q", 2), ("U", 3), ("V", 4), ("RR", -1), ("LL", -2), ("RL", -3), ("LR", -4), ("XX", -5), ("YY", -6), ("XY", -7), ("YX", -8)]
def names : List (Int × String) :=
  [(1, "I"), (2, "Q"), (3, "U"), (4, "V"), (-1, "RR"), (-2, "LL"), (-3, "RL"), (-4, "RL"), (-5, "XX"), (-6, "YY"), (-7, "XY"), (-8, "YX")]

/-- `CRVAL2` and `CDELT2`, lines 466-472, and the code a reader makes of them for product `k`. -/
def crval2 (stokes : List Int) : Int := stokes.headD 0
def cdelt2 (stokes : List Int) : Int := if crval2 stokes < 0 then -1 else 1
def codeRead (stokes : List Int) (k : Nat) : Int := crval2 stokes + cdelt2 stokes * k

/-! ## Frequencies, `set_frequency` of fitsidi.py:276-294, and `CRVAL1`, `CRPIX1`, `CDELT1` -/

structure Freq where
  refVal : Rat
  width : Rat
  total : Rat

/-- `none` is `IndexError`. -/
def setFrequency (f : List Rat) : Option Freq :=
  match f with
  | a :: b :: _ => some ⟨a, (b - a).abs, (f.getLast?.getD a - a).abs⟩
  | _ => none

/-- The frequency a reader makes for channel `k`; `CRPIX1` is 1. -/
def freqRead (q : Freq) (k : Nat) : Rat := q.refVal + q.width * k

/-! ## Dates, lines 256-266 -/

/-- Day (modified Julian day of UTC) of `DATE-OBS`, and seconds of `TIME`. -/
def dateObs (utc : Rat) : Int := utc.floor
def timeObs (utc : Rat) : Rat := (utc - dateObs utc) * 24 * 3600

end Verif.SdFits
