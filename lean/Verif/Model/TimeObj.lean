import Verif.Spec.TimeObj
import Verif.Model.PyNum
import Verif.Model.Float64
/-!
# `transform.Time`: /repo/lsl/transform.py lines 26-363

`astropy.time.Time` is a modified Julian day in a scale.  Floats are exact, but for the ticks.
-/
namespace Verif.TimeObj

inductive Err
  | typeError
  | valueError
  deriving DecidableEq

/-- `astropy.time.Time`. -/
inductive Stored
  | utc (mjd : Rat)
  | tai (mjd : Rat)
  deriving DecidableEq

/-- What a time may be given as.  Dates and texts come with the moment they mean; texts may be none. -/
inductive Value
  | int (n : Int)
  | float (x : Rat)
  | seq (l : List Value)
  | date (mjd : Rat)
  | text (mjd : Option Rat)
  | astropy (t : Stored)
  | other

/-- `isinstance(value, (int, float))`. -/
def number : Value → Option Rat
  | .int n => some n
  | .float x => some x
  | _ => none

variable (c : Clock)

/-- `._time.utc.mjd` and `._time.tai.mjd`. -/
def Stored.toUtc : Stored → Rat
  | .utc m => m
  | .tai m => c.utc m
def Stored.toTai : Stored → Rat
  | .utc m => c.tai m
  | .tai m => m

/-- Setters that take a number, lines 201-348: `f` makes a modified Julian day of it. -/
def setNumber (f : Rat → Stored) (v : Value) : Except Err Stored :=
  match number v with
  | some x => .ok (f x)
  | none => .error .typeError

def ofJd (x : Rat) : Rat := x - 4800001 / 2
def ofUnix (x : Rat) : Rat := 40587 + x / 86400

/-- `value` as Python has it in `value // fS` and `value % fS`: `fS` is a float (/repo/lsl/common/ndp.py:29). -/
def ticks (n : Int) : Int := pyInt (fl64 (n : Rat))

/-- Setter of `utc_dp`, lines 228-233: the two numbers are added by astropy, both in seconds. -/
def setDp (v : Value) : Except Err Stored :=
  match v with
  | .int n => .ok (.utc (ofUnix (((ticks n / 196000000 : Int) : Rat) + ((ticks n % 196000000 : Int) : Rat))))
  | _ => .error .typeError

/-- Setter of `utc_mcs`, lines 241-253. -/
def setMcs (v : Value) : Except Err Stored :=
  match v with
  | .seq [a, b] =>
    match number a with
    | none => .error .typeError
    | some mjd =>
      match number b with
      | none => .error .typeError
      | some mpm => .ok (.utc (mjd + mpm / 86400 / 1000))
  | .seq _ => .error .valueError
  | _ => .error .typeError

/-- Setters of `utc_py_date`, `utc_str` and `astropy`; a text that is no date is a `ValueError` of astropy. -/
def setDate (v : Value) : Except Err Stored :=
  match v with
  | .date m => .ok (.utc m)
  | _ => .error .valueError
def setStr (v : Value) : Except Err Stored :=
  match v with
  | .text (some m) => .ok (.utc m)
  | .text none => .error .valueError
  | _ => .error .typeError
def setAstropy (v : Value) : Except Err Stored :=
  match v with
  | .astropy t => .ok t
  | _ => .error .typeError

/-- `known_formats` and `known_timesys`, lines 61-68. -/
def formats : List String := ["PY_DATE", "STR", "JD", "MJD", "DP", "MCS", "TIMET", "ASTROPY"]
def systems : List String := ["UTC", "TAI"]

/-- `__init__`, lines 78-152. -/
def init (format timesys : String) (v : Value) : Except Err Stored :=
  if format ∉ formats then .error .valueError
  else if timesys ∉ systems then .error .valueError
  else
    match format, timesys with
    | "PY_DATE", "UTC" => setDate v
    | "STR", "UTC" => setStr v
    | "JD", "UTC" => setNumber (fun x => .utc (ofJd x)) v
    | "JD", _ => setNumber (fun x => .tai (ofJd x)) v
    | "MJD", "UTC" => setNumber .utc v
    | "MJD", _ => setNumber .tai v
    | "DP", "UTC" => setDp v
    | "MCS", "UTC" => setMcs v
    | "TIMET", "UTC" => setNumber (fun x => .utc (ofUnix x)) v
    | "TIMET", _ => setNumber (fun x => .tai (ofUnix x)) v
    | "ASTROPY", _ => setAstropy v
    | _, _ => .error .valueError

/-- Getters. -/
def utcJd (t : Stored) : Rat := t.toUtc c + 4800001 / 2
def utcMjd (t : Stored) : Rat := t.toUtc c
def taiJd (t : Stored) : Rat := t.toTai c + 4800001 / 2
def taiMjd (t : Stored) : Rat := t.toTai c
def utcTimet (t : Stored) : Rat := (t.toUtc c - 40587) * 86400
def taiTimet (t : Stored) : Rat := (t.toTai c - 40587) * 86400

/-- Getter of `utc_dp`, lines 224-226, with exact numbers, and with the numbers of the machine. -/
def utcDp (t : Stored) : Int := pyInt (utcTimet c t * 196000000)
def utcDpFloat (t : Stored) : Int := pyInt (fl64 (fl64 (utcTimet c t) * 196000000))

/-- Getter of `utc_mcs`, lines 235-239. -/
def utcMcs (t : Stored) : Int × Int :=
  let mjd := pyInt (utcMjd c t)
  (mjd, roundHalfEven ((utcMjd c t - mjd) * 86400 * 1000))

/-- `__cmp__`, lines 154-164; times of astropy compare as moments. -/
def cmp (a b : Stored) : Int := if a.toTai c < b.toTai c then -1 else if b.toTai c < a.toTai c then 1 else 0
def eq (a b : Stored) : Bool := cmp c a b == 0
def lt (a b : Stored) : Bool := decide (cmp c a b < 0)

end Verif.TimeObj
