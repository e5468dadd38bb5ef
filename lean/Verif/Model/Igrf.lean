import Verif.Model.McsTime
/-!
# The year and the coefficients of the magnetic field: /repo/lsl/misc/ionosphere/__init__.py:43-176, 230-249

Simplifications: exact numbers; the table is a list of rows (cosine or sine, degree, order, values); the calendar date of
`mjdmpm_to_datetime` is given with the day number.
-/
namespace Verif.Igrf
open Verif.McsTime

inductive Err
  | index | runtime
  deriving DecidableEq, Repr

/-! ## The table -/

structure Row where
  cosine : Bool
  n : Nat
  m : Nat
  c : List Rat
  deriving DecidableEq

/-- A dictionary of lists. -/
abbrev Dict := Nat → Option (List (List Rat))

/-- `d[n][m] = c`, with `n + 1` rows of zeros for a new degree, lines 84-95. -/
def put (years : Nat) (d : Dict) (n m : Nat) (c : List Rat) : Except Err Dict :=
  let l := (d n).getD (List.replicate (n + 1) (List.replicate (years + 1) 0))
  if m < l.length then .ok (fun k => if k = n then some (l.set m c) else d k) else .error .index

/-- `_load_igrf`, lines 61-95. -/
def load (years : Nat) : Dict × Dict → List Row → Except Err (Dict × Dict)
  | d, [] => .ok d
  | d, r :: rs =>
    if r.cosine then
      match put years d.1 r.n r.m r.c with
      | .error e => .error e
      | .ok g => load years (g, d.2) rs
    else
      match put years d.2 r.n r.m r.c with
      | .error e => .error e
      | .ok h => load years (d.1, h) rs

/-! ## The coefficients of a year -/

/-- `best`, line 121. -/
def best (years : List Rat) (year : Rat) : List Nat :=
  (List.range years.length).filter (fun i => decide ((year - years.getD i 0).abs < 5))

/-- The greatest and the least year. -/
def last (years : List Rat) : Rat := years.foldl max (years.headD 0)
def first (years : List Rat) : Rat := years.foldl min (years.headD 0)

/-- One coefficient, lines 136-149; `vals` has the value of each year and the change per year after the last one. -/
def coefficient (years vals : List Rat) (year : Rat) : Except Err Rat :=
  if year < first years then .error .runtime
  else
    match (best years year).head?, (best years year).getLast? with
    | some i, some j =>
      let slope :=
        if last years < year then vals.getLastD 0
        else if j = i then 0
        else (vals.getD j 0 - vals.getD i 0) / (years.getD j 0 - years.getD i 0)
      .ok (slope * (year - years.getD i 0) + vals.getD i 0)
    | _, _ => .error .index

/-! ## The decimal year -/

/-- `int((mjd - int(mjd))*24.0*3600.0*1000.0)`, line 237. -/
def mpmOf (mjd : Rat) : Int := ((mjd - mjd.floor) * 86400000).floor

/-- January 1st, line 240: the minute stays. -/
def newYear (dt : DateTime) : DateTime := { dt with month := 1, day := 1, hour := 0, second := 0, microsecond := 0 }

/-- One year later, line 242. -/
def nextYear (dt : DateTime) : DateTime := { newYear dt with year := dt.year + 1 }

/-- Days between two moments, lines 244-245. -/
def between (a b : DateTime) : Rat :=
  ((toMjd b - toMjd a : Int) : Rat) +
    (((b.hour * 3600 + b.minute * 60 + b.second : Nat) : Rat) - ((a.hour * 3600 + a.minute * 60 + a.second : Nat) : Rat)) / 86400

/-- Lines 237-249, `dt` being the date of `mjd`. -/
def decimalYear (dt : DateTime) (mjd : Rat) : Rat :=
  let mjd0 : Rat := (toMjd (newYear dt) : Rat) + (mpmOf mjd : Rat) / 86400000
  ((nextYear dt).year : Rat) - 1 + (mjd - mjd0) / between (newYear dt) (nextYear dt)

end Verif.Igrf
