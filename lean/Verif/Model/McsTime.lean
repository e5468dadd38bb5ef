/-!
# MJD/MPM conversions: /repo/lsl/common/mcs.py:576-633
-/
namespace Verif.McsTime

/-- A naive UTC `datetime`. -/
structure DateTime where
  year : Nat
  month : Nat
  day : Nat
  hour : Nat
  minute : Nat
  second : Nat
  microsecond : Nat
  deriving DecidableEq, Repr

/-- Day part of `datetime_to_mjdmpm`, mcs.py:618-627.  `math.floor((p+q) - 2400000.5)` is written
as the floor division of `2*(p+q) - 4800001` by 2. -/
def toMjd (dt : DateTime) : Int :=
  let a : Int := (14 - dt.month) / 12
  let y : Int := dt.year + 4800 - a
  let m : Int := dt.month + 12 * a - 3
  let p : Int := dt.day + (153 * m + 2) / 5 + 365 * y
  let q : Int := y / 4 - y / 100 + y / 400 - 32045
  (2 * (p + q) - 4800001) / 2

/-- Time part, mcs.py:629-631: the floor of a whole number of milliseconds plus
`microsecond / 1000`. -/
def toMpm (dt : DateTime) : Int :=
  ((dt.hour : Int) * 3600 + dt.minute * 60 + dt.second) * 1000 + (dt.microsecond : Int) / 1000

/-- `mjdmpm_to_datetime`, mcs.py:576-591: the UNIX time in milliseconds handed to
`datetime.fromtimestamp` (the code has seconds in a float; exact here). -/
def toUnixMs (mjd mpm : Int) : Int := mjd * 86400000 + mpm - 3506716800000

end Verif.McsTime
