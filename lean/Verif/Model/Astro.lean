import Verif.Model.Float64
/-!
# Angles and calendar: /repo/lsl/astro.py

Numbers are exact rationals.  Where the code works on floats and rounding decides the result, the rounding
of each operation is a parameter `fl` (`id` for exact arithmetic, `fl64` for binary64).
-/
namespace Verif.Astro

/-- `dms`, astro.py:56-95. -/
structure Dms where
  neg : Bool
  degrees : Int
  minutes : Int
  seconds : Rat
  deriving DecidableEq

/-- `hms`, astro.py:186-218. -/
structure Hms where
  hours : Int
  minutes : Int
  seconds : Rat
  deriving DecidableEq

/-- Python `x % m` on floats: `fmod` is exact, the shift of a negative remainder is a rounded addition
(CPython `float_rem`; `m > 0`). -/
def pyMod (fl : Rat → Rat) (x m : Rat) : Rat :=
  let r := x - pyInt (x / m) * m
  if r < 0 then fl (r + m) else r

/-- `_float_to_sexa`, astro.py:1765-1775: sign, degrees, minutes, seconds. -/
def floatToSexa (fl : Rat → Rat) (value : Rat) : Bool × Int × Int × Rat :=
  let v := if value < 0 then -value else value
  (decide (value < 0), pyInt v, pyInt (fl (v * 60)) % 60, pyMod fl (fl (v * 3600)) 60)

/-- `deg_to_dms`, astro.py:1778-1796; the fields are set without the checks of the constructor. -/
def degToDms (fl : Rat → Rat) (degrees : Rat) : Dms :=
  let r := floatToSexa fl degrees
  ⟨r.1, r.2.1, r.2.2.1, r.2.2.2⟩

/-- `dms_to_deg`, astro.py:1750-1762, exactly. -/
def dmsToDeg (d : Dms) : Rat :=
  let v := (d.degrees : Rat) + (d.minutes : Rat) / 60 + d.seconds / 3600
  if d.neg then -v else v

/-- The constructor of `hms` with its checks, astro.py:196-218; `none` is `ValueError`. -/
def mkHms (h m : Int) (s : Rat) : Option Hms :=
  if h < 0 ∨ 23 < h then none
  else if m < 0 ∨ 59 < m then none
  else if s < 0 ∨ 60 ≤ s then none
  else some ⟨h, m, s⟩

/-- The constructor of `dms` with its checks, astro.py:68-95. -/
def mkDms (neg : Bool) (d m : Int) (s : Rat) : Option Dms :=
  if d < 0 ∨ 359 < d then none
  else if m < 0 ∨ 59 < m then none
  else if s < 0 ∨ 60 ≤ s then none
  else some ⟨neg, d, m, s⟩

/-- `deg_to_hms`, astro.py:1839-1849. -/
def degToHms (fl : Rat → Rat) (degrees : Rat) : Option Hms :=
  let r := floatToSexa fl (fl (degrees / 15))
  mkHms r.2.1 r.2.2.1 r.2.2.2

/-- `hms_to_deg`, astro.py:1812-1823, exactly. -/
def hmsToDeg (h : Hms) : Rat := ((h.hours : Rat) + (h.minutes : Rat) / 60 + h.seconds / 3600) * 15

/-- `hms_to_sec`, astro.py:3146-3155. -/
def hmsToSec (h : Hms) : Rat := (h.hours : Rat) * 3600 + (h.minutes : Rat) * 60 + h.seconds

/-- `deg_to_sec`, astro.py:3158-3168. -/
def degToSec (d : Rat) : Rat := d / 15 * 3600

/-- `add_secs_hms`, astro.py:1865-1877. -/
def addSecsHms (h : Hms) (s : Rat) : Option Hms := degToHms id (hmsToDeg h + s / 3600 * 15)

/-- `add_hms`, astro.py:1880-1899: the sum is computed, but `dest.degrees` is set instead of
`dest.hours`. -/
def addHms (source dest : Hms) : Option Hms :=
  match degToHms id (hmsToDeg source + hmsToDeg dest) with
  | none => none
  | some r => some { dest with minutes := r.minutes, seconds := r.seconds }

/-- `range_degrees`, astro.py:1922-1931. -/
def rangeDegrees (fl : Rat → Rat) (d : Rat) : Rat := pyMod fl d 360

/-- `range_hours`, astro.py:2895-2908. -/
def rangeHours (h : Rat) : Rat :=
  if 0 ≤ h ∧ h < 24 then h
  else
    let t := pyInt (h / 24)
    let t := if h < 0 then t - 1 else t
    h - ((t * 24 : Int) : Rat)

inductive Nswe
  | N | E | S | W
  deriving DecidableEq

/-- `hrz_to_nswe`, astro.py:1902-1919. -/
def hrzToNswe (az : Rat) : Nswe :=
  let az := pyMod id az 360
  if az < 45 ∨ 315 ≤ az then .N
  else if 45 ≤ az ∧ az < 135 then .E
  else if 135 ≤ az ∧ az < 225 then .S
  else .W

/-- `jd_to_mjd`, astro.py:2911-2923. -/
def jdToMjd (jd : Rat) : Option Rat := if jd < 4800001 / 2 then none else some (jd - 4800001 / 2)

/-- `mjd_to_jd`, astro.py:2926-2938. -/
def mjdToJd (mjd : Rat) : Option Rat := if mjd < 0 then none else some (mjd + 4800001 / 2)

/-- `get_day_of_week`, astro.py:1989-1999, from the Julian date of `date.to_jd()`. -/
def getDayOfWeek (jd : Rat) : Int := (roundHalfEven jd + 1) % 7

/-- A calendar time as whole seconds of Unix time and a fraction of a second. -/
structure Cal where
  whole : Int
  frac : Rat
  deriving DecidableEq

/-- The whole seconds of the printed time: seconds are printed with three decimals (`06.3f`), which
carries into the seconds (`60.000` is accepted by `%S`, and `timegm` is linear in the seconds). -/
def printedSecond (c : Cal) : Int := c.whole + roundHalfEven (c.frac * 1000) / 1000

/-- `date_to_zonedate`, astro.py:1662-1685: the printed time without its decimals, shifted, and the
fraction of the original seconds added again.  A zone date is the local calendar time here. -/
def dateToZone (c : Cal) (gmtoff : Int) : Cal := ⟨printedSecond c + gmtoff, c.frac⟩

/-- `zonedate_to_date`, astro.py:1688-1710. -/
def zoneToDate (c : Cal) (gmtoff : Int) : Cal := ⟨printedSecond c - gmtoff, c.frac⟩

end Verif.Astro
