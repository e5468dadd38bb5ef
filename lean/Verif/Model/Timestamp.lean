import Verif.Model.PyNum
/-!
# FrameTimestamp: /repo/lsl/reader/base.py:329-640

The `astropy.time.Time` inside a `FrameTimestamp` is idealised to an exact rational number of UNIX
seconds, every UTC day having 86400 s (leap seconds and float rounding are not modelled; theorem
`C12_tolerant` states how much rounding error the conversion tolerates).
-/
namespace Verif.Timestamp

/-- `ndp_common.fS`, /repo/lsl/common/ndp.py: 196 MHz. -/
def fS : Int := 196000000

/-- Normalisation in `FrameTimestamp.__init__` for an integer `si` (base.py:345-358): the pair given
to `AstroTime`. -/
def initInt (si : Int) (sf : Rat) : Int × Rat :=
  if 1 ≤ sf then
    let sfi := pyInt sf
    (si + sfi, sf - sfi)
  else if sf < 0 then
    let sfi := pyInt sf - 1
    (si + sfi, sf - sfi)
  else (si, sf)

/-- The same for a float `si` (base.py:342-344). -/
def initFloat (si sf : Rat) : Int × Rat :=
  let sf' := sf + (si - pyInt si)
  initInt (pyInt si) sf'

/-- Instant represented by the pair. -/
def instant (p : Int × Rat) : Rat := p.1 + p.2

/-- `from_dp_timetag`, base.py:369-379 (`//` is floor division). -/
def fromDpTimetag (value offset : Int) : Int × Rat :=
  let tt := value - offset
  let s := tt / fS
  let f : Rat := ((tt - s * fS : Int) : Rat) / (fS : Rat)
  initInt s f

/-- python `round(x, 2)`. -/
def round2 (x : Rat) : Rat := (roundHalfEven (x * 100) : Rat) / 100

/-- `dp_timetag`, base.py:599-612, with `e` the total float error of the product
`sec_frac.sec*fS`. -/
def dpTimetag (t : Rat) (e : Rat) : Int :=
  let sec := pyInt t
  let secFrac := t - sec
  sec * fS + pyInt (round2 (secFrac * fS + e))

/-- `__getitem__` for 0 and 1, base.py:430-437. -/
def getItem (t : Rat) : Int × Rat := (pyInt t, t - pyInt t)

/-- `from_mjd_mpm`, base.py:381-389; result in seconds since MJD 0. -/
def fromMjdMpm (mjd mpm : Int) : Rat :=
  ((mjd : Rat) + ((mpm / 1000 : Int) : Rat) / 86400) * 86400 + ((mpm % 1000 : Int) : Rat) / 1000

/-- `from_pulsar_mjd`, base.py:391-399; result in seconds since MJD 0. -/
def fromPulsarMjd (mjd daySec : Int) (secFrac : Rat) : Rat :=
  ((mjd : Rat) + (daySec : Rat) / 86400) * 86400 + secFrac

/-- `pulsar_mjd`, base.py:554-589, from the two parts of the Julian date.  The four `while` loops
move whole days between the fraction and the day count, i.e. they take the floor. -/
def pulsarMjd (jd1 jd2 : Rat) : Int × Int × Rat :=
  let j1i := pyInt jd1
  let j1f := jd1 - j1i
  let j2i := pyInt jd2
  let j2f := jd2 - j2i
  let mjdR : Rat := j1i + j2i - 4800001 / 2
  let f1 := j1f + (mjdR - pyInt mjdR)
  let mjd := pyInt mjdR + f1.floor + j2f.floor
  let g1 := f1 - f1.floor
  let g2 := j2f - j2f.floor
  let d1 := g1 * 86400
  let d2 := g2 * 86400
  let daySec := pyInt d1 + pyInt d2
  let secFrac := (d1 - pyInt d1) + (d2 - pyInt d2)
  if daySec > 86400 then (mjd + 1, daySec - 86400, secFrac) else (mjd, daySec, secFrac)

end Verif.Timestamp
