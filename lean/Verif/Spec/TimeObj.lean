/-!
# Moments

A moment is its modified Julian day of UTC, a fraction.  Clocks of UTC and TAI go together.
-/
namespace Verif.TimeObj

/-- UTC to TAI and back, in days; both go on. -/
structure Clock where
  tai : Rat → Rat
  utc : Rat → Rat
  tai_utc : ∀ x, tai (utc x) = x
  utc_tai : ∀ x, utc (tai x) = x
  mono : ∀ x y, x < y → tai x < tai y

/-- Seconds since 1970 of a modified Julian day. -/
def unixOf (mjd : Rat) : Rat := (mjd - 40587) * 86400

/-- The moment `n` ticks of 196 MHz after 1970. -/
def tickMjd (n : Int) : Rat := 40587 + n / 196000000 / 86400

/-- The moment of a day and milliseconds past midnight. -/
def mcsMjd (mjd mpm : Int) : Rat := mjd + mpm / 86400000

end Verif.TimeObj
