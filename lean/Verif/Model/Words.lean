import Verif.Model.PyNum
/-!
# Beamformer delay / gain words and tuning words

/repo/lsl/common/ndp.py:66-147 and /repo/lsl/common/mcs.py:526-573.  Floats are exact rationals.
Python integers are `Int`: on a negative integer `& 0xFF` is the value modulo 256 and `>> 8` the
floor division by 256, which is what `%` and `/` by a positive literal are here.
-/
namespace Verif.Words

/-- `fS / 1e9` samples per nanosecond = 0.196. -/
def samplesPerNs : Rat := 196 / 1000

/-- `((x & 0xFF) << 8) | ((x >> 8) & 0xFF)`: ndp.py:97, 109, 131, 143 and `_two_byte_swap`,
mcs.py:526-527.  The two parts occupy different bits, so `|` is `+`. -/
def swap (x : Int) : Int := (x % 256) * 256 + (x / 256) % 256

/-- `delay_to_ndpd`, ndp.py:82-99, for `delay ≥ 0` (`course` and `fine` are then non-negative and
`fine < 16`, so `(course << 4) | fine` is `16*course + fine`). -/
def delayToNdpd (delay : Rat) : Int :=
  let sample := delay * samplesPerNs
  let course := pyInt sample
  let fine := pyInt (16 * (sample - course))
  swap (course * 16 + fine)

/-- `ndpd_to_delay`, ndp.py:102-118. -/
def ndpdToDelay (w : Int) : Rat :=
  let combined := swap w
  let fine := combined % 16
  let course := (combined / 16) % 4096
  ((course : Rat) + (fine : Rat) / 16) * (1 / samplesPerNs)

/-- `delay_to_mcsd`, mcs.py:530-539. -/
def delayToMcsd (delay : Rat) : Int := swap (delayToNdpd delay)

/-- `mcsd_to_delay`, mcs.py:542-550. -/
def mcsdToDelay (w : Int) : Rat := ndpdToDelay (swap w)

/-- `gain_to_ndpg`, ndp.py:121-133. -/
def gainToNdpg (gain : Rat) : Int := swap (pyInt (32767 * gain))

/-- `ndpg_to_gain`, ndp.py:136-147. -/
def ndpgToGain (w : Int) : Rat := (swap w : Rat) / 32767

/-- `gain_to_mcsg`, mcs.py:553-562. -/
def gainToMcsg (gain : Rat) : Int := swap (gainToNdpg gain)

/-- `mcsg_to_gain`, mcs.py:565-573. -/
def mcsgToGain (w : Int) : Rat := ndpgToGain (swap w)

/-- `freq_to_word`, ndp.py:66-71 (`2**32` = 4294967296). -/
def freqToWord (freq : Rat) : Int := roundHalfEven (freq * 4294967296 / 196000000)

/-- `word_to_freq`, ndp.py:74-79. -/
def wordToFreq (w : Int) : Rat := (w : Rat) * 196000000 / 4294967296

end Verif.Words
