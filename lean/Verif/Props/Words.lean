import Verif.Model.Words
import Verif.Lemmas.PyNum
/-!
# C24, C25, C26: delay, gain and tuning words
-/
namespace Verif.Words

theorem swap_range (x : Int) : 0 ≤ swap x ∧ swap x < 65536 := by unfold swap; omega

/-- Swapping twice keeps the low 16 bits. -/
theorem swap_swap (x : Int) : swap (swap x) = x % 65536 := by
  unfold swap
  have h1 : (x % 256 * 256 + x / 256 % 256) % 256 = x / 256 % 256 := by omega
  have h2 : (x % 256 * 256 + x / 256 % 256) / 256 = x % 256 := by omega
  have h3 : x / 65536 = x / 256 / 256 := by omega
  rw [h1, h2]
  omega

theorem swap_mod (x : Int) : swap (x % 65536) = swap x := by
  unfold swap
  have h1 : x % 65536 % 256 = x % 256 := by omega
  have h2 : x % 65536 / 256 % 256 = x / 256 % 256 := by omega
  rw [h1, h2]

/-! ## C24 -/

/-- Delay in units of 1/16 sample, rounded down: the resolution of the hardware. -/
def quantDelay (delay : Rat) : Int := (16 * (delay * (196 / 1000))).floor

theorem combined_eq (delay : Rat) (h : 0 ≤ delay) :
    pyInt (delay * samplesPerNs) * 16 +
      pyInt (16 * (delay * samplesPerNs - pyInt (delay * samplesPerNs))) = quantDelay delay := by
  unfold quantDelay
  rw [show (196 / 1000 : Rat) = samplesPerNs from rfl]
  have hs : 0 ≤ delay * samplesPerNs := by unfold samplesPerNs; grind
  generalize delay * samplesPerNs = s at *
  have hb := (pyInt_bounds s).1 hs
  generalize pyInt s = c at *
  have hf := (pyInt_bounds (16 * (s - c))).1 (by grind)
  generalize pyInt (16 * (s - c)) = f at *
  symm
  apply floor_unique
  · rw [Rat.intCast_add, Rat.intCast_mul]; simp; grind
  · rw [Rat.intCast_add, Rat.intCast_mul]; simp; grind

theorem ndpdToDelay_swap (n : Int) :
    ndpdToDelay (swap n) = ((n % 65536 : Int) : Rat) / 16 * (1000 / 196) := by
  unfold ndpdToDelay
  simp only [swap_swap]
  have h1 : n % 65536 = (n % 65536 / 16) % 4096 * 16 + n % 65536 % 16 := by omega
  generalize (n % 65536 / 16) % 4096 = c at *
  generalize n % 65536 % 16 = f at *
  rw [h1, Rat.intCast_add, Rat.intCast_mul]
  unfold samplesPerNs
  simp
  grind

theorem swap_delayToMcsd (delay : Rat) : swap (delayToMcsd delay) = delayToNdpd delay := by
  unfold delayToMcsd
  rw [swap_swap]
  unfold delayToNdpd
  have := swap_range (pyInt (delay * samplesPerNs) * 16 +
      pyInt (16 * (delay * samplesPerNs - pyInt (delay * samplesPerNs))))
  simp only
  omega

/-- Every delay below 4096 samples (20.9 µs): the word fits 16 bits and converts back to the delay
rounded down to 1/16 sample, so the error is in `[0, 1/16 sample)`. -/
theorem C24_delay_roundtrip_partial (delay : Rat) (h0 : 0 ≤ delay) (h1 : delay * (196 / 1000) < 4096) :
    (0 ≤ delayToNdpd delay ∧ delayToNdpd delay < 65536) ∧
    ndpdToDelay (delayToNdpd delay) * (196 / 1000) = (quantDelay delay : Rat) / 16 ∧
    ndpdToDelay (delayToNdpd delay) ≤ delay ∧
    (delay - ndpdToDelay (delayToNdpd delay)) * (196 / 1000) < 1 / 16 ∧
    mcsdToDelay (delayToMcsd delay) = ndpdToDelay (delayToNdpd delay) := by
  have hq := floor_bounds (16 * (delay * (196 / 1000)))
  have hq0 : 0 ≤ quantDelay delay := by
    apply intCast_le_of; unfold quantDelay; simp; grind
  have hq1 : quantDelay delay ≤ 65535 := by
    apply intCast_le_of; unfold quantDelay; simp; grind
  have hm : quantDelay delay % 65536 = quantDelay delay := by omega
  have hd : ndpdToDelay (delayToNdpd delay) = (quantDelay delay : Rat) / 16 * (1000 / 196) := by
    unfold delayToNdpd
    simp only
    rw [combined_eq delay h0, ndpdToDelay_swap, hm]
  refine ⟨?_, ?_, ?_, ?_, ?_⟩
  · unfold delayToNdpd; exact swap_range _
  · rw [hd]; grind
  · rw [hd]; unfold quantDelay; grind
  · rw [hd]; unfold quantDelay; grind
  · unfold mcsdToDelay; rw [swap_delayToMcsd]

/-- The full statement is false: longer delays wrap silently; every delay has the word of the delay
4096 samples later. -/
theorem C24_delay_wraps (delay : Rat) (h0 : 0 ≤ delay) :
    delayToNdpd (delay + 4096 * (1000 / 196)) = delayToNdpd delay := by
  unfold delayToNdpd
  simp only
  rw [combined_eq delay h0, combined_eq _ (by grind)]
  have : quantDelay (delay + 4096 * (1000 / 196)) = quantDelay delay + 65536 := by
    have hq := floor_bounds (16 * (delay * (196 / 1000)))
    unfold quantDelay
    apply floor_unique
    · rw [Rat.intCast_add]; simp; grind
    · rw [Rat.intCast_add]; simp; grind
  rw [this]
  unfold swap
  omega

/-- Word → delay → word is the identity on all 16-bit words. -/
theorem C24_word_roundtrip (w : Int) (h0 : 0 ≤ w) (h1 : w < 65536) :
    delayToNdpd (ndpdToDelay w) = w := by
  have hw : w = swap (swap w) := by rw [swap_swap]; omega
  have hs := swap_range w
  generalize hn : swap w = n at *
  rw [hw, ndpdToDelay_swap]
  have hm : n % 65536 = n := by omega
  rw [hm]
  have hn0 : (0 : Rat) ≤ (n : Rat) := by exact_mod_cast hs.1
  unfold delayToNdpd
  simp only
  rw [combined_eq _ (by grind)]
  congr 1
  unfold quantDelay
  rw [show 16 * ((n : Rat) / 16 * (1000 / 196) * (196 / 1000)) = (n : Rat) by grind, floor_int]

example : delayToNdpd 100 = 0x3901 ∧ ndpdToDelay 0x3901 = 313 / 16 * (1000 / 196) ∧
    (0 : Rat) ≤ 100 ∧ (100 : Rat) * (196 / 1000) < 4096 := by decide +kernel

/-! ## C25 -/

/-- Gains in [0,1]: the word is a non-negative 16-bit signed value and converts back to the gain
rounded down to 1/32767. -/
theorem C25_gain_roundtrip_partial (g : Rat) (h0 : 0 ≤ g) (h1 : g ≤ 1) :
    ndpgToGain (gainToNdpg g) = ((32767 * g).floor : Rat) / 32767 ∧
    ndpgToGain (gainToNdpg g) ≤ g ∧ g - ndpgToGain (gainToNdpg g) < 1 / 32767 ∧
    mcsgToGain (gainToMcsg g) = ndpgToGain (gainToNdpg g) := by
  have hp : pyInt (32767 * g) = (32767 * g).floor := by unfold pyInt; rw [if_pos (by grind)]
  have hb := floor_bounds (32767 * g)
  have hf0 : 0 ≤ (32767 * g).floor := by apply intCast_le_of; simp; grind
  have hf1 : (32767 * g).floor ≤ 32767 := by apply intCast_le_of; simp; grind
  have hd : ndpgToGain (gainToNdpg g) = ((32767 * g).floor : Rat) / 32767 := by
    unfold ndpgToGain gainToNdpg
    rw [hp, swap_swap, show (32767 * g).floor % 65536 = (32767 * g).floor by omega]
  refine ⟨hd, by rw [hd]; grind, by rw [hd]; grind, ?_⟩
  unfold mcsgToGain gainToMcsg
  rw [swap_swap]
  congr 1
  unfold gainToNdpg
  have := swap_range (pyInt (32767 * g))
  omega

/-- The full statement is false for all negative gains (beyond one quantisation step): they come
back as the quantised gain plus 65536/32767, i.e. positive and larger than 1. -/
theorem C25_negative_gain (g : Rat) (h0 : -1 ≤ g) (h1 : g ≤ -1 / 32767) :
    ndpgToGain (gainToNdpg g) = ((pyInt (32767 * g) + 65536 : Int) : Rat) / 32767 ∧
    1 < ndpgToGain (gainToNdpg g) := by
  have hb := (pyInt_bounds (32767 * g)).2 (by grind)
  have hf0 : pyInt (32767 * g) ≤ -1 := by
    unfold pyInt
    rw [if_neg (by grind)]
    have := floor_bounds (-(32767 * g))
    have : (1 : Int) ≤ (-(32767 * g)).floor := by apply intCast_le_of; simp; grind
    omega
  have hf1 : -32767 ≤ pyInt (32767 * g) := by apply intCast_le_of; simp; grind
  have hd : ndpgToGain (gainToNdpg g) = ((pyInt (32767 * g) + 65536 : Int) : Rat) / 32767 := by
    unfold ndpgToGain gainToNdpg
    rw [swap_swap, show pyInt (32767 * g) % 65536 = pyInt (32767 * g) + 65536 by omega]
  refine ⟨hd, ?_⟩
  rw [hd, Rat.intCast_add]
  simp
  grind

/-- The word itself is the right 16-bit two's complement value for every gain in [-1, 1]. -/
theorem C25_word_twos_complement (g : Rat) (h0 : -1 ≤ g) (h1 : g ≤ 1) :
    (BitVec.ofInt 16 (gainToMcsg g)).toInt = pyInt (32767 * g) := by
  have hf : -32767 ≤ pyInt (32767 * g) ∧ pyInt (32767 * g) ≤ 32767 := by
    by_cases h : 0 ≤ g
    · have hb := (pyInt_bounds (32767 * g)).1 (by grind)
      exact ⟨by apply intCast_le_of; simp; grind, by apply intCast_le_of; simp; grind⟩
    · have hb := (pyInt_bounds (32767 * g)).2 (by grind)
      exact ⟨by apply intCast_le_of; simp; grind, by apply intCast_le_of; simp; grind⟩
  unfold gainToMcsg gainToNdpg
  rw [swap_swap, BitVec.toInt_ofInt]
  simp only [Int.bmod]
  generalize pyInt (32767 * g) = n at *
  omega

example : ndpgToGain (gainToNdpg (1/2)) = 16383 / 32767 ∧
    ndpgToGain (gainToNdpg (-1/2)) = 49153 / 32767 := by decide +kernel

/-! ## C26 -/

theorem C26_word_roundtrip (w : Int) : freqToWord (wordToFreq w) = w := by
  unfold freqToWord wordToFreq
  rw [show (w : Rat) * 196000000 / 4294967296 * 4294967296 / 196000000 = (w : Rat) by grind, round_int]

/-- Half a tuning step is 196e6/2^33 Hz (about 0.023 Hz). -/
theorem C26_freq_nearest (f : Rat) :
    wordToFreq (freqToWord f) - f ≤ 196000000 / 2 ^ 33 ∧
    f - wordToFreq (freqToWord f) ≤ 196000000 / 2 ^ 33 := by
  have h := round_half (f * 4294967296 / 196000000)
  unfold freqToWord wordToFreq
  generalize roundHalfEven (f * 4294967296 / 196000000) = r at *
  exact ⟨by grind, by grind⟩

theorem round_mono {x y : Rat} (h : x ≤ y) : roundHalfEven x ≤ roundHalfEven y := by
  have hx := round_half x
  have hy := round_half y
  apply Classical.byContradiction
  intro hn
  have hlt : roundHalfEven y + 1 ≤ roundHalfEven x := by omega
  have hlt' : ((roundHalfEven y : Int) : Rat) + 1 ≤ (roundHalfEven x : Rat) := by
    have := Rat.intCast_le_intCast.mpr hlt
    rwa [Rat.intCast_add] at this
  have : x = y := by grind
  subst this
  omega

theorem C26_monotone (f g : Rat) (h : f ≤ g) : freqToWord f ≤ freqToWord g := by
  unfold freqToWord
  exact round_mono (by grind)

/-- Words of frequencies up to the sampling rate fit in 32 bits, except that the very top (within
half a step of 196 MHz) gives 2^32. -/
theorem C26_range (f : Rat) (h0 : 0 ≤ f) (h1 : f < 196000000 - 196000000 / 2 ^ 33) :
    0 ≤ freqToWord f ∧ freqToWord f < 2 ^ 32 := by
  have h := round_half (f * 4294967296 / 196000000)
  unfold freqToWord
  refine ⟨?_, ?_⟩
  · apply intCast_le_of; simp; grind
  · have : roundHalfEven (f * 4294967296 / 196000000) ≤ 2 ^ 32 - 1 := by
      apply intCast_le_of
      have e : ((2 ^ 32 - 1 : Int) : Rat) = 4294967295 := by rfl
      rw [e]
      grind
    omega

/-- The upper DRX tuning limit of the package (`DRX_TUNING_WORD_MAX`) is one below the word of 88 MHz. -/
example : freqToWord 88000000 = 1928352664 ∧ (88000000 : Rat) < 196000000 - 196000000 / 2 ^ 33 := by
  refine ⟨?_, by grind⟩
  unfold freqToWord
  exact round_near (by simp; grind) (by simp; grind)

end Verif.Words
