import Mathlib.Analysis.SpecialFunctions.Pow.Real
/-!
# What a transmitter gives a channel, and a beam a source
-/
namespace Verif.SimSky.Spec

/-- The length of what two intervals, given by middle and width, have in common. -/
noncomputable def overlap (m w m' w' : ℝ) : ℝ :=
  max 0 (min (m + w / 2) (m' + w' / 2) - max (m - w / 2) (m' - w' / 2))

/-- The mean flux density in a channel with middle `a` and width `d` of transmitters with flux density `s` over the bandwidth
`b` around each of the frequencies. -/
noncomputable def density (s b : ℝ) (freqs : List ℝ) (a d : ℝ) : ℝ :=
  (freqs.map fun f => s * overlap a d f b / d).sum

/-- The flux of a source in the visibility of a baseline: the gains and responses of its own antennas; the squares of the
responses, as there is a root in the response of a baseline, are the beams. -/
noncomputable def flux (gi gj bij jy : ℂ) : ℂ := gj * (starRingEnd ℂ) gi * bij * jy

end Verif.SimSky.Spec
