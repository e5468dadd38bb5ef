import Mathlib.Analysis.SpecialFunctions.Pow.Complex
import Mathlib.Analysis.SpecialFunctions.Pow.Real
/-!
# Sources and beams of simulated visibilities: /repo/lsl/sim/vis.py

The flux densities of satellites, the conversion of frequencies and beam widths of `build_sim_array`, the filters of
`set_asp_filter`, and the loop of `__build_sim_data` over the polarizations.  Floats are idealised to real and complex numbers;
a division by zero, which in numpy gives `nan` or `inf`, is `none`.  The visibilities themselves are the subject of
`Verif.Model.SimFast`.  AIPY is not part of the repository: the response of an antenna and its passband are given, and the
passband of a baseline is the product of that of one antenna and the conjugate of that of the other.
-/
namespace Verif.SimSky

/-! ## Satellites -/

/-- `RadioEarthSatellite`: the power in W, the bandwidth in Hz, the frequencies in GHz (lines 127-156), and what PyEphem says
of the distance in m and the velocity away in m/s. -/
structure Satellite where
  power : ℝ
  bandwidth : ℝ
  freqs : List ℝ
  range : ℝ
  velocity : ℝ

/-- Lines 207-208. -/
noncomputable def Satellite.density (s : Satellite) : ℝ :=
  s.power / (4 * Real.pi * s.range ^ 2) / s.bandwidth / (10 : ℝ) ^ (-26 : ℤ)

/-- Line 216. -/
noncomputable def Satellite.shifted (s : Satellite) (c f : ℝ) : ℝ := f / (1 + s.velocity / c)

/-- Lines 210-213: the spacing of the channels; with one channel both indices raise. -/
def spacing : List ℝ → Option ℝ
  | a :: b :: _ => some (b - a)
  | _ => none

open Classical in
/-- Lines 220-221: is the channel within half a bandwidth of the signal? -/
noncomputable def Satellite.near (s : Satellite) (c a f : ℝ) : Bool :=
  decide (|s.shifted c f - a| * 1000000000 ≤ s.bandwidth / 2)

/-- Line 222: what is set. -/
noncomputable def Satellite.level (s : Satellite) (d : ℝ) : ℝ := s.density * min 1 (d * 1000000000 / s.bandwidth)

/-- The loop of lines 214-222 for all channels. -/
noncomputable def Satellite.loop (s : Satellite) (c d : ℝ) (afreqs : List ℝ) (jys : List ℝ) : List ℝ :=
  s.freqs.foldl (fun jys f => List.zipWith (fun a old => if s.near c a f then s.level d else old) afreqs jys) jys

/-- `update_jys`, lines 196-222. -/
noncomputable def Satellite.jys (s : Satellite) (c : ℝ) (afreqs : List ℝ) : Option (List ℝ) :=
  (spacing afreqs).map fun d => s.loop c d afreqs (afreqs.map fun _ => 0)

/-! ## Building an array -/

/-- An array of frequencies: `ints` if its type is integer. -/
structure Freqs where
  ints : Bool
  values : List ℝ

open Classical in
/-- Lines 851-859; the minimum of an empty array raises, and so does the division in place of integers. -/
noncomputable def gigahertz (f : Freqs) : Option (List ℝ) :=
  if f.values = [] then none
  else if ∀ x ∈ f.values, 1000000 < x then
    if f.ints then none else some (f.values.map (· / 1000000000))
  else some f.values

/-- Lines 872-877. -/
noncomputable def sigma (fwhm : ℝ) : ℝ := fwhm / (2 * Real.sqrt (2 * Real.log 2)) * (Real.pi / 180)

/-- The response of AIPY's `Beam2DGaussian` along one axis at the distance `x` from the axis. -/
noncomputable def gaussian (s x : ℝ) : ℝ := Real.exp (-(1 / 2) * (x / s) ^ 2)

/-! ## Filters -/

/-- The greatest of a list. -/
noncomputable def greatest : List ℝ → ℝ
  | [] => 0
  | x :: l => l.foldl max x

/-- `r /= r.max()`, lines 658 and 666. -/
noncomputable def scaled (r : List ℝ) : List ℝ := r.map (· / greatest r)

/-- Lines 662-666: the responses of all antennas, added and normalised. -/
noncomputable def meanArx : List (List ℝ) → Option (List ℝ)
  | [] => none
  | r :: l => some (scaled (l.foldl (List.zipWith (· + ·)) r))

/-- Lines 669-672 at one frequency: the product of the two power responses is the amplitude of every antenna. -/
def amplitude (imm arx : ℝ) : ℝ := 1 * imm * arx

/-- AIPY: the passband of a baseline. -/
noncomputable def passband (gi gj : ℂ) : ℂ := gj * (starRingEnd ℂ) gi

/-! ## The loop over the polarizations -/

/-- numpy's square root. -/
noncomputable def csqrt (z : ℂ) : ℂ := z ^ (1 / 2 : ℂ)

/-- What the antennas of an array do to one source in one channel: the response of antenna `i` in the polarization `p` and
its passband. -/
structure Antennas where
  beam : Nat → Char → ℂ
  gain : Nat → ℂ

/-- `Bij_sf`, lines 980-984. -/
noncomputable def Antennas.response (a : Antennas) (pol : Char × Char) : ℂ :=
  csqrt (a.beam 0 pol.1 * (starRingEnd ℂ) (a.beam 1 pol.2))

/-- `Gij_sf`, lines 979 and 985-987. -/
noncomputable def Antennas.bandpass (a : Antennas) (flat : Bool) : ℂ := if flat then 1 else passband (a.gain 0) (a.gain 1)

open Classical in
/-- `a /= b`. -/
noncomputable def divided (a : Option ℂ) (b : ℂ) : Option ℂ := if b = 0 then none else a.map (· / b)

/-- `a *= b`. -/
noncomputable def times (a : Option ℂ) (b : ℂ) : Option ℂ := a.map (· * b)

/-- Lines 1094-1103: the flux in the cache for every polarization; `last` is the polarization before. -/
noncomputable def Antennas.loop (a : Antennas) : Option (Char × Char) → Option ℂ → List (Char × Char) → List (Option ℂ)
  | _, _, [] => []
  | last, flux, p :: ps =>
    let new := match last with
      | none => times flux (a.response p)
      | some q => times (divided flux (a.response q)) (a.response p)
    new :: a.loop (some p) new ps

/-- The fluxes that the visibilities of the polarizations are computed of, lines 1027-1031 and 1094-1117; with a flat response
those of the first polarization are used for all. -/
noncomputable def Antennas.fluxes (a : Antennas) (flat : Bool) (pols : List (Char × Char)) (jy : ℂ) : List (Option ℂ) :=
  let f := some (a.bandpass flat * jy)
  if flat then pols.map (fun _ => f) else a.loop none f pols

/-- The flux left in the cache, lines 1119-1123; without polarizations `pols[-1]` raises. -/
noncomputable def Antennas.left (a : Antennas) (pols : List (Char × Char)) (jy : ℂ) : Option ℂ :=
  match (a.fluxes false pols jy).getLast?, pols.getLast? with
  | some f, some p => divided (divided f (a.response p)) (a.bandpass false)
  | _, _ => none

/-- A source is used if it is not below the horizon, lines 1003-1010; without any an exception, lines 1044-1045. -/
noncomputable def used (srcs : List (String × ℝ)) : Option (List String) :=
  let l := (srcs.filter fun s => !(haveI := Classical.propDecidable (s.2 < 0); decide (s.2 < 0))).map Prod.fst
  if l.isEmpty then none else some l

end Verif.SimSky
