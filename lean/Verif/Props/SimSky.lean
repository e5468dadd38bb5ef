import Verif.Model.SimSky
import Verif.Spec.SimSky
import Mathlib.Tactic.Ring
import Mathlib.Tactic.Linarith
import Mathlib.Tactic.FieldSimp
import Mathlib.Tactic.Positivity
import Mathlib.Tactic.NormNum
/-!
# C105: sources and beams of simulated visibilities
-/
namespace Verif.SimSky

/-! ## Satellites -/

theorem loop_spec (fs : List ℝ) (s : Satellite) (c d : ℝ) (afreqs : List ℝ) (g : ℝ → ℝ) :
    fs.foldl (fun jys f => List.zipWith (fun a old => if s.near c a f then s.level d else old) afreqs jys) (afreqs.map g)
      = afreqs.map fun a => if fs.any (s.near c a) then s.level d else g a := by
  induction fs generalizing g with
  | nil => simp
  | cons f fs ih =>
    rw [List.foldl_cons]
    have : List.zipWith (fun a old => if s.near c a f then s.level d else old) afreqs (afreqs.map g)
        = afreqs.map fun a => if s.near c a f then s.level d else g a := by
      rw [List.zipWith_map_right, List.zipWith_self]
    rw [this, ih]
    apply List.map_congr_left
    intro a _
    by_cases h1 : s.near c a f = true <;> by_cases h2 : fs.any (s.near c a) = true <;> simp [h1, h2]

/-- A channel has the flux density of the transmitter, up to a factor, if it is within half the bandwidth of one of the shifted
frequencies, and none otherwise; the order of the frequencies and repetitions do not matter. -/
theorem C105_channels (s : Satellite) (c a b : ℝ) (l : List ℝ) :
    s.jys c (a :: b :: l) = some ((a :: b :: l).map fun x => if s.freqs.any (s.near c x) then s.level (b - a) else 0) := by
  simp only [Satellite.jys, spacing, Option.map_some, Satellite.loop]
  rw [loop_spec]

/-- With one channel there is no spacing: an exception. -/
theorem C105_single (s : Satellite) (c a : ℝ) : s.jys c [a] = none := rfl

/-- What goes away is shifted to lower frequencies, what comes to higher ones, and each by the ratio of the velocities. -/
theorem C105_doppler (s : Satellite) (c f : ℝ) (hc : 0 < c) (hv : -c < s.velocity) (hf : 0 < f) :
    s.shifted c f * (1 + s.velocity / c) = f ∧ (0 < s.velocity ↔ s.shifted c f < f) ∧ (s.velocity = 0 ↔ s.shifted c f = f) := by
  have hp : 0 < 1 + s.velocity / c := by
    have : -1 < s.velocity / c := by rw [lt_div_iff₀ hc]; linarith
    linarith
  have h0 : s.shifted c f * (1 + s.velocity / c) = f := by unfold Satellite.shifted; exact div_mul_cancel₀ f hp.ne'
  have hs : 0 < s.shifted c f := by unfold Satellite.shifted; positivity
  refine ⟨h0, ⟨fun h => ?_, fun h => ?_⟩, ⟨fun h => ?_, fun h => ?_⟩⟩
  · have : 0 < s.velocity / c := by positivity
    nlinarith
  · by_contra hn
    have : s.velocity / c ≤ 0 := div_nonpos_of_nonpos_of_nonneg (by linarith) hc.le
    nlinarith
  · unfold Satellite.shifted; rw [h]; simp
  · rw [h] at h0
    have : s.velocity / c = 0 := by
      have : f * (s.velocity / c) = 0 := by linarith
      rcases mul_eq_zero.mp this with h | h
      · linarith
      · exact h
    rcases div_eq_zero_iff.mp this with h | h
    · exact h
    · linarith

/-- The flux densities go as the power, and the inverse square of the distance. -/
theorem C105_density (s : Satellite) (k : ℝ) :
    ({ s with power := k * s.power } : Satellite).density = k * s.density
      ∧ ({ s with range := k * s.range } : Satellite).density = s.density / k ^ 2 := by
  constructor
  · simp only [Satellite.density]; ring
  · simp only [Satellite.density, mul_pow]
    rw [show 4 * Real.pi * (k ^ 2 * s.range ^ 2) = (4 * Real.pi * s.range ^ 2) * k ^ 2 by ring]
    simp only [div_eq_mul_inv, mul_inv]; ring

theorem near_iff (s : Satellite) (c a f : ℝ) : s.near c a f = true ↔ |s.shifted c f - a| * 1000000000 ≤ s.bandwidth / 2 := by
  unfold Satellite.near; simp

/-- A channel as wide as the bandwidth at the frequency of the signal has its flux density, and one that does not touch it none:
what is received is right if the bandwidth is the width of a channel and the signal is in the middle of one. -/
theorem C105_matched_partial (s : Satellite) (c f a d : ℝ) (hd : 0 < d) (hb : s.bandwidth = d * 1000000000) (h1 : s.freqs = [f])
    (hm : a = s.shifted c f ∨ d ≤ |s.shifted c f - a|) :
    (if s.freqs.any (s.near c a) then s.level d else 0) = Spec.density s.density d [s.shifted c f] a d := by
  have hl : s.level d = s.density := by
    unfold Satellite.level
    rw [hb, div_self (by positivity), min_self, mul_one]
  rw [h1]
  simp only [List.any_cons, List.any_nil, Bool.or_false, Spec.density, List.map_cons, List.map_nil, List.sum_cons, List.sum_nil, add_zero]
  rcases hm with h | h
  · have hn : s.near c a f = true := by
      rw [near_iff, h, sub_self, abs_zero, hb]; linarith
    rw [if_pos hn, hl, h]
    unfold Spec.overlap
    rw [min_self, max_self, show s.shifted c f + d / 2 - (s.shifted c f - d / 2) = d by ring, max_eq_right hd.le]
    field_simp
  · have hn : ¬s.near c a f = true := by
      rw [near_iff, hb]
      intro hh
      nlinarith
    rw [if_neg hn]
    have : Spec.overlap a d (s.shifted c f) d = 0 := by
      unfold Spec.overlap
      apply max_eq_left
      rcases le_abs.mp h with h | h
      · have := min_le_left (a + d / 2) (s.shifted c f + d / 2)
        have := le_max_right (a - d / 2) (s.shifted c f - d / 2)
        linarith
      · have := min_le_right (a + d / 2) (s.shifted c f + d / 2)
        have := le_max_left (a - d / 2) (s.shifted c f - d / 2)
        linarith
    rw [this]; simp

/-- The factor is the wrong way round: a signal narrower than the channel is received with the flux density it has inside of its
own bandwidth, that is `d / bandwidth` times too strong; -/
theorem C105_not_narrow (s : Satellite) (c f d : ℝ) (h0 : 0 < s.bandwidth) (hb : s.bandwidth < d * 1000000000) (h1 : s.freqs = [f]) :
    (if s.freqs.any (s.near c (s.shifted c f)) then s.level d else 0)
      = (d * 1000000000 / s.bandwidth) * Spec.density s.density (s.bandwidth / 1000000000) [s.shifted c f] (s.shifted c f) d := by
  have hd : 0 < d := by linarith
  have hl : s.level d = s.density := by
    unfold Satellite.level
    rw [min_eq_left, mul_one]
    rw [le_div_iff₀ h0]; linarith
  have hn : s.near c (s.shifted c f) f = true := by rw [near_iff, sub_self, abs_zero]; linarith
  rw [h1]
  simp only [List.any_cons, List.any_nil, Bool.or_false, hn, if_true, hl, Spec.density, List.map_cons, List.map_nil, List.sum_cons, List.sum_nil, add_zero]
  unfold Spec.overlap
  rw [min_eq_right (by linarith), max_eq_right (a := s.shifted c f - d / 2) (by linarith),
    max_eq_right (by linarith)]
  field_simp
  ring

/-- and a channel inside a wider signal with less than the flux density by the same factor. -/
theorem C105_not_wide (s : Satellite) (c f a d : ℝ) (hd : 0 < d) (hb : d * 1000000000 < s.bandwidth) (h1 : s.freqs = [f])
    (ha : |s.shifted c f - a| ≤ (s.bandwidth / 1000000000 - d) / 2) :
    (if s.freqs.any (s.near c a) then s.level d else 0)
      = (d * 1000000000 / s.bandwidth) * Spec.density s.density (s.bandwidth / 1000000000) [s.shifted c f] a d := by
  have h0 : 0 < s.bandwidth := by linarith
  have hl : s.level d = s.density * (d * 1000000000 / s.bandwidth) := by
    unfold Satellite.level
    rw [min_eq_right]
    rw [div_le_iff₀ h0]; linarith
  have hn : s.near c a f = true := by rw [near_iff]; linarith
  rw [h1]
  simp only [List.any_cons, List.any_nil, Bool.or_false, hn, if_true, hl, Spec.density, List.map_cons, List.map_nil, List.sum_cons, List.sum_nil, add_zero]
  have := abs_le.mp ha
  unfold Spec.overlap
  rw [min_eq_left (by linarith), max_eq_left (a := a - d / 2) (by linarith), show a + d / 2 - (a - d / 2) = d by ring, max_eq_right hd.le]
  field_simp

/-- A narrow signal that is not close to the middle of a channel is not received at all. -/
theorem C105_not_between (s : Satellite) (c f a b : ℝ) (l : List ℝ) (h1 : s.freqs = [f])
    (h : ∀ x ∈ a :: b :: l, s.bandwidth / 2 < |s.shifted c f - x| * 1000000000) :
    s.jys c (a :: b :: l) = some ((a :: b :: l).map fun _ => 0) := by
  rw [C105_channels]
  congr 1
  apply List.map_congr_left
  intro x hx
  rw [if_neg]
  rw [h1]
  simp only [List.any_cons, List.any_nil, Bool.or_false, near_iff]
  exact not_le.mpr (h x hx)

/-- Channels of 100 kHz and a signal of 25 kHz at 137.05 MHz between two of them: nothing is received, though half of the
signal is in each. -/
example : (⟨1, 25000, [0.13705], 1, 0⟩ : Satellite).jys 1 [0.137, 0.1371] = some [0, 0] := by
  rw [C105_not_between _ _ 0.13705 _ _ _ rfl]
  · rfl
  · intro x hx
    simp only [List.mem_cons, List.not_mem_nil, or_false] at hx
    rcases hx with h | h <;> subst h <;> norm_num [Satellite.shifted, abs_of_neg, abs_of_pos]

/-- Two transmitters in one channel: the flux density of one. -/
theorem C105_not_added (s : Satellite) (c f a d : ℝ) (h : s.freqs = [f, f]) :
    (if s.freqs.any (s.near c a) then s.level d else 0)
      = (if ({ s with freqs := [f] } : Satellite).freqs.any (s.near c a) then s.level d else 0) := by
  rw [h]; simp

/-! ## Building an array -/

/-- Frequencies in Hz and in GHz give the same array. -/
theorem C105_units (l : List ℝ) (h : l ≠ []) (hl : ∀ x ∈ l, 0.001 < x ∧ x ≤ 1000000) :
    gigahertz ⟨false, l.map (· * 1000000000)⟩ = some l ∧ gigahertz ⟨false, l⟩ = some l := by
  unfold gigahertz
  constructor
  · rw [if_neg (by simpa using h), if_pos]
    · simp only [Bool.false_eq_true, if_false, List.map_map]
      congr 1
      conv => rhs; rw [← List.map_id l]
      apply List.map_congr_left
      intro x _
      simp
    · intro x hx
      obtain ⟨y, hy, rfl⟩ := List.mem_map.mp hx
      have := (hl y hy).1
      linarith
  · rw [if_neg h, if_neg]
    intro hh
    obtain ⟨x, hx⟩ := List.exists_mem_of_ne_nil l h
    have := (hl x hx).2
    have := hh x hx
    linarith

/-- Whole numbers of Hz raise. -/
theorem C105_not_ints (l : List ℝ) (hl : ∀ x ∈ l, 1000000 < x) : gigahertz ⟨true, l⟩ = none := by
  unfold gigahertz
  by_cases h : l = []
  · rw [if_pos h]
  · rw [if_neg h, if_pos hl]; simp

/-- One frequency that is not above 1 MHz: all are taken to be in GHz. -/
theorem C105_not_low (l : List ℝ) (x : ℝ) (b : Bool) (hx : x ∈ l) (h : x ≤ 1000000) : gigahertz ⟨b, l⟩ = some l := by
  unfold gigahertz
  rw [if_neg (List.ne_nil_of_mem hx), if_neg]
  intro hh
  exact absurd (hh x hx) (not_lt.mpr h)

/-- The Gaussian with the width has half of its peak at half of the width from the axis. -/
theorem C105_fwhm (w : ℝ) (hw : 0 < w) : gaussian (sigma w) (w / 2 * (Real.pi / 180)) = 1 / 2 ∧ gaussian (sigma w) 0 = 1 := by
  have hl : 0 < Real.log 2 := Real.log_pos (by norm_num)
  have hs : 0 < Real.sqrt (2 * Real.log 2) := Real.sqrt_pos.mpr (by positivity)
  constructor
  · unfold gaussian
    have : w / 2 * (Real.pi / 180) / sigma w = Real.sqrt (2 * Real.log 2) := by
      unfold sigma
      have := Real.pi_pos
      field_simp
    rw [this, Real.sq_sqrt (by positivity), show -(1 / 2) * (2 * Real.log 2) = -Real.log 2 by ring, Real.exp_neg, Real.exp_log (by norm_num)]
    norm_num
  · unfold gaussian; simp

/-! ## Filters -/

theorem foldl_max (l : List ℝ) (x : ℝ) : x ≤ l.foldl max x ∧ (∀ y ∈ l, y ≤ l.foldl max x) ∧ (l.foldl max x = x ∨ l.foldl max x ∈ l) := by
  induction l generalizing x with
  | nil => simp
  | cons a l ih =>
    rw [List.foldl_cons]
    obtain ⟨h1, h2, h3⟩ := ih (max x a)
    refine ⟨le_trans (le_max_left _ _) h1, ?_, ?_⟩
    · intro y hy
      rcases List.mem_cons.mp hy with rfl | hy
      · exact le_trans (le_max_right _ _) h1
      · exact h2 y hy
    · rcases h3 with h3 | h3
      · rcases max_choice x a with hm | hm
        · left; rw [h3, hm]
        · right; rw [h3, hm]; simp
      · right; exact List.mem_cons_of_mem _ h3

theorem greatest_spec (l : List ℝ) (h : l ≠ []) : greatest l ∈ l ∧ ∀ x ∈ l, x ≤ greatest l := by
  cases l with
  | nil => exact absurd rfl h
  | cons a l =>
    obtain ⟨h1, h2, h3⟩ := foldl_max l a
    show List.foldl max a l ∈ a :: l ∧ ∀ x ∈ a :: l, x ≤ List.foldl max a l
    constructor
    · rcases h3 with h3 | h3
      · rw [h3]; simp
      · exact List.mem_cons_of_mem _ h3
    · intro x hx
      rcases List.mem_cons.mp hx with rfl | hx
      · exact h1
      · exact h2 x hx

/-- A normalised response is at most 1, and 1 somewhere. -/
theorem C105_normalised (l : List ℝ) (x : ℝ) (hx : x ∈ l) (h : 0 < x) : (∀ y ∈ scaled l, y ≤ 1) ∧ 1 ∈ scaled l := by
  obtain ⟨h1, h2⟩ := greatest_spec l (List.ne_nil_of_mem hx)
  have hp : 0 < greatest l := lt_of_lt_of_le h (h2 x hx)
  constructor
  · intro y hy
    obtain ⟨z, hz, rfl⟩ := List.mem_map.mp hy
    rw [div_le_one hp]
    exact h2 z hz
  · exact List.mem_map.mpr ⟨_, h1, div_self hp.ne'⟩

/-- The sum of the responses may be used for the mean. -/
theorem C105_mean (l : List ℝ) (k : ℝ) (hk : 0 < k) : scaled (l.map (· / k)) = scaled l := by
  cases l with
  | nil => rfl
  | cons a l =>
    have hg : greatest ((a :: l).map (· / k)) = greatest (a :: l) / k := by
      simp only [List.map_cons, greatest]
      generalize a = x
      induction l generalizing x with
      | nil => rfl
      | cons b l ih => rw [List.map_cons, List.foldl_cons, List.foldl_cons, max_div_div_right hk.le, ih]
    unfold scaled
    rw [hg, List.map_map]
    apply List.map_congr_left
    intro x _
    simp only [Function.comp]
    field_simp

/-- One antenna: its own response. -/
theorem C105_arx (r : List ℝ) : meanArx [r] = some (scaled r) ∧ meanArx [] = none ∧ meanArx [r, r] = some (scaled r) := by
  refine ⟨rfl, rfl, ?_⟩
  have : List.zipWith (· + ·) r r = r.map (· / (1 / 2 : ℝ)) := by
    rw [List.zipWith_self]
    apply List.map_congr_left
    intro x _
    ring
  simp only [meanArx, List.foldl_cons, List.foldl_nil, this]
  rw [C105_mean _ _ (by norm_num)]

/-- The responses are those of powers, but they become the amplitudes of the antennas: visibilities, which are powers, are
multiplied by their square. -/
theorem C105_not_power (imm arx : ℝ) :
    passband (amplitude imm arx : ℝ) (amplitude imm arx : ℝ) = (((imm * arx) ^ 2 : ℝ) : ℂ) := by
  unfold passband amplitude
  rw [Complex.conj_ofReal, ← Complex.ofReal_mul]
  congr 1
  ring

/-! ## Polarizations -/

theorem csqrt_zero : csqrt 0 = 0 := by unfold csqrt; rw [Complex.zero_cpow (by norm_num)]

/-- The root is a root, and that with a real part that is not negative: for two antennas with the same real response it is the
response. -/
theorem C105_root (z : ℂ) (x : ℝ) (hx : 0 ≤ x) : csqrt z ^ 2 = z ∧ csqrt ((x : ℂ) * (starRingEnd ℂ) (x : ℂ)) = x := by
  constructor
  · unfold csqrt
    rw [show (1 / 2 : ℂ) = ((2 : ℕ) : ℂ)⁻¹ by norm_num]
    exact Complex.cpow_nat_inv_pow z (by norm_num)
  · unfold csqrt
    rw [Complex.conj_ofReal, ← Complex.ofReal_mul, show (1 / 2 : ℂ) = ((1 / 2 : ℝ) : ℂ) by norm_num, ← Complex.ofReal_cpow (by positivity), ← Real.sqrt_eq_rpow, Real.sqrt_mul_self hx]

theorem loop_step (a : Antennas) (pols : List (Char × Char)) (q : Char × Char) (f : ℂ) (hq : a.response q ≠ 0) (h : ∀ p ∈ pols, a.response p ≠ 0) :
    a.loop (some q) (some (f * a.response q)) pols = pols.map fun p => some (f * a.response p) := by
  induction pols generalizing q with
  | nil => rfl
  | cons p ps ih =>
    have hn : times (divided (some (f * a.response q)) (a.response q)) (a.response p) = some (f * a.response p) := by
      simp only [divided, if_neg hq, Option.map_some, times]
      congr 2
      field_simp
    simp only [Antennas.loop, List.map_cons, hn]
    rw [ih p (h p (by simp)) (fun r hr => h r (by simp [hr]))]

/-- Every polarization has the flux times its own response, whatever polarizations come before, if none of the responses is
zero. -/
theorem C105_polarizations_partial (a : Antennas) (pols : List (Char × Char)) (jy : ℂ) (h : ∀ p ∈ pols, a.response p ≠ 0) :
    a.fluxes false pols jy = pols.map fun p => some (Spec.flux (a.gain 0) (a.gain 1) (a.response p) jy) := by
  cases pols with
  | nil => rfl
  | cons p ps =>
    simp only [Antennas.fluxes, Bool.false_eq_true, if_false, Antennas.loop, times, Option.map_some, List.map_cons]
    rw [loop_step a ps p _ (h p (by simp)) (fun r hr => h r (by simp [hr]))]
    simp only [Antennas.bandpass, Bool.false_eq_true, if_false, passband, Spec.flux]
    congr 1
    · congr 1; ring
    · apply List.map_congr_left
      intro r _
      congr 1; ring

/-- A response of zero: the next polarization is zero divided by zero, whatever its own response is, and so are all after it. -/
theorem C105_not_zero (a : Antennas) (p q : Char × Char) (jy : ℂ) (h : a.response p = 0) (ps : List (Char × Char)) :
    a.fluxes false (p :: q :: ps) jy = some 0 :: none :: ps.map (fun _ => none) := by
  have hl : ∀ (ps : List (Char × Char)) (q : Char × Char), a.loop (some q) none ps = ps.map (fun _ => none) := by
    intro ps
    induction ps with
    | nil => intro q; rfl
    | cons r rs ih =>
      intro q
      have : times (divided none (a.response q)) (a.response r) = none := by
        unfold times divided; split <;> rfl
      simp only [Antennas.loop, List.map_cons, this, ih]
  have hd : ∀ f, divided f (a.response p) = none := by intro f; unfold divided; rw [if_pos h]
  simp only [Antennas.fluxes, Bool.false_eq_true, if_false, Antennas.loop, hd]
  rw [show times none (a.response q) = none from rfl, hl]
  simp [times, h]

/-- An array with a dead Y of antenna 0: xx after yy has no value, though its response is 1. -/
example : ∃ a : Antennas, a.response ('x', 'x') = 1 ∧ a.fluxes false [('y', 'y'), ('x', 'x')] 1 = [some 0, none] := by
  refine ⟨⟨fun _ p => if p = 'x' then 1 else 0, fun _ => 1⟩, ?_, ?_⟩
  · simp [Antennas.response, csqrt]
  · exact C105_not_zero _ _ _ _ (by simp [Antennas.response, csqrt_zero]) []

/-- After the loop the flux is that of the source. -/
theorem C105_left (a : Antennas) (pols : List (Char × Char)) (jy : ℂ) (hp : pols ≠ []) (h : ∀ p ∈ pols, a.response p ≠ 0)
    (hg : a.gain 0 ≠ 0) (hg' : a.gain 1 ≠ 0) : a.left pols jy = some jy := by
  unfold Antennas.left
  rw [C105_polarizations_partial a pols jy h, List.getLast?_map, List.getLast?_eq_getLast_of_ne_nil hp]
  have hl := h _ (List.getLast_mem hp)
  have hc : (starRingEnd ℂ) (a.gain 0) ≠ 0 := by simpa using hg
  have hb : a.bandpass false ≠ 0 := by
    simp only [Antennas.bandpass, Bool.false_eq_true, if_false, passband]
    exact mul_ne_zero hg' hc
  simp only [Option.map_some, divided, if_neg hl, if_neg hb]
  simp only [Antennas.bandpass, Bool.false_eq_true, if_false, passband, Spec.flux]
  congr 1
  field_simp

/-- A flat response: the flux of the source for all polarizations. -/
theorem C105_flat (a : Antennas) (pols : List (Char × Char)) (jy : ℂ) : a.fluxes true pols jy = pols.map fun _ => some jy := by
  simp [Antennas.fluxes, Antennas.bandpass]

/-- Every baseline of an array with equal antennas, as those of `build_sim_array`, has the flux of its own antennas. -/
theorem C105_own_partial (a : Antennas) (hb : ∀ i, a.beam i = a.beam 0) (hg : ∀ i, a.gain i = a.gain 0) (i j : Nat) (p : Char × Char) (jy : ℂ) (h : a.response p ≠ 0) :
    a.fluxes false [p] jy
      = [some (Spec.flux (a.gain i) (a.gain j) (csqrt (a.beam i p.1 * (starRingEnd ℂ) (a.beam j p.2))) jy)] := by
  rw [C105_polarizations_partial a [p] jy (by simpa using h)]
  simp only [List.map_cons, List.map_nil, Antennas.response, hb i, hb j, hb 1, hg i, hg j, hg 1]

/-- The flux of other baselines does not depend on their antennas at all. -/
theorem C105_not_own (a b : Antennas) (h0 : a.beam 0 = b.beam 0 ∧ a.gain 0 = b.gain 0) (h1 : a.beam 1 = b.beam 1 ∧ a.gain 1 = b.gain 1)
    (pols : List (Char × Char)) (jy : ℂ) : a.fluxes false pols jy = b.fluxes false pols jy := by
  have hr : ∀ p, a.response p = b.response p := by intro p; simp only [Antennas.response, h0.1, h1.1]
  have hl : ∀ (ps : List (Char × Char)) (l : Option (Char × Char)) (f : Option ℂ), a.loop l f ps = b.loop l f ps := by
    intro ps
    induction ps with
    | nil => intro l f; rfl
    | cons p ps ih => intro l f; cases l <;> simp only [Antennas.loop, hr, ih]
  simp only [Antennas.fluxes, Bool.false_eq_true, if_false, hl, Antennas.bandpass, h0.2, h1.2]

/-- An antenna 2 without any gain gets the same flux as the others. -/
example : ∃ a : Antennas, a.gain 2 = 0 ∧ a.fluxes false [('x', 'x')] 1 = [some 1]
    ∧ Spec.flux (a.gain 0) (a.gain 2) (csqrt (a.beam 0 'x' * (starRingEnd ℂ) (a.beam 2 'x'))) 1 = 0 := by
  refine ⟨⟨fun _ _ => 1, fun i => if i = 2 then 0 else 1⟩, rfl, ?_, ?_⟩
  · rw [C105_polarizations_partial _ _ _ (by simp [Antennas.response, csqrt])]
    simp [Antennas.response, csqrt, Spec.flux]
  · simp [Spec.flux]

/-- The sources that are used are those above the horizon, in their order. -/
theorem C105_horizon (srcs : List (String × ℝ)) (n : String) (l : List String) (h : used srcs = some l) :
    l ≠ [] ∧ (n ∈ l ↔ ∃ alt, (n, alt) ∈ srcs ∧ 0 ≤ alt) ∧ l.Sublist (srcs.map Prod.fst) := by
  unfold used at h
  simp only at h
  split at h
  · exact absurd h (by simp)
  · rename_i hn
    cases h
    refine ⟨by simpa [List.isEmpty_iff] using hn, ?_, List.Sublist.map _ List.filter_sublist⟩
    simp

end Verif.SimSky
