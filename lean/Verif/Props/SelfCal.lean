import Verif.Spec.SelfCal
import Mathlib.Analysis.SpecificLimits.Basic
/-!
# C90: self-calibration
-/
namespace Verif.SelfCal
open Finset Spec

/-! ## Scaling -/

theorem scale_eq (S : Sys) (d : Vis) (amps delays phases : ℕ → ℝ) (b c : ℕ) :
    scale S d amps delays phases b c = d b c * (amps (S.bl b).1 * amps (S.bl b).2 : ℝ) *
      Complex.exp ((2 * Real.pi * (S.freq c / 10 ^ 9) * (delays (S.bl b).1 - delays (S.bl b).2) +
        (phases (S.bl b).1 - phases (S.bl b).2) : ℝ) * Complex.I) := by
  unfold scale cgain
  rw [map_mul, ← Complex.exp_conj, Complex.conj_ofReal]
  simp only [map_add, map_mul, Complex.conj_ofReal, Complex.conj_I, map_ofNat]
  rw [mul_mul_mul_comm, ← Complex.exp_add]
  push_cast
  rw [mul_comm (amps (S.bl b).2 : ℂ), ← mul_assoc]
  congr 2
  ring

/-- A scaling by ones and zeros changes nothing, and two scalings are one. -/
theorem C90_scale (S : Sys) (d : Vis) (a1 a2 d1 d2 p1 p2 : ℕ → ℝ) (b c : ℕ) :
    scale S d (fun _ => 1) (fun _ => 0) (fun _ => 0) b c = d b c ∧
      scale S (scale S d a1 d1 p1) a2 d2 p2 b c =
        scale S d (fun a => a1 a * a2 a) (fun a => d1 a + d2 a) (fun a => p1 a + p2 a) b c := by
  constructor
  · rw [scale_eq]; simp
  · rw [scale_eq, scale_eq, scale_eq]
    rw [show ∀ x u e v f : ℂ, x * u * e * v * f = x * (u * v) * (e * f) by intros; ring, ← Complex.exp_add, ← Complex.ofReal_mul]
    congr 3
    · ring
    · push_cast; ring

/-! ## Rows -/

theorem sum_update (N : ℕ) (r x : ℕ → ℝ) (k : ℕ) (hk : k < N) (v : ℝ) (h0 : r k = 0) :
    ∑ c ∈ range N, Function.update r k v c * x c = ∑ c ∈ range N, r c * x c + v * x k := by
  have e : ∀ c, Function.update r k v c * x c = r c * x c + if c = k then v * x k else 0 := by
    intro c
    by_cases hc : c = k
    · subst hc; simp [h0]
    · simp [hc]
  rw [sum_congr rfl fun c _ => e c, sum_add_distrib, sum_ite_eq' (range N) k, if_pos (mem_range.2 hk)]

theorem sum_setCol (n ref a : ℕ) (href : ref < n) (ha : a < n) (v : ℝ) (r x : ℕ → ℝ)
    (h0 : (a < ref → r a = 0) ∧ (ref < a → r (a - 1) = 0)) :
    ∑ c ∈ range (n - 1), setCol ref a v r c * x c = ∑ c ∈ range (n - 1), r c * x c + v * insertZero ref x a := by
  unfold setCol insertZero
  rcases Nat.lt_trichotomy a ref with h | h | h
  · rw [if_pos h, if_pos h, sum_update _ _ _ _ (by omega) _ (h0.1 h)]
  · rw [if_neg (by omega), if_neg (by omega), if_neg (by omega), if_pos h]; ring
  · rw [if_neg (by omega), if_pos h, if_neg (by omega), if_neg (by omega), sum_update _ _ _ _ (by omega) _ (h0.2 h)]

/-- A row for two antennas is the difference of their values. -/
theorem C90_row (S : Sys) (ref : ℕ) (hg : Good S ref) (r : ℕ) (hr : r < S.nb * S.nf) (x : ℕ → ℝ) :
    ∑ c ∈ range (S.n - 1), row S ref r c * x c =
      insertZero ref x (S.bl (r % S.nb)).1 - insertZero ref x (S.bl (r % S.nb)).2 := by
  have hb : r % S.nb < S.nb := Nat.mod_lt _ (Nat.pos_of_ne_zero (by rintro h; rw [h] at hr; simp at hr))
  obtain ⟨h1, h2⟩ := hg.lt _ hb
  have hne := hg.ne _ hb
  unfold row
  generalize (S.bl (r % S.nb)).1 = l at *
  generalize (S.bl (r % S.nb)).2 = m at *
  rw [sum_setCol S.n ref m hg.refLt h2, sum_setCol S.n ref l hg.refLt h1 1 _ _ (by simp)]
  · simp; ring
  · unfold setCol
    constructor
    · intro h
      split_ifs with h3 h4
      · simp [hne.symm]
      · rw [Function.update_of_ne (by omega)]
      · rfl
    · intro h
      split_ifs with h3 h4
      · rw [Function.update_of_ne (by omega)]
      · rw [Function.update_of_ne (by omega)]
      · rfl

/-- The row of an antenna with itself takes its value instead of nothing, so that autocorrelations draw the phases to zero. -/
theorem C90_not_auto (S : Sys) (ref r : ℕ) (hr : ref < S.n) (a : ℕ) (ha : a < S.n) (hne : a ≠ ref) (hb : S.bl (r % S.nb) = (a, a))
    (x : ℕ → ℝ) : ∑ c ∈ range (S.n - 1), row S ref r c * x c = -insertZero ref x a := by
  have e : setCol ref a (-1) (setCol ref a 1 fun _ => 0) = setCol ref a (-1) fun _ => 0 := by
    unfold setCol
    rcases Nat.lt_or_gt_of_ne hne with h | h
    · rw [if_pos h, if_pos h, if_pos h, Function.update_idem]
    · rw [if_neg (by omega), if_pos h, if_neg (by omega), if_pos h, if_neg (by omega), if_pos h, Function.update_idem]
  unfold row
  rw [hb]
  simp only
  rw [e, sum_setCol S.n ref a hr ha _ _ _ (by simp)]
  simp

/-- A row of the amplitudes is the sum of two; of an antenna with itself it is the value and not twice the value. -/
theorem C90_amp_row (S : Sys) (b : ℕ) (h : (S.bl b).1 < S.n ∧ (S.bl b).2 < S.n) (x : ℕ → ℝ) :
    ∑ c ∈ range S.n, ampRow S b c * x c =
      if (S.bl b).1 = (S.bl b).2 then x (S.bl b).1 else x (S.bl b).1 + x (S.bl b).2 := by
  unfold ampRow
  split_ifs with he
  · rw [he, Function.update_idem, sum_update _ _ _ _ h.2 _ rfl]; simp
  · rw [sum_update _ _ _ _ h.2 _ (by simp [Ne.symm he]), sum_update _ _ _ _ h.1 _ rfl]; simp

/-! ## One fit -/

theorem differences (S : Sys) (ref : ℕ) (x y : ℕ → ℝ) (h0 : x ref = y ref)
    (h : ∀ b < S.nb, x (S.bl b).1 - x (S.bl b).2 = y (S.bl b).1 - y (S.bl b).2) (a : ℕ) (hr : Reach S ref a) : x a = y a := by
  induction hr with
  | start => exact h0
  | forth b hb _ ih => have := h b hb; linarith
  | back b hb _ ih => have := h b hb; linarith

/-- Differences that come from values of the antennas give these values. -/
theorem fit_exact (S : Sys) (ref : ℕ) (hg : Good S ref) (lsq : Solver) (hl : ExactSolve lsq) (C y : ℕ → ℝ) (hy : y ref = 0)
    (hC : ∀ r < S.nb * S.nf, C r = y (S.bl (r % S.nb)).1 - y (S.bl (r % S.nb)).2) (a : ℕ) (ha : a < S.n) :
    insertZero ref (lsq (S.nb * S.nf) (S.n - 1) (row S ref) C) a = y a := by
  have hi : ∀ k, insertZero ref (fun c => if c < ref then y c else y (c + 1)) k = y k := by
    intro k
    unfold insertZero
    rcases Nat.lt_trichotomy k ref with h | h | h
    · simp only [if_pos h]
    · rw [if_neg (by omega), if_pos h, h, hy]
    · rw [if_neg (by omega), if_neg (by omega)]
      simp only [if_neg (show ¬ k - 1 < ref by omega), Nat.sub_add_cancel (show 1 ≤ k by omega)]
  have hs := hl (S.nb * S.nf) (S.n - 1) (row S ref) C ⟨fun c => if c < ref then y c else y (c + 1), fun r hr => by
    rw [C90_row S ref hg r hr, hi, hi, hC r hr]⟩
  refine differences S ref _ y ?_ ?_ a (hg.conn a ha)
  · rw [hy]; simp [insertZero]
  · intro b hb
    have hbr : b < S.nb * S.nf := lt_of_lt_of_le hb (Nat.le_mul_of_pos_right _ hg.nf)
    have := hs b hbr
    rw [C90_row S ref hg b hbr, hC b hbr, Nat.mod_eq_of_lt hb] at this
    exact this

theorem arg_phase (sim obs : ℂ) (hs : obs ≠ 0) (v θ : ℝ) (hv : 0 < v) (h : sim = obs * v * Complex.exp (θ * Complex.I))
    (h1 : -Real.pi < θ) (h2 : θ ≤ Real.pi) : Complex.arg (sim / obs) = θ := by
  have e : sim / obs = v * Complex.exp (θ * Complex.I) := by
    rw [h]; field_simp
  rw [e, Complex.arg_real_mul _ hv, Complex.exp_mul_I, Complex.arg_cos_add_sin_mul_I ⟨h1, h2⟩]

/-- Phases of the antennas are found in one fit, whatever the amplitudes. -/
theorem C90_fit_phase (S : Sys) (ref : ℕ) (hg : Good S ref) (lsq : Solver) (hl : ExactSolve lsq) (sim obs : Vis) (γ ψ : ℕ → ℝ)
    (hγ : ∀ a < S.n, 0 < γ a) (hψ : ψ ref = 0) (h0 : ∀ b < S.nb, ∀ c, obs b c ≠ 0)
    (hπ : ∀ b < S.nb, |ψ (S.bl b).1 - ψ (S.bl b).2| < Real.pi) (h : Corrected S obs sim γ fun a _ => ψ a) (a : ℕ) (ha : a < S.n) :
    fitPhase S lsq ref sim obs a = ψ a := by
  apply fit_exact S ref hg lsq hl _ ψ hψ _ a ha
  intro r hr
  have hb : r % S.nb < S.nb := Nat.mod_lt _ (Nat.pos_of_ne_zero (by rintro h; rw [h] at hr; simp at hr))
  have hp := abs_lt.1 (hπ _ hb)
  exact arg_phase _ _ (h0 _ hb _) _ _ (mul_pos (hγ _ (hg.lt _ hb).1) (hγ _ (hg.lt _ hb).2)) (h _ hb _) hp.1 hp.2.le

/-- So are delays, as long as none is more than half a turn. -/
theorem C90_fit_delay (S : Sys) (ref : ℕ) (hg : Good S ref) (lsq : Solver) (hl : ExactSolve lsq) (sim obs : Vis) (γ τ : ℕ → ℝ)
    (hγ : ∀ a < S.n, 0 < γ a) (hτ : τ ref = 0) (h0 : ∀ b < S.nb, ∀ c, obs b c ≠ 0) (hf : ∀ i < S.nf, 0 < S.freq (S.chan i))
    (hπ : ∀ b < S.nb, ∀ i < S.nf, |2 * Real.pi * (S.freq (S.chan i) / 10 ^ 9) * (τ (S.bl b).1 - τ (S.bl b).2)| < Real.pi)
    (h : Corrected S obs sim γ fun a c => 2 * Real.pi * (S.freq c / 10 ^ 9) * τ a) (a : ℕ) (ha : a < S.n) :
    fitDelay S lsq ref sim obs a = τ a := by
  apply fit_exact S ref hg lsq hl _ τ hτ _ a ha
  intro r hr
  have hb : r % S.nb < S.nb := Nat.mod_lt _ (Nat.pos_of_ne_zero (by rintro h; rw [h] at hr; simp at hr))
  have hi : r / S.nb < S.nf := Nat.div_lt_of_lt_mul hr
  have hp := abs_lt.1 (hπ _ hb _ hi)
  have hff := hf _ hi
  have hpi := Real.pi_pos
  have h1 := h _ hb (S.chan (r / S.nb))
  rw [← mul_sub] at h1
  unfold delayC phaseC
  rw [arg_phase _ _ (h0 _ hb _) _ _ (mul_pos (hγ _ (hg.lt _ hb).1) (hγ _ (hg.lt _ hb).2)) h1 hp.1 hp.2.le]
  field_simp

/-- And gains. -/
theorem C90_fit_gain (S : Sys) (ref : ℕ) (hg : Good S ref) (lsq : Solver) (hl : ExactSolve lsq) (mean : List ℝ → ℝ)
    (hm : MeanConst mean) (hd : Determined S) (sim obs : Vis) (γ : ℕ → ℝ) (ψ : ℕ → ℕ → ℝ) (hγ : ∀ a < S.n, 0 < γ a)
    (h0 : ∀ b < S.nb, ∀ c, obs b c ≠ 0) (h : Corrected S obs sim γ ψ) (a : ℕ) (ha : a < S.n) :
    fitGain S lsq mean sim obs a = γ a := by
  have hC : ∀ b < S.nb, ampC S mean sim obs b = Real.log (γ (S.bl b).1) + Real.log (γ (S.bl b).2) := by
    intro b hb
    have h1 := hγ _ (hg.lt b hb).1
    have h2 := hγ _ (hg.lt b hb).2
    have hp := mul_pos h1 h2
    apply hm
    · have := hg.nf
      intro he
      have := congrArg List.length he
      simp at this; omega
    · intro x hx
      obtain ⟨i, _, rfl⟩ := List.mem_map.1 hx
      rw [h b hb, mul_assoc, mul_div_cancel_left₀ _ (h0 b hb _), norm_mul, Complex.norm_exp_ofReal_mul_I, mul_one,
        Complex.norm_real, Real.norm_eq_abs, abs_of_pos hp, Real.log_mul h1.ne' h2.ne']
  have hs := hl S.nb S.n (ampRow S) (ampC S mean sim obs) ⟨fun a => Real.log (γ a), fun b hb => by
    rw [C90_amp_row S b (hg.lt b hb), if_neg (hg.ne b hb), hC b hb]⟩
  have := hd (lsq S.nb S.n (ampRow S) (ampC S mean sim obs)) (fun a => Real.log (γ a)) (fun b hb => by
    have := hs b hb
    rw [C90_amp_row S b (hg.lt b hb), if_neg (hg.ne b hb), hC b hb] at this
    exact this) a ha
  unfold fitGain
  rw [this, Real.exp_log (hγ a ha)]

/-! ## Passes -/

theorem corrected_scale (S : Sys) (orig sim : Vis) (γ : ℕ → ℝ) (φ : ℕ → ℕ → ℝ) (h : Corrected S orig sim γ φ)
    (delays phases : ℕ → ℝ) : Corrected S (scale S orig (fun _ => 1) delays phases) sim γ
      fun a c => φ a c - (2 * Real.pi * (S.freq c / 10 ^ 9) * delays a + phases a) := by
  intro b hb c
  rw [scale_eq, h b hb c, show ∀ x u e v f : ℂ, x * u * e * v * f = x * u * v * (e * f) by intros; ring, ← Complex.exp_add, ← add_mul,
    ← Complex.ofReal_add]
  simp only [mul_one, Complex.ofReal_one]
  congr 4
  ring

theorem scale_ne (S : Sys) (orig : Vis) (amps delays phases : ℕ → ℝ) (b c : ℕ) (h : orig b c ≠ 0)
    (h1 : amps (S.bl b).1 ≠ 0) (h2 : amps (S.bl b).2 ≠ 0) : scale S orig amps delays phases b c ≠ 0 := by
  rw [scale_eq]
  refine mul_ne_zero (mul_ne_zero h ?_) (Complex.exp_ne_zero _)
  rw [Complex.ofReal_ne_zero]
  exact mul_ne_zero h1 h2

/-- The part that is still missing after some passes. -/
noncomputable def left (o : Opts) (j : ℕ) : ℝ := (1 - o.gain) ^ j

theorem left_abs (o : Opts) (hg : 0 < o.gain) (hg2 : o.gain < 2) (j : ℕ) : |left o j| ≤ 1 := by
  unfold left
  rw [abs_pow]
  exact pow_le_one₀ (abs_nonneg _) (abs_le.2 ⟨by linarith, by linarith⟩)

/-- What is true of the state after passes on phases. -/
structure PhaseInv (S : Sys) (o : Opts) (orig : Vis) (ψ : ℕ → ℝ) (j : ℕ) (s : St) : Prop where
  phases : ∀ a < S.n, s.phases a = (1 - left o j) * ψ a
  data : ∀ b < S.nb, ∀ c, s.data b c = scale S orig (fun _ => 1) (fun _ => 0) s.phases b c

theorem phaseC_congr (S : Sys) (sim d d' : Vis) (h : ∀ b < S.nb, ∀ c, d b c = d' b c) (r : ℕ) (hr : r < S.nb * S.nf) :
    phaseC S sim d r = phaseC S sim d' r := by
  have hb : r % S.nb < S.nb := Nat.mod_lt _ (Nat.pos_of_ne_zero (by rintro h; rw [h] at hr; simp at hr))
  unfold phaseC
  rw [h _ hb]

theorem corrected_congr (S : Sys) (sim d d' : Vis) (h : ∀ b < S.nb, ∀ c, d b c = d' b c) (γ : ℕ → ℝ) (φ : ℕ → ℕ → ℝ)
    (hc : Corrected S d sim γ φ) : Corrected S d' sim γ φ := by
  intro b hb c
  rw [← h b hb c]; exact hc b hb c

theorem phase_step (S : Sys) (ref : ℕ) (hg : Good S ref) (lsq : Solver) (hl : ExactSolve lsq) (mean : List ℝ → ℝ) (o : Opts)
    (ho : o.mode = .phase) (ha : o.amplitude = false) (hg1 : 0 < o.gain) (hg2 : o.gain < 2) (sim orig : Vis)
    (γ ψ : ℕ → ℝ) (hγ : ∀ a < S.n, 0 < γ a) (hψ : ψ ref = 0) (h0 : ∀ b < S.nb, ∀ c, orig b c ≠ 0)
    (hπ : ∀ b < S.nb, |ψ (S.bl b).1 - ψ (S.bl b).2| < Real.pi) (h : Corrected S orig sim γ fun a _ => ψ a) (j : ℕ) (s : St)
    (hs : PhaseInv S o orig ψ j s) :
    PhaseInv S o orig ψ (j + 1) (pass S lsq mean ref o sim orig s) ∧
      ((pass S lsq mean ref o sim orig s).converged = true ↔ s.converged = true ∨ below S.n o.phaseCut fun a => left o j * ψ a) := by
  have hbest : ∀ a < S.n, fitPhase S lsq ref sim s.data a = left o j * ψ a := by
    intro a ha'
    refine C90_fit_phase S ref hg lsq hl sim s.data γ (fun a => left o j * ψ a) hγ (by simp [hψ]) ?_ ?_ ?_ a ha'
    · intro b hb c
      rw [hs.data b hb c]
      exact scale_ne S orig _ _ _ b c (h0 b hb c) one_ne_zero one_ne_zero
    · intro b hb
      rw [← mul_sub, abs_mul]
      exact lt_of_le_of_lt (mul_le_of_le_one_left (abs_nonneg _) (left_abs o hg1 hg2 j)) (hπ b hb)
    · have h1 := corrected_scale S orig sim γ _ h (fun _ => 0) s.phases
      refine corrected_congr S sim _ _ (fun b hb c => (hs.data b hb c).symm) γ _ ?_
      intro b hb c
      have := h1 b hb c
      simp only at this
      rw [hs.phases _ (hg.lt b hb).1, hs.phases _ (hg.lt b hb).2] at this
      rw [this]
      congr 4
      ring
  have e : pass S lsq mean ref o sim orig s = modePass S lsq ref o sim orig s := by simp [pass, ha]
  rw [e]
  unfold modePass
  rw [ho]
  refine ⟨⟨?_, fun b hb c => rfl⟩, ?_⟩
  · intro a ha'
    simp only
    rw [hs.phases a ha', hbest a ha']
    unfold left
    rw [pow_succ]; ring
  · simp only
    classical
    rw [Bool.or_eq_true, decide_eq_true_iff]
    apply or_congr_right
    unfold below
    constructor
    · intro hh a ha'; have := hh a ha'; rwa [hbest a ha'] at this
    · intro hh a ha'; have := hh a ha'; simp only at this; rwa [← hbest a ha'] at this

/-- The phases that the data lack are found, but for the part that the passes leave; passes stop when that is small. -/
theorem C90_phase (S : Sys) (ref : ℕ) (hg : Good S ref) (lsq : Solver) (hl : ExactSolve lsq) (mean : List ℝ → ℝ) (o : Opts)
    (ho : o.mode = .phase) (ha : o.amplitude = false) (hg1 : 0 < o.gain) (hg2 : o.gain < 2) (sim orig : Vis)
    (γ ψ : ℕ → ℝ) (hγ : ∀ a < S.n, 0 < γ a) (hψ : ψ ref = 0) (h0 : ∀ b < S.nb, ∀ c, orig b c ≠ 0)
    (hπ : ∀ b < S.nb, |ψ (S.bl b).1 - ψ (S.bl b).2| < Real.pi) (h : Corrected S orig sim γ fun a _ => ψ a) (k : ℕ) :
    ∃ j ≤ k, ∀ s, s = loop S lsq mean ref o sim orig k (start orig) →
      (∀ a < S.n, s.phases a = (1 - left o j) * ψ a) ∧
      (∀ b < S.nb, ∀ c, s.data b c = scale S orig (fun _ => 1) (fun _ => 0) s.phases b c) ∧
      (s.converged = true ↔ 0 < j ∧ below S.n o.phaseCut fun a => left o (j - 1) * ψ a) ∧ (s.converged = false → j = k) := by
  have key : ∀ (k j : ℕ) (s : St), PhaseInv S o orig ψ j s →
      (s.converged = true ↔ 0 < j ∧ below S.n o.phaseCut fun a => left o (j - 1) * ψ a) →
      ∃ j', j ≤ j' ∧ j' ≤ j + k ∧ PhaseInv S o orig ψ j' (loop S lsq mean ref o sim orig k s) ∧
        ((loop S lsq mean ref o sim orig k s).converged = true ↔ 0 < j' ∧ below S.n o.phaseCut fun a => left o (j' - 1) * ψ a) ∧
        ((loop S lsq mean ref o sim orig k s).converged = false → j' = j + k) := by
    intro k
    induction k with
    | zero => intro j s hs hc; exact ⟨j, le_refl _, le_refl _, hs, hc, fun _ => rfl⟩
    | succ k ih =>
      intro j s hs hc
      unfold loop
      cases hcv : s.converged with
      | true =>
        rw [if_pos rfl]
        exact ⟨j, le_refl _, by omega, hs, hc, fun hf => by rw [hcv] at hf; exact absurd hf (by simp)⟩
      | false =>
        rw [if_neg (by simp)]
        obtain ⟨h1, h2⟩ := phase_step S ref hg lsq hl mean o ho ha hg1 hg2 sim orig γ ψ hγ hψ h0 hπ h j s hs
        obtain ⟨j', g1, g2, g3, g4, g5⟩ := ih (j + 1) _ h1 (by rw [h2, hcv]; simp)
        exact ⟨j', by omega, by omega, g3, g4, fun hf => by have := g5 hf; omega⟩
  obtain ⟨j, _, h2, h3, h4, h5⟩ := key k 0 (start orig)
    ⟨fun a _ => by simp [start, left], fun b _ c => by
      rw [show (start orig).phases = fun _ => 0 from rfl, (C90_scale S orig (fun _ => 1) (fun _ => 1) (fun _ => 0) (fun _ => 0)
        (fun _ => 0) (fun _ => 0) b c).1]
      rfl⟩ (by simp [start])
  refine ⟨j, by omega, ?_⟩
  rintro s rfl
  exact ⟨h3.phases, h3.data, h4, fun hf => by have := h5 hf; omega⟩

/-- With enough passes it converges. -/
theorem C90_converges (S : Sys) (ref : ℕ) (hg : Good S ref) (lsq : Solver) (hl : ExactSolve lsq) (mean : List ℝ → ℝ) (o : Opts)
    (ho : o.mode = .phase) (ha : o.amplitude = false) (hg1 : 0 < o.gain) (hg2 : o.gain < 2) (hcut : 0 < o.phaseCut) (sim orig : Vis)
    (γ ψ : ℕ → ℝ) (hγ : ∀ a < S.n, 0 < γ a) (hψ : ψ ref = 0) (h0 : ∀ b < S.nb, ∀ c, orig b c ≠ 0)
    (hπ : ∀ b < S.nb, |ψ (S.bl b).1 - ψ (S.bl b).2| < Real.pi) (h : Corrected S orig sim γ fun a _ => ψ a) :
    ∃ K, ∀ k ≥ K, (loop S lsq mean ref o sim orig k (start orig)).converged = true := by
  have hlt : |1 - o.gain| < 1 := abs_lt.2 ⟨by linarith, by linarith⟩
  obtain ⟨M, hM⟩ : ∃ M : ℝ, ∀ a < S.n, |ψ a| ≤ M :=
    ⟨∑ a ∈ range S.n, |ψ a|, fun a ha => single_le_sum (f := fun a => |ψ a|) (fun _ _ => abs_nonneg _) (mem_range.2 ha)⟩
  have hM0 : 0 ≤ M := le_trans (abs_nonneg _) (hM ref hg.refLt)
  obtain ⟨K, hK⟩ := exists_pow_lt_of_lt_one (show 0 < o.phaseCut / (M + 1) by positivity) hlt
  refine ⟨K + 1, fun k hk => ?_⟩
  obtain ⟨j, hj, hs⟩ := C90_phase S ref hg lsq hl mean o ho ha hg1 hg2 sim orig γ ψ hγ hψ h0 hπ h k
  obtain ⟨_, _, h3, h4⟩ := hs _ rfl
  by_contra hc
  have hjk := h4 (by simpa using hc)
  apply hc
  rw [h3]
  refine ⟨by omega, ?_⟩
  intro a ha' _
  unfold left
  rw [abs_mul, abs_pow]
  have h5 : |1 - o.gain| ^ (j - 1) ≤ |1 - o.gain| ^ K := pow_le_pow_of_le_one (abs_nonneg _) hlt.le (by omega)
  have h6 : |1 - o.gain| ^ (j - 1) < o.phaseCut / (M + 1) := lt_of_le_of_lt h5 hK
  rw [lt_div_iff₀ (by positivity)] at h6
  have h7 : 0 ≤ |1 - o.gain| ^ (j - 1) := pow_nonneg (abs_nonneg _) _
  have := hM a ha'
  nlinarith

/-- With a loop gain of one a single pass gives the model. -/
theorem C90_exact (S : Sys) (ref : ℕ) (hg : Good S ref) (lsq : Solver) (hl : ExactSolve lsq) (mean : List ℝ → ℝ) (o : Opts)
    (ho : o.mode = .phase) (ha : o.amplitude = false) (hg1 : o.gain = 1) (sim orig : Vis) (ψ : ℕ → ℝ) (hψ : ψ ref = 0)
    (h0 : ∀ b < S.nb, ∀ c, orig b c ≠ 0) (hπ : ∀ b < S.nb, |ψ (S.bl b).1 - ψ (S.bl b).2| < Real.pi)
    (h : Corrected S orig sim (fun _ => 1) fun a _ => ψ a) (k : ℕ) (hk : 0 < k) (b : ℕ) (hb : b < S.nb) (c : ℕ) :
    (selfCal S lsq mean ref o sim orig k).data b c = sim b c := by
  obtain ⟨j, hj, hs⟩ := C90_phase S ref hg lsq hl mean o ho ha (by linarith) (by linarith) sim orig (fun _ => 1) ψ
    (fun _ _ => one_pos) hψ h0 hπ h k
  obtain ⟨h1, h2, h3, h4⟩ := hs _ rfl
  have hj0 : 0 < j := by
    cases hc : (loop S lsq mean ref o sim orig k (start orig)).converged with
    | true => exact (h3.1 hc).1
    | false => rw [h4 hc]; exact hk
  have hleft : left o j = 0 := by unfold left; rw [hg1, sub_self]; exact zero_pow hj0.ne'
  show (loop S lsq mean ref o sim orig k (start orig)).data b c = _
  rw [h2 b hb c, scale_eq, h b hb c, h1 _ (hg.lt b hb).1, h1 _ (hg.lt b hb).2, hleft]
  simp

/-- What is true of the state after passes on delays. -/
structure DelayInv (S : Sys) (o : Opts) (orig : Vis) (τ : ℕ → ℝ) (j : ℕ) (s : St) : Prop where
  delays : ∀ a < S.n, s.delays a = (1 - left o j) * τ a
  data : ∀ b < S.nb, ∀ c, s.data b c = scale S orig (fun _ => 1) s.delays (fun _ => 0) b c

theorem delay_step (S : Sys) (ref : ℕ) (hg : Good S ref) (lsq : Solver) (hl : ExactSolve lsq) (mean : List ℝ → ℝ) (o : Opts)
    (ho : o.mode = .delay) (ha : o.amplitude = false) (hg1 : 0 < o.gain) (hg2 : o.gain < 2) (sim orig : Vis)
    (γ τ : ℕ → ℝ) (hγ : ∀ a < S.n, 0 < γ a) (hτ : τ ref = 0) (h0 : ∀ b < S.nb, ∀ c, orig b c ≠ 0)
    (hf : ∀ i < S.nf, 0 < S.freq (S.chan i))
    (hπ : ∀ b < S.nb, ∀ i < S.nf, |2 * Real.pi * (S.freq (S.chan i) / 10 ^ 9) * (τ (S.bl b).1 - τ (S.bl b).2)| < Real.pi)
    (h : Corrected S orig sim γ fun a c => 2 * Real.pi * (S.freq c / 10 ^ 9) * τ a) (j : ℕ) (s : St) (hs : DelayInv S o orig τ j s) :
    DelayInv S o orig τ (j + 1) (pass S lsq mean ref o sim orig s) ∧
      ((pass S lsq mean ref o sim orig s).converged = true ↔ s.converged = true ∨ below S.n o.delayCut fun a => left o j * τ a) := by
  have hbest : ∀ a < S.n, fitDelay S lsq ref sim s.data a = left o j * τ a := by
    intro a ha'
    refine C90_fit_delay S ref hg lsq hl sim s.data γ (fun a => left o j * τ a) hγ (by simp [hτ]) ?_ hf ?_ ?_ a ha'
    · intro b hb c
      rw [hs.data b hb c]
      exact scale_ne S orig _ _ _ b c (h0 b hb c) one_ne_zero one_ne_zero
    · intro b hb i hi
      rw [← mul_sub, mul_left_comm, abs_mul]
      exact lt_of_le_of_lt (mul_le_of_le_one_left (abs_nonneg _) (left_abs o hg1 hg2 j)) (hπ b hb i hi)
    · have h1 := corrected_scale S orig sim γ _ h s.delays (fun _ => 0)
      refine corrected_congr S sim _ _ (fun b hb c => (hs.data b hb c).symm) γ _ ?_
      intro b hb c
      have := h1 b hb c
      simp only at this
      rw [hs.delays _ (hg.lt b hb).1, hs.delays _ (hg.lt b hb).2] at this
      rw [this]
      congr 4
      ring
  have e : pass S lsq mean ref o sim orig s = modePass S lsq ref o sim orig s := by simp [pass, ha]
  rw [e]
  unfold modePass
  rw [ho]
  refine ⟨⟨?_, fun b hb c => rfl⟩, ?_⟩
  · intro a ha'
    simp only
    rw [hs.delays a ha', hbest a ha']
    unfold left
    rw [pow_succ]; ring
  · simp only
    classical
    rw [Bool.or_eq_true, decide_eq_true_iff]
    apply or_congr_right
    unfold below
    constructor
    · intro hh a ha'; have := hh a ha'; rwa [hbest a ha'] at this
    · intro hh a ha'; have := hh a ha'; simp only at this; rwa [← hbest a ha'] at this

/-- The delays that the data lack are found in the same way. -/
theorem C90_delay (S : Sys) (ref : ℕ) (hg : Good S ref) (lsq : Solver) (hl : ExactSolve lsq) (mean : List ℝ → ℝ) (o : Opts)
    (ho : o.mode = .delay) (ha : o.amplitude = false) (hg1 : 0 < o.gain) (hg2 : o.gain < 2) (sim orig : Vis)
    (γ τ : ℕ → ℝ) (hγ : ∀ a < S.n, 0 < γ a) (hτ : τ ref = 0) (h0 : ∀ b < S.nb, ∀ c, orig b c ≠ 0)
    (hf : ∀ i < S.nf, 0 < S.freq (S.chan i))
    (hπ : ∀ b < S.nb, ∀ i < S.nf, |2 * Real.pi * (S.freq (S.chan i) / 10 ^ 9) * (τ (S.bl b).1 - τ (S.bl b).2)| < Real.pi)
    (h : Corrected S orig sim γ fun a c => 2 * Real.pi * (S.freq c / 10 ^ 9) * τ a) (k : ℕ) :
    ∃ j ≤ k, ∀ s, s = loop S lsq mean ref o sim orig k (start orig) →
      (∀ a < S.n, s.delays a = (1 - left o j) * τ a) ∧
      (∀ b < S.nb, ∀ c, s.data b c = scale S orig (fun _ => 1) s.delays (fun _ => 0) b c) ∧
      (s.converged = true ↔ 0 < j ∧ below S.n o.delayCut fun a => left o (j - 1) * τ a) ∧ (s.converged = false → j = k) := by
  have key : ∀ (k j : ℕ) (s : St), DelayInv S o orig τ j s →
      (s.converged = true ↔ 0 < j ∧ below S.n o.delayCut fun a => left o (j - 1) * τ a) →
      ∃ j', j ≤ j' ∧ j' ≤ j + k ∧ DelayInv S o orig τ j' (loop S lsq mean ref o sim orig k s) ∧
        ((loop S lsq mean ref o sim orig k s).converged = true ↔ 0 < j' ∧ below S.n o.delayCut fun a => left o (j' - 1) * τ a) ∧
        ((loop S lsq mean ref o sim orig k s).converged = false → j' = j + k) := by
    intro k
    induction k with
    | zero => intro j s hs hc; exact ⟨j, le_refl _, le_refl _, hs, hc, fun _ => rfl⟩
    | succ k ih =>
      intro j s hs hc
      unfold loop
      cases hcv : s.converged with
      | true =>
        rw [if_pos rfl]
        exact ⟨j, le_refl _, by omega, hs, hc, fun hf => by rw [hcv] at hf; exact absurd hf (by simp)⟩
      | false =>
        rw [if_neg (by simp)]
        obtain ⟨h1, h2⟩ := delay_step S ref hg lsq hl mean o ho ha hg1 hg2 sim orig γ τ hγ hτ h0 hf hπ h j s hs
        obtain ⟨j', g1, g2, g3, g4, g5⟩ := ih (j + 1) _ h1 (by rw [h2, hcv]; simp)
        exact ⟨j', by omega, by omega, g3, g4, fun hf => by have := g5 hf; omega⟩
  obtain ⟨j, _, h2, h3, h4, h5⟩ := key k 0 (start orig)
    ⟨fun a _ => by simp [start, left], fun b _ c => by
      rw [show (start orig).delays = fun _ => 0 from rfl, (C90_scale S orig (fun _ => 1) (fun _ => 1) (fun _ => 0) (fun _ => 0)
        (fun _ => 0) (fun _ => 0) b c).1]
      rfl⟩ (by simp [start])
  refine ⟨j, by omega, ?_⟩
  rintro s rfl
  exact ⟨h3.delays, h3.data, h4, fun hf => by have := h5 hf; omega⟩

/-! ## With amplitudes -/

/-- With amplitudes it does not work: every pass starts from the data as they were, so that gains are raised to the number of
passes and phases multiplied by it, and it never converges, unless it stops after the first pass. -/
theorem C90_not_amplitude (S : Sys) (ref : ℕ) (hg : Good S ref) (lsq : Solver) (hl : ExactSolve lsq) (mean : List ℝ → ℝ)
    (hm : MeanConst mean) (hd : Determined S) (o : Opts) (ho : o.mode = .phase) (ha : o.amplitude = true) (sim orig : Vis)
    (γ ψ : ℕ → ℝ) (hγ : ∀ a < S.n, 0 < γ a) (hψ : ψ ref = 0) (h0 : ∀ b < S.nb, ∀ c, orig b c ≠ 0)
    (hπ : ∀ b < S.nb, |ψ (S.bl b).1 - ψ (S.bl b).2| < Real.pi) (h : Corrected S orig sim γ fun a _ => ψ a)
    (h1 : ¬ below S.n o.ampCut γ) (h2 : ¬ below S.n o.phaseCut ψ) (k : ℕ) :
    ∀ s, s = loop S lsq mean ref o sim orig k (start orig) →
      (∀ a < S.n, s.gains a = γ a ^ k ∧ s.phases a = k * o.gain * ψ a) ∧ s.converged = false ∧
      ∀ b < S.nb, ∀ c, s.data b c = scale S orig (fun _ => 1) (fun _ => 0) s.phases b c := by
  have step : ∀ (j : ℕ) (s : St), (∀ a < S.n, s.gains a = γ a ^ j ∧ s.phases a = j * o.gain * ψ a) → s.converged = false →
      (∀ b < S.nb, ∀ c, s.data b c = scale S orig (fun _ => 1) (fun _ => 0) s.phases b c) → ∀ s', s' = pass S lsq mean ref o sim orig s →
      (∀ a < S.n, s'.gains a = γ a ^ (j + 1) ∧ s'.phases a = (j + 1 : ℕ) * o.gain * ψ a) ∧ s'.converged = false ∧
        ∀ b < S.nb, ∀ c, s'.data b c = scale S orig (fun _ => 1) (fun _ => 0) s'.phases b c := by
    rintro j s hs hc hdat s' rfl
    have hgain : ∀ a < S.n, fitGain S lsq mean sim s.data a = γ a := by
      intro a ha'
      refine C90_fit_gain S ref hg lsq hl mean hm hd sim s.data γ
        (fun a c => ψ a - (2 * Real.pi * (S.freq c / 10 ^ 9) * (0 : ℝ) + s.phases a)) hγ ?_ ?_ a ha'
      · intro b hb c
        rw [hdat b hb c]
        exact scale_ne S orig _ _ _ b c (h0 b hb c) one_ne_zero one_ne_zero
      · exact corrected_congr S sim _ _ (fun b hb c => (hdat b hb c).symm) γ _
          (corrected_scale S orig sim γ _ h (fun _ => 0) s.phases)
    -- the data that the phases are fitted to
    have hphase : ∀ a < S.n, fitPhase S lsq ref sim
        (scale S orig (fun a => s.gains a * fitGain S lsq mean sim s.data a) (fun _ => 0) (fun _ => 0)) a = ψ a := by
      intro a ha'
      have hgp : ∀ a < S.n, s.gains a * fitGain S lsq mean sim s.data a = γ a ^ (j + 1) := by
        intro a ha''
        rw [(hs a ha'').1, hgain a ha'', pow_succ]
      refine C90_fit_phase S ref hg lsq hl sim _ (fun a => γ a / γ a ^ (j + 1)) ψ ?_ hψ ?_ hπ ?_ a ha'
      · intro a ha''; have := hγ a ha''; positivity
      · intro b hb c
        refine scale_ne S orig _ _ _ b c (h0 b hb c) ?_ ?_
        · rw [hgp _ (hg.lt b hb).1]; exact (pow_pos (hγ _ (hg.lt b hb).1) _).ne'
        · rw [hgp _ (hg.lt b hb).2]; exact (pow_pos (hγ _ (hg.lt b hb).2) _).ne'
      · intro b hb c
        have g1 := hγ _ (hg.lt b hb).1
        have g2 := hγ _ (hg.lt b hb).2
        rw [scale_eq, h b hb c, hgp _ (hg.lt b hb).1, hgp _ (hg.lt b hb).2]
        simp only [sub_self, mul_zero, add_zero, Complex.ofReal_zero, zero_mul, Complex.exp_zero, mul_one]
        rw [mul_assoc (orig b c), mul_assoc (orig b c), mul_assoc (orig b c), ← Complex.ofReal_mul]
        congr 3
        field_simp
    classical
    unfold pass
    rw [if_pos ha]
    unfold modePass
    rw [ho]
    simp only [ampPass]
    refine ⟨?_, ?_, fun b hb c => trivial⟩
    · intro a ha'
      rw [hgain a ha', hphase a ha', (hs a ha').1, (hs a ha').2, pow_succ]
      refine ⟨rfl, ?_⟩
      push_cast; ring
    · rw [hc, Bool.false_or, Bool.or_eq_false_iff]
      constructor
      · rw [decide_eq_false_iff_not]
        intro hb
        apply h1
        intro a ha'; have := hb a ha'; rwa [hgain a ha'] at this
      · refine decide_eq_false ?_
        intro hb
        apply h2
        intro a ha'; have := hb a ha'; rwa [hphase a ha'] at this
  have key : ∀ (k j : ℕ) (s : St), (∀ a < S.n, s.gains a = γ a ^ j ∧ s.phases a = j * o.gain * ψ a) → s.converged = false →
      (∀ b < S.nb, ∀ c, s.data b c = scale S orig (fun _ => 1) (fun _ => 0) s.phases b c) →
      ∀ s', s' = loop S lsq mean ref o sim orig k s →
      (∀ a < S.n, s'.gains a = γ a ^ (j + k) ∧ s'.phases a = (j + k : ℕ) * o.gain * ψ a) ∧ s'.converged = false ∧
        ∀ b < S.nb, ∀ c, s'.data b c = scale S orig (fun _ => 1) (fun _ => 0) s'.phases b c := by
    intro k
    induction k with
    | zero => rintro j s g1 g2 g3 s' rfl; exact ⟨g1, g2, g3⟩
    | succ k ih =>
      rintro j s g1 g2 g3 s' rfl
      unfold loop
      rw [if_neg (by rw [g2]; simp)]
      obtain ⟨f1, f2, f3⟩ := step j s g1 g2 g3 _ rfl
      have := ih (j + 1) _ f1 f2 f3 _ rfl
      rw [show j + 1 + k = j + (k + 1) by omega] at this
      exact this
  intro s hs
  have := key k 0 (start orig) (by intro a _; simp [start]) rfl (by
    intro b _ c
    rw [show (start orig).phases = fun _ => 0 from rfl, (C90_scale S orig (fun _ => 1) (fun _ => 1) (fun _ => 0) (fun _ => 0)
        (fun _ => 0) (fun _ => 0) b c).1]
    rfl) s hs
  rwa [Nat.zero_add] at this

/-- Gains that are all below one count as converged, however small. -/
theorem C90_not_cutoff (n : ℕ) (cut g : ℝ) (hg : 0 ≤ g) (h : g < cut) : below n cut fun _ => g := by
  intro a _ _
  rwa [abs_of_nonneg hg]

/-- The phases of delays and phases do not follow the loop gain. -/
theorem C90_not_gain (S : Sys) (lsq : Solver) (ref : ℕ) (o : Opts) (ho : o.mode = .both) (hg : o.gain = 0) (sim orig : Vis) (s : St) :
    (modePass S lsq ref o sim orig s).delays = s.delays ∧
      (modePass S lsq ref o sim orig s).phases = fun a =>
        s.phases a + 1 / 2 * fitPhase S lsq ref sim (scale S orig (fun _ => 1) s.delays s.phases) a := by
  unfold modePass
  rw [ho]
  simp [hg]

/-- Data that agree with the model with the delays and phases so far are left alone, and that is convergence. -/
theorem C90_fixed (S : Sys) (ref : ℕ) (hg : Good S ref) (lsq : Solver) (hl : ExactSolve lsq) (mean : List ℝ → ℝ) (o : Opts)
    (ha : o.amplitude = false) (hp : 0 < o.phaseCut) (hd : 0 < o.delayCut) (sim orig : Vis) (γ : ℕ → ℝ) (hγ : ∀ a < S.n, 0 < γ a)
    (h0 : ∀ b < S.nb, ∀ c, orig b c ≠ 0) (hf : ∀ i < S.nf, 0 < S.freq (S.chan i)) (s : St)
    (hs : ∀ b c, s.data b c = scale S orig (fun _ => 1) s.delays s.phases b c) (h : Corrected S s.data sim γ fun _ _ => 0) :
    ∀ s', s' = pass S lsq mean ref o sim orig s →
      s'.converged = true ∧ ∀ a < S.n, s'.delays a = s.delays a ∧ s'.phases a = s.phases a := by
  rintro s' rfl
  have hne : ∀ b < S.nb, ∀ c, s.data b c ≠ 0 := by
    intro b hb c
    rw [hs b c]
    exact scale_ne S orig _ _ _ b c (h0 b hb c) one_ne_zero one_ne_zero
  have h1 : ∀ a < S.n, fitPhase S lsq ref sim s.data a = 0 :=
    C90_fit_phase S ref hg lsq hl sim s.data γ (fun _ => 0) hγ rfl hne (by intros; simp [Real.pi_pos]) h
  have h2 : ∀ a < S.n, fitDelay S lsq ref sim s.data a = 0 :=
    C90_fit_delay S ref hg lsq hl sim s.data γ (fun _ => 0) hγ rfl hne hf (by intros; simp [Real.pi_pos]) (by simpa using h)
  have e : pass S lsq mean ref o sim orig s = modePass S lsq ref o sim orig s := by simp [pass, ha]
  rw [e]
  classical
  unfold modePass
  cases ho : o.mode with
  | phase =>
    simp only
    rw [Bool.or_eq_true, decide_eq_true_iff]
    refine ⟨Or.inr fun a ha' _ => by rw [h1 a ha', abs_zero]; exact hp, fun a ha' => ⟨trivial, by rw [h1 a ha']; ring⟩⟩
  | delay =>
    simp only
    rw [Bool.or_eq_true, decide_eq_true_iff]
    refine ⟨Or.inr fun a ha' _ => by rw [h2 a ha', abs_zero]; exact hd, fun a ha' => ⟨by rw [h2 a ha']; ring, trivial⟩⟩
  | both =>
    simp only
    have hsame : ∀ b < S.nb, ∀ c, s.data b c =
        scale S orig (fun _ => 1) (fun a => s.delays a + o.gain * fitDelay S lsq ref sim s.data a) s.phases b c := by
      intro b hb c
      rw [hs b c, scale_eq, scale_eq, h2 _ (hg.lt b hb).1, h2 _ (hg.lt b hb).2]
      simp
    have h3 : ∀ a < S.n, fitPhase S lsq ref sim
        (scale S orig (fun _ => 1) (fun a => s.delays a + o.gain * fitDelay S lsq ref sim s.data a) s.phases) a = 0 :=
      C90_fit_phase S ref hg lsq hl sim _ γ (fun _ => 0) hγ rfl (fun b hb c => by rw [← hsame b hb c]; exact hne b hb c)
        (by intros; simp [Real.pi_pos]) (corrected_congr S sim _ _ hsame γ _ h)
    rw [Bool.or_eq_true, decide_eq_true_iff]
    refine ⟨Or.inr ⟨fun a ha' _ _ => by rw [h2 a ha', abs_zero]; exact hd, fun a ha' _ _ => by rw [h3 a ha', abs_zero]; exact hp⟩,
      fun a ha' => ⟨by rw [h2 a ha']; ring, by rw [h3 a ha']; ring⟩⟩

/-- With delays and phases both must be small for a stop. -/
theorem C90_stop (S : Sys) (lsq : Solver) (ref : ℕ) (o : Opts) (ho : o.mode = .both) (sim orig : Vis) (s s' : St)
    (hs' : s' = modePass S lsq ref o sim orig s) (hs : s.converged = false) (h : s'.converged = true) (a : ℕ) (ha : a < S.n)
    (h1 : |fitDelay S lsq ref sim s.data a| < 10 ^ 6)
    (h2 : |fitPhase S lsq ref sim (scale S orig (fun _ => 1) s'.delays s.phases) a| < 10 ^ 6) :
    |fitDelay S lsq ref sim s.data a| < o.delayCut ∧
      |fitPhase S lsq ref sim (scale S orig (fun _ => 1) s'.delays s.phases) a| < o.phaseCut := by
  classical
  subst hs'
  unfold modePass at h h2 ⊢
  rw [ho] at h h2 ⊢
  simp only at h h2 ⊢
  rw [hs, Bool.false_or, decide_eq_true_iff] at h
  exact ⟨h.1 a ha h1 h2, h.2 a ha h1 h2⟩

/-! ## All data -/

theorem exp_turn (x y : ℝ) (k : ℤ) (h : y = x - k * (2 * Real.pi)) : Complex.exp (y * Complex.I) = Complex.exp (x * Complex.I) := by
  rw [h]
  push_cast
  rw [show ((x : ℂ) - k * (2 * Real.pi)) * Complex.I = x * Complex.I - k * (2 * Real.pi * Complex.I) by ring]
  rw [Complex.exp_sub, Complex.exp_int_mul_two_pi_mul_I, div_one]

/-- The phases are put into the turn from minus half to half, the latter with it, and changed by full turns only. -/
theorem C90_wrap (p : ℝ) : -Real.pi < wrap p ∧ wrap p ≤ Real.pi ∧ ∃ k : ℤ, wrap p = p - k * (2 * Real.pi) := by
  have hp := Real.pi_pos
  have h2 : 0 < 2 * Real.pi := by positivity
  have h0 : 0 ≤ fmod p (2 * Real.pi) ∧ fmod p (2 * Real.pi) < 2 * Real.pi := by
    unfold fmod
    have e : p = 2 * Real.pi * (p / (2 * Real.pi)) := by field_simp
    have f1 := Int.floor_le (p / (2 * Real.pi))
    have f2 := Int.lt_floor_add_one (p / (2 * Real.pi))
    constructor
    · nlinarith
    · nlinarith
  unfold wrap
  split_ifs with h
  · refine ⟨by linarith, by linarith, ⌊p / (2 * Real.pi)⌋ + 1, ?_⟩
    unfold fmod; push_cast; ring
  · refine ⟨by linarith, not_lt.1 h, ⌊p / (2 * Real.pi)⌋, ?_⟩
    unfold fmod; ring

/-- What is true of every state: the data are the original ones with delays and phases put on, which are zero for the reference. -/
structure Inv (S : Sys) (o : Opts) (ref : ℕ) (orig : Vis) (s : St) : Prop where
  data : ∀ b c, s.data b c = scale S orig (fun _ => 1) s.delays s.phases b c
  ref : s.delays ref = 0 ∧ s.phases ref = 0
  phase : o.mode = .phase → ∀ a, s.delays a = 0
  delay : o.mode = .delay → ∀ a, s.phases a = 0

theorem insertZero_ref (ref : ℕ) (x : ℕ → ℝ) : insertZero ref x ref = 0 := by simp [insertZero]

theorem mode_inv (S : Sys) (lsq : Solver) (ref : ℕ) (o : Opts) (sim orig : Vis) (s : St) (h1 : s.delays ref = 0 ∧ s.phases ref = 0)
    (h2 : o.mode = .phase → ∀ a, s.delays a = 0) (h3 : o.mode = .delay → ∀ a, s.phases a = 0) :
    Inv S o ref orig (modePass S lsq ref o sim orig s) := by
  unfold modePass
  cases ho : o.mode with
  | phase =>
    have e : s.delays = fun _ => 0 := funext (h2 ho)
    refine ⟨fun b c => ?_, ⟨h1.1, ?_⟩, fun _ => h2 ho, fun h => (nomatch ho.symm.trans h)⟩
    · simp only [e]
    · simp only [h1.2, fitPhase, insertZero_ref, mul_zero, add_zero]
  | delay =>
    have e : s.phases = fun _ => 0 := funext (h3 ho)
    refine ⟨fun b c => ?_, ⟨?_, h1.2⟩, fun h => (nomatch ho.symm.trans h), fun _ => h3 ho⟩
    · simp only [e]
    · simp only [h1.1, fitDelay, insertZero_ref, mul_zero, add_zero]
  | both =>
    refine ⟨fun b c => rfl, ⟨?_, ?_⟩, fun h => (nomatch ho.symm.trans h), fun h => (nomatch ho.symm.trans h)⟩
    · simp only [h1.1, fitDelay, insertZero_ref, mul_zero, add_zero]
    · simp only [h1.2, fitPhase, insertZero_ref, mul_zero, add_zero]

theorem loop_inv (S : Sys) (lsq : Solver) (mean : List ℝ → ℝ) (ref : ℕ) (o : Opts) (sim orig : Vis) (k : ℕ) (s : St)
    (h : Inv S o ref orig s) : Inv S o ref orig (loop S lsq mean ref o sim orig k s) := by
  induction k generalizing s with
  | zero => exact h
  | succ k ih =>
    unfold loop
    split_ifs
    · exact h
    · apply ih
      unfold pass
      split_ifs
      · exact mode_inv S lsq ref o sim orig _ h.ref h.phase h.delay
      · exact mode_inv S lsq ref o sim orig _ h.ref h.phase h.delay

/-- The data that are returned are the original ones with the delays and phases that are returned, whatever they are like, and
the gains are never put on. -/
theorem C90_data (S : Sys) (lsq : Solver) (mean : List ℝ → ℝ) (ref : ℕ) (o : Opts) (sim orig : Vis) (k : ℕ) :
    ∀ s, s = selfCal S lsq mean ref o sim orig k →
      (∀ b c, s.data b c = scale S orig (fun _ => 1) s.delays s.phases b c) ∧ s.delays ref = 0 ∧ s.phases ref = 0 ∧
      (∀ a, -Real.pi < s.phases a ∧ s.phases a ≤ Real.pi) ∧
      (o.mode = .phase → ∀ a, s.delays a = 0) ∧ (o.mode = .delay → ∀ a, s.phases a = 0) := by
  rintro s rfl
  have h := loop_inv S lsq mean ref o sim orig k (start orig) ⟨fun b c => by
    rw [show (start orig).phases = fun _ => 0 from rfl, show (start orig).delays = fun _ => 0 from rfl,
      (C90_scale S orig (fun _ => 1) (fun _ => 1) (fun _ => 0) (fun _ => 0) (fun _ => 0) (fun _ => 0) b c).1]
    rfl, ⟨rfl, rfl⟩, fun _ _ => rfl, fun _ _ => rfl⟩
  have hw0 : wrap 0 = 0 := by
    have := Real.pi_pos
    simp [wrap, fmod, not_lt.2 this.le]
  unfold selfCal
  simp only
  generalize loop S lsq mean ref o sim orig k (start orig) = s at h
  refine ⟨fun b c => ?_, h.ref.1, by rw [h.ref.2, hw0], fun a => ⟨(C90_wrap _).1, (C90_wrap _).2.1⟩, h.phase,
    fun hm a => by rw [h.delay hm a, hw0]⟩
  rw [h.data b c, scale_eq, scale_eq]
  congr 1
  obtain ⟨k1, e1⟩ := (C90_wrap (s.phases (S.bl b).1)).2.2
  obtain ⟨k2, e2⟩ := (C90_wrap (s.phases (S.bl b).2)).2.2
  symm
  apply exp_turn _ _ (k1 - k2)
  rw [e1, e2]; push_cast; ring

/-! ## The reference -/

/-- A stand is found by its number, except for number zero, which means the first. -/
theorem C90_ref (stands : List ℕ) (ref : ℕ) (h0 : ref ≠ 0) :
    (∀ i, refIndex stands ref = some i → stands[i]? = some ref) ∧ (refIndex stands ref = none ↔ ref ∉ stands) := by
  have key : ∀ (l : List ℕ) (k : ℕ) (r : Option ℕ), ∀ q, q = (l.zipIdx k).foldl (fun r p => if ref = p.1 then some p.2 else r) r →
      (ref ∉ l → q = r) ∧ (ref ∈ l → ∃ i, q = some (k + i) ∧ l[i]? = some ref) := by
    intro l
    induction l with
    | nil => rintro k r q rfl; exact ⟨fun _ => rfl, fun h => by simp at h⟩
    | cons a l ih =>
      rintro k r q rfl
      rw [List.zipIdx_cons, List.foldl_cons]
      obtain ⟨h1, h2⟩ := ih (k + 1) (if ref = a then some k else r) _ rfl
      constructor
      · intro hn
        rw [List.mem_cons, not_or] at hn
        rw [h1 hn.2, if_neg hn.1]
      · intro hm
        by_cases hl : ref ∈ l
        · obtain ⟨i, hi, hi'⟩ := h2 hl
          exact ⟨i + 1, by rw [hi]; congr 1; omega, by simpa using hi'⟩
        · rcases List.mem_cons.1 hm with rfl | hm
          · exact ⟨0, by rw [h1 hl, if_pos rfl]; rfl, by simp⟩
          · exact absurd hm hl
  unfold refIndex
  rw [if_pos h0]
  obtain ⟨h1, h2⟩ := key stands 0 none _ rfl
  constructor
  · intro i hi
    by_cases hm : ref ∈ stands
    · obtain ⟨j, hj, hj'⟩ := h2 hm
      rw [hi] at hj
      have := Option.some.inj hj
      rw [this, Nat.zero_add]; exact hj'
    · rw [h1 hm] at hi; simp at hi
  · constructor
    · intro hn hm
      obtain ⟨j, hj, _⟩ := h2 hm
      rw [hn] at hj; simp at hj
    · exact h1

/-! ## There are such arrays -/

/-- Three antennas with all baselines. -/
def three : Sys := ⟨3, 3, fun b => if b = 0 then (0, 1) else if b = 1 then (0, 2) else (1, 2), fun _ => 5 * 10 ^ 7, 1, fun _ => 0⟩

example : Good three 0 ∧ Determined three := by
  have hb : ∀ b < 3, b = 0 ∨ b = 1 ∨ b = 2 := by omega
  refine ⟨⟨by decide, by decide, ?_, ?_, ?_⟩, ?_⟩
  · intro b h; rcases hb b h with rfl | rfl | rfl <;> decide
  · intro b h; rcases hb b h with rfl | rfl | rfl <;> decide
  · intro a h
    rcases hb a h with rfl | rfl | rfl
    · exact .start
    · exact Reach.forth (S := three) 0 (by decide) .start
    · exact Reach.forth (S := three) 1 (by decide) .start
  · intro x y h a ha
    have h1 := h 0 (by decide)
    have h2 := h 1 (by decide)
    have h3 := h 2 (by decide)
    simp [three] at h1 h2 h3
    rcases hb a ha with rfl | rfl | rfl <;> linarith

example : ∃ lsq, ExactSolve lsq := by
  classical
  refine ⟨fun rows cols A C => if h : ∃ x : ℕ → ℝ, ∀ r < rows, ∑ c ∈ Finset.range cols, A r c * x c = C r then h.choose else 0, ?_⟩
  intro rows cols A C h
  simp only [dif_pos h]
  exact h.choose_spec

end Verif.SelfCal
