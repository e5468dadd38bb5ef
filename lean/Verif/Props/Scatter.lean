import Verif.Model.Scatter
import Mathlib.Tactic.LinearCombination
/-!
# C89: removing scattering
-/
namespace Verif.Scatter
open Finset

/-! ## Screens -/

theorem normalise_sum (n : ℕ) (g h : ℕ → ℝ) (e : normalise n g = some h) : ∑ i ∈ range n, h i = 1 := by
  unfold normalise at e
  split_ifs at e with h0
  rw [← Option.some.inj e]
  simp only [div_eq_mul_inv]
  rw [← sum_mul, mul_inv_cancel₀ h0]

theorem normalise_one (n : ℕ) (g : ℕ → ℝ) (h : ∑ i ∈ range n, g i = 1) : normalise n g = some g := by
  unfold normalise
  rw [h, if_neg one_ne_zero]
  simp

/-- Every screen adds up to one. -/
theorem C89_unit (raw : ℝ → (ℕ → ℝ) → ℕ → ℝ) (n : ℕ) (t : ℕ → ℝ) (tau : ℝ) (g : ℕ → ℝ) (h : screen raw n t tau = some g) :
    ∑ i ∈ range n, g i = 1 := normalise_sum n _ g h

theorem screen_nonneg (raw : ℝ → (ℕ → ℝ) → ℕ → ℝ) (n : ℕ) (t : ℕ → ℝ) (tau : ℝ) (g : ℕ → ℝ)
    (hr : ∀ i, 0 ≤ raw tau t i) (h : screen raw n t tau = some g) (i : ℕ) : 0 ≤ g i := by
  unfold screen normalise at h
  split_ifs at h
  rw [← Option.some.inj h]
  exact div_nonneg (hr i) (sum_nonneg fun j _ => hr j)

theorem thinRaw_nonneg (tau : ℝ) (h : 0 < tau) (t : ℕ → ℝ) (i : ℕ) : 0 ≤ thinRaw tau t i := by
  unfold thinRaw; split_ifs <;> positivity

theorem thickRaw_nonneg (tau : ℝ) (t : ℕ → ℝ) (i : ℕ) : 0 ≤ thickRaw tau t i := by
  unfold thickRaw; split_ifs <;> positivity

theorem uniformRaw_nonneg (tau : ℝ) (t : ℕ → ℝ) (i : ℕ) : 0 ≤ uniformRaw tau t i := by
  unfold uniformRaw; split_ifs <;> positivity

/-- No screen is negative. -/
theorem C89_nonneg (n : ℕ) (t : ℕ → ℝ) (tau : ℝ) (h : 0 < tau) (g : ℕ → ℝ) (i : ℕ) :
    (screen thinRaw n t tau = some g → 0 ≤ g i) ∧ (screen thickRaw n t tau = some g → 0 ≤ g i) ∧
      (screen uniformRaw n t tau = some g → 0 ≤ g i) :=
  ⟨fun e => screen_nonneg _ n t tau g (thinRaw_nonneg tau h t) e i,
    fun e => screen_nonneg _ n t tau g (thickRaw_nonneg tau t) e i,
    fun e => screen_nonneg _ n t tau g (uniformRaw_nonneg tau t) e i⟩

/-- Nothing arrives before the pulse. -/
theorem C89_causal (n : ℕ) (t : ℕ → ℝ) (tau : ℝ) (g : ℕ → ℝ) (i : ℕ) (hi : t i < 0) :
    (screen thinRaw n t tau = some g → g i = 0) ∧ (screen thickRaw n t tau = some g → g i = 0) ∧
      (screen uniformRaw n t tau = some g → g i = 0) := by
  refine ⟨?_, ?_, ?_⟩ <;>
  · intro e
    unfold screen normalise at e
    split_ifs at e
    rw [← Option.some.inj e]
    simp [thinRaw, thickRaw, uniformRaw, not_le.2 hi, not_lt.2 hi.le]

/-- A thin screen is an exponential with the scattering time. -/
theorem C89_thin (n : ℕ) (t : ℕ → ℝ) (tau : ℝ) (g : ℕ → ℝ) (e : screen thinRaw n t tau = some g) (i j : ℕ)
    (hi : 0 ≤ t i) (hj : 0 ≤ t j) : g j = g i * Real.exp (-(t j - t i) / tau) := by
  unfold screen normalise at e
  split_ifs at e
  rw [← Option.some.inj e]
  simp only [thinRaw, if_pos hi, if_pos hj]
  rw [show -t j / tau = -t i / tau + -(t j - t i) / tau by ring, Real.exp_add]
  ring

/-- A thin screen is always there from a sample on. -/
theorem C89_thin_some (n : ℕ) (t : ℕ → ℝ) (tau : ℝ) (h : 0 < tau) (p : ℕ) (hp : p < n) (h0 : 0 ≤ t p) :
    ∃ g, screen thinRaw n t tau = some g := by
  unfold screen normalise
  rw [if_neg]
  · exact ⟨_, rfl⟩
  · have h1 : 0 < thinRaw tau t p := by unfold thinRaw; rw [if_pos h0]; positivity
    have := sum_pos' (s := range n) (fun i _ => thinRaw_nonneg tau h t i) ⟨p, mem_range.2 hp, h1⟩
    exact this.ne'

/-- The others are not there when the peak is the last of the profile. -/
theorem C89_not_last (n : ℕ) (t : ℕ → ℝ) (ht : ∀ i < n, t i ≤ t (n - 1)) (tau : ℝ) :
    response (screen thickRaw) n t tau (n - 1) = none ∧ response (screen uniformRaw) n t tau (n - 1) = none := by
  have key : ∀ raw : ℝ → (ℕ → ℝ) → ℕ → ℝ, (∀ (s : ℕ → ℝ) i, s i ≤ 0 → raw tau s i = 0) →
      response (screen raw) n t tau (n - 1) = none := by
    intro raw hraw
    have h0 : ∑ i ∈ range n, raw tau (fun i => t i - t (n - 1)) i = 0 :=
      sum_eq_zero fun i hi => hraw _ i (sub_nonpos.2 (ht i (mem_range.1 hi)))
    unfold response screen normalise
    rw [if_pos h0]; rfl
  constructor
  · apply key; intro s i hs; simp [thickRaw, not_lt.2 hs]
  · apply key; intro s i hs; simp [uniformRaw, not_lt.2 hs]

/-! ## The peak -/

theorem peak_lt (w : ℕ → ℝ) (n : ℕ) (h : 0 < n) : peak w n < n := by
  induction n with
  | zero => omega
  | succ n ih =>
    unfold peak
    split_ifs
    · omega
    · rcases Nat.eq_zero_or_pos n with rfl | hn
      · simp [peak]
      · exact Nat.lt_succ_of_lt (ih hn)

/-- The peak is a largest value and the first of them. -/
theorem C89_peak (w : ℕ → ℝ) (n i : ℕ) (hi : i < n) : w i ≤ w (peak w n) ∧ (w i = w (peak w n) → peak w n ≤ i) := by
  induction n with
  | zero => omega
  | succ n ih =>
    unfold peak
    by_cases hc : w (peak w n) < w n
    · rw [if_pos hc]
      rcases Nat.lt_succ_iff_lt_or_eq.1 hi with h | rfl
      · have := (ih h).1
        exact ⟨by linarith, fun e => by linarith⟩
      · exact ⟨le_refl _, fun _ => le_refl _⟩
    · rw [if_neg hc]
      rcases Nat.lt_succ_iff_lt_or_eq.1 hi with h | rfl
      · exact ih h
      · refine ⟨not_lt.1 hc, fun _ => ?_⟩
        rcases Nat.eq_zero_or_pos i with rfl | hn
        · simp [peak]
        · exact (peak_lt w i hn).le

/-! ## The passes -/

/-- Residuals and components scattered again are the profile: no pass loses or adds anything. -/
theorem C89_explains (scr : ℕ → (ℕ → ℝ) → ℝ → Option (ℕ → ℝ)) (n : ℕ) (t : ℕ → ℝ) (tau gain sigma : ℝ) (hn : 0 < n) (K : ℕ → ℕ → ℝ)
    (hK : ∀ p < n, ∀ g, response scr n t tau p = some g → g = K p) (k : ℕ) (w0 c0 : ℕ → ℝ) (i0 : ℕ) (w c : ℕ → ℝ) (i : ℕ)
    (h : clean scr n t tau gain sigma k w0 c0 i0 = some (w, c, i)) (j : ℕ) :
    w j + ∑ p ∈ range n, c p * K p j = w0 j + ∑ p ∈ range n, c0 p * K p j := by
  induction k generalizing w0 c0 i0 with
  | zero =>
    simp only [clean, Option.some.injEq, Prod.mk.injEq] at h
    rw [h.1, h.2.1]
  | succ k ih =>
    unfold clean at h
    simp only at h
    split_ifs at h with hs
    · simp only [Option.some.injEq, Prod.mk.injEq] at h
      rw [h.1, h.2.1]
    · obtain ⟨g, hg, h⟩ := Option.bind_eq_some_iff.1 h
      have hp := peak_lt w0 n hn
      rw [ih _ _ _ h]
      have hsum : ∑ j ∈ range n, g j = 1 := by
        unfold response at hg
        obtain ⟨g', _, hg'⟩ := Option.bind_eq_some_iff.1 hg
        exact normalise_sum n g' g hg'
      have e : ∑ j ∈ range n, g j * (gain * w0 (peak w0 n)) = gain * w0 (peak w0 n) := by
        rw [← sum_mul, hsum, one_mul]
      rw [e]
      have hgK := hK _ hp g hg
      have e2 : ∑ p ∈ range n, Function.update c0 (peak w0 n) (c0 (peak w0 n) + gain * w0 (peak w0 n)) p * K p j =
          ∑ p ∈ range n, c0 p * K p j + gain * w0 (peak w0 n) * K (peak w0 n) j := by
        have e3 : ∀ p, Function.update c0 (peak w0 n) (c0 (peak w0 n) + gain * w0 (peak w0 n)) p * K p j =
            c0 p * K p j + if p = peak w0 n then gain * w0 (peak w0 n) * K (peak w0 n) j else 0 := by
          intro p
          by_cases hpp : p = peak w0 n
          · subst hpp; simp; ring
          · simp [hpp]
        rw [sum_congr rfl fun p _ => e3 p, sum_add_distrib, sum_ite_eq' (range n) (peak w0 n), if_pos (mem_range.2 hp)]
      rw [e2, hgK]
      ring

/-- A thin screen: the profile is the residuals and the components scattered by the screen from their places. -/
theorem C89_profile (n : ℕ) (hn : 0 < n) (t : ℕ → ℝ) (tau gain sigma : ℝ) (k : ℕ) (raw w c : ℕ → ℝ) (i : ℕ)
    (h : clean (screen thinRaw) n t tau gain sigma k raw (fun _ => 0) 0 = some (w, c, i)) (K : ℕ → ℕ → ℝ)
    (hK : ∀ p < n, screen thinRaw n (fun i => t i - t p) tau = some (K p)) (j : ℕ) :
    raw j = w j + ∑ p ∈ range n, c p * K p j := by
  have := C89_explains (screen thinRaw) n t tau gain sigma hn K (by
    intro p hp g hg
    unfold response at hg
    rw [hK p hp, Option.bind_some, normalise_one n _ (C89_unit _ n _ tau _ (hK p hp))] at hg
    exact (Option.some.inj hg).symm) k raw (fun _ => 0) 0 w c i h j
  rw [this]; simp

/-- The flux is kept: what the residuals lose the components have. -/
theorem C89_flux (scr : ℕ → (ℕ → ℝ) → ℝ → Option (ℕ → ℝ)) (n : ℕ) (t : ℕ → ℝ) (tau gain sigma : ℝ) (hn : 0 < n) (k : ℕ)
    (w0 c0 : ℕ → ℝ) (i0 : ℕ) (w c : ℕ → ℝ) (i : ℕ) (h : clean scr n t tau gain sigma k w0 c0 i0 = some (w, c, i)) :
    ∑ j ∈ range n, w j + ∑ j ∈ range n, c j = ∑ j ∈ range n, w0 j + ∑ j ∈ range n, c0 j := by
  have key : ∀ p < n, ∀ g, response scr n t tau p = some g → g = (response scr n t tau p).getD 0 := by
    intro p _ g hg; rw [hg]; rfl
  induction k generalizing w0 c0 i0 with
  | zero =>
    simp only [clean, Option.some.injEq, Prod.mk.injEq] at h
    rw [h.1, h.2.1]
  | succ k ih =>
    unfold clean at h
    simp only at h
    split_ifs at h with hs
    · simp only [Option.some.injEq, Prod.mk.injEq] at h
      rw [h.1, h.2.1]
    · obtain ⟨g, hg, h⟩ := Option.bind_eq_some_iff.1 h
      have hp := peak_lt w0 n hn
      rw [ih _ _ _ h, sum_sub_distrib]
      generalize ∑ j ∈ range n, g j * (gain * w0 (peak w0 n)) = r
      have e3 : ∀ p, Function.update c0 (peak w0 n) (c0 (peak w0 n) + r) p = c0 p + if p = peak w0 n then r else 0 := by
        intro p
        by_cases hpp : p = peak w0 n
        · subst hpp; simp
        · simp [hpp]
      rw [sum_congr rfl fun p _ => e3 p, sum_add_distrib, sum_ite_eq' (range n) (peak w0 n), if_pos (mem_range.2 hp)]
      ring

/-- No component is negative. -/
theorem C89_components (scr : ℕ → (ℕ → ℝ) → ℝ → Option (ℕ → ℝ)) (n : ℕ) (t : ℕ → ℝ) (tau gain sigma : ℝ) (hg : 0 ≤ gain)
    (hs : 0 ≤ sigma) (k : ℕ) (w0 c0 : ℕ → ℝ) (hc : ∀ j, 0 ≤ c0 j) (i0 : ℕ) (w c : ℕ → ℝ) (i : ℕ)
    (h : clean scr n t tau gain sigma k w0 c0 i0 = some (w, c, i)) (j : ℕ) : 0 ≤ c j := by
  induction k generalizing w0 c0 i0 with
  | zero =>
    simp only [clean, Option.some.injEq, Prod.mk.injEq] at h
    rw [← h.2.1]; exact hc j
  | succ k ih =>
    unfold clean at h
    simp only at h
    split_ifs at h with hlt
    · simp only [Option.some.injEq, Prod.mk.injEq] at h
      rw [← h.2.1]; exact hc j
    · obtain ⟨g, hg', h⟩ := Option.bind_eq_some_iff.1 h
      apply ih _ _ _ _ h
      have hsum : ∑ j ∈ range n, g j = 1 := by
        unfold response at hg'
        obtain ⟨g', _, hg''⟩ := Option.bind_eq_some_iff.1 hg'
        exact normalise_sum n g' g hg''
      intro p
      rw [← sum_mul, hsum, one_mul]
      have hw : 0 ≤ w0 (peak w0 n) := le_trans (by positivity) (not_lt.1 hlt)
      by_cases hpp : p = peak w0 n
      · subst hpp; rw [Function.update_self]; have := hc (peak w0 n); positivity
      · rw [Function.update_of_ne hpp]; exact hc p

/-- It ends with no peak left above the noise or with all the passes used. -/
theorem C89_ends (scr : ℕ → (ℕ → ℝ) → ℝ → Option (ℕ → ℝ)) (n : ℕ) (t : ℕ → ℝ) (tau gain sigma : ℝ) (k : ℕ) (w0 c0 : ℕ → ℝ) (i0 : ℕ)
    (w c : ℕ → ℝ) (i : ℕ) (h : clean scr n t tau gain sigma k w0 c0 i0 = some (w, c, i)) :
    i0 ≤ i ∧ i ≤ i0 + k ∧ (i = i0 + k ∨ ∀ j < n, w j < 3 / 2 * sigma) := by
  induction k generalizing w0 c0 i0 with
  | zero =>
    simp only [clean, Option.some.injEq, Prod.mk.injEq] at h
    omega
  | succ k ih =>
    unfold clean at h
    simp only at h
    split_ifs at h with hlt
    · simp only [Option.some.injEq, Prod.mk.injEq] at h
      obtain ⟨rfl, _, rfl⟩ := h
      exact ⟨le_refl _, by omega, Or.inr fun j hj => lt_of_le_of_lt (C89_peak _ n j hj).1 hlt⟩
    · obtain ⟨g, _, h⟩ := Option.bind_eq_some_iff.1 h
      obtain ⟨h1, h2, h3⟩ := ih _ _ _ h
      refine ⟨by omega, by omega, ?_⟩
      rcases h3 with h3 | h3
      · left; omega
      · right; exact h3

/-- With a thin screen it always ends with a result. -/
theorem C89_thin_ends (n : ℕ) (hn : 0 < n) (t : ℕ → ℝ) (tau gain sigma : ℝ) (ht : 0 < tau) (k : ℕ) (w0 c0 : ℕ → ℝ) (i0 : ℕ) :
    ∃ r, clean (screen thinRaw) n t tau gain sigma k w0 c0 i0 = some r := by
  induction k generalizing w0 c0 i0 with
  | zero => exact ⟨_, rfl⟩
  | succ k ih =>
    unfold clean
    simp only
    split_ifs
    · exact ⟨_, rfl⟩
    · obtain ⟨g, hg⟩ := C89_thin_some n (fun i => t i - t (peak w0 n)) tau ht (peak w0 n) (peak_lt w0 n hn) (by simp)
      have : response (screen thinRaw) n t tau (peak w0 n) = some g := by
        unfold response
        rw [hg, Option.bind_some]
        exact normalise_one n g (C89_unit _ n _ tau g hg)
      rw [this, Option.bind_some]
      exact ih _ _ _

/-! ## Figures of merit -/

/-- The positivity is not negative, and zero when no residual is far below zero. -/
theorem C89_positivity (n : ℕ) (hn : 0 < n) (sigma : ℝ) (hs : 0 < sigma) (r : ℕ → ℝ) :
    0 ≤ positivity n sigma r ∧ (positivity n sigma r = 0 ↔ ∀ i < n, -(3 / 2 * sigma) < r i) := by
  have hn' : (0 : ℝ) < n := by exact_mod_cast hn
  have hnn : ∀ i ∈ range n, 0 ≤ r i ^ 2 * (if 0 ≤ -r i - 3 / 2 * sigma then (1 : ℝ) else 0) := by
    intro i _; split_ifs <;> positivity
  have hsum := sum_nonneg hnn
  unfold positivity
  refine ⟨by positivity, ?_⟩
  rw [mul_eq_zero, div_eq_zero_iff, or_iff_left (by positivity), or_iff_left hn'.ne', sum_eq_zero_iff_of_nonneg hnn]
  constructor
  · intro h i hi
    have := h i (mem_range.2 hi)
    by_contra hc
    rw [if_pos (by linarith [not_lt.1 hc])] at this
    have : r i = 0 := by simpa using this
    rw [this] at hc
    exact hc (by linarith)
  · intro h i hi
    have := h i (mem_range.1 hi)
    rw [if_neg (by linarith), mul_zero]

/-- The skewness does not depend on when the profile starts. -/
theorem C89_skewness_shift (n : ℕ) (t cc : ℕ → ℝ) (s : ℝ) (hc : ∑ i ∈ range n, cc i ≠ 0) :
    skewness n (fun i => t i + s) cc = skewness n t cc := by
  have e : (∑ i ∈ range n, (t i + s) * cc i) / ∑ i ∈ range n, cc i =
      (∑ i ∈ range n, t i * cc i) / ∑ i ∈ range n, cc i + s := by
    rw [sum_congr rfl fun i _ => add_mul (t i) s (cc i), sum_add_distrib, ← mul_sum, add_div, mul_div_cancel_right₀ _ hc]
  unfold skewness
  simp only [e, add_sub_add_right_eq_sub]

/-- A profile run backwards has the opposite skewness. -/
theorem C89_skewness_mirror (n : ℕ) (t cc : ℕ → ℝ) : skewness n (fun i => -t i) cc = -skewness n t cc := by
  have e : (∑ i ∈ range n, -t i * cc i) / ∑ i ∈ range n, cc i = -((∑ i ∈ range n, t i * cc i) / ∑ i ∈ range n, cc i) := by
    rw [sum_congr rfl fun i _ => neg_mul (t i) (cc i), sum_neg_distrib, neg_div]
  unfold skewness
  simp only [e]
  generalize (∑ i ∈ range n, t i * cc i) / ∑ i ∈ range n, cc i = m
  have e2 : ∑ i ∈ range n, (-t i - -m) ^ 2 * cc i = ∑ i ∈ range n, (t i - m) ^ 2 * cc i :=
    sum_congr rfl fun i _ => by ring
  have e3 : ∑ i ∈ range n, (-t i - -m) ^ 3 * cc i = -∑ i ∈ range n, (t i - m) ^ 3 * cc i := by
    rw [← sum_neg_distrib]; exact sum_congr rfl fun i _ => by ring
  rw [e2, e3, neg_div]

/-- It is not normalised: components four times as large have a smaller skewness, wherever it is not too near to zero. -/
theorem C89_not_skewness (n : ℕ) (t cc : ℕ → ℝ)
    (h2 : 2 / 10 ^ 15 ≤ ∑ i ∈ range n, (t i - (∑ i ∈ range n, t i * cc i) / ∑ i ∈ range n, cc i) ^ 2 * cc i)
    (h3 : 0 < ∑ i ∈ range n, (t i - (∑ i ∈ range n, t i * cc i) / ∑ i ∈ range n, cc i) ^ 3 * cc i) :
    skewness n t (fun i => 4 * cc i) < skewness n t cc := by
  have e : (∑ i ∈ range n, t i * (4 * cc i)) / ∑ i ∈ range n, 4 * cc i = (∑ i ∈ range n, t i * cc i) / ∑ i ∈ range n, cc i := by
    rw [← mul_sum, sum_congr rfl fun i _ => mul_left_comm (t i) 4 (cc i), ← mul_sum, mul_div_mul_left _ _ (by norm_num)]
  unfold skewness
  simp only [e]
  generalize (∑ i ∈ range n, t i * cc i) / ∑ i ∈ range n, cc i = m at *
  rw [sum_congr rfl fun i _ => mul_left_comm ((t i - m) ^ 2) 4 (cc i), ← mul_sum,
    sum_congr rfl fun i _ => mul_left_comm ((t i - m) ^ 3) 4 (cc i), ← mul_sum]
  generalize ∑ i ∈ range n, (t i - m) ^ 2 * cc i = t2 at *
  generalize ∑ i ∈ range n, (t i - m) ^ 3 * cc i = t3 at *
  have he : (0 : ℝ) < 1 / 10 ^ 15 := by positivity
  have h2' : 2 * (1 / 10 ^ 15 : ℝ) ≤ t2 := by rw [mul_one_div]; exact h2
  generalize (1 / 10 ^ 15 : ℝ) = ε at *
  have hx : 0 < (t2 + ε) ^ (3 / 2 : ℝ) := Real.rpow_pos_of_pos (by linarith) _
  have h4 : (4 : ℝ) < 3 ^ (3 / 2 : ℝ) := by
    have e1 : (3 : ℝ) ^ (3 / 2 : ℝ) = 27 ^ (1 / 2 : ℝ) := by
      rw [show (27 : ℝ) = 3 ^ (3 : ℝ) by norm_num, ← Real.rpow_mul (by norm_num)]; norm_num
    have e2 : (4 : ℝ) = 16 ^ (1 / 2 : ℝ) := by
      rw [show (16 : ℝ) = 4 ^ (2 : ℝ) by norm_num, ← Real.rpow_mul (by norm_num)]; norm_num
    rw [e1, e2]
    exact Real.rpow_lt_rpow (by norm_num) (by norm_num) (by norm_num)
  have h5 : 3 ^ (3 / 2 : ℝ) * (t2 + ε) ^ (3 / 2 : ℝ) ≤ (4 * t2 + ε) ^ (3 / 2 : ℝ) := by
    rw [← Real.mul_rpow (by norm_num) (by linarith)]
    exact Real.rpow_le_rpow (by linarith) (by linarith) (by norm_num)
  have h6 : 4 * (t2 + ε) ^ (3 / 2 : ℝ) < (4 * t2 + ε) ^ (3 / 2 : ℝ) := lt_of_lt_of_le (mul_lt_mul_of_pos_right h4 hx) h5
  rw [div_lt_div_iff₀ (by linarith) hx]
  nlinarith

/-! ## The search -/

theorem search_some (b : ℝ × ℝ) (l : List (ℝ × ℝ)) : ∃ r, search (some b) l = some r ∧ (r = b ∨ r ∈ l) ∧ r.2 ≤ b.2 ∧
    ∀ p ∈ l, r.2 ≤ p.2 := by
  induction l generalizing b with
  | nil => exact ⟨b, rfl, Or.inl rfl, le_refl _, by simp⟩
  | cons p l ih =>
    unfold search
    split_ifs with h
    · obtain ⟨r, h1, h2, h3, h4⟩ := ih p
      refine ⟨r, h1, ?_, by linarith, ?_⟩
      · rcases h2 with rfl | h2
        · exact Or.inr (by simp)
        · exact Or.inr (by simp [h2])
      · intro q hq
        rcases List.mem_cons.1 hq with rfl | hq
        · exact h3
        · exact h4 q hq
    · obtain ⟨r, h1, h2, h3, h4⟩ := ih b
      refine ⟨r, h1, ?_, h3, ?_⟩
      · rcases h2 with rfl | h2
        · exact Or.inl rfl
        · exact Or.inr (by simp [h2])
      · intro q hq
        rcases List.mem_cons.1 hq with rfl | hq
        · linarith [not_lt.1 h]
        · exact h4 q hq

/-- The result is one of the scattering times that were tried, and none of them has a better figure of merit. -/
theorem C89_best (l : List (ℝ × ℝ)) (hne : l ≠ []) : ∃ r ∈ l, search none l = some r ∧ ∀ p ∈ l, r.2 ≤ p.2 := by
  obtain ⟨b, l', rfl⟩ := List.exists_cons_of_ne_nil hne
  obtain ⟨r, h1, h2, h3, h4⟩ := search_some b l'
  refine ⟨r, ?_, h1, ?_⟩
  · rcases h2 with rfl | h2
    · simp
    · simp [h2]
  · intro p hp
    rcases List.mem_cons.1 hp with rfl | hp
    · exact h3
    · exact h4 p hp

/-! ## Restoring -/

theorem gaussian_sum_pos (n : ℕ) (hn : 0 < n) (t : ℕ → ℝ) : 0 < ∑ i ∈ range n, gaussian t i :=
  sum_pos (fun _ _ => Real.exp_pos _) ⟨0, mem_range.2 hn⟩

/-- A single component with no residuals. -/
theorem restore_single (n : ℕ) (t : ℕ → ℝ) (p : ℕ) (hp : p < n) (a : ℝ) (i : ℕ) :
    restore n t (fun j => if j = p then a else 0) (fun _ => 0) i =
      if p ≤ i + (n - 1) / 2 ∧ i + (n - 1) / 2 - p < n then
        a * (gaussian t (i + (n - 1) / 2 - p) / ∑ i ∈ range n, gaussian t i) else 0 := by
  unfold restore convolveSame
  rw [add_zero, sum_eq_single_of_mem p (mem_range.2 hp)]
  · simp
  · intro j _ hj
    simp [hj]

theorem gaussian_lt (t : ℕ → ℝ) (d : ℝ) (hd : 0 < d) (h10 : t 1 - t 0 = d) (i j : ℕ) (h : t j ^ 2 < t i ^ 2) :
    gaussian t i < gaussian t j := by
  unfold gaussian
  rw [h10]
  apply Real.exp_lt_exp.2
  have : 0 < 2 * (5 * d) ^ 2 := by positivity
  exact div_lt_div_of_pos_right (by linarith) this

/-- Components and residuals add up, and without components the residuals are the profile. -/
theorem C89_restore_add (n : ℕ) (t c1 c2 r1 r2 : ℕ → ℝ) (i : ℕ) :
    restore n t (fun j => c1 j + c2 j) (fun j => r1 j + r2 j) i = restore n t c1 r1 i + restore n t c2 r2 i ∧
      restore n t (fun _ => 0) r1 i = r1 i := by
  constructor
  · unfold restore convolveSame
    rw [add_add_add_comm, ← sum_add_distrib]
    congr 1
    apply sum_congr rfl
    intro j _
    split_ifs <;> ring
  · unfold restore convolveSame
    simp

/-- When the times have their zero in the middle, a component stays where it is. -/
theorem C89_restored (n : ℕ) (d : ℝ) (hd : 0 < d) (a : ℝ) (ha : 0 < a) (p : ℕ) (hp : p < n) (i : ℕ) (hi : i ≠ p) (hin : i < n) :
    let t : ℕ → ℝ := fun k => (k - ((n - 1) / 2 : ℕ)) * d
    restore n t (fun j => if j = p then a else 0) (fun _ => 0) i < restore n t (fun j => if j = p then a else 0) (fun _ => 0) p := by
  intro t
  have hg := gaussian_sum_pos n (by omega) t
  rw [restore_single n t p hp, restore_single n t p hp]
  rw [if_pos (show p ≤ p + (n - 1) / 2 ∧ p + (n - 1) / 2 - p < n by omega)]
  split_ifs with hc
  · apply mul_lt_mul_of_pos_left _ ha
    apply div_lt_div_of_pos_right _ hg
    apply gaussian_lt t d hd (by simp only [t]; push_cast; ring)
    rw [show p + (n - 1) / 2 - p = (n - 1) / 2 by omega]
    have e0 : t ((n - 1) / 2) = 0 := by simp [t]
    have e1 : t (i + (n - 1) / 2 - p) ≠ 0 := by
      simp only [t]
      apply mul_ne_zero _ hd.ne'
      rw [sub_ne_zero]
      intro h
      have : i + (n - 1) / 2 - p = (n - 1) / 2 := by exact_mod_cast h
      omega
    rw [e0, zero_pow two_ne_zero]
    exact lt_of_le_of_ne (sq_nonneg _) (Ne.symm (pow_ne_zero 2 e1))
  · have : 0 < gaussian t (p + (n - 1) / 2 - p) := Real.exp_pos _
    exact mul_pos ha (div_pos this hg)

/-- When they start at zero it is moved by half of the profile towards the start. -/
theorem C89_not_restored (n : ℕ) (d : ℝ) (hd : 0 < d) (a : ℝ) (ha : 0 < a) (p : ℕ) (hp : p < n) (h2 : (n - 1) / 2 ≤ p) (i : ℕ)
    (hi : i ≠ p - (n - 1) / 2) :
    let t : ℕ → ℝ := fun k => k * d
    restore n t (fun j => if j = p then a else 0) (fun _ => 0) i <
      restore n t (fun j => if j = p then a else 0) (fun _ => 0) (p - (n - 1) / 2) := by
  intro t
  have hg := gaussian_sum_pos n (by omega) t
  rw [restore_single n t p hp, restore_single n t p hp]
  rw [if_pos (show p ≤ p - (n - 1) / 2 + (n - 1) / 2 ∧ p - (n - 1) / 2 + (n - 1) / 2 - p < n by omega)]
  split_ifs with hc
  · apply mul_lt_mul_of_pos_left _ ha
    apply div_lt_div_of_pos_right _ hg
    apply gaussian_lt t d hd (by simp only [t]; push_cast; ring)
    rw [show p - (n - 1) / 2 + (n - 1) / 2 - p = 0 by omega]
    have e0 : t 0 = 0 := by simp [t]
    have e1 : t (i + (n - 1) / 2 - p) ≠ 0 := by
      simp only [t]
      apply mul_ne_zero _ hd.ne'
      have : i + (n - 1) / 2 - p ≠ 0 := by omega
      exact_mod_cast this
    rw [e0, zero_pow two_ne_zero]
    exact lt_of_le_of_ne (sq_nonneg _) (Ne.symm (pow_ne_zero 2 e1))
  · have : 0 < gaussian t (p - (n - 1) / 2 + (n - 1) / 2 - p) := Real.exp_pos _
    exact mul_pos ha (div_pos this hg)

end Verif.Scatter
