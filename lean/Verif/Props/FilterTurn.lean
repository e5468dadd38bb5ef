import Verif.Props.FilterBank
import Verif.Props.Turn
import Mathlib.Analysis.SpecialFunctions.Trigonometric.Sinc
/-!
# C83: the filter bank of complex samples
-/
namespace Verif.FilterBank
open Verif.CMem

open Verif.Turn (turn turn_add turn_one num_eq conj_turn sumN_finset)

/-- `np.sinc`. -/
noncomputable def sincC (x : Rat) : ℂ := (Real.sinc (Real.pi * (x : ℝ)) : ℝ)

theorem sincC_even (x : Rat) : sincC (-x) = sincC x := by
  unfold sincC
  push_cast
  rw [mul_neg, Real.sinc_neg]

theorem sincC_lt (x : Rat) (h : x ≠ 0) : sincC x ≠ 1 := by
  unfold sincC
  intro hc
  have hc' : Real.sinc (Real.pi * (x : ℝ)) = 1 := by exact_mod_cast hc
  have hne : Real.pi * (x : ℝ) ≠ 0 := mul_ne_zero Real.pi_ne_zero (by exact_mod_cast h)
  have := Real.sinc_of_ne_zero hne
  rw [this] at hc'
  have hs : Real.sin (Real.pi * (x : ℝ)) = Real.pi * (x : ℝ) := by field_simp at hc'; exact hc'
  rcases lt_or_gt_of_ne hne with h' | h'
  · have := Real.lt_sin h'
    rw [hs] at this; exact lt_irrefl _ this
  · have := Real.sin_lt h'
    rw [hs] at this; exact lt_irrefl _ this

/-- The filter is zero a whole number of blocks off its centre. -/
theorem C83_zeros (m : Int) (h : m ≠ 0) : sincC m = 0 := by
  unfold sincC
  have hne : Real.pi * ((m : Rat) : ℝ) ≠ 0 := mul_ne_zero Real.pi_ne_zero (by exact_mod_cast h)
  rw [Real.sinc_of_ne_zero hne]
  have : Real.sin (Real.pi * ((m : Rat) : ℝ)) = 0 := by
    rw [mul_comm]
    push_cast
    exact Real.sin_int_mul_pi m
  rw [this]
  simp

/-- A real signal has the channels of negative frequencies conjugate to those of positive. -/
theorem C83_real (c s : Nat → ℂ) (hc : ∀ t, (starRingEnd ℂ) (c t) = c t) (hs : ∀ t, (starRingEnd ℂ) (s t) = s t) (N P k : Nat)
    (hN : 0 < N) (hk : k ≤ N) : Spec.channel turn c s N P (N - k) = (starRingEnd ℂ) (Spec.channel turn c s N P k) := by
  unfold Spec.channel
  rw [sumN_finset, sumN_finset, map_sum]
  apply Finset.sum_congr rfl
  intro t _
  rw [map_mul, map_mul, hc, hs, conj_turn]
  congr 1
  have : (-(((N - k) * t : Nat) : Rat) / N) = -(-((k * t : Nat) : Rat) / N) + ((-(t : Int) : Int) : Rat) := by
    have n0 : (N : Rat) ≠ 0 := by exact_mod_cast hN.ne'
    push_cast [Nat.cast_sub hk]
    field_simp
    ring
  rw [this, Dedisp.exp_shift ⟨turn_add, (turn_one 1).mpr ⟨1, by norm_num⟩⟩]

/-- With one tap the filter bank is not the plain transform: a sample at the beginning is weakened. -/
theorem C83_not_plain (N : Nat) (hN : 2 ≤ N) : Spec.channel turn (fun t => (coeff sincC N 1).getD t 0) (fun t => if t = 0 then 1 else 0) N 1 0
    ≠ Spec.channel turn (fun _ => 1) (fun t => if t = 0 then 1 else 0) N 1 0 := by
  have key : ∀ c : Nat → ℂ, Spec.channel turn c (fun t => if t = 0 then 1 else 0) N 1 0 = c 0 := by
    intro c
    unfold Spec.channel
    rw [sumN_finset, Finset.sum_eq_single 0]
    · simp [(turn_one 0).mpr ⟨0, by simp⟩]
    · intro b _ hb
      simp [hb]
    · intro h
      simp at h
      omega
  rw [key, key, coeff_get _ _ _ _ (by omega)]
  apply sincC_lt
  intro h
  have n0 : (N : Rat) ≠ 0 := by exact_mod_cast (by omega : N ≠ 0)
  rw [div_eq_zero_iff] at h
  rcases h with h | h
  · push_cast at h
    have : (N : Rat) = 1 := by linarith
    have : N = 1 := by exact_mod_cast this
    omega
  · exact n0 h

/-! ### examples -/

/-- Four channels of two taps. -/
example (signal : List ℂ) (h : signal.length = 8) : ∃ out, fft turn sincC (fun n => List.replicate n 1) signal 4 2 = some out ∧ out.length = 4 := by
  obtain ⟨out, h1, h2, _⟩ := C83_bank ⟨turn_add, (turn_one 1).mpr ⟨1, by norm_num⟩⟩ sincC (fun n => List.replicate n 1) signal 4 2
    (by decide) (by decide) (by simp) (by omega)
  exact ⟨out, h1, h2⟩


end Verif.FilterBank
