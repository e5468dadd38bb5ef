import Verif.Props.Beam
import Verif.Props.Gridder
import Verif.Props.PSDStokes
import Verif.Props.XEngineStokes
import Mathlib.Analysis.SpecialFunctions.Complex.Log
/-!
# The laws asked of the exponential and of conjugation hold for the complex numbers

C75, C77, C78: the hypotheses of the theorems about transforms, spectra, beams and gridding are met by `exp(2 pi i x)` on the complex
numbers, for every length of a transform.
-/
namespace Verif.Turn
open Verif.CMem

/-- `exp(2 pi i x)`. -/
noncomputable def turn (x : Rat) : ℂ := Complex.exp (2 * Real.pi * (x : ℂ) * Complex.I)

theorem turn_zero : turn 0 = 1 := by simp [turn]

theorem turn_add (x y : Rat) : turn (x + y) = turn x * turn y := by
  unfold turn
  rw [← Complex.exp_add]; congr 1; push_cast; ring

theorem turn_nat (x : Rat) (n : Nat) : turn ((n : Rat) * x) = turn x ^ n := by
  unfold turn
  rw [← Complex.exp_nat_mul]; congr 1; push_cast; ring

/-- Whole turns are no turns, and only they. -/
theorem turn_one (x : Rat) : turn x = 1 ↔ ∃ k : Int, x = k := by
  unfold turn
  rw [Complex.exp_eq_one_iff]
  have hpi : (2 * (Real.pi : ℂ) * Complex.I) ≠ 0 := by
    simp [Real.pi_ne_zero]
  constructor
  · rintro ⟨k, hk⟩
    refine ⟨k, ?_⟩
    have : (x : ℂ) = (k : ℂ) := by
      apply mul_right_cancel₀ hpi
      rw [← hk]; ring
    exact_mod_cast this
  · rintro ⟨k, rfl⟩
    exact ⟨k, by push_cast; ring⟩

theorem sumN_finset (n : Nat) (f : Nat → ℂ) : sumN n f = ∑ i ∈ Finset.range n, f i := by
  induction n with
  | zero => rfl
  | succ n ih =>
    rw [Finset.sum_range_succ, ← ih]
    rfl

theorem num_eq (n : Nat) : (sumN n fun _ => (1 : ℂ)) = n := by
  rw [sumN_finset]; simp

/-- The laws used for beams. -/
theorem C77_turn : Beam.Spec.Exp turn where
  zero := turn_zero
  add := turn_add

/-- A complex number of two real parts, and the mean. -/
theorem C77_mean : Beam.Spec.Mean (fun a b => (a : ℂ) + (b : ℂ) * Complex.I) := by
  intro n hn
  rw [num_eq]
  have : (n : ℂ) ≠ 0 := by exact_mod_cast hn.ne'
  show (n : ℂ) * ((((1 / (n : Rat) : Rat)) : ℂ) + ((0 : Rat) : ℂ) * Complex.I) = 1
  push_cast
  field_simp
  ring

theorem conj_turn (x : Rat) : (starRingEnd ℂ) (turn x) = turn (-x) := by
  unfold turn
  rw [← Complex.exp_conj]
  congr 1
  simp [Complex.conj_ofReal, map_ofNat]

/-- The laws used for power spectra, for every length of the transform. -/
theorem C75_turn (n : Nat) (hn : 0 < n) : PSD.Roots n turn (starRingEnd ℂ) where
  add p r := by rw [← turn_add]; congr 1; push_cast; ring
  conj p := by rw [conj_turn]; congr 1; push_cast; ring
  sum m := by
    have hn' : (n : Rat) ≠ 0 := by exact_mod_cast hn.ne'
    have hpow : ∀ b : Nat, turn (((m * (b : Int) : Int) : Rat) / (n : Rat)) = turn ((m : Rat) / n) ^ b := by
      intro b
      rw [← turn_nat]; congr 1; push_cast; ring
    show sumN n _ = _
    rw [sumN_finset]
    simp only [hpow]
    by_cases h : (n : Int) ∣ m
    · rw [if_pos h]
      obtain ⟨k, rfl⟩ := h
      have : turn ((((n : Int) * k : Int) : Rat) / n) = 1 := (turn_one _).mpr ⟨k, by push_cast; field_simp⟩
      rw [this]
      unfold PSD.num
      rw [num_eq]
      simp
    · rw [if_neg h]
      have hne : turn ((m : Rat) / n) ≠ 1 := by
        intro h1
        obtain ⟨k, hk⟩ := (turn_one _).mp h1
        apply h
        refine ⟨k, ?_⟩
        have : (m : Rat) = (n : Rat) * k := by rw [← hk]; field_simp
        exact_mod_cast this
      have h1 : turn ((m : Rat) / n) ^ n = 1 := by
        rw [← turn_nat]
        exact (turn_one _).mpr ⟨m, by field_simp⟩
      have := geom_sum_mul (turn ((m : Rat) / n)) n
      rw [h1, sub_self] at this
      rcases mul_eq_zero.mp this with h2 | h2
      · exact h2
      · exact absurd (sub_eq_zero.mp h2) hne

/-- Complex conjugation is a conjugation. -/
theorem C75_conj : PSD.IsConj (starRingEnd ℂ) where
  add a b := map_add _ a b
  mul a b := map_mul _ a b

theorem C74_conj : XEngine.IsConj (starRingEnd ℂ) where
  add a b := map_add _ a b
  mul a b := map_mul _ a b
  twice a := Complex.conj_conj a

/-- With them the theorem about beams is one about complex numbers and their exponential. -/
example : True := by
  have := Beam.C77_coherent_partial (fun a b => (a : ℂ) + (b : ℂ) * Complex.I) C77_mean turn C77_turn
  trivial

/-- The laws used for gridding. -/
theorem C78_turn (n : Nat) (hn : 0 < n) : Gridder.Spec.Roots n turn where
  add := turn_add
  sum m := by
    have := (C75_turn n hn).sum m
    unfold PSD.num at this
    rw [← this]
    show _ = sumN n _
    apply sumN_congr
    intro b _
    congr 1; push_cast; ring

theorem C78_norm (n : Nat) (hn : 0 < n) :
    sumN n (fun _ => (1 : ℂ)) * sumN n (fun _ => (1 : ℂ)) * (((1 / ((n * n : Nat) : Rat) : Rat)) : ℂ) = 1 := by
  rw [num_eq]
  have : (n : ℂ) ≠ 0 := by exact_mod_cast hn.ne'
  push_cast
  field_simp

/-- `cos(2 pi x)`. -/
noncomputable def cosine (x : Rat) : ℝ := Real.cos (2 * Real.pi * (x : ℝ))

/-- The kernel that is not zero only at a distance of two cells. -/
def delta : List ℝ := (List.range 225).map fun t => if t = 128 then 1 else 0

/-- The transform half a pixel off is not that at the pixel: the centre of an image of 8 pixels is divided by the value for another place. -/
theorem C78_not_centered : Gridder.Spec.kernelTransform cosine delta 8 (1 / 2) ≠ Gridder.Spec.kernelTransform cosine delta 8 0 := by
  have hg : ∀ t, t < 225 → delta.getD t 0 = if t = 128 then (1 : ℝ) else 0 := by
    intro t ht
    unfold delta
    rw [List.getD, List.getElem?_map, List.getElem?_range ht]; rfl
  have key : ∀ x : Rat, Gridder.Spec.kernelTransform cosine delta 8 x = 2 * cosine (((127 + 1 : Nat) : Rat) / 64 * (x / ((8 : Nat) : Rat))) := by
    intro x
    unfold Gridder.Spec.kernelTransform
    rw [hg 0 (by omega), if_neg (by omega)]
    have := Gridder.sumN_pick (C := ℝ) 223 127 (by omega)
      (fun t => 2 * cosine (((t + 1 : Nat) : Rat) / 64 * (x / ((8 : Nat) : Rat)))) 1
    rw [mul_one] at this
    rw [← this]
    show (0 : ℝ) + _ = _
    rw [zero_add]
    apply sumN_congr
    intro t ht
    rw [hg (t + 1) (by omega)]
    by_cases h : t = 127
    · subst h; norm_num
    · rw [if_neg h, if_neg (by omega)]
      show (2 : ℝ) * 0 * _ = _ * 0
      ring
  rw [key, key]
  have h0 : cosine (((127 + 1 : Nat) : Rat) / 64 * ((0 : Rat) / ((8 : Nat) : Rat))) = 1 := by
    unfold cosine; norm_num
  have h1 : cosine (((127 + 1 : Nat) : Rat) / 64 * ((1 / 2 : Rat) / ((8 : Nat) : Rat))) = Real.cos (Real.pi / 4) := by
    unfold cosine; congr 1; push_cast; ring
  rw [h0, h1, Real.cos_pi_div_four]
  intro h
  have h2 : Real.sqrt 2 = 2 := by
    have : (2 : ℝ) * (Real.sqrt 2 / 2) = 2 * 1 := h
    linarith
  have h3 := Real.mul_self_sqrt (show (0 : ℝ) ≤ 2 by norm_num)
  rw [h2] at h3
  norm_num at h3

end Verif.Turn
