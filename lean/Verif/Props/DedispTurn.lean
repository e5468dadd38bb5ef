import Verif.Props.Dedisp
import Verif.Props.Turn
/-!
# C82: coherent dedispersion of complex samples
-/
namespace Verif.Dedisp
open Verif.CMem
open Verif.Turn (turn turn_add turn_one num_eq)

/-- `exp(2 pi i x)` has the properties asked for. -/
theorem C82_turn : Spec.Exp turn where
  add := turn_add
  one := (turn_one 1).mpr ⟨1, by norm_num⟩

theorem turn_sum (n : Nat) (hn : 0 < n) (m : Int) :
    (sumN n fun b => turn (((m * b : Int) : Rat) / n)) = if (n : Int) ∣ m then (sumN n fun _ => 1) else 0 := by
  rw [← (Verif.Turn.C78_turn n hn).sum m]
  apply sumN_congr
  intro b _
  congr 1
  push_cast
  ring

/-- **A dispersed signal is put back together.**  A stream of any waves of the frequencies of a window, each with the phase
that dispersion gives it, is turned by `coherent` to the waves without dispersion, later by the delay of the centre. -/
theorem C82_recovered (M : Nat) (hM : 0 < M) (key : Key) (hf : ∀ f ∈ channels (4 * M) key.freq key.rate, f ≠ 0)
    (h0 : centre (channels (4 * M) key.freq key.rate) ≠ 0) (A : Nat → ℂ) (n : Nat) :
    circ M (Spec.kernel turn (1 / (4 * M : Nat)) (chirpOf turn key (4 * M)))
      (fun y => sumN (4 * M) fun k => A k * turn (ism key.dm ((channels (4 * M) key.freq key.rate).getD k 0))
        * turn (((k * y : Int) : Rat) / (4 * M : Nat))) n
    = turn (2 * centre (channels (4 * M) key.freq key.rate) * lag0 key.dm (centre (channels (4 * M) key.freq key.rate)))
      * sumN (4 * M) fun k => A k
        * turn (-((channels (4 * M) key.freq key.rate).getD k 0 * lag0 key.dm (centre (channels (4 * M) key.freq key.rate))))
        * turn (((k * n : Int) : Rat) / (4 * M : Nat)) := by
  have hl : (channels (4 * M) key.freq key.rate).length = 4 * M := by simp [channels]
  have hc : (chirpOf turn key (4 * M)).length = 4 * M := by simp [chirpOf, hl]
  rw [C82_linear M _ (4 * M) (fun k y => A k * turn (ism key.dm ((channels (4 * M) key.freq key.rate).getD k 0))
        * turn (((k * y : Int) : Rat) / (4 * M : Nat))), ← sumN_mul]
  apply sumN_congr
  intro k hk
  have hinv : (1 / ((4 * M : Nat) : ℂ)) * (sumN (4 * M) fun _ => 1) = 1 := by
    rw [num_eq]
    have : ((4 * M : Nat) : ℂ) ≠ 0 := by exact_mod_cast (by omega : 4 * M ≠ 0)
    field_simp
  rw [C82_tone C82_turn M hM _ _ hc hinv (turn_sum (4 * M) (by omega)) _ k hk _ (fun _ => rfl)]
  have hg : (chirpOf turn key (4 * M)).getD k 0
      = turn (phase (centre (channels (4 * M) key.freq key.rate)) key.dm ((channels (4 * M) key.freq key.rate).getD k 0)) := by
    unfold chirpOf
    simp only [List.getD_eq_getElem?_getD]
    rw [List.getElem?_map, List.getElem?_eq_getElem (by omega)]
    simp
  have hm : (channels (4 * M) key.freq key.rate).getD k 0 ∈ channels (4 * M) key.freq key.rate := by
    rw [List.getD_eq_getElem?_getD, List.getElem?_eq_getElem (by omega)]
    simp
  rw [hg]
  generalize (channels (4 * M) key.freq key.rate).getD k 0 = f at *
  have := C82_chirp (centre (channels (4 * M) key.freq key.rate)) key.dm f h0 (hf f hm)
  have h2 := congrArg turn this
  rw [turn_add, turn_add] at h2
  have h3 : turn (phase (centre (channels (4 * M) key.freq key.rate)) key.dm f) * (A k * turn (ism key.dm f) * turn (((k * n : Int) : Rat) / (4 * M : Nat)))
      = (turn (ism key.dm f) * turn (phase (centre (channels (4 * M) key.freq key.rate)) key.dm f)) * A k * turn (((k * n : Int) : Rat) / (4 * M : Nat)) := by ring
  rw [h3, h2]
  ring

/-! ### examples -/

/-- The response of no chirp. -/
theorem kernel_ones (M : Nat) (hM : 0 < M) (d : Int) :
    Spec.kernel turn (1 / (4 * M : Nat)) (List.replicate (4 * M) 1) d = if ((4 * M : Nat) : Int) ∣ d then 1 else 0 := by
  have h4 : ((4 * M : Nat) : ℂ) ≠ 0 := by exact_mod_cast (by omega : 4 * M ≠ 0)
  unfold Spec.kernel
  have : (sumN (List.replicate (4 * M) (1 : ℂ)).length fun k => (List.replicate (4 * M) (1 : ℂ)).getD k 0 * turn (((k * d : Int) : Rat) / (List.replicate (4 * M) (1 : ℂ)).length))
      = sumN (4 * M) fun b => turn (((d * b : Int) : Rat) / (4 * M : Nat)) := by
    rw [List.length_replicate]
    apply sumN_congr
    intro k hk
    have g : (List.replicate (4 * M) (1 : ℂ)).getD k 0 = 1 := by simp [hk]
    rw [g, Int.mul_comm]
    ring
  rw [this, turn_sum (4 * M) (by omega)]
  split
  · rw [num_eq]
    field_simp
  · ring

/-- It is short, for every window. -/
theorem short_ones (M : Nat) (hM : 0 < M) : Spec.Short (4 * M) (Spec.kernel turn (1 / (4 * M : Nat)) (List.replicate (4 * M) 1)) := by
  intro d h1 h2
  rw [kernel_ones M hM, if_neg]
  intro h
  have e4 : 4 * M / 4 = M := by omega
  rw [e4] at h1 h2
  have := Int.le_of_dvd (by omega) h
  omega

/-- With no chirp, samples between samples before and after come out as they are. -/
example (cache : Cache ℂ) (key : Key) (hl : cache.lookup key = some (4, List.replicate 4 1)) :
    ∃ out, coherent turn (fun N => 1 / (N : ℂ)) (fun _ _ => []) (0 : Rat) cache key [10, 11, 12, 13] [1, 2, 3, 4]
        (some ([9], [0])) (some ([14, 15, 16], [5, 6, 7])) true = some (out, cache)
      ∧ out.1[2]? = some 12 ∧ out.2[2]? = some 3 := by
  have hlk : lookup (fun _ _ => []) cache key true = some ((4 * 1, List.replicate 4 (1 : ℂ)), cache) := by
    unfold lookup; rw [hl]
  have good : Good 1 ([10, 11, 12, 13] : List Rat) ([1, 2, 3, 4] : List ℂ) (some ([9], [0])) (some ([14, 15, 16], [5, 6, 7])) :=
    ⟨by decide, rfl, by simp, ⟨by simp, by simp⟩, ⟨by simp, by simp⟩⟩
  obtain ⟨out, h1, _, _, h4⟩ := C82_coherent_partial C82_turn (fun N => 1 / (N : ℂ)) (fun _ _ => []) (0 : Rat) cache key 1
    (List.replicate 4 1) true cache hlk rfl (short_ones 1 (by decide)) _ _ _ _ good
  have hcov : covered 1 4 true true 2 := by decide
  obtain ⟨a, b⟩ := h4 2 (by simp)
  refine ⟨out, h1, ?_, ?_⟩
  · rw [a]
    simp only [List.length_cons, List.length_nil, Option.isSome_some]
    rw [if_pos hcov]
    rfl
  · rw [b]
    simp only [List.length_cons, List.length_nil, Option.isSome_some]
    rw [if_pos hcov, C82_shift 1 _ _ 0 (by decide)]
    · simp [Spec.sig]
    · intro d h1 h2
      have := kernel_ones 1 (by decide) d
      rw [show (List.replicate 4 (1 : ℂ)) = List.replicate (4 * 1) 1 by rfl, this]
      have hd : d = -1 ∨ d = 0 ∨ d = 1 := by omega
      rcases hd with rfl | rfl | rfl <;> simp

example : centre (channels 4 80 8) = 79 := by decide +kernel

end Verif.Dedisp
