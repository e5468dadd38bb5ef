import Verif.Model.FilterBank
import Verif.Spec.FilterBank
import Verif.Lemmas.Dedisp
/-!
# C83: the filter bank
-/
namespace Verif.FilterBank
open Verif.CMem
open Lean.Grind (CommRing)

section ring
variable {C : Type} [CommRing C] {e : Rat → C}

theorem coeff_get (sinc : Rat → C) (N P t : Nat) (h : t < N * P) :
    (coeff sinc N P).getD t 0 = sinc (((t : Rat) - ((N * P : Nat) : Rat) / 2 + 1 / 2) / N) := by
  unfold coeff
  rw [List.getD_eq_getElem?_getD, List.getElem?_map, List.getElem?_range h]
  rfl

/-- The coefficients are symmetric. -/
theorem C83_symmetric (sinc : Rat → C) (hs : ∀ x, sinc (-x) = sinc x) (N P t : Nat) (h : t < N * P) :
    (coeff sinc N P).getD (N * P - 1 - t) 0 = (coeff sinc N P).getD t 0 := by
  rw [coeff_get _ _ _ _ h, coeff_get _ _ _ _ (by omega), ← hs]
  congr 1
  have : ((N * P - 1 - t : Nat) : Rat) = ((N * P : Nat) : Rat) - 1 - t := by
    have : ((N * P - 1 - t : Nat) : Rat) + 1 + t = ((N * P : Nat) : Rat) := by
      exact_mod_cast (show N * P - 1 - t + 1 + t = N * P by omega)
    grind
  rw [this]
  grind

theorem times_len (a b : List C) (h : a.length = b.length) : times a b = some (List.zipWith (· * ·) a b) := by simp [times, h]

theorem sumN_blocks (N P : Nat) (f : Nat → C) : sumN (N * P) f = sumN P fun p => sumN N fun q => f (p * N + q) := by
  induction P with
  | zero => rfl
  | succ P ih =>
    rw [Nat.mul_succ, Dedisp.sumN_split, ih]
    simp only [sumN]
    congr 1
    apply sumN_congr
    intro q _
    rw [Nat.mul_comm]

/-- The sum over the first blocks. -/
theorem blocks (N P : Nat) (hN : 0 < N) (x : List C) (hx : x.length = N * P) (hP : 0 < P) :
    ∃ o, (List.range P).foldlM (tap e x N) none = some (some o)
      ∧ o.length = N ∧ ∀ k, k < N → o[k]? = some (sumN P fun p => sumN N fun q => x.getD (p * N + q) 0 * e (-((k * q : Nat) : Rat) / N)) := by
  have hb : ∀ i, i < P → ∃ b, fft? e ((x.drop (i * N)).take N) = some b ∧ b.length = N
      ∧ ∀ k, k < N → b[k]? = some (sumN N fun q => x.getD (i * N + q) 0 * e (-((k * q : Nat) : Rat) / N)) := by
    intro i hi
    have hm : i * N + N ≤ N * P := by
      have := Nat.mul_le_mul_left N hi
      rw [Nat.mul_succ, Nat.mul_comm N i] at this
      exact this
    have hl : ((x.drop (i * N)).take N).length = N := by simp [hx]; omega
    refine ⟨_, if_neg (by intro h; rw [h] at hl; simp at hl; omega), by simp [Dedisp.fft, hl], ?_⟩
    intro k hk
    unfold Dedisp.fft
    rw [hl, List.getElem?_map, List.getElem?_range hk, Option.map_some]
    congr 1
    apply sumN_congr
    intro q hq
    rw [List.getD_eq_getElem?_getD, Dedisp.drop_take_get _ _ _ _ hq, ← List.getD_eq_getElem?_getD]
  have key := Dedisp.foldlM_range (tap e x N)
    (fun j out => (j = 0 ∧ out = none) ∨ (0 < j ∧ ∃ o, out = some o ∧ o.length = N
      ∧ ∀ k, k < N → o[k]? = some (sumN j fun p => sumN N fun q => x.getD (p * N + q) 0 * e (-((k * q : Nat) : Rat) / N)))) P ?_
    none (Or.inl ⟨rfl, rfl⟩)
  · obtain ⟨out, h1, h2⟩ := key
    rcases h2 with ⟨h, _⟩ | ⟨_, o, rfl, h3, h4⟩
    · omega
    · exact ⟨o, h1, h3, h4⟩
  · intro j hj out hI
    obtain ⟨b, e1, l1, g1⟩ := hb j hj
    unfold tap
    simp only [e1, Option.bind_some]
    rcases hI with ⟨rfl, rfl⟩ | ⟨h0, o, rfl, h3, h4⟩
    · refine ⟨_, rfl, Or.inr ⟨by omega, _, rfl, by simp [l1], ?_⟩⟩
      intro k hk
      rw [List.getElem?_map, g1 k hk, Option.map_some]
      congr 1
      simp only [sumN]
      grind
    · simp only
      refine ⟨some (List.zipWith (· + ·) o b), ?_, Or.inr ⟨by omega, _, rfl, by simp [h3, l1], ?_⟩⟩
      · unfold plus
        rw [if_pos (by omega)]
        rfl
      · intro k hk
        rw [List.getElem?_zipWith, h4 k hk, g1 k hk]
        simp only [sumN]

/-- **The filter bank.**  Every channel is the sum over all taps of the samples with window, coefficient and phase. -/
theorem C83_bank (he : Dedisp.Spec.Exp e) (sinc : Rat → C) (window : Nat → List C) (signal : List C) (N P : Nat) (hN : 0 < N) (hP : 0 < P)
    (hw : (window (N * P)).length = N * P) (hs : N * P ≤ signal.length) :
    ∃ out, fft e sinc window signal N P = some out ∧ out.length = N
      ∧ ∀ k, k < N → out[k]? = some (Spec.channel e (fun t => (window (N * P)).getD t 0 * (coeff sinc N P).getD t 0) (fun t => signal.getD t 0) N P k) := by
  have hlc : (coeff sinc N P).length = N * P := by simp [coeff]
  have hlt : (signal.take (N * P)).length = N * P := by simp; omega
  have hz1 : (List.zipWith (· * ·) (signal.take (N * P)) (window (N * P))).length = N * P := by
    rw [List.length_zipWith, hlt, hw, Nat.min_self]
  have hz2 : (List.zipWith (· * ·) (List.zipWith (· * ·) (signal.take (N * P)) (window (N * P))) (coeff sinc N P)).length = N * P := by
    rw [List.length_zipWith, hz1, hlc, Nat.min_self]
  unfold fft
  rw [times_len _ _ (by omega)]
  simp only [Option.bind_some]
  rw [times_len _ _ (by omega)]
  simp only [Option.bind_some]
  obtain ⟨o, h1, h2, h3⟩ := blocks (e := e) N P hN _ hz2 hP
  refine ⟨o, ?_, h2, ?_⟩
  · rw [h1]; rfl
  · intro k hk
    rw [h3 k hk]
    congr 1
    unfold Spec.channel
    rw [sumN_blocks]
    apply sumN_congr
    intro p hp
    apply sumN_congr
    intro q hq
    have hm : p * N + q < N * P := by
      have := Nat.mul_le_mul_left N hp
      rw [Nat.mul_succ, Nat.mul_comm N p] at this
      omega
    have g : (List.zipWith (· * ·) (List.zipWith (· * ·) (signal.take (N * P)) (window (N * P))) (coeff sinc N P)).getD (p * N + q) 0
        = signal.getD (p * N + q) 0 * (window (N * P)).getD (p * N + q) 0 * (coeff sinc N P).getD (p * N + q) 0 := by
      simp only [List.getD_eq_getElem?_getD]
      rw [List.getElem?_zipWith, List.getElem?_zipWith, List.getElem?_take, if_pos hm,
        List.getElem?_eq_getElem (show p * N + q < signal.length by omega), List.getElem?_eq_getElem (show p * N + q < (window (N * P)).length by omega),
        List.getElem?_eq_getElem (show p * N + q < (coeff sinc N P).length by omega)]
      rfl
    have ph : e (-((k * (p * N + q) : Nat) : Rat) / N) = e (-((k * q : Nat) : Rat) / N) := by
      rw [← Dedisp.exp_shift he (-((k * q : Nat) : Rat) / N) (-((k * p : Nat) : Int))]
      congr 1
      have n0 : (N : Rat) ≠ 0 := by
        intro h0
        have : N = 0 := by exact_mod_cast h0
        omega
      push_cast
      grind
    rw [g, ph]
    grind

/-- The channels are every `P`-th one of a plain transform of all samples. -/
theorem C83_every (c s : Nat → C) (N P : Nat) (hN : 0 < N) (hP : 0 < P) (k : Nat) :
    Spec.channel e c s N P k = sumN (N * P) fun t => s t * c t * e (-(((k * P) * t : Nat) : Rat) / ((N * P : Nat) : Rat)) := by
  unfold Spec.channel
  apply sumN_congr
  intro t _
  congr 2
  have n0 : (N : Rat) ≠ 0 := by
    intro h0
    have : N = 0 := by exact_mod_cast h0
    omega
  have p0 : (P : Rat) ≠ 0 := by
    intro h0
    have : P = 0 := by exact_mod_cast h0
    omega
  push_cast
  grind

/-- Signals add. -/
theorem C83_linear (c s s' : Nat → C) (a : C) (N P k : Nat) :
    Spec.channel e c (fun t => a * s t + s' t) N P k = a * Spec.channel e c s N P k + Spec.channel e c s' N P k := by
  unfold Spec.channel
  rw [← sumN_mul, ← sumN_add]
  apply sumN_congr
  intro t _
  grind

/-- Too short a signal is refused, unless it has one sample. -/
theorem C83_short (sinc : Rat → C) (window : Nat → List C) (signal : List C) (N P : Nat) (hw : (window (N * P)).length = N * P)
    (hs : signal.length < N * P) (h1 : signal.length ≠ 1) (h2 : N * P ≠ 1) : fft e sinc window signal N P = none := by
  have : times (signal.take (N * P)) (window (N * P)) = none := by
    have ht : signal.take (N * P) = signal := List.take_of_length_le (by omega)
    rw [ht]
    unfold times
    rw [if_neg (by omega)]
    match signal, window (N * P), h1, hw with
    | [], [], _, h => simp at h; simp [← h] at hs
    | [], [_], _, h => simp at h; omega
    | [], _ :: _ :: _, _, _ => rfl
    | [_], _, h, _ => simp at h
    | _ :: _ :: _, [], _, h => simp at h; omega
    | _ :: _ :: _, [_], _, h => simp at h; omega
    | _ :: _ :: _, _ :: _ :: _, _, _ => rfl
  unfold fft
  rw [this]
  rfl

/-- A signal of one sample is taken for one that is constant. -/
theorem C83_not_short (sinc : Rat → C) (window : Nat → List C) (v : C) (N P : Nat) (hN : 0 < N) (hP : 0 < P)
    (hw : (window (N * P)).length = N * P) :
    fft e sinc window [v] N P = fft e sinc window (List.replicate (N * P) v) N P := by
  have hpos : 0 < N * P := Nat.mul_pos hN hP
  have h1 : ([v].take (N * P)) = [v] := List.take_of_length_le (by simp; omega)
  have h2 : ((List.replicate (N * P) v).take (N * P)) = List.replicate (N * P) v := List.take_of_length_le (by simp)
  have : times [v] (window (N * P)) = times (List.replicate (N * P) v) (window (N * P)) := by
    rw [times_len (List.replicate (N * P) v) _ (by simp [hw])]
    have hz : ∀ l : List C, List.zipWith (· * ·) (List.replicate l.length v) l = l.map (v * ·) := by
      intro l
      induction l with
      | nil => rfl
      | cons a l ih => simp [List.replicate_succ, ih]
    unfold times
    split
    · rename_i h
      rw [← hw, ← h]
      rfl
    · show some ((window (N * P)).map (v * ·)) = _
      rw [← hz, hw]
  unfold fft
  rw [h1, h2, this]

/-- No taps are an exception. -/
theorem C83_no_taps (sinc : Rat → C) (window : Nat → List C) (signal : List C) (N : Nat) : fft e sinc window signal N 0 = none := by
  unfold fft
  cases times (signal.take (N * 0)) (window (N * 0)) with
  | none => rfl
  | some a =>
    simp only [Option.bind_some]
    cases times a (coeff sinc N 0) with
    | none => rfl
    | some b => rfl

end ring

end Verif.FilterBank
