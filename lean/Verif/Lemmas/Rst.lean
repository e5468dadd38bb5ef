import Verif.Model.Rst
import Mathlib.Tactic.Linarith
import Mathlib.Tactic.Ring
import Mathlib.Tactic.FieldSimp
import Mathlib.Tactic.Positivity
import Mathlib.Tactic.NormNum
import Mathlib.Algebra.Order.AbsoluteValue.Basic
/-! # Lemmas on rise and set times -/
namespace Verif.Rst

/-! ## The rough search -/

theorem filter_head {p : Nat → Bool} {n i : Nat} (h : ((List.range n).filter p).head? = some i) :
    i < n ∧ p i = true ∧ ∀ j < i, p j = false := by
  rw [List.head?_filter, List.find?_range_eq_some] at h
  obtain ⟨h1, h2, h3⟩ := h
  exact ⟨by simpa using h2, h1, fun j hj => by simpa using h3 j hj⟩

theorem filter_last {p : Nat → Bool} {n i : Nat} (h : ((List.range n).filter p).getLast? = some i) :
    i < n ∧ p i = true ∧ ∀ j < n, i < j → p j = false := by
  induction n with
  | zero => simp at h
  | succ n ih =>
    rw [List.range_succ, List.filter_append] at h
    cases hp : p n with
    | true =>
      simp only [List.filter_cons, hp, if_true, List.filter_nil, List.getLast?_append, List.getLast?_singleton, Option.some_or,
        Option.some.injEq] at h
      subst h
      exact ⟨by omega, hp, fun j h1 h2 => by omega⟩
    | false =>
      simp only [List.filter_cons, hp, List.filter_nil, List.append_nil, Bool.false_eq_true, if_false] at h
      obtain ⟨h1, h2, h3⟩ := ih h
      refine ⟨by omega, h2, fun j hj hij => ?_⟩
      by_cases hn : j = n
      · rw [hn]; exact hp
      · exact h3 j (by omega) hij

variable {K : Type} [Field K] [LinearOrder K]

/-! ## Sorting -/

omit [Field K] in
theorem sort_sorted (l : List (K × K)) (h : l.Pairwise (fun a b => a.1 < b.1)) : l.mergeSort (fun a b => decide (a.1 ≤ b.1)) = l := by
  apply List.mergeSort_of_pairwise
  exact h.imp (fun h => by simpa using le_of_lt h)

omit [Field K] in
theorem sort_reversed (l : List (K × K)) (h : l.Pairwise (fun a b => b.1 < a.1)) :
    l.mergeSort (fun a b => decide (a.1 ≤ b.1)) = l.reverse := by
  have hr : l.reverse.Pairwise (fun a b : K × K => a.1 < b.1) := List.pairwise_reverse.mpr h
  have hp : (l.mergeSort (fun a b => decide (a.1 ≤ b.1))).Perm l.reverse := (List.mergeSort_perm l _).trans l.reverse_perm.symm
  have hs : (l.mergeSort (fun a b => decide (a.1 ≤ b.1))).Pairwise (fun a b => a.1 ≤ b.1) := by
    have := List.pairwise_mergeSort (le := fun (a b : K × K) => decide (a.1 ≤ b.1)) (fun a b c => by simpa using fun h1 h2 => le_trans h1 h2)
      (fun a b => by simpa using le_total a.1 b.1) l
    exact this.imp (fun h => by simpa using h)
  refine List.Perm.eq_of_pairwise (le := fun (a b : K × K) => a.1 ≤ b.1) ?_ hs (hr.imp le_of_lt) hp
  intro a b ha hb h1 h2
  have hb' : b ∈ l.reverse := hb
  have ha' : a ∈ l.reverse := hp.mem_iff.mp ha
  by_contra hne
  have H := List.pairwise_iff_getElem.mp hr
  obtain ⟨i, hi, rfl⟩ := List.mem_iff_getElem.mp ha'
  obtain ⟨j, hj, rfl⟩ := List.mem_iff_getElem.mp hb'
  rcases Nat.lt_trichotomy i j with hij | hij | hij
  · exact absurd h2 (not_le.mpr (H i j hi hj hij))
  · subst hij; exact hne rfl
  · exact absurd h1 (not_le.mpr (H j i hj hi hij))

/-! ## The bracket -/

theorem bracket_spec (s : List (K × K)) (h2 : 2 ≤ s.length) (f e : K × K) (hf : s.head? = some f) (he : s.getLast? = some e) (hf0 : f.1 ≤ 0) (he0 : 0 ≤ e.1) :
    ∃ p q pre post, bracket s = some (p, q) ∧ s = pre ++ p :: q :: post ∧ p.1 ≤ 0 ∧ 0 ≤ q.1 := by
  induction s generalizing f with
  | nil => simp at h2
  | cons p s ih =>
    cases s with
    | nil => simp at h2
    | cons q s =>
      have hfp : f = p := by simpa using hf.symm
      subst hfp
      cases s with
      | nil =>
        have heq : e = q := by simpa using he.symm
        subst heq
        exact ⟨f, e, [], [], rfl, rfl, hf0, he0⟩
      | cons r s =>
        by_cases hq : 0 ≤ q.1
        · exact ⟨f, q, [], r :: s, by simp [bracket, hq], rfl, hf0, hq⟩
        · obtain ⟨p', q', pre, post, h1, h3, h4, h5⟩ := ih (by simp) q rfl (by simpa using he) (le_of_lt (not_le.mp hq))
          refine ⟨p', q', f :: pre, post, ?_, ?_, h4, h5⟩
          · simp only [bracket, hq, if_false]; exact h1
          · rw [List.cons_append, ← h3]

variable [IsStrictOrderedRing K]

theorem onLine_between (p q : K × K) (hp : p.1 ≤ 0) (hq : 0 ≤ q.1) (hne : p.1 < q.1) :
    ∃ w, 0 ≤ w ∧ w ≤ 1 ∧ onLine p q = p.2 + w * (q.2 - p.2) := by
  refine ⟨-p.1 / (q.1 - p.1), div_nonneg (by linarith) (by linarith), ?_, ?_⟩
  · rw [div_le_one (by linarith)]; linarith
  · unfold onLine
    have : q.1 - p.1 ≠ 0 := by intro h; linarith
    field_simp
    ring

end Verif.Rst
