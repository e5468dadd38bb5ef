import Verif.Model.Analysis
import Verif.Lemmas.Robust
/-!
# Lemmas on clipped values
-/
namespace Verif.Analysis

open Finset Classical
open Deconv (Img index)
open Robust (avg sd median)

theorem sum_nonneg' (l : List ℝ) (f : ℝ → ℝ) (h : ∀ x ∈ l, 0 ≤ f x) : 0 ≤ (l.map f).sum := by
  apply List.sum_nonneg
  intro x hx
  obtain ⟨y, hy, rfl⟩ := List.mem_map.1 hx
  exact h y hy

/-- The sum of squares about a value. -/
noncomputable def ss (l : List ℝ) (m : ℝ) : ℝ := (l.map fun x => (x - m) ^ 2).sum

theorem ss_nonneg (l : List ℝ) (m : ℝ) : 0 ≤ ss l m := sum_nonneg' _ _ fun _ _ => sq_nonneg _

theorem ss_shift (l : List ℝ) (m d : ℝ) : ss l (m + d) = ss l m - 2 * d * (l.sum - l.length * m) + l.length * d ^ 2 := by
  unfold ss
  induction l with
  | nil => simp
  | cons a l ih => simp only [List.map_cons, List.sum_cons, List.length_cons, ih]; push_cast; ring

/-- The sum of squares is least about the mean. -/
theorem ss_least (l : List ℝ) (m : ℝ) : ss l (avg l) ≤ ss l m := by
  by_cases h : l = []
  · subst h; simp [ss]
  · have hl : (0 : ℝ) < l.length := by exact_mod_cast List.length_pos_iff.2 h
    have e : l.sum - l.length * avg l = 0 := by
      unfold avg; rw [mul_div_cancel₀ _ hl.ne']; ring
    have := ss_shift l (avg l) (m - avg l)
    rw [e] at this
    have h2 : avg l + (m - avg l) = m := by ring
    rw [h2] at this
    rw [this]
    nlinarith [mul_nonneg hl.le (sq_nonneg (m - avg l))]

theorem sd_sq (l : List ℝ) : sd l ^ 2 = ss l (avg l) / l.length := by
  have e : sd l = Real.sqrt (ss l (avg l) / l.length) := rfl
  rw [e, Real.sq_sqrt (div_nonneg (ss_nonneg l _) (Nat.cast_nonneg _))]

theorem sd_nonneg (l : List ℝ) : 0 ≤ sd l := Real.sqrt_nonneg _

theorem ss_eq (l : List ℝ) : ss l (avg l) = l.length * sd l ^ 2 := by
  by_cases h : l = []
  · subst h; simp [ss]
  · have hl : (0 : ℝ) < l.length := by exact_mod_cast List.length_pos_iff.2 h
    rw [sd_sq, mul_div_cancel₀ _ hl.ne']

theorem ss_split (p : ℝ → Bool) (l : List ℝ) (m : ℝ) :
    ss l m = ss (l.filter p) m + ss (l.filter fun x => !p x) m := by
  unfold ss
  induction l with
  | nil => simp
  | cons a l ih =>
    cases hp : p a <;> simp [hp, ih] <;> ring

theorem length_split (p : ℝ → Bool) (l : List ℝ) : l.length = (l.filter p).length + (l.filter fun x => !p x).length := by
  induction l with
  | nil => simp
  | cons a l ih => cases hp : p a <;> simp [hp, ih] <;> omega

/-- What is clipped. -/
noncomputable def clipped (t : List ℝ) : List ℝ := t.filter fun v => !near t v

theorem clip_split (t : List ℝ) (m : ℝ) : ss t m = ss (clip t) m + ss (clipped t) m := ss_split _ t m

theorem clip_length (t : List ℝ) : t.length = (clip t).length + (clipped t).length := length_split _ t

theorem ss_far (l : List ℝ) (m c : ℝ) (h : ∀ x ∈ l, c ≤ (x - m) ^ 2) : l.length * c ≤ ss l m := by
  unfold ss
  induction l with
  | nil => simp
  | cons a l ih =>
    simp only [List.map_cons, List.sum_cons, List.length_cons]
    push_cast
    have := ih fun x hx => h x (by simp [hx])
    have := h a (by simp)
    linarith

theorem clipped_far (t : List ℝ) : (clipped t).length * (9 * sd t ^ 2) ≤ ss (clipped t) (avg t) := by
  apply ss_far
  intro x hx
  have : ¬ |x - avg t| < 3 * sd t := by
    have := (List.mem_filter.1 hx).2
    simpa [near] using this
  push Not at this
  have h0 := sd_nonneg t
  rw [← sq_abs (x - avg t)]
  nlinarith [abs_nonneg (x - avg t)]

/-- A deviation of nothing is one of equal values. -/
theorem sd_zero (t : List ℝ) : sd t = 0 ↔ ∀ v ∈ t, v = avg t := by
  have h1 : sd t = 0 ↔ ss t (avg t) = 0 := by
    rw [ss_eq]
    constructor
    · intro h; rw [h]; ring
    · intro h
      rcases mul_eq_zero.1 h with h | h
      · have : t = [] := by simpa using h
        subst this; simp [sd]
      · exact pow_eq_zero_iff (two_ne_zero) |>.1 h
  rw [h1]
  clear h1
  unfold ss
  generalize avg t = m
  induction t with
  | nil => simp
  | cons a l ih =>
    have hn : 0 ≤ (l.map fun x => (x - m) ^ 2).sum := sum_nonneg' _ _ fun _ _ => sq_nonneg _
    simp only [List.map_cons, List.sum_cons, List.mem_cons, forall_eq_or_imp]
    have : (a - m) ^ 2 + (l.map fun x => (x - m) ^ 2).sum = 0 ↔ (a - m) ^ 2 = 0 ∧ (l.map fun x => (x - m) ^ 2).sum = 0 := by
      constructor
      · intro h
        have := sq_nonneg (a - m)
        constructor <;> linarith
      · rintro ⟨h, h'⟩; rw [h, h']; ring
    rw [this]
    have e : (a - m) ^ 2 = 0 ↔ a = m := by
      rw [pow_eq_zero_iff two_ne_zero, sub_eq_zero]
    rw [e]
    constructor
    · rintro ⟨h, h'⟩
      refine ⟨h, ?_⟩
      by_cases hl : l = []
      · subst hl; simp
      · exact (ih.1 h')
    · rintro ⟨h, h'⟩
      exact ⟨h, ih.2 h'⟩

theorem mapM_some {α β : Type} (f : α → Option β) (g : α → β) (l : List α) (h : ∀ x ∈ l, f x = some (g x)) :
    l.mapM f = some (l.map g) := by
  induction l with
  | nil => rfl
  | cons a l ih =>
    rw [List.mapM_cons, h a (by simp), ih fun x hx => h x (by simp [hx])]
    rfl

theorem mapM_none {α β : Type} (f : α → Option β) (l : List α) (x : α) (hx : x ∈ l) (h : f x = none) : l.mapM f = none := by
  induction l with
  | nil => simp at hx
  | cons a l ih =>
    rw [List.mapM_cons]
    rcases List.mem_cons.1 hx with rfl | hx
    · rw [h]; rfl
    · cases f a with
      | none => rfl
      | some b => rw [ih hx]; rfl

theorem mem_cells {α : Type} (a b : ℕ) (g : ℕ → ℕ → α) (v : α) : v ∈ cells a b g ↔ ∃ i j, i < a ∧ j < b ∧ g i j = v := by
  unfold cells
  simp only [List.mem_flatMap, List.mem_range, List.mem_map]
  constructor
  · rintro ⟨i, hi, j, hj, h⟩; exact ⟨i, j, hi, hj, h⟩
  · rintro ⟨i, j, hi, hj, h⟩; exact ⟨i, hi, j, hj, h⟩

theorem cells_map {α β : Type} (a b : ℕ) (g : ℕ → ℕ → α) (f : α → β) : (cells a b g).map f = cells a b fun i j => f (g i j) := by
  unfold cells
  rw [List.map_flatMap]
  congr 1
  funext i
  rw [List.map_map]
  rfl

theorem cells_nodup {α : Type} (a b : ℕ) (g : ℕ → ℕ → α) (h : ∀ i j i' j', g i j = g i' j' → i = i' ∧ j = j') :
    (cells a b g).Nodup := by
  unfold cells
  rw [List.nodup_flatMap]
  constructor
  · intro i _
    refine List.Nodup.map ?_ List.nodup_range
    intro j j' hj
    exact (h _ _ _ _ hj).2
  · refine List.nodup_range.imp ?_
    intro i i' hi
    rw [Function.onFun, List.disjoint_left]
    intro v hv hv'
    obtain ⟨j, _, rfl⟩ := List.mem_map.1 hv
    obtain ⟨j', _, hj⟩ := List.mem_map.1 hv'
    exact hi (h _ _ _ _ hj).1.symm

end Verif.Analysis
