import Verif.Model.Stats
import Verif.Spec.Stats
/-!
# Lemmas on the mode and runs
-/
namespace Verif.Stats
open Spec

theorem insert_length (a : Rat) (l : List Rat) : (insert a l).length = l.length + 1 := by
  induction l with
  | nil => rfl
  | cons b l ih => unfold insert; split <;> simp [ih]

theorem sort_length (l : List Rat) : (sort l).length = l.length := by
  induction l with
  | nil => rfl
  | cons b l ih => simp [sort, insert_length, ih]

theorem insert_perm (a : Rat) (l : List Rat) : (insert a l).Perm (a :: l) := by
  induction l with
  | nil => exact List.Perm.refl _
  | cons b l ih =>
    unfold insert; split
    · exact List.Perm.refl _
    · exact (ih.cons b).trans (List.Perm.swap a b l)

theorem sort_perm (l : List Rat) : (sort l).Perm l := by
  induction l with
  | nil => exact List.Perm.refl _
  | cons b l ih => exact (insert_perm b _).trans (ih.cons b)

theorem insert_pw (a : Rat) (l : List Rat) (h : l.Pairwise (· ≤ ·)) : (insert a l).Pairwise (· ≤ ·) := by
  induction l with
  | nil => simp [insert]
  | cons b l ih =>
    unfold insert
    rw [List.pairwise_cons] at h
    split
    · rename_i hab
      rw [List.pairwise_cons]
      refine ⟨?_, List.pairwise_cons.2 h⟩
      intro x hx
      rcases List.mem_cons.1 hx with rfl | hx
      · exact hab
      · exact Rat.le_trans hab (h.1 x hx)
    · rename_i hab
      rw [List.pairwise_cons]
      refine ⟨?_, ih h.2⟩
      intro x hx
      rcases List.mem_cons.1 ((insert_perm a l).mem_iff.1 hx) with rfl | hx
      · grind
      · exact h.1 x hx

theorem sort_pw (l : List Rat) : (sort l).Pairwise (· ≤ ·) := by
  induction l with
  | nil => simp [sort]
  | cons b l ih => exact insert_pw b _ ih

/-- Two orders of the same data that are both increasing are the same. -/
theorem pw_unique (l m : List Rat) (hl : l.Pairwise (· ≤ ·)) (hm : m.Pairwise (· ≤ ·)) (h : l.Perm m) : l = m :=
  h.eq_of_pairwise (fun _ _ _ _ h1 h2 => Rat.le_antisymm h1 h2) hl hm

theorem pw_sorted (l : List Rat) : l.Pairwise (· ≤ ·) ↔ Sorted l := by
  rw [List.pairwise_iff_getElem]
  constructor
  · intro h i j hij hj
    have := h i j (by omega) hj hij
    simpa [List.getD_eq_getElem?_getD, List.getElem?_eq_getElem hj,
      List.getElem?_eq_getElem (show i < l.length by omega)] using this
  · intro h i j hi hj hij
    have := h i j hij hj
    simpa [List.getD_eq_getElem?_getD, List.getElem?_eq_getElem hj, List.getElem?_eq_getElem hi] using this

theorem sorted_le {l : List Rat} (h : Sorted l) {i j : Nat} (hij : i ≤ j) (hj : j < l.length) :
    l.getD i 0 ≤ l.getD j 0 := by
  rcases Nat.lt_or_eq_of_le hij with h1 | h1
  · exact h i j h1 hj
  · subst h1; exact Rat.le_refl

theorem nstate_succ (data : List Rat) (N k : Nat) : nstate data N (k + 1) =
    if width data N k < (nstate data N k).1 then (width data N k, some k) else nstate data N k := by
  unfold nstate width
  rw [List.range_succ, List.foldl_append]
  simp only [List.foldl_cons, List.foldl_nil]

/-- What the loop knows. -/
theorem nstate_spec (data : List Rat) (N k : Nat) :
    match (nstate data N k).2 with
    | none => (nstate data N k).1 = data.getD (data.length - 1) 0 - data.getD 0 0 ∧
        ∀ i < k, data.getD (data.length - 1) 0 - data.getD 0 0 ≤ width data N i
    | some j => j < k ∧ (nstate data N k).1 = width data N j ∧
        width data N j < data.getD (data.length - 1) 0 - data.getD 0 0 ∧
        (∀ i < k, width data N j ≤ width data N i) ∧ ∀ i < j, width data N j < width data N i := by
  induction k with
  | zero => simp [nstate]
  | succ k ih =>
    rw [nstate_succ]
    by_cases hw : width data N k < (nstate data N k).1
    · rw [if_pos hw]
      cases hs : (nstate data N k).2 with
      | none =>
        rw [hs] at ih
        simp only at ih ⊢
        refine ⟨by omega, trivial, by grind, ?_, ?_⟩
        · intro i hi
          rcases Nat.lt_succ_iff_lt_or_eq.1 hi with h | h
          · have := ih.2 i h; grind
          · subst h; grind
        · intro i hi; have := ih.2 i hi; grind
      | some j =>
        rw [hs] at ih
        simp only at ih ⊢
        obtain ⟨h1, h2, h3, h4, h5⟩ := ih
        refine ⟨by omega, trivial, by grind, ?_, ?_⟩
        · intro i hi
          rcases Nat.lt_succ_iff_lt_or_eq.1 hi with h | h
          · have := h4 i h; grind
          · subst h; grind
        · intro i hi; have := h4 i hi; grind
    · rw [if_neg hw]
      cases hs : (nstate data N k).2 with
      | none =>
        rw [hs] at ih
        simp only at ih ⊢
        refine ⟨ih.1, ?_⟩
        intro i hi
        rcases Nat.lt_succ_iff_lt_or_eq.1 hi with h | h
        · exact ih.2 i h
        · subst h; grind
      | some j =>
        rw [hs] at ih
        simp only at ih ⊢
        obtain ⟨h1, h2, h3, h4, h5⟩ := ih
        refine ⟨by omega, h2, h3, ?_, h5⟩
        intro i hi
        rcases Nat.lt_succ_iff_lt_or_eq.1 hi with h | h
        · exact h4 i h
        · subst h; grind

theorem narrowest_eq (data : List Rat) (N : Nat) : narrowest data N = (nstate data N N).2 := rfl

/-- Shifting and scaling the data. -/
def aff (a b : Rat) (l : List Rat) : List Rat := l.map fun x => a * x + b

theorem aff_getD (a b : Rat) (l : List Rat) (i : Nat) (h : i < l.length) :
    (aff a b l).getD i 0 = a * l.getD i 0 + b := by
  simp [aff, List.getD_eq_getElem?_getD, List.getElem?_eq_getElem h]

theorem aff_length (a b : Rat) (l : List Rat) : (aff a b l).length = l.length := by simp [aff]

theorem mul_lt_iff (a x y : Rat) (h : 0 < a) : a * x < a * y ↔ x < y := Rat.mul_lt_mul_left h
theorem mul_le_iff (a x y : Rat) (h : 0 < a) : a * x ≤ a * y ↔ x ≤ y := by
  rw [← Rat.not_lt, ← Rat.not_lt, mul_lt_iff a y x h]

theorem nstate_aff (a b : Rat) (ha : 0 < a) (data : List Rat) (N k : Nat) (hk : k + N ≤ data.length + 1) (h0 : 0 < N)
    (hd : 0 < data.length) :
    nstate (aff a b data) N k = (a * (nstate data N k).1, (nstate data N k).2) := by
  induction k with
  | zero =>
    simp only [nstate, List.range_zero, List.foldl_nil, aff_length]
    rw [aff_getD _ _ _ _ (by omega), aff_getD _ _ _ _ (by omega)]
    congr 1
    grind
  | succ k ih =>
    have hw : width (aff a b data) N k = a * width data N k := by
      unfold width
      rw [aff_getD _ _ _ _ (by omega), aff_getD _ _ _ _ (by omega)]
      grind
    rw [nstate_succ, nstate_succ, ih (by omega), hw]
    by_cases h : width data N k < (nstate data N k).1
    · rw [if_pos h, if_pos ((mul_lt_iff _ _ _ ha).2 h)]
    · rw [if_neg h, if_neg (fun h' => h ((mul_lt_iff _ _ _ ha).1 h'))]

theorem sort_aff (a b : Rat) (ha : 0 < a) (l : List Rat) : sort (aff a b l) = aff a b (sort l) := by
  apply pw_unique _ _ (sort_pw _)
  · unfold aff
    rw [List.pairwise_map]
    refine (sort_pw l).imp ?_
    intro x y h
    have := (mul_le_iff a x y ha).2 h
    grind
  · exact (sort_perm _).trans ((sort_perm l).symm.map _)

/-- One step of the recursion on four or more values. -/
theorem hsmF_step (fuel : Nat) (data : List Rat) (h : 4 ≤ data.length) :
    hsmF (fuel + 1) data =
      (narrowest data (halfN data.length)).bind fun j => hsmF fuel ((data.drop j).take (halfN data.length)) := by
  match data, h with
  | a :: b :: c :: d :: l, _ => rfl

/-- The bound on the recursion plays no part. -/
theorem hsmF_fuel (fuel : Nat) : ∀ (g : Nat) (data : List Rat), data.length ≤ fuel → data.length ≤ g → 1 ≤ fuel → 1 ≤ g →
    hsmF fuel data = hsmF g data := by
  induction fuel with
  | zero => intro g data _ _ h1 _; omega
  | succ f ih =>
    intro g data hf hg _ h1
    obtain ⟨g, rfl⟩ : ∃ k, g = k + 1 := ⟨g - 1, by omega⟩
    by_cases h4 : 4 ≤ data.length
    · rw [hsmF_step _ _ h4, hsmF_step _ _ h4]
      congr 1; funext j
      have hN : halfN data.length + 1 ≤ data.length := by unfold halfN; omega
      have hl : ((data.drop j).take (halfN data.length)).length ≤ halfN data.length := List.length_take_le _ _
      apply ih <;> omega
    · match data, h4 with
      | [], _ => rfl
      | [_], _ => rfl
      | [_, _], _ => rfl
      | [_, _, _], _ => rfl
      | _ :: _ :: _ :: _ :: l, h4 => simp at h4

/-- `_hsm` on four or more values. -/
theorem hsm_step (data : List Rat) (h : 4 ≤ data.length) :
    hsm data = (narrowest data (halfN data.length)).bind fun j => hsm ((data.drop j).take (halfN data.length)) := by
  unfold hsm
  obtain ⟨f, hf⟩ : ∃ f, data.length = f + 1 := ⟨data.length - 1, by omega⟩
  have hr : hsmF data.length data = hsmF (f + 1) data := by rw [hf]
  rw [hr, hsmF_step _ _ h]
  cases hn : narrowest data (halfN data.length) with
  | none => rfl
  | some j =>
    simp only [Option.bind_some]
    have hj : j < halfN data.length := by
      have := nstate_spec data (halfN data.length) (halfN data.length)
      rw [← narrowest_eq, hn] at this
      exact this.1
    have hl : ((data.drop j).take (halfN data.length)).length = halfN data.length := by
      rw [List.length_take, List.length_drop]; unfold halfN at *; omega
    have hN : 1 ≤ halfN data.length ∧ halfN data.length < data.length := by unfold halfN; omega
    apply hsmF_fuel <;> omega

end Verif.Stats
