import Verif.Model.Buffer
/-!
# Helper lemmas for the frame buffer
-/
namespace Verif.Buffer
variable {K D B : Type}

/-- Keys of the dictionary. -/
def keys (b : List (Int × List (Fr K D B))) : List Int := b.map (·.1)

@[simp] theorem keys_nil : keys ([] : List (Int × List (Fr K D B))) = [] := rfl
@[simp] theorem keys_cons (p : Int × List (Fr K D B)) (b : List (Int × List (Fr K D B))) :
    keys (p :: b) = p.1 :: keys b := rfl
theorem keys_length (b : List (Int × List (Fr K D B))) : (keys b).length = b.length := by
  simp [keys]
theorem mem_keys_of {p : Int × List (Fr K D B)} {b : List (Int × List (Fr K D B))} (h : p ∈ b) :
    p.1 ∈ keys b := List.mem_map_of_mem h

/-- All frames held. -/
def held (b : List (Int × List (Fr K D B))) : List (Fr K D B) := (b.map (·.2)).flatten

@[simp] theorem held_nil : held ([] : List (Int × List (Fr K D B))) = [] := rfl
@[simp] theorem held_cons (p : Int × List (Fr K D B)) (b : List (Int × List (Fr K D B))) :
    held (p :: b) = p.2 ++ held b := rfl

/-- Well-formedness of the dictionary. -/
def WF (b : List (Int × List (Fr K D B))) : Prop :=
  (keys b).Nodup ∧ ∀ p ∈ b, p.2 ≠ [] ∧ ∀ f ∈ p.2, f.fom = p.1

theorem insertF_keys (f : Fr K D B) (b : List (Int × List (Fr K D B))) :
    keys (insertF f b) = if f.fom ∈ keys b then keys b else keys b ++ [f.fom] := by
  induction b with
  | nil => simp [insertF]
  | cons p r ih =>
    obtain ⟨k, l⟩ := p
    simp only [insertF]
    by_cases h : k = f.fom
    · simp [h]
    · have h' : ¬ f.fom = k := fun e => h e.symm
      simp only [h, if_false, keys_cons, List.mem_cons, h', false_or]
      rw [ih]; split <;> simp_all

theorem insertF_held (f : Fr K D B) (b : List (Int × List (Fr K D B))) :
    (held (insertF f b)).Perm (f :: held b) := by
  induction b with
  | nil => simp [insertF]
  | cons p r ih =>
    obtain ⟨k, l⟩ := p
    simp only [insertF]
    by_cases h : k = f.fom
    · simp only [held_cons, h, if_true]
      rw [List.append_assoc]
      exact List.perm_middle
    · simp only [held_cons, h, if_false]
      exact (List.Perm.append_left l ih).trans List.perm_middle

theorem insertF_wf (f : Fr K D B) (b : List (Int × List (Fr K D B))) (h : WF b) :
    WF (insertF f b) := by
  refine ⟨?_, ?_⟩
  · rw [insertF_keys]
    split
    · exact h.1
    · rename_i hn
      rw [List.nodup_append]
      refine ⟨h.1, by simp, ?_⟩
      intro a ha b hb e
      rw [List.mem_singleton] at hb
      exact hn (hb ▸ e ▸ ha)
  · have h2 := h.2
    clear h
    induction b with
    | nil => intro p hp; simp [insertF] at hp; subst hp; simp
    | cons q r ih =>
      obtain ⟨k, l⟩ := q
      intro p hp
      simp only [insertF] at hp
      split at hp
      · rename_i e
        rw [List.mem_cons] at hp
        rcases hp with rfl | hp
        · refine ⟨by simp, ?_⟩
          intro g hg
          rw [List.mem_append, List.mem_singleton] at hg
          rcases hg with hg | rfl
          · exact (h2 (k, l) (List.mem_cons_self ..)).2 g hg
          · exact e.symm
        · exact h2 p (List.mem_cons_of_mem _ hp)
      · rw [List.mem_cons] at hp
        rcases hp with rfl | hp
        · exact h2 _ (List.mem_cons_self ..)
        · exact ih (fun p hp => h2 p (List.mem_cons_of_mem _ hp)) p hp

theorem erase_keys (k : Int) (b : List (Int × List (Fr K D B))) :
    keys (erase k b) = (keys b).erase k := by
  induction b with
  | nil => simp [erase]
  | cons p r ih =>
    obtain ⟨k', l⟩ := p
    simp only [erase]
    by_cases h : k' = k
    · simp [h]
    · simp only [h, if_false, keys_cons]
      rw [List.erase_cons_tail (by simpa using h), ih]

theorem erase_sub (k : Int) (b : List (Int × List (Fr K D B))) : ∀ p ∈ erase k b, p ∈ b := by
  induction b with
  | nil => simp [erase]
  | cons q r ih =>
    obtain ⟨k', l⟩ := q
    simp only [erase]
    split
    · intro p hp; exact List.mem_cons_of_mem _ hp
    · intro p hp
      rw [List.mem_cons] at hp ⊢
      exact hp.imp id (ih p)

theorem erase_wf (k : Int) (b : List (Int × List (Fr K D B))) (h : WF b) : WF (erase k b) :=
  ⟨by rw [erase_keys]; exact h.1.erase k, fun p hp => h.2 p (erase_sub k b p hp)⟩

theorem lookup_some {k : Int} {b : List (Int × List (Fr K D B))} {l : List (Fr K D B)}
    (h : lookup k b = some l) : (k, l) ∈ b ∧ (held b).Perm (l ++ held (erase k b)) := by
  induction b with
  | nil => simp [lookup] at h
  | cons q r ih =>
    obtain ⟨k', l'⟩ := q
    simp only [lookup] at h
    by_cases e : k' = k
    · simp only [e, if_true, Option.some.injEq] at h
      subst h; subst e
      simp [erase]
    · simp only [e, if_false] at h
      have := ih h
      refine ⟨List.mem_cons_of_mem _ this.1, ?_⟩
      simp only [held_cons, erase, e, if_false]
      refine (List.Perm.append_left l' this.2).trans ?_
      rw [← List.append_assoc, ← List.append_assoc]
      exact List.Perm.append_right _ List.perm_append_comm

theorem lookup_none {k : Int} {b : List (Int × List (Fr K D B))} :
    lookup k b = none ↔ k ∉ keys b := by
  induction b with
  | nil => simp [lookup]
  | cons q r ih =>
    obtain ⟨k', l'⟩ := q
    simp only [lookup]
    by_cases e : k' = k
    · simp [e]
    · have e' : ¬ k = k' := fun x => e x.symm
      simp only [e, if_false, keys_cons, List.mem_cons, e', false_or]
      exact ih

theorem minKey_none {b : List (Int × List (Fr K D B))} : minKey b = none ↔ b = [] := by
  cases b with
  | nil => simp [minKey]
  | cons q r => obtain ⟨k, l⟩ := q; simp only [minKey]; split <;> simp

theorem minKey_some {b : List (Int × List (Fr K D B))} {m : Int} (h : minKey b = some m) :
    m ∈ keys b ∧ ∀ k ∈ keys b, m ≤ k := by
  induction b generalizing m with
  | nil => simp [minKey] at h
  | cons q r ih =>
    obtain ⟨k, l⟩ := q
    simp only [minKey] at h
    split at h
    · rename_i e
      rw [minKey_none] at e
      subst e
      simp at h; subst h; simp
    · rename_i m' e
      have := ih e
      simp only [Option.some.injEq] at h
      simp only [keys_cons, List.mem_cons]
      refine ⟨?_, ?_⟩
      · by_cases hk : k ≤ m'
        · left; omega
        · right
          have : m = m' := by omega
          rw [this]; exact (ih e).1
      · intro a ha
        rcases ha with rfl | ha
        · omega
        · have := (ih e).2 a ha; omega

end Verif.Buffer
