import Verif.Model.Registry
/-!
# C39: a file is listed exactly while a reader is open
-/
namespace Verif.Registry

/-! ### specification -/

/-- The readers that exist and are not closed after a history: from the calls alone. -/
def opened : List Handler → List Op → List Handler
  | o, [] => o
  | o, .opens h true :: l => opened (h :: o) l
  | o, .opens _ false :: l => opened o l
  | o, .closes h :: l => opened (o.filter (fun x => decide (x ≠ h))) l

/-- Every reader is new, its constructor works, and it is closed at most once. -/
def Proper : List Handler → List Op → Prop
  | _, [] => True
  | o, .opens h ok :: l => ok = true ∧ h ∉ o ∧ Proper (h :: o) l
  | o, .closes h :: l => h ∈ o ∧ Proper (o.filter (fun x => decide (x ≠ h))) l

/-! ### invariant -/

/-- The registry holds exactly the handlers `o`. -/
structure Holds (r : Reg) (o : List Handler) : Prop where
  handlers : ∀ h, h ∈ r.handlers ↔ h ∈ o
  hnodup : r.handlers.Nodup
  entries : ∀ f h, h ∈ entry r.mapping f ↔ h ∈ o ∧ h.filename = f
  listed : ∀ f, f ∈ filenames r ↔ ∃ h ∈ o, h.filename = f
  nodup : (filenames r).Nodup

theorem entry_store (m : List (String × List Handler)) (f g : String) (s : List Handler) :
    entry (store m f s) g = if f = g then s else entry m g := by
  induction m with
  | nil => simp [store, entry]
  | cons x l ih =>
    obtain ⟨k, t⟩ := x
    simp only [store]
    by_cases hk : k = f
    · subst hk
      by_cases hkg : k = g <;> simp [entry, hkg]
    · simp only [hk, if_false, entry, ih]
      by_cases hkg : k = g
      · subst hkg; simp [Ne.symm hk]
      · simp [hkg]

theorem names_store (m : List (String × List Handler)) (f : String) (s : List Handler) :
    (store m f s).map Prod.fst = if f ∈ m.map Prod.fst then m.map Prod.fst else m.map Prod.fst ++ [f] := by
  induction m with
  | nil => simp [store]
  | cons x l ih =>
    obtain ⟨k, t⟩ := x
    simp only [store]
    by_cases hk : k = f
    · subst hk; simp
    · simp only [hk, if_false, List.map_cons, ih, List.mem_cons, Ne.symm hk, false_or]
      split <;> simp

theorem mem_names_store (m : List (String × List Handler)) (f g : String) (s : List Handler) :
    g ∈ (store m f s).map Prod.fst ↔ g ∈ m.map Prod.fst ∨ g = f := by
  rw [names_store]
  split
  · rename_i h
    constructor
    · exact Or.inl
    · rintro (h1 | rfl)
      · exact h1
      · exact h
  · simp

theorem nodup_names_store (m : List (String × List Handler)) (f : String) (s : List Handler)
    (h : (m.map Prod.fst).Nodup) : ((store m f s).map Prod.fst).Nodup := by
  rw [names_store]
  split
  · exact h
  · rename_i ha
    rw [List.nodup_append]
    exact ⟨h, by simp, fun x hx y hy => by simp at hy; subst hy; exact fun e => ha (e ▸ hx)⟩

theorem entry_filter (m : List (String × List Handler)) (f g : String) (h : f ≠ g) :
    entry (m.filter (fun e => decide (e.1 ≠ f))) g = entry m g := by
  induction m with
  | nil => rfl
  | cons x l ih =>
    obtain ⟨k, t⟩ := x
    by_cases hk : k = f
    · subst hk
      simp only [ne_eq, not_true_eq_false, decide_false, Bool.false_eq_true, not_false_eq_true,
        List.filter_cons_of_neg, entry, h, if_false]
      exact ih
    · simp only [List.filter_cons, ne_eq, hk, not_false_eq_true, decide_true, if_true, entry]
      rw [← ih]

theorem entry_filter_self (m : List (String × List Handler)) (f : String) :
    entry (m.filter (fun e => decide (e.1 ≠ f))) f = [] := by
  induction m with
  | nil => rfl
  | cons x l ih =>
    obtain ⟨k, t⟩ := x
    by_cases hk : k = f
    · subst hk
      simpa using ih
    · simp only [List.filter_cons, ne_eq, hk, not_false_eq_true, decide_true, if_true, entry, if_false]
      exact ih

theorem holds_add (r : Reg) (o : List Handler) (h : Handler) (hr : Holds r o) : Holds (add r h) (h :: o) := by
  have hmem : ∀ (s : List Handler) x, x ∈ addTo s h ↔ x ∈ s ∨ x = h := by
    intro s x
    unfold addTo
    split
    · rename_i hs
      constructor
      · exact Or.inl
      · rintro (h1 | rfl)
        · exact h1
        · exact hs
    · simp only [List.mem_cons]
      exact Or.comm
  refine ⟨?_, ?_, ?_, ?_, ?_⟩
  · intro x
    simp only [add, hmem, hr.handlers, List.mem_cons]
    exact Or.comm
  · simp only [add, addTo]
    split
    · exact hr.hnodup
    · rename_i hn
      exact List.nodup_cons.mpr ⟨hn, hr.hnodup⟩
  · intro f x
    simp only [add, entry_store]
    by_cases hf : h.filename = f
    · simp only [hf, if_true, hmem, List.mem_cons]
      rw [hr.entries]
      constructor
      · rintro (⟨h1, h2⟩ | rfl)
        · exact ⟨Or.inr h1, h2⟩
        · exact ⟨Or.inl rfl, hf⟩
      · rintro ⟨rfl | h1, h2⟩
        · exact Or.inr rfl
        · exact Or.inl ⟨h1, h2⟩
    · simp only [hf, if_false, List.mem_cons]
      rw [hr.entries]
      constructor
      · rintro ⟨h1, h2⟩; exact ⟨Or.inr h1, h2⟩
      · rintro ⟨rfl | h1, h2⟩
        · exact absurd h2 hf
        · exact ⟨h1, h2⟩
  · intro f
    simp only [add, filenames, mem_names_store, List.mem_cons]
    have := hr.listed f
    simp only [filenames] at this
    rw [this]
    constructor
    · rintro (⟨x, h1, h2⟩ | rfl)
      · exact ⟨x, Or.inr h1, h2⟩
      · exact ⟨h, Or.inl rfl, rfl⟩
    · rintro ⟨x, rfl | h1, h2⟩
      · exact Or.inr h2.symm
      · exact Or.inl ⟨x, h1, h2⟩
  · exact nodup_names_store _ _ _ hr.nodup

theorem holds_remove (r : Reg) (o : List Handler) (h : Handler) (hr : Holds r o) (hm : h ∈ o) :
    (remove r h).2 = true ∧ Holds (remove r h).1 (o.filter (fun x => decide (x ≠ h))) := by
  have hin : h ∈ entry r.mapping h.filename := (hr.entries _ _).mpr ⟨hm, rfl⟩
  simp only [remove, hin, if_true, true_and]
  have hs' : ∀ x, x ∈ (entry r.mapping h.filename).filter (fun x => decide (x ≠ h)) ↔
      (x ∈ o ∧ x ≠ h) ∧ x.filename = h.filename := by
    intro x
    simp only [List.mem_filter, decide_eq_true_eq, hr.entries]
    constructor
    · rintro ⟨⟨a, b⟩, c⟩; exact ⟨⟨a, c⟩, b⟩
    · rintro ⟨⟨a, c⟩, b⟩; exact ⟨⟨a, b⟩, c⟩
  have hmo : ∀ x, x ∈ o.filter (fun x => decide (x ≠ h)) ↔ x ∈ o ∧ x ≠ h := by
    intro x; simp only [List.mem_filter, decide_eq_true_eq]
  refine ⟨?_, ?_, ?_, ?_, ?_⟩
  · intro x
    simp only [List.mem_filter, decide_eq_true_eq, hr.handlers]
  · exact List.Nodup.sublist List.filter_sublist hr.hnodup
  · intro f x
    rw [hmo]
    simp only
    by_cases hf : h.filename = f
    · subst hf
      split
      · rename_i he
        rw [entry_filter_self]
        have := hs' x
        rw [he] at this
        exact this
      · rw [entry_store, if_pos rfl]
        exact hs' x
    · have : entry (store r.mapping h.filename ((entry r.mapping h.filename).filter (fun x => decide (x ≠ h)))) f =
          entry r.mapping f := by rw [entry_store, if_neg hf]
      have hgoal : (x ∈ entry r.mapping f) ↔ (x ∈ o ∧ x ≠ h) ∧ x.filename = f := by
        rw [hr.entries]
        constructor
        · rintro ⟨a, b⟩; exact ⟨⟨a, fun e => hf (by rw [← e]; exact b)⟩, b⟩
        · rintro ⟨⟨a, _⟩, b⟩; exact ⟨a, b⟩
      split
      · rw [entry_filter _ _ _ hf, this]; exact hgoal
      · rw [this]; exact hgoal
  · intro f
    simp only [filenames]
    have hl := hr.listed f
    simp only [filenames] at hl
    have hex : (∃ x ∈ o.filter (fun x => decide (x ≠ h)), x.filename = f) ↔ ∃ x, (x ∈ o ∧ x ≠ h) ∧ x.filename = f := by
      constructor
      · rintro ⟨x, hx, hf⟩; exact ⟨x, (hmo x).mp hx, hf⟩
      · rintro ⟨x, hx, hf⟩; exact ⟨x, (hmo x).mpr hx, hf⟩
    rw [hex]
    split
    · rename_i he
      have hnone : ∀ x, ¬ ((x ∈ o ∧ x ≠ h) ∧ x.filename = h.filename) := by
        intro x hx
        have := (hs' x).mpr hx
        rw [he] at this
        simp at this
      have : f ∈ ((store r.mapping h.filename ((entry r.mapping h.filename).filter (fun x => decide (x ≠ h)))).filter
          (fun e => decide (e.1 ≠ h.filename))).map Prod.fst ↔
          f ∈ (store r.mapping h.filename ((entry r.mapping h.filename).filter (fun x => decide (x ≠ h)))).map Prod.fst ∧
            f ≠ h.filename := by
        simp only [List.mem_map, List.mem_filter, decide_eq_true_eq]
        constructor
        · rintro ⟨x, ⟨a, b⟩, rfl⟩; exact ⟨⟨x, a, rfl⟩, b⟩
        · rintro ⟨⟨x, a, rfl⟩, b⟩; exact ⟨x, ⟨a, b⟩, rfl⟩
      rw [this, mem_names_store, hl]
      constructor
      · rintro ⟨⟨x, a, b⟩ | rfl, c⟩
        · exact ⟨x, ⟨a, fun e => c (by rw [← e]; exact b.symm)⟩, b⟩
        · exact absurd rfl c
      · rintro ⟨x, ⟨a, b⟩, rfl⟩
        exact ⟨Or.inl ⟨x, a, rfl⟩, fun e => hnone x ⟨⟨a, b⟩, e⟩⟩
    · rename_i he
      rw [mem_names_store, hl]
      obtain ⟨y, hy⟩ := List.exists_mem_of_ne_nil _ he
      have hy' := (hs' y).mp hy
      constructor
      · rintro (⟨x, a, b⟩ | rfl)
        · by_cases hx : x = h
          · subst hx; exact ⟨y, hy'.1, by rw [hy'.2]; exact b⟩
          · exact ⟨x, ⟨a, hx⟩, b⟩
        · exact ⟨y, hy'.1, hy'.2⟩
      · rintro ⟨x, ⟨a, _⟩, c⟩
        exact Or.inl ⟨x, a, c⟩
  · simp only [filenames]
    have := nodup_names_store r.mapping h.filename ((entry r.mapping h.filename).filter (fun x => decide (x ≠ h))) hr.nodup
    split
    · exact List.Nodup.sublist (List.Sublist.map Prod.fst List.filter_sublist) this
    · exact this

theorem holds_init : Holds init [] := by
  refine ⟨by simp [init], by simp [init], ?_, ?_, by simp [init, filenames]⟩
  · intro f h; simp [init, entry]
  · intro f; simp [init, filenames]

theorem holds_run (l : List Op) : ∀ (r : Reg) (o : List Handler), Holds r o → Proper o l →
    Holds (run r l) (opened o l) := by
  induction l with
  | nil => intro r o h _; exact h
  | cons x l ih =>
    intro r o h hp
    cases x with
    | opens a ok =>
      obtain ⟨rfl, _, hp⟩ := hp
      simp only [run, step, openFile, opened]
      exact ih _ _ (holds_add r o a h) hp
    | closes a =>
      obtain ⟨hm, hp⟩ := hp
      simp only [run, step, close, opened]
      exact ih _ _ (holds_remove r o a h hm).2 hp

/-! ### C39 -/

/-- After every history of opening and closing readers on any files a file is listed exactly when some
reader on it is not closed, each once.  Missing from the full property: readers closed twice
(`C39_double_close`) and constructors that fail (`C39_failed_open`). -/
theorem C39_listed_iff_partial (l : List Op) (hp : Proper [] l) (f : String) :
    (contains (run init l) f = true ↔ ∃ h ∈ opened [] l, h.filename = f) ∧ (filenames (run init l)).Nodup := by
  have h := holds_run l init [] holds_init hp
  refine ⟨?_, h.nodup⟩
  simp only [contains, decide_eq_true_eq]
  exact h.listed f

/-- The registry knows exactly the open readers, and counts them. -/
theorem C39_handlers_partial (l : List Op) (hp : Proper [] l) :
    (∀ h, h ∈ (run init l).handlers ↔ h ∈ opened [] l) ∧ (run init l).handlers.Nodup :=
  ⟨(holds_run l init [] holds_init hp).handlers, (holds_run l init [] holds_init hp).hnodup⟩

theorem closeList_ok (l : List Handler) : ∀ (r : Reg) (o : List Handler), Holds r o → l.Nodup → (∀ h ∈ l, h ∈ o) →
    Holds (closeList r l) (o.filter (fun x => decide (x ∉ l))) := by
  induction l with
  | nil =>
    intro r o h _ _
    simp only [closeList, List.not_mem_nil, not_false_eq_true, decide_true]
    have : o.filter (fun _ => true) = o := by simp
    rw [this]; exact h
  | cons a l ih =>
    intro r o h hn hm
    rw [List.nodup_cons] at hn
    obtain ⟨h1, h2⟩ := holds_remove r o a h (hm a (by simp))
    simp only [closeList, close, h1, if_true]
    have := ih _ _ h2 hn.2 (by
      intro x hx
      simp only [List.mem_filter, decide_eq_true_eq]
      exact ⟨hm x (by simp [hx]), fun e => hn.1 (e ▸ hx)⟩)
    have he : (o.filter (fun x => decide (x ≠ a))).filter (fun x => decide (x ∉ l)) =
        o.filter (fun x => decide (x ∉ a :: l)) := by
      rw [List.filter_filter]
      congr 1
      funext x
      simp only [List.mem_cons, not_or, ne_eq]
      by_cases h1 : x = a <;> by_cases h2 : x ∈ l <;> simp [h1, h2]
    rw [← he]
    exact this

/-- At exit every open reader is closed and no file stays listed. -/
theorem C39_close_all_partial (l : List Op) (hp : Proper [] l) :
    (closeAll (run init l)).handlers = [] ∧ filenames (closeAll (run init l)) = [] := by
  have h := holds_run l init [] holds_init hp
  have h2 := closeList_ok _ _ _ h h.hnodup (fun x hx => (h.handlers x).mp hx)
  have he : (opened [] l).filter (fun x => decide (x ∉ (run init l).handlers)) = [] := by
    rw [List.filter_eq_nil_iff]
    intro x hx
    simp only [decide_eq_true_eq, Classical.not_not]
    exact (h.handlers x).mpr hx
  rw [he] at h2
  constructor
  · apply List.eq_nil_iff_forall_not_mem.mpr
    intro x hx
    have := (h2.handlers x).mp hx
    simp at this
  · apply List.eq_nil_iff_forall_not_mem.mpr
    intro x hx
    obtain ⟨y, hy, _⟩ := (h2.listed x).mp hx
    simp at hy

/-- Closing a reader a second time is an error, and from then on its file is listed although no reader is
open on it. -/
theorem C39_double_close (l : List Op) (h : Handler) (hp : Proper [] l) (hc : h ∉ opened [] l)
    (_hf : ∀ g ∈ opened [] l, g.filename ≠ h.filename) :
    (close (run init l) h).2 = false ∧ contains (close (run init l) h).1 h.filename = true := by
  have hh := holds_run l init [] holds_init hp
  have hn : h ∉ entry (run init l).mapping h.filename := fun e => hc ((hh.entries _ _).mp e).1
  simp only [close, remove, hn, if_false, contains, filenames, true_and, decide_eq_true_eq]
  rw [mem_names_store]
  exact Or.inr rfl

/-- A file whose inspection fails, so that no reader object is returned, is listed for good. -/
theorem C39_failed_open (l : List Op) (h : Handler) (hp : Proper [] l) :
    contains (run init (l ++ [.opens h false])) h.filename = true ∧
    opened [] (l ++ [.opens h false]) = opened [] l := by
  have happ : ∀ (l : List Op) (r : Reg), run r (l ++ [.opens h false]) = add (run r l) h := by
    intro l
    induction l with
    | nil => intro r; rfl
    | cons x l ih => intro r; exact ih _
  have happ2 : ∀ (l : List Op) (o : List Handler), opened o (l ++ [.opens h false]) = opened o l := by
    intro l
    induction l with
    | nil => intro o; rfl
    | cons x l ih =>
      intro o
      cases x with
      | opens a ok => cases ok <;> exact ih _
      | closes a => exact ih _
  refine ⟨?_, happ2 l []⟩
  rw [happ]
  have := holds_add _ _ h (holds_run l init [] holds_init hp)
  simp only [contains, decide_eq_true_eq]
  exact (this.listed _).mpr ⟨h, by simp, rfl⟩

example : Proper [] [.opens ⟨0, "a"⟩ true, .opens ⟨1, "a"⟩ true, .closes ⟨0, "a"⟩] ∧
    contains (run init [.opens ⟨0, "a"⟩ true, .opens ⟨1, "a"⟩ true, .closes ⟨0, "a"⟩]) "a" = true ∧
    (∀ g ∈ opened [] [.opens ⟨0, "a"⟩ true, .closes ⟨0, "a"⟩], g.filename ≠ "a") := by
  refine ⟨?_, by decide, ?_⟩
  · simp [Proper]
  · simp [opened]

end Verif.Registry
