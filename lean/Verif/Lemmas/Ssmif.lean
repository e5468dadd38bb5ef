import Verif.Spec.Ssmif
import Verif.Lemmas.Parser
/-!
# Lemmas on station files
-/
namespace Verif.Ssmif
open Dec Parser Spec

/-! ## Indices -/

theorem pyIdx_in (n : Nat) (a : Int) (h1 : 1 ≤ a) (h2 : a ≤ n) : pyIdx n (a - 1) = some (a - 1).toNat := by
  unfold pyIdx; rw [if_pos (by omega), if_pos (by omega)]

theorem pyIdx_lt (n : Nat) (i : Int) (p : Nat) (h : pyIdx n i = some p) : p < n := by
  unfold pyIdx at h
  split at h
  · split at h
    · simp at h; omega
    · cases h
  · split at h
    · simp at h; omega
    · cases h

theorem oneTo_mem (n : Nat) (a : Int) : a ∈ oneTo n ↔ 1 ≤ a ∧ a ≤ n := by
  induction n with
  | zero => simp [oneTo]; omega
  | succ n ih => simp [oneTo, ih]; omega

theorem oneTo_length (n : Nat) : (oneTo n).length = n := by
  induction n with
  | zero => rfl
  | succ n ih => simp [oneTo, ih]

theorem oneTo_get (n k : Nat) (h : k < n) : (oneTo n)[k]? = some ((k : Int) + 1) := by
  induction n with
  | zero => omega
  | succ n ih =>
    rw [oneTo, List.getElem?_append, oneTo_length]
    split
    · exact ih (by omega)
    · have : k = n := by omega
      subst this; simp

theorem oneTo_nodup (n : Nat) : (oneTo n).Nodup := by
  induction n with
  | zero => simp [oneTo]
  | succ n ih =>
    rw [oneTo, List.nodup_append]
    refine ⟨ih, by simp, ?_⟩
    intro a ha b hb
    have := (oneTo_mem n a).1 ha
    simp at hb; omega

theorem oneTo_sorted (n : Nat) : (oneTo n).Pairwise (· ≤ ·) := by
  induction n with
  | zero => simp [oneTo]
  | succ n ih =>
    rw [oneTo, List.pairwise_append]
    refine ⟨ih, by simp, ?_⟩
    intro a ha b hb
    have := (oneTo_mem n a).1 ha
    simp at hb; omega

/-! ## Jobs -/

/-- What the jobs do to the antenna at position `p`. -/
def applied (p : Nat) (js : List Job) (a : Ant) : Ant :=
  js.foldl (fun a j => if j.ant = (p : Int) + 1 then j.change a else a) a

theorem applied_append (p : Nat) (js ks : List Job) (a : Ant) :
    applied p (js ++ ks) a = applied p ks (applied p js a) := by simp [applied, List.foldl_append]

theorem plug_get (ants : List Ant) (js : List Job) (h : ∀ j ∈ js, 1 ≤ j.ant ∧ j.ant ≤ ants.length) :
    ∃ out, plug ants js = some out ∧ out.length = ants.length ∧ ∀ p, out[p]? = ants[p]?.map (applied p js) := by
  induction js generalizing ants with
  | nil => exact ⟨ants, rfl, rfl, fun p => by cases ants[p]? <;> simp [applied]⟩
  | cons j js ih =>
    have hj := h j List.mem_cons_self
    have hl : (ants.modify (j.ant - 1).toNat j.change).length = ants.length := by simp
    obtain ⟨out, h1, h2, h3⟩ := ih (ants.modify (j.ant - 1).toNat j.change) (by
      intro k hk; rw [hl]; exact h k (List.mem_cons_of_mem _ hk))
    refine ⟨out, ?_, by rw [h2, hl], ?_⟩
    · rw [plug, pyIdx_in _ _ hj.1 hj.2]; exact h1
    · intro p
      rw [h3 p, List.getElem?_modify]
      cases ants[p]? with
      | none => rfl
      | some a =>
        simp only [Option.map_some, Option.map_eq_map, applied, List.foldl_cons]
        by_cases hp : (j.ant - 1).toNat = p
        · have hq : j.ant = (p : Int) + 1 := by omega
          rw [if_pos hp, if_pos hq]
        · have hq : ¬ j.ant = (p : Int) + 1 := by omega
          rw [if_neg hp, if_neg hq]

theorem applied_keeps {β : Type} (f : Ant → β) (p : Nat) (js : List Job) (a : Ant)
    (h : ∀ j ∈ js, ∀ a, f (j.change a) = f a) : f (applied p js a) = f a := by
  induction js generalizing a with
  | nil => rfl
  | cons j js ih =>
    have ih' := fun b => ih b (fun k hk => h k (List.mem_cons_of_mem _ hk))
    simp only [applied, List.foldl_cons] at ih' ⊢
    rw [ih']
    split
    · exact h j List.mem_cons_self a
    · rfl

theorem applied_none (p : Nat) (js : List Job) (a : Ant) (h : (p : Int) + 1 ∉ js.map Job.ant) :
    applied p js a = a := by
  induction js generalizing a with
  | nil => rfl
  | cons j js ih =>
    simp only [List.map_cons, List.mem_cons, not_or] at h
    have ih' := fun b => ih b h.2
    simp only [applied, List.foldl_cons] at ih' ⊢
    rw [if_neg (fun hh => h.1 hh.symm), ih']

theorem applied_one {β : Type} (f : Ant → β) (v : β) (p : Nat) (js : List Job) (j : Job) (a : Ant) (hj : j ∈ js)
    (hp : j.ant = (p : Int) + 1) (hn : (js.map Job.ant).Nodup) (hv : ∀ a, f (j.change a) = v) :
    f (applied p js a) = v := by
  induction js generalizing a with
  | nil => cases hj
  | cons k js ih =>
    simp only [List.map_cons, List.nodup_cons] at hn
    rcases List.mem_cons.1 hj with rfl | hk
    · have h0 : applied p (j :: js) a = applied p js (j.change a) := by
        simp only [applied, List.foldl_cons, if_pos hp]
      rw [h0, applied_none p js _ (by rw [← hp]; exact hn.1)]
      exact hv a
    · exact ih _ hk hn.2

/-! ## Sorting -/

theorem insert_perm (a : Ant) (l : List Ant) : (insert a l).Perm (a :: l) := by
  induction l with
  | nil => exact List.Perm.refl _
  | cons b l ih =>
    rw [insert]
    split
    · exact List.Perm.refl _
    · exact ((List.Perm.cons b ih).trans (List.Perm.swap a b l))

theorem sort_perm (l : List Ant) : (sort l).Perm l := by
  induction l with
  | nil => exact List.Perm.refl _
  | cons a l ih => exact (insert_perm a (sort l)).trans (List.Perm.cons a ih)

theorem insert_sorted (a : Ant) (l : List Ant) (h : l.Pairwise (fun x y => x.digitizer ≤ y.digitizer)) :
    (insert a l).Pairwise (fun x y => x.digitizer ≤ y.digitizer) := by
  induction l with
  | nil => simp [insert]
  | cons b l ih =>
    rw [List.pairwise_cons] at h
    rw [insert]
    split
    · rename_i hab
      rw [List.pairwise_cons]
      refine ⟨?_, List.pairwise_cons.2 h⟩
      intro x hx
      rcases List.mem_cons.1 hx with rfl | hx
      · exact hab
      · exact Nat.le_trans hab (h.1 x hx)
    · rename_i hab
      rw [List.pairwise_cons]
      refine ⟨?_, ih h.2⟩
      intro x hx
      rcases List.mem_cons.1 ((insert_perm a l).mem_iff.1 hx) with rfl | hx
      · omega
      · exact h.1 x hx

theorem sort_sorted (l : List Ant) : (sort l).Pairwise (fun x y => x.digitizer ≤ y.digitizer) := by
  induction l with
  | nil => exact List.Pairwise.nil
  | cons a l ih => exact insert_sorted a _ ih

/-- A list in order with the members of another list in order is that list. -/
theorem sorted_unique (l m : List Int) (hp : l.Perm m) (hl : l.Pairwise (· ≤ ·)) (hm : m.Pairwise (· ≤ ·)) :
    l = m := hp.eq_of_pairwise (fun _ _ _ _ h1 h2 => Int.le_antisymm h1 h2) hl hm

/-! ## Lists -/

theorem mapM_get {α β : Type} (f : α → Option β) (l : List α) (h : ∀ x ∈ l, (f x).isSome = true) :
    ∃ out, l.mapM f = some out ∧ out.length = l.length ∧ ∀ p : Nat, out[p]? = l[p]?.bind f := by
  induction l with
  | nil => exact ⟨[], rfl, rfl, by simp⟩
  | cons x l ih =>
    obtain ⟨out, h1, h2, h3⟩ := ih (fun y hy => h y (List.mem_cons_of_mem _ hy))
    obtain ⟨y, hy⟩ := Option.isSome_iff_exists.1 (h x List.mem_cons_self)
    refine ⟨y :: out, by simp [List.mapM_cons, hy, h1], by simp [h2], ?_⟩
    intro p
    cases p with
    | zero => simp [hy]
    | succ p => simpa using h3 p

theorem flatten_get {α : Type} (t : List (List α)) (i j : Nat) (x : α)
    (h : (t[i]?.bind (fun r => r[j]?)) = some x) :
    t.flatten[((t.take i).map List.length).sum + j]? = some x := by
  induction t generalizing i with
  | nil => simp at h
  | cons r t ih =>
    cases i with
    | zero =>
      simp at h
      have hj : j < r.length := by
        rcases Nat.lt_or_ge j r.length with h' | h'
        · exact h'
        · rw [List.getElem?_eq_none h'] at h; cases h
      simp [List.getElem?_append, hj]
      simpa [List.getElem?_eq_getElem hj] using h
    | succ i =>
      have := ih i (by simpa using h)
      simp only [List.take_succ_cons, List.map_cons, List.sum_cons, List.flatten_cons]
      rw [List.getElem?_append, if_neg (by omega)]
      rw [show r.length + ((t.take i).map List.length).sum + j - r.length = ((t.take i).map List.length).sum + j by omega]
      exact this

theorem mem_flatten_get {α : Type} (t : List (List α)) (x : α) (h : x ∈ t.flatten) :
    ∃ i j : Nat, (t[i]?.bind (fun r => r[j]?)) = some x := by
  obtain ⟨r, hr, hx⟩ := List.mem_flatten.1 h
  obtain ⟨i, hi⟩ := List.mem_iff_getElem?.1 hr
  obtain ⟨j, hj⟩ := List.mem_iff_getElem?.1 hx
  exact ⟨i, j, by simp [hi, hj]⟩

theorem mapIdx_map_snd {α : Type} (l : List α) (i : Nat) :
    (l.mapIdx (fun j x => (i, j, x))).map (fun c => c.2.2) = l := by
  apply List.ext_getElem?
  intro p
  simp only [List.getElem?_map, List.getElem?_mapIdx]
  cases l[p]? <;> rfl

theorem cells_flatten {α : Type} (t : List (List α)) : (cells t).map (fun c => c.2.2) = t.flatten := by
  rw [cells, List.map_flatten]
  congr 1
  apply List.ext_getElem?
  intro p
  simp only [List.getElem?_map, List.getElem?_mapIdx]
  cases t[p]? with
  | none => rfl
  | some r => simp only [Option.map_some, mapIdx_map_snd]

theorem mem_cells {α : Type} (t : List (List α)) (i j : Nat) (x : α) :
    (i, j, x) ∈ cells t ↔ (t[i]?.bind (fun r => r[j]?)) = some x := by
  constructor
  · intro h
    obtain ⟨r, hr, hx⟩ := List.mem_flatten.1 h
    obtain ⟨i', hi', rfl⟩ := List.mem_mapIdx.1 hr
    obtain ⟨j', hj', he⟩ := List.mem_mapIdx.1 hx
    cases he
    simp [hi', hj']
  · intro h
    cases hr : t[i]? with
    | none => rw [hr] at h; cases h
    | some r =>
      rw [hr] at h
      have h' : r[j]? = some x := h
      refine List.mem_flatten.2 ⟨r.mapIdx (fun j x => (i, j, x)), ?_, ?_⟩
      · rw [List.mem_iff_getElem?]
        exact ⟨i, by rw [List.getElem?_mapIdx, hr]; rfl⟩
      · rw [List.mem_iff_getElem?]
        exact ⟨j, by rw [List.getElem?_mapIdx, h']; rfl⟩

/-! ## The digitizer channels -/

theorem channels_ants (t : Tables) (h : t.snapAnt.map List.length = t.snapInR.map List.length) :
    (channels t).map (fun c => c.2.1) = t.snapAnt.flatten := by
  rw [channels, List.map_flatten]
  congr 1
  apply List.ext_getElem?
  intro p
  have hp : (t.snapAnt.map List.length)[p]? = (t.snapInR.map List.length)[p]? := by rw [h]
  simp only [List.getElem?_map] at hp
  rw [List.getElem?_map, List.getElem?_mapIdx]
  cases h1 : t.snapAnt[p]? with
  | none =>
    have : (t.snapAnt.zip t.snapInR)[p]? = none := by
      rw [List.getElem?_eq_none_iff] at h1 ⊢
      rw [List.length_zip]; omega
    rw [this]; rfl
  | some r =>
    rw [h1] at hp
    cases h2 : t.snapInR[p]? with
    | none => rw [h2] at hp; cases hp
    | some q =>
      rw [h2] at hp
      have hl : r.length = q.length := by simpa using hp
      have : (t.snapAnt.zip t.snapInR)[p]? = some (r, q) := List.getElem?_zip_eq_some.2 ⟨h1, h2⟩
      rw [this]
      simp only [Option.map_some, List.map_map, Option.some.injEq]
      have hf : ((fun c : Nat × Int × Val => c.2.1) ∘ fun c : Int × Val => (p + 1, c.1, c.2)) = Prod.fst := rfl
      rw [hf]
      exact List.map_fst_zip (by omega)

theorem channels_lengths (t : Tables) (h : t.snapAnt.map List.length = t.snapInR.map List.length) :
    ((t.snapAnt.zip t.snapInR).mapIdx (fun i b => (b.1.zip b.2).map (fun c => (i + 1, c.1, c.2)))).map List.length =
      t.snapAnt.map List.length := by
  apply List.ext_getElem?
  intro p
  have hp : (t.snapAnt.map List.length)[p]? = (t.snapInR.map List.length)[p]? := by rw [h]
  simp only [List.getElem?_map] at hp
  rw [List.getElem?_map, List.getElem?_mapIdx, List.getElem?_map]
  cases h1 : t.snapAnt[p]? with
  | none =>
    have : (t.snapAnt.zip t.snapInR)[p]? = none := by
      rw [List.getElem?_eq_none_iff] at h1 ⊢
      rw [List.length_zip]; omega
    rw [this]; rfl
  | some r =>
    rw [h1] at hp
    cases h2 : t.snapInR[p]? with
    | none => rw [h2] at hp; cases hp
    | some q =>
      rw [h2] at hp
      have hl : r.length = q.length := by simpa using hp
      have : (t.snapAnt.zip t.snapInR)[p]? = some (r, q) := List.getElem?_zip_eq_some.2 ⟨h1, h2⟩
      rw [this]
      simp; omega

theorem channels_get (t : Tables) (h : t.snapAnt.map List.length = t.snapInR.map List.length) (i j : Nat) (a : Int)
    (ha : (t.snapAnt[i]?.bind (fun r => r[j]?)) = some a) :
    ∃ v, (t.snapInR[i]?.bind (fun r => r[j]?)) = some v ∧
      (channels t)[((t.snapAnt.take i).map List.length).sum + j]? = some (i + 1, a, v) := by
  have hp : (t.snapAnt.map List.length)[i]? = (t.snapInR.map List.length)[i]? := by rw [h]
  simp only [List.getElem?_map] at hp
  cases h1 : t.snapAnt[i]? with
  | none => rw [h1] at ha; cases ha
  | some r =>
    rw [h1] at ha hp
    have ha' : r[j]? = some a := ha
    cases h2 : t.snapInR[i]? with
    | none => rw [h2] at hp; cases hp
    | some q =>
      rw [h2] at hp
      have hl : r.length = q.length := by simpa using hp
      have hj : j < r.length := by
        rcases Nat.lt_or_ge j r.length with h' | h'
        · exact h'
        · rw [List.getElem?_eq_none h'] at ha'; cases ha'
      have hq : q[j]? = some (q[j]'(by omega)) := List.getElem?_eq_getElem (by omega)
      refine ⟨q[j]'(by omega), by simp, ?_⟩
      have hz : (t.snapAnt.zip t.snapInR)[i]? = some (r, q) := List.getElem?_zip_eq_some.2 ⟨h1, h2⟩
      have hz2 : (r.zip q)[j]? = some (a, q[j]'(by omega)) := List.getElem?_zip_eq_some.2 ⟨ha', hq⟩
      have := flatten_get ((t.snapAnt.zip t.snapInR).mapIdx
        (fun i b => (b.1.zip b.2).map (fun c => (i + 1, c.1, c.2)))) i j (i + 1, a, q[j]'(by omega)) (by
          rw [List.getElem?_mapIdx, hz]
          simp only [Option.map_some, Option.bind_some, List.getElem?_map, hz2])
      rw [List.map_take, channels_lengths t h, ← List.map_take] at this
      exact this

end Verif.Ssmif
