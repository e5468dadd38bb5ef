import Verif.Lemmas.Buffer
/-!
# Histories of the frame buffer as chains of elementary steps
-/
namespace Verif.Buffer
variable {K D B : Type} [DecidableEq K] [DecidableEq D]

/-- Frames of a returned group, before the optional sort. -/
def assemble (c : Cfg K D B) (l : List (Fr K D B)) : List (Fr K D B) :=
  if l.length = c.nFrames then l
  else if l.length < c.nFrames then
    match l with
    | [] => []
    | t :: _ => l ++ (missingList c l).map (createFill c t)
  else (dedup [] l).1

/-- Number of frames discarded as duplicates when a group is returned. -/
def dupCount (c : Cfg K D B) (l : List (Fr K D B)) : Nat :=
  if c.nFrames < l.length then (dedup [] l).2 else 0

omit [DecidableEq K] [DecidableEq D] in
theorem insertBy_perm (r : Fr K D B → Int) (x : Fr K D B) (l : List (Fr K D B)) :
    (insertBy r x l).Perm (x :: l) := by
  induction l with
  | nil => exact List.Perm.refl _
  | cons y l ih =>
    simp only [insertBy]
    split
    · exact List.Perm.refl _
    · exact (ih.cons y).trans (List.Perm.swap ..)

omit [DecidableEq K] [DecidableEq D] in
theorem sortBy_perm (r : Fr K D B → Int) (l : List (Fr K D B)) : (sortBy r l).Perm l := by
  induction l with
  | nil => exact List.Perm.refl _
  | cons y l ih => exact (insertBy_perm r y _).trans (ih.cons y)

omit [DecidableEq K] [DecidableEq D] in
theorem insertBy_sorted (r : Fr K D B → Int) (x : Fr K D B) (l : List (Fr K D B))
    (h : l.Pairwise (fun a b => r a ≤ r b)) : (insertBy r x l).Pairwise (fun a b => r a ≤ r b) := by
  induction l with
  | nil => simp [insertBy]
  | cons y l ih =>
    simp only [insertBy]
    rw [List.pairwise_cons] at h
    split
    · rename_i hle
      rw [List.pairwise_cons]
      refine ⟨?_, List.pairwise_cons.mpr h⟩
      intro a ha
      rw [List.mem_cons] at ha
      rcases ha with rfl | ha
      · exact hle
      · have := h.1 a ha; omega
    · rename_i hle
      rw [List.pairwise_cons]
      refine ⟨?_, ih h.2⟩
      intro a ha
      rw [(insertBy_perm r x l).mem_iff, List.mem_cons] at ha
      rcases ha with rfl | ha
      · omega
      · exact h.1 a ha

omit [DecidableEq K] [DecidableEq D] in
theorem sortBy_sorted (r : Fr K D B → Int) (l : List (Fr K D B)) :
    (sortBy r l).Pairwise (fun a b => r a ≤ r b) := by
  induction l with
  | nil => exact List.Pairwise.nil
  | cons y l ih => exact insertBy_sorted r y _ ih

omit [DecidableEq K] [DecidableEq D] in
theorem reorderF_perm (c : Cfg K D B) (l : List (Fr K D B)) : (reorderF c l).Perm l := by
  unfold reorderF
  split
  · exact List.Perm.refl _
  · exact sortBy_perm _ _

theorem getKey_some (c : Cfg K D B) (s : St K D B) (k : Int) (l : List (Fr K D B))
    (h : lookup k s.buf = some l) :
    (getKey c s k).1.buf = erase k s.buf ∧ (getKey c s k).1.done = (k :: s.done).take c.nseg ∧
    (∃ g, (getKey c s k).2 = .group k g ∧ g.Perm (assemble c l)) ∧
    (getKey c s k).1.dropped = s.dropped + dupCount c l ∧
    (getKey c s k).1.full + (getKey c s k).1.partialN = s.full + s.partialN + 1 ∧
    (getKey c s k).1.missing = s.missing + (c.nFrames - l.length) := by
  unfold getKey assemble dupCount
  simp only [h]
  split
  · rename_i e
    refine ⟨rfl, rfl, ⟨_, rfl, reorderF_perm ..⟩, ?_, ?_, ?_⟩
    · simp [e]
    · simp; omega
    · simp [e]
  · split
    · cases l with
      | nil =>
        refine ⟨rfl, rfl, ⟨_, rfl, List.Perm.refl _⟩, ?_, ?_, ?_⟩
        · simp
        · simp; omega
        · simp
      | cons t r =>
        rename_i e1 e2
        refine ⟨rfl, rfl, ⟨_, rfl, reorderF_perm ..⟩, ?_, ?_, ?_⟩
        · have : ¬ c.nFrames < (t :: r).length := by omega
          simp only [this, if_false]; rfl
        · simp; omega
        · simp
    · rename_i e1 e2
      have hlt : c.nFrames < l.length := by omega
      refine ⟨rfl, rfl, ⟨_, rfl, reorderF_perm ..⟩, ?_, ?_, ?_⟩
      · simp [hlt]
      · simp; omega
      · simp; omega

theorem getKey_none (c : Cfg K D B) (s : St K D B) (k : Int)
    (h : lookup k s.buf = none) : getKey c s k = (s, .keyError) := by
  unfold getKey; simp [h]

/-- Chains of elementary steps; `P` restricts which keys may be taken. -/
inductive Steps (c : Cfg K D B) (P : St K D B → Int → Prop) :
    St K D B → List (Ev K D B) → St K D B → Prop
  | nil (s) : Steps c P s [] s
  | arrive {s f s' e s''} : append1 s f = some s' → Steps c P s' e s'' →
      Steps c P s (.arrive f :: e) s''
  | got {s k l e s''} : lookup k s.buf = some l → P s k → Steps c P (getKey c s k).1 e s'' →
      Steps c P s (.out (getKey c s k).2 :: e) s''
  | nothing {s e s''} : Steps c P s e s'' → Steps c P s (.out .nothing :: e) s''

theorem Steps.append {c : Cfg K D B} {P : St K D B → Int → Prop} {s e s' e' s''}
    (h : Steps c P s e s') (h' : Steps c P s' e' s'') : Steps c P s (e ++ e') s'' := by
  induction h with
  | nil => exact h'
  | arrive a _ ih => exact .arrive a (ih h')
  | got a b _ ih => exact .got a b (ih h')
  | nothing _ ih => exact .nothing (ih h')

omit [DecidableEq K] [DecidableEq D] in
theorem append1_cases {s s' : St K D B} {f : Fr K D B} (h : append1 s f = some s') :
    ∃ d ds, s.done = d :: ds ∧ s'.done = s.done ∧
      s'.full = s.full ∧ s'.partialN = s.partialN ∧ s'.missing = s.missing ∧
      ((f.fom ≤ d ∧ s'.buf = s.buf ∧ s'.dropped = s.dropped + 1) ∨
       (d < f.fom ∧ s'.buf = insertF f s.buf ∧ s'.dropped = s.dropped)) := by
  unfold append1 at h
  split at h
  · simp at h
  · rename_i d ds e
    split at h
    · rename_i hle
      simp at h; subst h
      exact ⟨d, ds, e, rfl, rfl, rfl, rfl, .inl ⟨hle, rfl, rfl⟩⟩
    · rename_i hle
      simp at h; subst h
      exact ⟨d, ds, e, rfl, rfl, rfl, rfl, .inr ⟨by omega, rfl, rfl⟩⟩

omit [DecidableEq K] [DecidableEq D] in
theorem append1_wf {s s' : St K D B} {f : Fr K D B} (h : append1 s f = some s') (w : WF s.buf) :
    WF s'.buf := by
  obtain ⟨d, ds, _, _, _, _, _, h | h⟩ := append1_cases h
  · rw [h.2.1]; exact w
  · rw [h.2.1]; exact insertF_wf _ _ w

theorem getKey_wf (c : Cfg K D B) (s : St K D B) (k : Int) (w : WF s.buf) :
    WF (getKey c s k).1.buf := by
  cases h : lookup k s.buf with
  | none => rw [getKey_none c s k h]; exact w
  | some l => rw [(getKey_some c s k l h).1]; exact erase_wf k _ w

theorem steps_wf {c : Cfg K D B} {P : St K D B → Int → Prop} {s e s'}
    (h : Steps c P s e s') (w : WF s.buf) : WF s'.buf := by
  induction h with
  | nil => exact w
  | arrive a _ ih => exact ih (append1_wf a w)
  | got _ _ _ ih => exact ih (getKey_wf _ _ _ w)
  | nothing _ ih => exact ih w

theorem append_steps {c : Cfg K D B} {P : St K D B → Int → Prop} {fs : List (Fr K D B)} :
    ∀ {s s' : St K D B}, append s fs = some s' → Steps c P s (fs.map .arrive) s' := by
  induction fs with
  | nil => intro s s' h; simp [append] at h; subst h; exact .nil _
  | cons f fs ih =>
    intro s s' h
    simp only [append] at h
    cases ha : append1 s f with
    | none => simp [ha] at h
    | some s1 =>
      simp only [ha, Option.bind_some] at h
      exact .arrive ha (ih h)

/-- The key chosen by `get()`. -/
def IsMin (s : St K D B) (k : Int) : Prop := k ∈ keys s.buf ∧ ∀ k' ∈ keys s.buf, k ≤ k'

theorem get_steps (c : Cfg K D B) (P : St K D B → Int → Prop) (hP : ∀ s k, IsMin s k → P s k)
    (s : St K D B) : Steps c P s [.out (get c s).2] (get c s).1 := by
  unfold get
  cases hp : peek c s true with
  | none => exact .nothing (.nil _)
  | some k =>
    have hm : minKey s.buf = some k := by
      unfold peek at hp
      split at hp
      · simp at hp
      · exact hp
    have := minKey_some hm
    cases hl : lookup k s.buf with
    | none => exact absurd this.1 (lookup_none.mp hl)
    | some l => exact .got hl (hP s k this) (.nil _)

theorem flushKeys_steps (c : Cfg K D B) (P : St K D B → Int → Prop) (hP : ∀ s k, P s k)
    (ks : List Int) : ∀ s : St K D B, ks.Nodup → (∀ k ∈ ks, k ∈ keys s.buf) →
    Steps c P s ((flushKeys c s ks).2.map .out) (flushKeys c s ks).1 := by
  induction ks with
  | nil => intro s _ _; exact .nil _
  | cons k ks ih =>
    intro s hn hk
    rw [List.nodup_cons] at hn
    cases hl : lookup k s.buf with
    | none => exact absurd (hk k (List.mem_cons_self ..)) (lookup_none.mp hl)
    | some l =>
      simp only [flushKeys, List.map_cons]
      refine .got hl (hP _ _) (ih _ hn.2 ?_)
      intro k' hk'
      rw [(getKey_some c s k l hl).1, erase_keys]
      refine (List.mem_erase_of_ne ?_).mpr (hk k' (List.mem_cons_of_mem _ hk'))
      intro e; exact hn.1 (e ▸ hk')

/-- Every history is a chain of elementary steps. -/
theorem run_steps (c : Cfg K D B) (ops : List (Op K D B)) : ∀ (s s' : St K D B)
    (evs : List (Ev K D B)), WF s.buf → run c s ops = some (s', evs) →
    Steps c (fun _ _ => True) s evs s' := by
  induction ops with
  | nil => intro s s' evs _ h; simp [run] at h; obtain ⟨rfl, rfl⟩ := h; exact .nil _
  | cons o ops ih =>
    intro s s' evs w h
    simp only [run] at h
    cases hs : step c s o with
    | none => simp [hs] at h
    | some r =>
      simp only [hs, Option.bind_some] at h
      cases hr : run c r.1 ops with
      | none => simp [hr] at h
      | some q =>
        simp only [hr, Option.map_some, Option.some.injEq, Prod.mk.injEq] at h
        obtain ⟨rfl, rfl⟩ := h
        have h1 : Steps c (fun _ _ => True) s r.2 r.1 := by
          cases o with
          | put fs =>
            simp only [step] at hs
            cases ha : append s fs with
            | none => simp [ha] at hs
            | some s1 => simp [ha] at hs; subst hs; exact append_steps ha
          | get =>
            simp only [step, Option.some.injEq] at hs; subst hs
            exact get_steps c _ (fun _ _ _ => trivial) s
          | flush =>
            simp only [step, Option.some.injEq] at hs; subst hs
            exact flushKeys_steps c _ (fun _ _ => trivial) _ s w.1 (fun _ h => h)
        exact h1.append (ih _ _ _ (steps_wf h1 w) hr)

/-- Histories without `flush` only take smallest keys. -/
theorem run_steps_min (c : Cfg K D B) (ops : List (Op K D B)) (hops : ∀ o ∈ ops, o ≠ Op.flush) :
    ∀ (s s' : St K D B) (evs : List (Ev K D B)), run c s ops = some (s', evs) →
    Steps c IsMin s evs s' := by
  induction ops with
  | nil => intro s s' evs h; simp [run] at h; obtain ⟨rfl, rfl⟩ := h; exact .nil _
  | cons o ops ih =>
    intro s s' evs h
    simp only [run] at h
    cases hs : step c s o with
    | none => simp [hs] at h
    | some r =>
      simp only [hs, Option.bind_some] at h
      cases hr : run c r.1 ops with
      | none => simp [hr] at h
      | some q =>
        simp only [hr, Option.map_some, Option.some.injEq, Prod.mk.injEq] at h
        obtain ⟨rfl, rfl⟩ := h
        have h1 : Steps c IsMin s r.2 r.1 := by
          cases o with
          | put fs =>
            simp only [step] at hs
            cases ha : append s fs with
            | none => simp [ha] at hs
            | some s1 => simp [ha] at hs; subst hs; exact append_steps ha
          | get =>
            simp only [step, Option.some.injEq] at hs; subst hs
            exact get_steps c _ (fun _ _ h => h) s
          | flush => exact absurd rfl (hops _ (List.mem_cons_self ..))
        exact h1.append (ih (fun o ho => hops o (List.mem_cons_of_mem _ ho)) _ _ _ hr)

end Verif.Buffer
