import Verif.Model.Config
/-!
# C35: temporary and permanent changes, C59: tracking of changes
-/
namespace Verif.Config

/-! ### specification -/

/-- The value a parameter has for a reader. -/
def Reads (c : Conf) (n : Name) (v : Val) : Prop := get c n = .ok v

/-- The program changes `n` permanently: there is a `set` of `n` that is not inside a temporary change
of `n`. -/
def Changes (n : Name) : Prog → Prop
  | .done => False
  | .set m _ next => m = n ∨ Changes n next
  | .temp m _ body next => (m ≠ n ∧ Changes n body) ∨ Changes n next
  | .raise _ => False
  | .attempt body next => Changes n body ∨ Changes n next
  | .check _ _ next => Changes n next

/-! ### C35 -/

theorem set_params (names : List Name) (c c' : Conf) (n : Name) (v : Val) (h : set names c n v = .ok c') :
    ∃ p, c.params n = some p ∧ c'.params = setParam c.params n { p with value := v } ∧
      (p.optional = true ∨ v.ty = p.value.ty) := by
  unfold set at h
  split at h
  · simp at h
  · rename_i p hp
    refine ⟨p, hp, ?_⟩
    split at h
    · simp at h
    · rename_i hty
      refine ⟨?_, ?_⟩
      · simp only at h
        split at h
        · injection h with h; rw [← h]
        · split at h
          · injection h with h; rw [← h]
          · injection h with h; rw [← h]
      · cases ho : p.optional with
        | true => exact Or.inl rfl
        | false =>
          right
          apply Classical.byContradiction
          intro hn
          exact hty ⟨hn, ho⟩

theorem setParam_same (f : Name → Option Param) (n : Name) (p : Param) : setParam f n p n = some p := by
  simp [setParam]

theorem setParam_other (f : Name → Option Param) (n m : Name) (p : Param) (h : m ≠ n) :
    setParam f n p m = f m := by simp [setParam, h]

/-- A permanent change is seen by later reads, and changes nothing else. -/
theorem C35_set_visible_partial (names : List Name) (c c' : Conf) (n : Name) (v : Val) (h : set names c n v = .ok c') :
    Reads c' n v ∧ ∀ m, m ≠ n → get c' m = get c m := by
  obtain ⟨p, _, hp, _⟩ := set_params names c c' n v h
  refine ⟨?_, ?_⟩
  · simp [Reads, get, hp, setParam]
  · intro m hm
    simp [get, hp, setParam, hm]

/-- When a change is refused. -/
theorem C35_set_refused (names : List Name) (c : Conf) (n : Name) (v : Val) :
    (∃ e, set names c n v = .error e) ↔
      c.params n = none ∨ ∃ p, c.params n = some p ∧ p.optional = false ∧ v.ty ≠ p.value.ty := by
  unfold set
  cases hp : c.params n with
  | none => simp
  | some p =>
    simp only [Option.some.injEq, reduceCtorEq, false_or]
    by_cases h : v.ty ≠ p.value.ty ∧ p.optional = false
    · rw [if_pos h]
      constructor
      · intro _; exact ⟨p, rfl, h.2, h.1⟩
      · intro _; exact ⟨_, rfl⟩
    · rw [if_neg h]
      constructor
      · rintro ⟨e, he⟩
        split at he
        · simp at he
        · split at he <;> simp at he
      · rintro ⟨q, rfl, h1, h2⟩
        exact absurd ⟨h2, h1⟩ h

/-- The parameters keep their names and whether they are optional in any program. -/
theorem run_shape (names : List Name) (p : Prog) : ∀ (c : Conf) (n : Name),
    ((run names p c).1.params n).map Param.optional = (c.params n).map Param.optional := by
  induction p with
  | done => intro c n; rfl
  | set m v next ih =>
    intro c n
    simp only [run]
    split
    · rfl
    · rename_i c' hc
      rw [ih]
      obtain ⟨q, hq, hp, _⟩ := set_params names c c' m v hc
      rw [hp]
      by_cases hnm : n = m
      · subst hnm; simp [setParam_same, hq]
      · rw [setParam_other _ _ _ _ hnm]
  | temp m v body next ihb ihn =>
    intro c n
    simp only [run]
    cases hm : c.params m with
    | none => rfl
    | some q =>
      simp only
      split
      · rfl
      · have hb := ihb { c with params := setParam c.params m { q with value := v } }
        generalize hrun : run names body { c with params := setParam c.params m { q with value := v } } = R at hb
        obtain ⟨c1, r⟩ := R
        simp only at hb ⊢
        have key : ((restore c1 m q.value).params n).map Param.optional = (c.params n).map Param.optional := by
          unfold restore
          have hbn := hb n
          have hbm := hb m
          rw [setParam_same] at hbm
          cases h1 : c1.params m with
          | none => rw [h1] at hbm; simp at hbm
          | some q' =>
            rw [h1] at hbm
            simp only
            by_cases hnm : n = m
            · subst hnm
              rw [setParam_same, hm]
              simp only [Option.map_some] at hbm ⊢
              exact hbm
            · rw [setParam_other _ _ _ _ hnm, hbn, setParam_other _ _ _ _ hnm]
        cases r with
        | none => simp only; rw [ihn]; exact key
        | some e =>
          cases e <;> exact key
  | raise e => intro c n; rfl
  | attempt body next ihb ihn =>
    intro c n
    simp only [run]
    rw [ihn, ihb]
  | check m v next ih =>
    intro c n
    simp only [run]
    split
    · split
      · exact ih c n
      · rfl
    · rfl

/-- After leaving a temporary change the parameter has the value it had before, whatever was done
inside (other changes, nested contexts, permanent changes of the same parameter, exceptions). -/
theorem C35_restored (names : List Name) (n : Name) (v w : Val) (body : Prog) (c : Conf)
    (h : Reads c n w) : Reads (run names (.temp n v body .done) c).1 n w := by
  unfold Reads get at h
  simp only [run]
  cases hn : c.params n with
  | none => rw [hn] at h; simp at h
  | some p =>
    rw [hn] at h
    simp only [Except.ok.injEq] at h
    simp only
    split
    · simp [Reads, get, hn, h]
    · have hs := run_shape names body { c with params := setParam c.params n { p with value := v } } n
      generalize hrun : run names body { c with params := setParam c.params n { p with value := v } } = R at hs
      obtain ⟨c1, r⟩ := R
      simp only [setParam_same, Option.map_some] at hs ⊢
      have key : Reads (restore c1 n p.value) n w := by
        unfold restore
        cases h1 : c1.params n with
        | none => rw [h1] at hs; simp at hs
        | some q' => simp [Reads, get, setParam_same, h]
      cases r with
      | none => exact key
      | some e => cases e <;> exact key

/-- A program that does not change `n` permanently leaves it as it was, with any nesting of temporary
changes and any exceptions. -/
theorem C35_unchanged (names : List Name) (p : Prog) : ∀ (c : Conf) (n : Name), ¬ Changes n p →
    get (run names p c).1 n = get c n := by
  induction p with
  | done => intro c n _; rfl
  | set m v next ih =>
    intro c n h
    simp only [Changes, not_or] at h
    simp only [run]
    split
    · rfl
    · rename_i c' hc
      rw [ih c' n h.2]
      exact (C35_set_visible_partial names c c' m v hc).2 n (Ne.symm h.1)
  | temp m v body next ihb ihn =>
    intro c n h
    simp only [Changes, not_or, not_and] at h
    simp only [run]
    cases hm : c.params m with
    | none => rfl
    | some q =>
      simp only
      split
      · rfl
      · have hs := run_shape names body { c with params := setParam c.params m { q with value := v } } m
        have hb := ihb { c with params := setParam c.params m { q with value := v } } n
        generalize hrun : run names body { c with params := setParam c.params m { q with value := v } } = R at hb hs
        obtain ⟨c1, r⟩ := R
        simp only [setParam_same, Option.map_some] at hb hs ⊢
        have key : get (restore c1 m q.value) n = get c n := by
          unfold restore
          cases h1 : c1.params m with
          | none => rw [h1] at hs; simp at hs
          | some q' =>
            simp only
            by_cases hnm : n = m
            · subst hnm
              simp [get, setParam_same, hm]
            · have h2 := hb (h.1 (Ne.symm hnm))
              simp only [get, setParam_other _ _ _ _ hnm] at h2 ⊢
              exact h2
        cases r with
        | none => simp only; rw [ihn _ n h.2]; exact key
        | some e => cases e <;> exact key
  | raise e => intro c n _; rfl
  | attempt body next ihb ihn =>
    intro c n h
    simp only [Changes, not_or] at h
    simp only [run]
    rw [ihn _ n h.2, ihb _ n h.1]
  | check m v next ih =>
    intro c n h
    simp only [run]
    split
    · split
      · exact ih c n h
      · rfl
    · rfl

/-- Inside the context the temporary value is read: asserting so at the start of the body changes
nothing in the execution. -/
theorem C35_inside (names : List Name) (c : Conf) (n : Name) (v : Val) (body next : Prog) :
    run names (.temp n v (.check n v body) next) c = run names (.temp n v body next) c := by
  simp only [run]
  cases hn : c.params n with
  | none => rfl
  | some p => simp [get, setParam_same]

/-- Missing from the full property: a permanent change of the same parameter made inside the context is
undone too, so later reads do not see it. -/
theorem C35_set_lost (names : List Name) (c : Conf) (n : Name) (old tmp new : Val) (hne : new ≠ old)
    (h : Reads c n old) :
    ¬ Reads (run names (.temp n tmp (.set n new .done) .done) c).1 n new := by
  intro hr
  have := C35_restored names n tmp old (.set n new .done) c h
  unfold Reads at this hr
  rw [this] at hr
  injection hr with hr
  exact hne hr.symm

/-- A `KeyError` raised by the code inside the context comes out as a `ValueError` about an unknown
parameter; every other exception comes out as it is. -/
theorem C35_exception (names : List Name) (c : Conf) (n : Name) (p : Param) (v : Val) (e : Exc)
    (hn : c.params n = some p) (hty : v.ty = p.value.ty) :
    (run names (.temp n v (.raise e) .done) c).2 = some (if e = .key then .value else e) := by
  simp only [run, hn, hty]
  cases e <;> simp

/-- The type of a parameter that is not optional never changes. -/
theorem C35_type (names : List Name) (p : Prog) : ∀ (c : Conf) (n : Name) (q q' : Param),
    c.params n = some q → q.optional = false → (run names p c).1.params n = some q' →
    q'.value.ty = q.value.ty := by
  induction p with
  | done => intro c n q q' h1 _ h3; simp only [run] at h3; rw [h1] at h3; injection h3 with h3; rw [h3]
  | set m v next ih =>
    intro c n q q' h1 h2 h3
    simp only [run] at h3
    split at h3
    · rw [h1] at h3; injection h3 with h3; rw [h3]
    · rename_i c' hc
      obtain ⟨r, hr, hp, hty⟩ := set_params names c c' m v hc
      by_cases hnm : n = m
      · subst hnm
        rw [h1] at hr; injection hr with hr; subst hr
        have h4 : c'.params n = some { q with value := v } := by rw [hp, setParam_same]
        have := ih c' n _ q' h4 h2 h3
        rw [this]
        rcases hty with hty | hty
        · rw [h2] at hty; simp at hty
        · exact hty
      · have h4 : c'.params n = some q := by rw [hp, setParam_other _ _ _ _ hnm, h1]
        exact ih c' n q q' h4 h2 h3
  | temp m v body next ihb ihn =>
    intro c n q q' h1 h2 h3
    simp only [run] at h3
    cases hm : c.params m with
    | none => rw [hm] at h3; simp only at h3; rw [h1] at h3; injection h3 with h3; rw [h3]
    | some r =>
      rw [hm] at h3
      simp only at h3
      split at h3
      · rw [h1] at h3; injection h3 with h3; rw [h3]
      · rename_i hty
        have hs := run_shape names body { c with params := setParam c.params m { r with value := v } }
        have hb := ihb { c with params := setParam c.params m { r with value := v } } n
        generalize hrun : run names body { c with params := setParam c.params m { r with value := v } } = R at *
        obtain ⟨c1, o⟩ := R
        simp only at hb hs h3
        have hsm := hs m
        rw [setParam_same] at hsm
        cases h4 : c1.params m with
        | none => rw [h4] at hsm; simp at hsm
        | some r' =>
          have hrest : (restore c1 m r.value).params = setParam c1.params m { r' with value := r.value } := by
            unfold restore; rw [h4]
          have key : ∃ q2, (setParam c1.params m { r' with value := r.value }) n = some q2 ∧
              q2.value.ty = q.value.ty ∧ q2.optional = false := by
            by_cases hnm : n = m
            · subst hnm
              rw [h1] at hm; injection hm with hm; subst hm
              rw [h4] at hsm
              simp only [Option.map_some, Option.some.injEq] at hsm
              exact ⟨_, setParam_same _ _ _, rfl, by rw [hsm]; exact h2⟩
            · have hsn := hs n
              rw [setParam_other _ _ _ _ hnm, h1] at hsn
              cases h5 : c1.params n with
              | none => rw [h5] at hsn; simp at hsn
              | some q2 =>
                rw [h5] at hsn
                simp only [Option.map_some, Option.some.injEq] at hsn
                refine ⟨q2, by rw [setParam_other _ _ _ _ hnm, h5], ?_, by rw [hsn]; exact h2⟩
                exact hb q q2 (by rw [setParam_other _ _ _ _ hnm, h1]) h2 h5
          obtain ⟨q2, hq2, hty2, hopt2⟩ := key
          cases o with
          | none =>
            simp only at h3
            rw [← hty2]
            exact ihn _ n q2 q' (by rw [hrest]; exact hq2) hopt2 h3
          | some e =>
            have : setParam c1.params m { r' with value := r.value } n = some q' := by
              rw [← hrest]
              cases e <;> exact h3
            rw [hq2] at this
            injection this with this
            rw [← this]; exact hty2
  | raise e => intro c n q q' h1 _ h3; simp only [run] at h3; rw [h1] at h3; injection h3 with h3; rw [h3]
  | attempt body next ihb ihn =>
    intro c n q q' h1 h2 h3
    simp only [run] at h3
    have hs := run_shape names body c n
    rw [h1] at hs
    cases h4 : (run names body c).1.params n with
    | none => rw [h4] at hs; simp at hs
    | some q2 =>
      rw [h4] at hs
      simp only [Option.map_some, Option.some.injEq] at hs
      rw [← ihb c n q q2 h1 h2 h4]
      exact ihn _ n q2 q' h4 (by rw [hs]; exact h2) h3
  | check m v next ih =>
    intro c n q q' h1 h2 h3
    simp only [run] at h3
    split at h3
    · split at h3
      · exact ih c n q q' h1 h2 h3
      · rw [h1] at h3; injection h3 with h3; rw [h3]
    · rw [h1] at h3; injection h3 with h3; rw [h3]

/-- A view falls back to the plain name when reading, but not when setting. -/
theorem C35_view (names : List Name) (c : Conf) (sec : String) (n : Name) (p : Param)
    (h1 : c.params (sec ++ "." ++ n) = none) (h2 : c.params n = some p) :
    viewGet c sec n = .ok p.value ∧ ∀ v, viewSet names c sec n v = .error .value := by
  constructor
  · simp [viewGet, get, h1, h2]
  · intro v
    simp [viewSet, set, h1]

/-! ### C59 -/

theorem pyEq_refl (a : Val) : pyEq a a = true := by
  unfold pyEq
  cases a.num <;> simp

theorem pyEq_symm (a b : Val) (h : pyEq a b = true) : pyEq b a = true := by
  unfold pyEq at *
  cases ha : a.num <;> cases hb : b.num <;> simp_all

theorem pyEq_num (a b : Val) (h : pyEq a b = true) : a.num = b.num := by
  unfold pyEq at h
  cases ha : a.num with
  | none =>
    rw [ha] at h
    have : a = b := by cases hb : b.num <;> simp_all
    rw [← this, ha]
  | some x =>
    cases hb : b.num with
    | none =>
      rw [ha, hb] at h
      have : a = b := by simpa using h
      rw [this] at ha
      rw [ha] at hb
      exact hb
    | some y =>
      rw [ha, hb] at h
      have : x = y := by simpa using h
      rw [this]

theorem pyEq_trans (a b c : Val) (h1 : pyEq a b = true) (h2 : pyEq b c = true) : pyEq a c = true := by
  have e1 := pyEq_num a b h1
  have e2 := pyEq_num b c h2
  unfold pyEq at *
  rw [e1, e2] at h1
  rw [e2] at h2
  rw [e1, e2]
  cases hc : c.num with
  | none =>
    rw [hc] at h1 h2
    simp only [beq_iff_eq] at h1 h2 ⊢
    rw [h1, h2]
  | some x => simp

/-- A history of permanent changes, refused ones included. -/
def runSets (names : List Name) : Conf → List (Name × Val) → Conf
  | c, [] => c
  | c, (n, v) :: l =>
    match set names c n v with
    | .ok c' => runSets names c' l
    | .error _ => runSets names c l

/-- The list of changes against the values at the start. -/
structure Tracks (start : Conf) (c : Conf) : Prop where
  same : ∀ n, (c.params n).isSome = (start.params n).isSome
  entry : ∀ n p q, start.params n = some p → c.params n = some q →
    match c.changedList n with
    | none => pyEq q.value p.value = true
    | some e => pyEq e.1 p.value = true ∧ pyEq q.value p.value = false
  only : ∀ n, start.params n = none → c.changedList n = none
  version : c.versionChanged = start.versionChanged

theorem tracks_set (names : List Name) (start c c' : Conf) (n : Name) (v : Val) (ht : Tracks start c)
    (h : set names c n v = .ok c') : Tracks start c' := by
  unfold set at h
  cases hp : c.params n with
  | none => rw [hp] at h; simp at h
  | some p =>
    rw [hp] at h
    simp only at h
    split at h
    · simp at h
    · have hs : ∃ p0, start.params n = some p0 := by
        have := ht.same n
        rw [hp] at this
        exact Option.isSome_iff_exists.mp this.symm
      obtain ⟨p0, hp0⟩ := hs
      have hent := ht.entry n p0 p hp0 hp
      have hsame : ∀ m, ((setParam c.params n { p with value := v }) m).isSome = (start.params m).isSome := by
        intro m
        by_cases hm : m = n
        · subst hm; rw [setParam_same, hp0]; rfl
        · rw [setParam_other _ _ _ _ hm]; exact ht.same m
      split at h
      · rename_i heq
        injection h with h; subst h
        refine ⟨hsame, ?_, ht.only, ht.version⟩
        intro m a b ha hb
        by_cases hm : m = n
        · subst hm
          simp only [setParam_same, Option.some.injEq] at hb
          subst hb
          rw [hp0] at ha; injection ha with ha; subst ha
          split at hent
          · rename_i hl
            simp only [hl]
            exact pyEq_trans _ _ _ heq hent
          · rename_i e hl
            simp only [hl]
            refine ⟨hent.1, ?_⟩
            cases hq : pyEq v p0.value with
            | false => rfl
            | true =>
              have := pyEq_trans _ _ _ (pyEq_symm _ _ heq) hq
              rw [this] at hent
              simp at hent
        · simp only [setParam_other _ _ _ _ hm] at hb
          exact ht.entry m a b ha hb
      · rename_i hne
        -- the original value
        have horig : ∃ o, originalOf c n p = o ∧ pyEq o p0.value = true := by
          split at hent
          · rename_i hl; exact ⟨p.value, by rw [originalOf, hl], hent⟩
          · rename_i e hl; exact ⟨e.1, by rw [originalOf, hl], hent.1⟩
        obtain ⟨o, ho, hoeq⟩ := horig
        rw [ho] at h
        split at h
        · rename_i hvo
          injection h with h; subst h
          refine ⟨hsame, ?_, ?_, ht.version⟩
          · intro m a b ha hb
            by_cases hm : m = n
            · subst hm
              simp only [setParam_same, Option.some.injEq] at hb
              subst hb
              rw [hp0] at ha; injection ha with ha; subst ha
              simp only [setEntry, if_true]
              exact pyEq_trans _ _ _ hvo hoeq
            · simp only [setParam_other _ _ _ _ hm] at hb
              simp only [setEntry, hm, if_false]
              exact ht.entry m a b ha hb
          · intro m hmn
            by_cases hm : m = n
            · simp [setEntry, hm]
            · simp only [setEntry, hm, if_false]; exact ht.only m hmn
        · rename_i hvo
          injection h with h; subst h
          refine ⟨hsame, ?_, ?_, ht.version⟩
          · intro m a b ha hb
            by_cases hm : m = n
            · subst hm
              simp only [setParam_same, Option.some.injEq] at hb
              subst hb
              rw [hp0] at ha; injection ha with ha; subst ha
              simp only [setEntry, if_true]
              refine ⟨hoeq, ?_⟩
              cases hq : pyEq v p0.value with
              | false => rfl
              | true => exact absurd (pyEq_trans _ _ _ hq (pyEq_symm _ _ hoeq)) hvo
            · simp only [setParam_other _ _ _ _ hm] at hb
              simp only [setEntry, hm, if_false]
              exact ht.entry m a b ha hb
          · intro m hmn
            by_cases hm : m = n
            · subst hm; rw [hp0] at hmn; simp at hmn
            · simp only [setEntry, hm, if_false]; exact ht.only m hmn

/-- Whether a container needs saving, after the flags have been set at least once or nothing changed. -/
theorem flag_set (names : List Name) (c c' : Conf) (n : Name) (v : Val) (hn : ∀ m, (c.params m).isSome → m ∈ names)
    (hl : ∀ m, (c.changedList m).isSome → m ∈ names)
    (hf : c.changed = (anyChanged names c.changedList || c.versionChanged))
    (h : set names c n v = .ok c') :
    c'.changed = (anyChanged names c'.changedList || c'.versionChanged) ∧
      (∀ m, (c'.changedList m).isSome → m ∈ names) ∧ (∀ m, (c'.params m).isSome → m ∈ names) := by
  unfold set at h
  cases hp : c.params n with
  | none => rw [hp] at h; simp at h
  | some p =>
    rw [hp] at h
    simp only at h
    have hin : n ∈ names := hn n (by rw [hp]; rfl)
    have hpar : ∀ q m, ((setParam c.params n q) m).isSome → m ∈ names := by
      intro q m hm
      by_cases hmn : m = n
      · rw [hmn]; exact hin
      · rw [setParam_other _ _ _ _ hmn] at hm; exact hn m hm
    have hent : ∀ e m, ((setEntry c.changedList n e) m).isSome → m ∈ names := by
      intro e m hm
      by_cases hmn : m = n
      · rw [hmn]; exact hin
      · simp only [setEntry, hmn, if_false] at hm; exact hl m hm
    split at h
    · simp at h
    · split at h
      · injection h with h; subst h
        exact ⟨hf, hl, hpar _⟩
      · split at h
        · injection h with h; subst h
          exact ⟨rfl, hent _, hpar _⟩
        · injection h with h; subst h
          refine ⟨?_, hent _, hpar _⟩
          have : anyChanged names (setEntry c.changedList n (some (originalOf c n p, v))) = true := by
            unfold anyChanged
            rw [List.any_eq_true]
            exact ⟨n, hin, by simp [setEntry]⟩
          simp only [this, Bool.true_or]

/-- After any history of changes, going back and forth included, the configuration is marked for saving
exactly when some parameter differs from its value at the start (or the version changed). -/
theorem C59_saves_iff (names : List Name) (start : Conf) (l : List (Name × Val))
    (hn : ∀ m, (start.params m).isSome → m ∈ names) (h0 : ∀ n, start.changedList n = none)
    (hf : start.changed = start.versionChanged) :
    (runSets names start l).changed = true ↔
      start.versionChanged = true ∨
      ∃ n p q, start.params n = some p ∧ (runSets names start l).params n = some q ∧
        pyEq q.value p.value = false := by
  have main : ∀ (l : List (Name × Val)) (c : Conf), Tracks start c →
      c.changed = (anyChanged names c.changedList || c.versionChanged) →
      (∀ m, (c.changedList m).isSome → m ∈ names) → (∀ m, (c.params m).isSome → m ∈ names) →
      Tracks start (runSets names c l) ∧ (runSets names c l).changed =
        (anyChanged names (runSets names c l).changedList || (runSets names c l).versionChanged) ∧
        (∀ m, ((runSets names c l).changedList m).isSome → m ∈ names) := by
    intro l
    induction l with
    | nil => intro c h1 h2 h3 _; exact ⟨h1, h2, h3⟩
    | cons x l ih =>
      intro c h1 h2 h3 h4
      obtain ⟨n, v⟩ := x
      simp only [runSets]
      cases hs : set names c n v with
      | error e => exact ih c h1 h2 h3 h4
      | ok c' =>
        simp only
        obtain ⟨g1, g2, g3⟩ := flag_set names c c' n v h4 h3 h2 hs
        exact ih c' (tracks_set names start c c' n v h1 hs) g1 g2 g3
  have ht0 : Tracks start start := by
    refine ⟨fun _ => rfl, ?_, fun n _ => h0 n, rfl⟩
    intro n p q hp hq
    rw [hp] at hq; injection hq with hq; subst hq
    simp only [h0 n]
    exact pyEq_refl _
  have hany0 : anyChanged names start.changedList = false := by
    unfold anyChanged
    rw [List.any_eq_false]
    intro m _
    simp [h0 m]
  obtain ⟨ht, hfl, hin⟩ := main l start ht0 (by rw [hf, hany0, Bool.false_or]) (by simp [h0]) hn
  rw [hfl, ht.version]
  simp only [Bool.or_eq_true]
  constructor
  · rintro (h | h)
    · right
      unfold anyChanged at h
      rw [List.any_eq_true] at h
      obtain ⟨n, _, hsome⟩ := h
      obtain ⟨e, he⟩ := Option.isSome_iff_exists.mp hsome
      cases hp : start.params n with
      | none => have := ht.only n hp; rw [he] at this; simp at this
      | some p =>
        have hs := ht.same n
        rw [hp] at hs
        obtain ⟨q, hq⟩ := Option.isSome_iff_exists.mp hs
        have := ht.entry n p q hp hq
        rw [he] at this
        exact ⟨n, p, q, hp, hq, this.2⟩
    · exact Or.inl h
  · rintro (h | ⟨n, p, q, hp, hq, hne⟩)
    · exact Or.inr h
    · left
      have := ht.entry n p q hp hq
      cases hl : (runSets names start l).changedList n with
      | none => rw [hl] at this; simp only at this; rw [this] at hne; simp at hne
      | some e =>
        unfold anyChanged
        rw [List.any_eq_true]
        exact ⟨n, hin n (by rw [hl]; rfl), by rw [hl]; rfl⟩

/-- A container with one required and one optional parameter. -/
def sample : Conf :=
  ⟨fun n => if n = "ldp.size" then some ⟨.int 20, false⟩ else if n = "obs.name" then some ⟨.none, true⟩ else none,
    fun _ => none, false, false⟩

example : Reads sample "ldp.size" (.int 20) ∧ ¬ Changes "ldp.size"
    (.temp "ldp.size" (.int 5) (.set "ldp.size" (.int 7) (.raise .key)) .done) ∧
    (runSets ["ldp.size", "obs.name"] sample [("ldp.size", .int 5)]).changed = true ∧
    (runSets ["ldp.size", "obs.name"] sample [("ldp.size", .int 5), ("ldp.size", .int 20)]).changed = false := by
  refine ⟨rfl, by simp [Changes], ?_, ?_⟩
  · decide +kernel
  · decide +kernel

end Verif.Config
