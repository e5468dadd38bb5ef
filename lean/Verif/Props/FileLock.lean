import Verif.Model.FileLock
/-!
# C22: mutual exclusion
-/
namespace Verif.FileLock

/-- Users that take the lock only when they do not have it, release only when they have it and do
not go on after a timeout. -/
def Disciplined (obj : Nat → Nat) : State → List Event → Prop
  | _, [] => True
  | s, e :: es =>
    (match e with
      | .attempt u => u ∉ s.inside
      | .release u => u ∈ s.inside
      | .die _ => True
      | .withTimeout _ => False) ∧ Disciplined obj (step obj s e) es

/-- The invariant: either the lock is free and nobody is inside, or exactly one user is inside and
their object is the one with the lock. -/
def Inv (obj : Nat → Nat) (s : State) : Prop :=
  (s.flock = none ∧ s.inside = [] ∧ (∀ o, s.locked o = false) ∧ ∀ o, s.ours o = false) ∨
  ∃ u, s.flock = some (obj u) ∧ s.inside = [u] ∧ (∀ o, s.locked o = decide (o = obj u)) ∧
    ∀ o, s.ours o = decide (o = obj u)

theorem step_inv (obj : Nat → Nat) (hobj : ∀ u v, obj u = obj v → u = v) (s : State) (e : Event)
    (hi : Inv obj s)
    (hd : match e with
      | .attempt u => u ∉ s.inside
      | .release u => u ∈ s.inside
      | .die _ => True
      | .withTimeout _ => False) : Inv obj (step obj s e) := by
  cases e with
  | attempt u =>
    rcases hi with ⟨h1, h2, h3, h4⟩ | ⟨v, h1, h2, h3, h4⟩
    · right
      refine ⟨u, ?_⟩
      simp only [step, h3, h1, h2]
      simp [setAt, h3, h4]
    · have huv : ¬ u = v := by simpa [h2] using hd
      have : ¬ obj u = obj v := fun h => huv (hobj _ _ h)
      right
      refine ⟨v, ?_⟩
      simp [step, h3, this, h1, h2, h4]
  | release u =>
    rcases hi with ⟨h1, h2, h3, h4⟩ | ⟨v, h1, h2, h3, h4⟩
    · simp [h2] at hd
    · have huv : u = v := by simpa [h2] using hd
      subst huv
      left
      simp [step, h4, h2, setAt, h3]
  | die u =>
    rcases hi with ⟨h1, h2, h3, h4⟩ | ⟨v, h1, h2, h3, h4⟩
    · left
      simp [step, h1, h2, setAt, h3, h4]
    · by_cases huv : u = v
      · subst huv
        left
        simp [step, h1, h2, setAt, h3, h4]
      · have hne : ¬ obj u = obj v := fun h => huv (hobj _ _ h)
        have hne' : ¬ obj v = obj u := fun h => hne h.symm
        right
        refine ⟨v, ?_⟩
        have hvu : ¬ v = u := fun h => huv h.symm
        simp [step, h1, h2, setAt, h3, h4, hne', hvu]
  | withTimeout u => exact absurd hd id

theorem run_inv (obj : Nat → Nat) (hobj : ∀ u v, obj u = obj v → u = v) (es : List Event) :
    ∀ s, Inv obj s → Disciplined obj s es → Inv obj (run obj s es) := by
  induction es with
  | nil => intro s h _; exact h
  | cons e es ih => intro s h hd; exact ih _ (step_inv obj hobj s e h hd.1) hd.2

theorem init_inv (obj : Nat → Nat) : Inv obj State.init := .inl ⟨rfl, rfl, fun _ => rfl, fun _ => rfl⟩

/-- Missing from the full property: threads that share a lock object (`C22_shared`), nested acquires
(`C22_nested`) and `with` blocks after a timeout (`C22_with_timeout`).  When every user has their own
lock object, at every moment of every interleaving of acquires, retries, releases and crashes at most
one user is inside. -/
theorem C22_exclusion_partial (obj : Nat → Nat) (hobj : ∀ u v, obj u = obj v → u = v) (es : List Event)
    (hd : Disciplined obj State.init es) : (run obj State.init es).inside.length ≤ 1 := by
  rcases run_inv obj hobj es _ (init_inv obj) hd with ⟨_, h, _⟩ | ⟨u, _, h, _⟩ <;> simp [h]

/-- Under the same conditions the lock is not lost: when nobody is inside (including after a crash of
the holder) the next attempt of anybody succeeds. -/
theorem C22_available_partial (obj : Nat → Nat) (hobj : ∀ u v, obj u = obj v → u = v) (es : List Event)
    (hd : Disciplined obj State.init es) (hfree : (run obj State.init es).inside = []) (u : Nat) :
    (step obj (run obj State.init es) (.attempt u)).inside = [u] := by
  rcases run_inv obj hobj es _ (init_inv obj) hd with ⟨h1, h2, h3, _⟩ | ⟨v, _, h, _⟩
  · simp [step, h3, h1, h2]
  · simp [h] at hfree

/-- And `locked()` tells each user whether they have the lock. -/
theorem C22_locked_partial (obj : Nat → Nat) (hobj : ∀ u v, obj u = obj v → u = v) (es : List Event)
    (hd : Disciplined obj State.init es) (u : Nat) :
    (run obj State.init es).locked (obj u) = true ↔ u ∈ (run obj State.init es).inside := by
  rcases run_inv obj hobj es _ (init_inv obj) hd with ⟨_, h2, h3, _⟩ | ⟨v, _, h2, h3, _⟩
  · simp [h2, h3]
  · simp only [h2, h3, decide_eq_true_eq, List.mem_singleton]
    constructor
    · exact hobj u v
    · intro h; rw [h]

/-- The property fails for threads sharing one lock object, whatever the object: once one is inside,
the other's `acquire` returns at once. -/
theorem C22_shared (obj : Nat → Nat) (u v : Nat) (h : obj u = obj v) (huv : u ≠ v) :
    (run obj State.init [.attempt u, .attempt v]).inside = [v, u] ∧
    Disciplined obj State.init [.attempt u, .attempt v] := by
  constructor
  · simp [run, step, State.init, setAt, h]
  · simp [Disciplined, step, State.init, Ne.symm huv]

/-- Nested acquires of one user: the inner release gives the lock away, so that another user with
their own object gets in while the first one is still inside. -/
theorem C22_nested (obj : Nat → Nat) (u v : Nat) (h : obj u ≠ obj v) :
    (run obj State.init [.attempt u, .attempt u, .release u, .attempt v]).inside = [v, u] := by
  simp [run, step, State.init, setAt, Ne.symm h]

/-- A `with` block whose acquire timed out runs its body without the lock. -/
theorem C22_with_timeout (obj : Nat → Nat) (u v : Nat) :
    (run obj State.init [.attempt u, .withTimeout v]).inside = [v, u] ∧
    (run obj State.init [.attempt u, .withTimeout v]).flock = some (obj u) := by
  simp [run, step, State.init]

/-! ### the memory lock -/

/-- How often user `u` is inside after the events: successful acquires minus releases. -/
def depth (u : Nat) : List MEvent → Int
  | [] => 0
  | .acquire v :: es => (if v = u then 1 else 0) + depth u es
  | .release v :: es => (if v = u then -1 else 0) + depth u es
  | .timeout _ :: es => depth u es

theorem mstep_depth (s s' : MState) (e : MEvent) (h : mstep s e = some s') (k : Nat → Int)
    (hk : ∀ u, k u = if s.owner = some u then (s.count : Int) else 0)
    (hc : s.owner = none ↔ s.count = 0) :
    (∀ u, k u + depth u [e] = if s'.owner = some u then (s'.count : Int) else 0) ∧
      (s'.owner = none ↔ s'.count = 0) := by
  cases e with
  | acquire v =>
    simp only [mstep] at h
    split at h
    · rename_i hor
      injection h with h
      subst h
      refine ⟨?_, by simp⟩
      intro u
      rw [hk u]
      simp only [depth, Option.some.injEq]
      rcases hor with ho | ho
      · have := hc.mp ho
        by_cases hv : v = u <;> simp [ho, hv, this]
      · by_cases hv : v = u <;> simp [ho, hv]
    · exact absurd h (by simp)
  | timeout v =>
    simp only [mstep] at h
    split at h
    · exact absurd h (by simp)
    · injection h with h
      subst h
      exact ⟨fun u => by rw [hk u]; simp [depth], hc⟩
  | release v =>
    simp only [mstep] at h
    split at h
    · rename_i ho
      injection h with h
      have hc0 : s.count ≠ 0 := by
        intro h0
        rw [hc.mpr h0] at ho
        simp at ho
      by_cases h1 : s.count = 1
      · rw [if_pos h1] at h
        subst h
        refine ⟨?_, by simp⟩
        intro u
        rw [hk u]
        by_cases hv : v = u <;> simp [depth, ho, hv, h1]
      · rw [if_neg h1] at h
        subst h
        refine ⟨?_, by simp; omega⟩
        intro u
        rw [hk u]
        by_cases hv : v = u
        · simp [depth, ho, hv]; omega
        · simp [depth, ho, hv]
    · exact absurd h (by simp)

theorem depth_cons (u : Nat) (e : MEvent) (es : List MEvent) : depth u (e :: es) = depth u [e] + depth u es := by
  cases e <;> simp [depth]

theorem mrun_depth (es : List MEvent) : ∀ (s s' : MState) (k : Nat → Int), mrun s es = some s' →
    (∀ u, k u = if s.owner = some u then (s.count : Int) else 0) → (s.owner = none ↔ s.count = 0) →
    (∀ u, k u + depth u es = if s'.owner = some u then (s'.count : Int) else 0) ∧
      (s'.owner = none ↔ s'.count = 0) := by
  induction es with
  | nil =>
    intro s s' k h hk hc
    simp only [mrun, Option.some.injEq] at h
    subst h
    exact ⟨fun u => by simp [depth, hk u], hc⟩
  | cons e es ih =>
    intro s s' k h hk hc
    simp only [mrun] at h
    cases hm : mstep s e with
    | none => simp [hm] at h
    | some s1 =>
      rw [hm] at h
      obtain ⟨h1, h2⟩ := mstep_depth s s1 e hm k hk hc
      have := ih s1 s' (fun u => k u + depth u [e]) h h1 h2
      refine ⟨fun u => ?_, this.2⟩
      rw [← this.1 u, depth_cons]
      omega

/-- The memory lock excludes threads, also when acquires are nested: for every possible history, if
two users are inside they are the same; nobody leaves more often than they entered. -/
theorem C22_memory_lock (es : List MEvent) (s : MState) (h : mrun MState.init es = some s) :
    (∀ u v, 0 < depth u es → 0 < depth v es → u = v) ∧ ∀ u, 0 ≤ depth u es := by
  have := (mrun_depth es _ s (fun _ => 0) h (by simp [MState.init]) (by simp [MState.init])).1
  constructor
  · intro u v hu hv
    have h1 := this u
    have h2 := this v
    by_cases ho : s.owner = some u
    · by_cases ho2 : s.owner = some v
      · rw [ho] at ho2; injection ho2
      · rw [if_neg ho2] at h2; omega
    · rw [if_neg ho] at h1; omega
  · intro u
    have h1 := this u
    by_cases ho : s.owner = some u
    · rw [if_pos ho] at h1; omega
    · rw [if_neg ho] at h1; omega

/-- The memory lock is free exactly when nobody is inside; then anybody can take it. -/
theorem C22_memory_available (es : List MEvent) (s : MState) (h : mrun MState.init es = some s)
    (hall : ∀ u, depth u es = 0) (v : Nat) : ∃ s', mstep s (.acquire v) = some s' := by
  have := mrun_depth es _ s (fun _ => 0) h (by simp [MState.init]) (by simp [MState.init])
  have hfree : s.owner = none := by
    cases ho : s.owner with
    | none => rfl
    | some u =>
      have h1 := this.1 u
      rw [if_pos ho, hall u] at h1
      have : s.owner = none := this.2.mpr (by omega)
      rw [this] at ho; simp at ho
  exact ⟨⟨some v, s.count + 1, true⟩, by simp only [mstep, hfree, true_or, if_true]⟩

/-- Only the user inside can release; anybody else gets an exception. -/
theorem C22_memory_release (es : List MEvent) (s : MState) (h : mrun MState.init es = some s) (u : Nat) :
    mstep s (.release u) ≠ none ↔ 0 < depth u es := by
  have := mrun_depth es _ s (fun _ => 0) h (by simp [MState.init]) (by simp [MState.init])
  have h1 := this.1 u
  by_cases ho : s.owner = some u
  · have hc : s.count ≠ 0 := fun h0 => by rw [this.2.mpr h0] at ho; simp at ho
    rw [if_pos ho] at h1
    simp [mstep, ho]
    omega
  · rw [if_neg ho] at h1
    simp [mstep, ho]
    omega

/-- `locked()` of the memory lock is false although the lock is held: after the release of a nested
acquire, and after a timeout of another thread. -/
theorem C22_memory_locked (u v : Nat) (h : u ≠ v) :
    mrun MState.init [.acquire u, .acquire u, .release u] = some ⟨some u, 1, false⟩ ∧
    mrun MState.init [.acquire u, .timeout v] = some ⟨some u, 1, false⟩ := by
  simp [mrun, mstep, MState.init, h]

/-- Hypotheses of the exclusion theorem: two users with their own objects, a crash and a retry. -/
example : Disciplined (fun u => u) State.init [.attempt 1, .attempt 2, .die 1, .attempt 2, .release 2, .attempt 1] ∧
    (run (fun u => u) State.init [.attempt 1, .attempt 2, .die 1, .attempt 2]).inside = [2] := by
  refine ⟨?_, by decide⟩
  simp [Disciplined, step, State.init, setAt]

example : mrun MState.init [.acquire 1, .acquire 1, .timeout 2, .release 1, .release 1, .acquire 2] =
    some ⟨some 2, 1, true⟩ := by decide

end Verif.FileLock
