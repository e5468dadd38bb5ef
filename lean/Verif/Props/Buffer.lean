import Verif.Lemmas.BufferInv
/-!
# Frame buffers: C14 – C18, C54

Vocabulary of the statements (all defined on the observable history, `Verif.Lemmas.BufferInv`):
`arrivals`, `groups` (what was returned, with its time), `accepted` (frames newer than the most
recently returned time step when they arrived), `delivered` (returned frames that are not fill).
-/
set_option linter.unusedSectionVars false
namespace Verif.Buffer
variable {K D B : Type} [DecidableEq K] [DecidableEq D]

theorem init_done (c : Cfg K D B) (hn : 1 ≤ c.nseg) (g : Int) : (init c g).done = [g] := by
  obtain ⟨n, h⟩ : ∃ n, c.nseg = n + 1 := ⟨c.nseg - 1, by omega⟩
  simp [init, h]

theorem init_wf (c : Cfg K D B) (g : Int) : WF (init c g).buf :=
  ⟨List.nodup_nil, fun p hp => absurd hp (by simp [init])⟩

theorem flushKeys_done (c : Cfg K D B) (hn : 1 ≤ c.nseg) (ks : List Int) :
    ∀ s : St K D B, s.done ≠ [] → (flushKeys c s ks).1.done ≠ [] := by
  induction ks with
  | nil => intro s h; exact h
  | cons k ks ih =>
    intro s h
    simp only [flushKeys]
    apply ih
    cases hl : lookup k s.buf with
    | none => rw [getKey_none c s k hl]; exact h
    | some l =>
      rw [(getKey_some c s k l hl).2.1]
      obtain ⟨n, h⟩ : ∃ n, c.nseg = n + 1 := ⟨c.nseg - 1, by omega⟩
      simp [h]

/-- No operation raises when `nsegments ≥ 1`: every history runs to its end. -/
theorem run_total (c : Cfg K D B) (hn : 1 ≤ c.nseg) (ops : List (Op K D B)) :
    ∀ s : St K D B, s.done ≠ [] → ∃ r, run c s ops = some r := by
  induction ops with
  | nil => intro s _; exact ⟨_, rfl⟩
  | cons o ops ih =>
    intro s hs
    obtain ⟨d, ds, hd⟩ := List.exists_cons_of_ne_nil hs
    have : ∃ r, step c s o = some r ∧ r.1.done ≠ [] := by
      cases o with
      | put fs =>
        obtain ⟨s', h1, h2⟩ := append_total hd fs
        exact ⟨_, by simp only [step, h1]; rfl, by rw [h2]; exact hs⟩
      | get =>
        refine ⟨_, rfl, ?_⟩
        unfold get
        split
        · exact hs
        · exact flushKeys_done c hn [_] s hs
      | flush => exact ⟨_, rfl, flushKeys_done c hn _ s hs⟩
    obtain ⟨r, h1, h2⟩ := this
    obtain ⟨q, hq⟩ := ih r.1 h2
    exact ⟨_, by simp only [run, h1, Option.bind_some, hq]; rfl⟩

/-! ## C14 -/

/-- Reading with `append` and `get`: returned time steps strictly increase (so none is returned
twice), all are newer than the initial guard, and every frame of a group belongs to its time. -/
theorem C14_get_increasing_partial (c : Cfg K D B) (hn : 1 ≤ c.nseg) (guard : Int)
    (ops : List (Op K D B)) (hops : ∀ o ∈ ops, o ≠ Op.flush) (s : St K D B) (evs : List (Ev K D B))
    (h : run c (init c guard) ops = some (s, evs)) :
    (keys (groups evs)).Pairwise (· < ·) ∧ (∀ k ∈ keys (groups evs), guard < k) ∧
    (∀ p ∈ groups evs, ∀ f ∈ p.2, f.fom = p.1) := by
  have hst := run_steps_min c ops hops _ _ _ h
  have := steps_mono hn hst guard [] (init_done c hn guard) (init_wf c guard) (by simp [init])
  exact ⟨this.1, this.2.1, steps_fom hst (init_wf c guard)⟩

theorem flushKeys_groups (c : Cfg K D B) (ks : List Int) : ∀ s : St K D B, ks.Nodup →
    (∀ k ∈ ks, k ∈ keys s.buf) → keys (groups ((flushKeys c s ks).2.map Ev.out)) = ks := by
  induction ks with
  | nil => intro s _ _; rfl
  | cons k ks ih =>
    intro s hn hk
    rw [List.nodup_cons] at hn
    cases hl : lookup k s.buf with
    | none => exact absurd (hk k (List.mem_cons_self ..)) (lookup_none.mp hl)
    | some l =>
      obtain ⟨h1, _, ⟨g, hg, _⟩, _⟩ := getKey_some c s k l hl
      have := ih (getKey c s k).1 hn.2 (by
        intro k' hk'
        rw [h1, erase_keys]
        refine (List.mem_erase_of_ne ?_).mpr (hk k' (List.mem_cons_of_mem _ hk'))
        intro e; exact hn.1 (e ▸ hk'))
      simp only [flushKeys, List.map_cons, hg, groups, keys_cons, this]

theorem run_append (c : Cfg K D B) (a b : List (Op K D B)) : ∀ s : St K D B,
    run c s (a ++ b) = (run c s a).bind (fun r => (run c r.1 b).map (fun q => (q.1, r.2 ++ q.2))) := by
  induction a with
  | nil => intro s; simp [run]
  | cons o a ih =>
    intro s
    simp only [run, List.cons_append]
    cases step c s o with
    | none => rfl
    | some r =>
      simp only [Option.bind_some, ih]
      cases run c r.1 a with
      | none => rfl
      | some q => 
        simp only [Option.bind_some, Option.map_some]
        cases run c q.1 b with
        | none => rfl
        | some z => simp

/-- The same with one `flush` at the end: still no time step is returned twice, what the flush
returns is newer than everything returned by the gets, and the flush returns all that is left. -/
theorem C14_final_flush_partial (c : Cfg K D B) (hn : 1 ≤ c.nseg) (guard : Int)
    (ops : List (Op K D B)) (hops : ∀ o ∈ ops, o ≠ Op.flush) (s s' : St K D B)
    (evs evs' : List (Ev K D B)) (h : run c (init c guard) ops = some (s, evs))
    (h' : run c s [Op.flush] = some (s', evs')) :
    (keys (groups (evs ++ evs'))).Nodup ∧
    (∀ k ∈ keys (groups evs), ∀ k' ∈ keys (groups evs'), k < k') ∧ s'.buf = [] := by
  have hst := run_steps_min c ops hops _ _ _ h
  have hw := steps_wf hst (init_wf c guard)
  obtain ⟨h1, h2, d', ds', hd', _, hle, hlt⟩ :=
    steps_mono hn hst guard [] (init_done c hn guard) (init_wf c guard) (by simp [init])
  simp only [run, step, Option.bind_some, Option.map_some, Option.some.injEq, Prod.mk.injEq,
    List.append_nil] at h'
  obtain ⟨rfl, rfl⟩ := h'
  have hg : keys (groups ((flush c s).2.map Ev.out)) = keys s.buf :=
    flushKeys_groups c _ s hw.1 (fun _ h => h)
  have hcross : ∀ k ∈ keys (groups evs), ∀ k' ∈ keys (groups ((flush c s).2.map Ev.out)), k < k' := by
    intro k hk k' hk'
    rw [hg] at hk'
    have := hle k hk
    have := hlt k' hk'
    omega
  refine ⟨?_, hcross, ?_⟩
  · have e : keys (groups (evs ++ (flush c s).2.map Ev.out)) =
        keys (groups evs) ++ keys (groups ((flush c s).2.map Ev.out)) := by
      rw [groups_append]; simp [keys]
    rw [e, List.nodup_append]
    refine ⟨h1.imp (fun h e => by omega), by rw [hg]; exact hw.1, ?_⟩
    intro a ha b hb e
    have := hcross a ha b hb
    omega
  · have : ∀ (ks : List Int) (s : St K D B), (∀ k ∈ keys s.buf, k ∈ ks) → WF s.buf →
        (flushKeys c s ks).1.buf = [] := by
      intro ks
      induction ks with
      | nil =>
        intro s hk _
        cases hb : s.buf with
        | nil => exact hb
        | cons p r => have := hk p.1 (by rw [hb]; simp); simp at this
      | cons k ks ih =>
        intro s hk w
        simp only [flushKeys]
        apply ih
        · intro k' hk'
          cases hl : lookup k s.buf with
          | none =>
            rw [getKey_none c s k hl] at hk'
            have := hk k' hk'
            rw [List.mem_cons] at this
            rcases this with rfl | h
            · exact absurd hk' (lookup_none.mp hl)
            · exact h
          | some l =>
            rw [(getKey_some c s k l hl).1, erase_keys] at hk'
            have h3 := (w.1.mem_erase_iff).mp hk'
            have := hk k' h3.2
            rw [List.mem_cons] at this
            rcases this with rfl | h
            · exact absurd rfl h3.1
            · exact h
        · exact getKey_wf c s k w
    exact this _ s (fun _ h => h) hw

/-- Two frames of different times, used in examples and counterexamples. -/
def fr (t : Int) (id : Nat × Nat × Nat) (v : Int) : Fr (Nat × Nat × Nat) (Nat × Nat × Nat) Payload :=
  ⟨t, id, id, false, [v]⟩

/-- The full statement (with `flush` anywhere) is false: frames of times 13 and 12 arrive in that
order, a flush returns time 13 then time 12, after which a late frame of time 13 is accepted and
time 13 is returned a second time. -/
theorem C14_flush_returns_again :
    ∃ (ops : List (Op _ _ _)) (r : St _ _ _ × List (Ev _ _ _)),
      run (drxCfg [1] [1] [0, 1] 1 false) (init (drxCfg [1] [1] [0, 1] 1 false) 10) ops = some r ∧
      keys (groups r.2) = [13, 12, 13] := by
  refine ⟨[.put [fr 13 (1, 1, 0) 5, fr 12 (1, 1, 0) 6], .flush, .put [fr 13 (1, 1, 1) 7], .get],
    _, rfl, ?_⟩
  decide +kernel

example : ∃ r, run (drxCfg [1] [1] [0, 1] 2 false) (init (drxCfg [1] [1] [0, 1] 2 false) drxGuard)
    [.put [fr (drxGuard + 2) (1, 1, 0) 5], .get, .put [fr (drxGuard + 1) (1, 1, 1) 6], .get,
      .put [fr (drxGuard + 1) (1, 1, 0) 6], .get] = some r ∧
    keys (groups r.2) = [drxGuard + 1] := by
  refine ⟨_, rfl, ?_⟩; decide +kernel

/-! ## C15 -/

/-- Without duplicates, in every history (any mix of `append`, `get` and `flush`): the frames
handed out together with those still held are exactly the accepted ones, every returned group has
exactly one frame of each expected id and only frames of its time, and the missing counter equals
the number of fill frames handed out. -/
theorem C15_exactly_once (c : Cfg K D B) (hc : CfgOK c) (hn : 1 ≤ c.nseg) (guard : Int)
    (ops : List (Op K D B)) (s : St K D B) (evs : List (Ev K D B))
    (h : run c (init c guard) ops = some (s, evs)) (hcl : Clean c (arrivals evs)) :
    (delivered evs ++ held s.buf).Perm (accepted guard evs) ∧
    (∀ p ∈ groups evs, (p.2.map (·.mid)).Perm c.possible ∧ p.2.length = c.nFrames ∧
      ∀ f ∈ p.2, f.fom = p.1) ∧
    s.missing = ((held (groups evs)).filter (fun f => f.fill)).length := by
  have hst := run_steps c ops _ _ _ (init_wf c guard) h
  obtain ⟨h1, h2, h3⟩ := steps_exact hc hn hst guard [] (init_done c hn guard) (init_wf c guard)
    (by simpa [init] using hcl)
  refine ⟨by simpa [init] using h1, fun p hp => ⟨h2 p hp, ?_, steps_fom hst (init_wf c guard) p hp⟩,
    by simpa [init] using h3⟩
  have := (h2 p hp).length_eq
  rw [List.length_map] at this
  rw [this, hc.count]

/-- A history ended by a flush leaves nothing behind: what was handed out is exactly what was
accepted. -/
theorem C15_flush_complete (c : Cfg K D B) (hc : CfgOK c) (hn : 1 ≤ c.nseg) (guard : Int)
    (ops : List (Op K D B)) (hops : ∀ o ∈ ops, o ≠ Op.flush) (s : St K D B) (evs : List (Ev K D B))
    (h : run c (init c guard) (ops ++ [Op.flush]) = some (s, evs))
    (hcl : Clean c (arrivals evs)) :
    (delivered evs).Perm (accepted guard evs) := by
  have h1 := (C15_exactly_once c hc hn guard _ s evs h hcl).1
  rw [run_append] at h
  cases ha : run c (init c guard) ops with
  | none => simp [ha] at h
  | some r =>
    simp only [ha, Option.bind_some] at h
    cases hb : run c r.1 [Op.flush] with
    | none => simp [hb] at h
    | some q =>
      simp only [hb, Option.map_some, Option.some.injEq, Prod.mk.injEq] at h
      obtain ⟨rfl, rfl⟩ := h
      have := (C14_final_flush_partial c hn guard ops hops r.1 q.1 r.2 q.2 ha hb).2.2
      rw [this] at h1
      simpa using h1

theorem assemble_fill (c : Cfg K D B) (l : List (Fr K D B)) (hr : ∀ f ∈ l, f.fill = false) :
    ∀ f ∈ assemble c l, f.fill = true → ∃ t ∈ l, f.body = c.zero t.body := by
  intro f hf hfill
  unfold assemble at hf
  split at hf
  · have := hr f hf; simp_all
  · split at hf
    · cases l with
      | nil => simp at hf
      | cons t r =>
        simp only [List.mem_append, List.mem_map] at hf
        rcases hf with hf | ⟨x, _, rfl⟩
        · have := hr f hf; simp_all
        · exact ⟨t, List.mem_cons_self .., rfl⟩
    · have := hr f ((dedup_sub l []).subset hf); simp_all

theorem steps_fill {c : Cfg K D B} {P : St K D B → Int → Prop} {s e s'}
    (h : Steps c P s e s') : (∀ f ∈ held s.buf, f.fill = false) →
    (∀ f ∈ arrivals e, f.fill = false) →
    ∀ p ∈ groups e, ∀ f ∈ p.2, f.fill = true → ∃ b, f.body = c.zero b := by
  induction h with
  | nil s => intro _ _ p hp; simp [groups] at hp
  | @arrive s f s1 e s'' ha _ ih =>
    intro hs he
    exact ih (append1_fill ha hs (he f (List.mem_cons_self ..)))
      (fun g hg => he g (List.mem_cons_of_mem _ hg))
  | @got s k l e s'' hl _ _ ih =>
    intro hs he
    obtain ⟨h1, h2, ⟨g, hg, hp⟩, h4, h5, h6⟩ := getKey_some c s k l hl
    have hh := lookup_some hl
    rw [hg] at he ⊢
    intro p hp'
    have hgr : groups (Ev.out (GetOut.group k g) :: e) = (k, g) :: groups e := rfl
    rw [hgr, List.mem_cons] at hp'
    rcases hp' with rfl | hp'
    · intro f hf hfill
      obtain ⟨t, _, e⟩ := assemble_fill c l
        (fun f hf => hs f (hh.2.mem_iff.mpr (List.mem_append_left _ hf))) f (hp.mem_iff.mp hf) hfill
      exact ⟨_, e⟩
    · exact ih (fun f hf => by
        rw [h1] at hf; exact hs f (hh.2.mem_iff.mpr (List.mem_append_right _ hf))) he p hp'
  | nothing _ ih => exact ih

/-- Fill frames carry only zeros (stated for the DRX buffer; any history, even with duplicates). -/
theorem C15_fill_zero (b t p : List Nat) (n : Nat) (r : Bool) (guard : Int)
    (ops : List (Op (Nat × Nat × Nat) (Nat × Nat × Nat) Payload)) (s) (evs)
    (h : run (drxCfg b t p n r) (init (drxCfg b t p n r) guard) ops = some (s, evs))
    (hr : ∀ f ∈ arrivals evs, f.fill = false) :
    ∀ q ∈ groups evs, ∀ f ∈ q.2, f.fill = true → ∀ x ∈ f.body, x = 0 := by
  have hst := run_steps _ ops _ _ _ (init_wf _ guard) h
  intro q hq f hf hfill x hx
  obtain ⟨b', e⟩ := steps_fill hst (by simp [init]) hr q hq f hf hfill
  rw [e] at hx
  simp only [drxCfg, zeroP, List.mem_map] at hx
  obtain ⟨_, _, e⟩ := hx
  exact e.symm

/-- The DRX configuration meets `CfgOK` for all lists of distinct beams, tunings and
polarizations. -/
theorem drxCfg_ok (b t p : List Nat) (hb : b.Nodup) (ht : t.Nodup) (hp : p.Nodup) (n : Nat)
    (r : Bool) : CfgOK (drxCfg b t p n r) := by
  have h2 : ∀ (t : List Nat) (x : Nat), t.Nodup →
      (t.flatMap (fun t => p.map (fun p => (x, t, p)))).Nodup ∧
      (t.flatMap (fun t => p.map (fun p => (x, t, p)))).length = t.length * p.length := by
    intro t x
    induction t with
    | nil => simp
    | cons a t ih =>
      intro hn
      rw [List.nodup_cons] at hn
      obtain ⟨i1, i2⟩ := ih hn.2
      simp only [List.flatMap_cons, List.length_append, List.length_map, List.length_cons, i2]
      refine ⟨?_, by rw [Nat.add_mul]; omega⟩
      rw [List.nodup_append]
      refine ⟨?_, i1, ?_⟩
      · exact List.pairwise_map.mpr (hp.imp (fun h e => h (by simpa using e)))
      · intro y hy z hz e
        subst e
        simp only [List.mem_map, List.mem_flatMap] at hy hz
        obtain ⟨_, _, rfl⟩ := hy
        obtain ⟨t', ht', _, _, e⟩ := hz
        simp at e
        exact hn.1 (e.1 ▸ ht')
  have h1 : (drxIds b t p).Nodup ∧ (drxIds b t p).length = b.length * t.length * p.length := by
    unfold drxIds
    induction b with
    | nil => simp
    | cons a b ih =>
      rw [List.nodup_cons] at hb
      obtain ⟨i1, i2⟩ := ih hb.2
      obtain ⟨j1, j2⟩ := h2 t a ht
      simp only [List.flatMap_cons, List.length_append, List.length_cons]
      refine ⟨?_, ?_⟩
      · rw [List.nodup_append]
        refine ⟨j1, i1, ?_⟩
        intro y hy z hz e
        subst e
        simp only [List.mem_map, List.mem_flatMap] at hy hz
        obtain ⟨_, _, _, _, rfl⟩ := hy
        obtain ⟨b', hb', _, _, _, _, e⟩ := hz
        simp at e
        exact hb.1 (e.1 ▸ hb')
      · rw [j2, i2, Nat.add_mul, Nat.add_mul, Nat.one_mul, Nat.add_comm]
  exact ⟨h1.1, h1.2.symm⟩

example : Clean (drxCfg [1] [1, 2] [0, 1] 3 false)
    [fr 13 (1, 1, 0) 5, fr 13 (1, 2, 1) 6, fr 12 (1, 1, 0) 7] :=
  ⟨by decide, by decide, by decide +kernel⟩

example : CfgOK (tbxCfg [16, 32, 48] 3 false) ∧ CfgOK (vdifCfg [0, 1] 3 true) ∧
    CfgOK (corCfg [1, 2, 3] [100, 200] 5 false) :=
  ⟨⟨by decide, by decide⟩, ⟨by decide, by decide⟩, ⟨by decide +kernel, by decide +kernel⟩⟩

/-! ## C16 -/

/-- No accepted frame is lost without a received frame with the same `frame.id` in the group
returned for its time (any history, any duplicates). -/
theorem C16_never_displaced_partial (c : Cfg K D B) (hn : 1 ≤ c.nseg) (guard : Int)
    (ops : List (Op K D B)) (s : St K D B) (evs : List (Ev K D B))
    (h : run c (init c guard) ops = some (s, evs)) :
    ∀ f ∈ accepted guard evs, f ∈ held s.buf ∨
      ∃ p ∈ groups evs, p.1 = f.fom ∧ ∃ g ∈ p.2, g.did = f.did ∧ g ∈ accepted guard evs := by
  have hst := run_steps c ops _ _ _ (init_wf c guard) h
  intro f hf
  have := steps_covers hn hst guard [] (init_done c hn guard) (init_wf c guard) f
    (List.mem_append_right _ hf)
  simpa [init] using this

/-- If every expected id was received for a time step (possibly several times) and `frame.id`
identifies frames of that step, the group returned by `get` has each id exactly once and consists
of received frames. -/
theorem C16_complete_group_partial (c : Cfg K D B) (hc : CfgOK c) (hn : 1 ≤ c.nseg) (guard : Int)
    (ops : List (Op K D B)) (hops : ∀ o ∈ ops, o ≠ Op.flush) (s s' : St K D B)
    (evs : List (Ev K D B)) (k : Int) (g : List (Fr K D B))
    (h : run c (init c guard) ops = some (s, evs)) (hg : get c s = (s', .group k g))
    (R : List (Fr K D B)) (hR : R = (accepted guard evs).filter (fun f => f.fom = k))
    (hp : ∀ f ∈ R, f.mid ∈ c.possible) (hall : ∀ x ∈ c.possible, ∃ f ∈ R, f.mid = x)
    (hid : ∀ f ∈ R, ∀ f' ∈ R, f.did = f'.did ↔ f.mid = f'.mid) :
    (g.map (·.mid)).Perm c.possible ∧ g.length = c.nFrames ∧ ∀ f ∈ g, f ∈ R := by
  have hst := run_steps_min c ops hops _ _ _ h
  have hw := steps_wf hst (init_wf c guard)
  obtain ⟨h1, h2, d', ds', hd', _, hle, hlt⟩ :=
    steps_mono hn hst guard [] (init_done c hn guard) (init_wf c guard) (by simp [init])
  have hlk : ∃ l, lookup k s.buf = some l ∧ g.Perm (assemble c l) := by
    unfold get at hg
    split at hg
    · simp at hg
    · rename_i k' hpk
      cases hl : lookup k' s.buf with
      | none => rw [getKey_none c s k' hl] at hg; simp at hg
      | some l =>
        obtain ⟨_, _, ⟨g', hg', hpm⟩, _⟩ := getKey_some c s k' l hl
        have e2 : (getKey c s k').2 = .group k g := by rw [hg]
        rw [hg'] at e2
        simp only [GetOut.group.injEq] at e2
        obtain ⟨rfl, rfl⟩ := e2
        exact ⟨l, hl, hpm⟩
  obtain ⟨l, hl, hpm⟩ := hlk
  have hkn : k ∉ keys (groups evs) := by
    intro hk
    have := hle k hk
    have := hlt k (mem_keys_of (lookup_some hl).1)
    omega
  have hhold := steps_hold hn hst guard [] (init_done c hn guard) (init_wf c guard) k hkn
  have e0 : held (init c guard).buf = [] := rfl
  rw [e0, List.nil_append, ← hR] at hhold
  have hlR : l.Perm R := (held_filter hw hl).symm.trans hhold
  obtain ⟨q1, q2⟩ := assemble_complete c hc l
    (fun f hf => hp f (hlR.mem_iff.mp hf))
    (fun x hx => by obtain ⟨f, hf, e⟩ := hall x hx; exact ⟨f, hlR.mem_iff.mpr hf, e⟩)
    (fun f hf f' hf' => hid f (hlR.mem_iff.mp hf) f' (hlR.mem_iff.mp hf'))
  refine ⟨(hpm.map _).trans q1, ?_, fun f hf => hlR.mem_iff.mp (q2 f (hpm.mem_iff.mp hf))⟩
  rw [hpm.length_eq, hc.count, ← q1.length_eq, List.length_map]

/-- The full statement is false.  One polarization received twice and the other never: the group
is returned as complete, with the duplicate and without a fill frame for the missing one. -/
theorem C16_duplicate_hides_missing :
    ∃ (ops : List (Op _ _ _)) (s : St _ _ _) (g : List (Fr _ _ _)) ,
      run (drxCfg [1] [1] [0, 1] 1 false) (init (drxCfg [1] [1] [0, 1] 1 false) 10) ops =
        some (s, [.arrive (fr 13 (1, 1, 0) 5), .arrive (fr 13 (1, 1, 0) 5), .out (.group 13 g)]) ∧
      (1, 1, 1) ∉ g.map (·.mid) ∧ s.full = 1 ∧ s.missing = 0 := by
  refine ⟨[.put [fr 13 (1, 1, 0) 5, fr 13 (1, 1, 0) 5], .get], _, _, rfl, ?_⟩
  decide

/-- A correlator frame. -/
def corFr (t : Int) (a b ch : Nat) (v : Int) : Fr (Nat × Nat × Nat) (Nat × Nat) Payload :=
  ⟨t, (a, b, ch), (a, b), false, [v]⟩

/-- In the correlator buffer a single duplicated packet makes `get` throw away all but the first
channel block of every baseline, because duplicates are recognised by the stand pair only: both
channel blocks of a baseline are received, one of them twice, and the returned group lacks the
other one. -/
theorem C16_cor_loses_channels :
    ∃ (ops : List (Op _ _ _)) (s : St _ _ _) (evs : List (Ev _ _ _)) (g : List (Fr _ _ _)),
      run (corCfg [1] [100, 200] 1 false) (init (corCfg [1] [100, 200] 1 false) 0) ops =
        some (s, evs ++ [.out (.group 13 g)]) ∧
      corFr 13 1 1 200 6 ∈ accepted 0 evs ∧ (1, 1, 200) ∉ g.map (·.mid) ∧ s.missing = 0 := by
  refine ⟨[.put [corFr 13 1 1 100 5, corFr 13 1 1 200 6, corFr 13 1 1 100 5], .get],
    _, [_, _, _], _, rfl, ?_⟩
  decide

example : ∃ s evs g s', run (drxCfg [1] [1] [0, 1] 1 false) (init (drxCfg [1] [1] [0, 1] 1 false) 10)
    [.put [fr 13 (1, 1, 0) 5, fr 13 (1, 1, 0) 5, fr 13 (1, 1, 1) 6]] = some (s, evs) ∧
    get (drxCfg [1] [1] [0, 1] 1 false) s = (s', .group 13 g) ∧ g.length = 2 :=
  ⟨_, _, _, _, rfl, rfl, rfl⟩

/-! ## C17 -/

/-- At every moment of every history: frames appended = frames dropped (late or duplicate) + frames
held + real frames handed out; and full + partial = number of groups handed out. -/
theorem C17_accounting (c : Cfg K D B) (guard : Int)
    (ops : List (Op K D B)) (s : St K D B) (evs : List (Ev K D B))
    (h : run c (init c guard) ops = some (s, evs))
    (hreal : ∀ f ∈ arrivals evs, f.fill = false) :
    (arrivals evs).length = s.dropped + (held s.buf).length + (delivered evs).length ∧
    s.full + s.partialN = (groups evs).length := by
  have hst := run_steps c ops _ _ _ (init_wf c guard) h
  have := steps_count hst (by simp [init]) hreal
  simpa [init] using this

/-- Without duplicates `dropped` counts exactly the late frames. -/
theorem C17_dropped_is_late (c : Cfg K D B) (hc : CfgOK c) (hn : 1 ≤ c.nseg) (guard : Int)
    (ops : List (Op K D B)) (s : St K D B) (evs : List (Ev K D B))
    (h : run c (init c guard) ops = some (s, evs)) (hcl : Clean c (arrivals evs)) :
    s.dropped + (accepted guard evs).length = (arrivals evs).length := by
  have h1 := (C15_exactly_once c hc hn guard ops s evs h hcl).1.length_eq
  have h2 := (C17_accounting c guard ops s evs h hcl.real).1
  rw [List.length_append] at h1
  omega

example : ∃ r, run (drxCfg [1] [1] [0, 1] 1 false) (init (drxCfg [1] [1] [0, 1] 1 false) 10)
    [.put [fr 13 (1, 1, 0) 5, fr 13 (1, 1, 0) 5, fr 13 (1, 1, 1) 6], .get, .put [fr 12 (1, 1, 1) 3]]
    = some r ∧ r.1.dropped = 2 ∧ (delivered r.2).length = 2 := ⟨_, rfl, by decide⟩

/-! ## C18 -/

theorem append_keys (fs : List (Fr K D B)) : ∀ s s' : St K D B, append s fs = some s' →
    WF s.buf → WF s'.buf ∧ ∀ k ∈ keys s'.buf, k ∈ keys s.buf ∨ ∃ f ∈ fs, f.fom = k := by
  induction fs with
  | nil => intro s s' h w; simp [append] at h; subst h; exact ⟨w, fun k h => .inl h⟩
  | cons f fs ih =>
    intro s s' h w
    simp only [append] at h
    cases ha : append1 s f with
    | none => simp [ha] at h
    | some s1 =>
      simp only [ha, Option.bind_some] at h
      obtain ⟨w2, h2⟩ := ih s1 s' h (append1_wf ha w)
      refine ⟨w2, fun k hk => ?_⟩
      rcases h2 k hk with hk1 | ⟨f', hf', e⟩
      · obtain ⟨_, _, _, _, _, _, _, h | h⟩ := append1_cases ha
        · rw [h.2.1] at hk1; exact .inl hk1
        · rw [h.2.1, insertF_keys] at hk1
          split at hk1
          · exact .inl hk1
          · rw [List.mem_append, List.mem_singleton] at hk1
            rcases hk1 with h3 | h3
            · exact .inl h3
            · exact .inr ⟨f, List.mem_cons_self .., h3.symm⟩
      · exact .inr ⟨f', List.mem_cons_of_mem _ hf', e⟩

theorem get_shrinks (c : Cfg K D B) (s : St K D B) (w : WF s.buf) :
    WF (get c s).1.buf ∧ (get c s).1.buf.length ≤ s.buf.length := by
  unfold get
  split
  · exact ⟨w, Nat.le_refl _⟩
  · rename_i k _
    refine ⟨getKey_wf c s k w, ?_⟩
    cases hl : lookup k s.buf with
    | none => rw [getKey_none c s k hl]; exact Nat.le_refl _
    | some l =>
      rw [(getKey_some c s k l hl).1, ← keys_length, ← keys_length, erase_keys]
      exact List.length_erase_le

theorem readerLoop_bound (c : Cfg K D B) (g : Nat) (n : Nat) : ∀ (s : St K D B)
    (gs : List (List (Fr K D B))), WF s.buf → s.buf.length ≤ c.nseg + g →
    (∀ fs ∈ gs, ∃ ks : List Int, ks.length ≤ g ∧ ∀ f ∈ fs, f.fom ∈ ks) →
    ∀ x ∈ readerLoop c n s gs, x ≤ c.nseg + g := by
  induction n with
  | zero => intro s gs _ _ _ x hx; simp [readerLoop] at hx
  | succ n ih =>
    intro s gs w hb hgs x hx
    simp only [readerLoop] at hx
    split at hx
    · have := get_shrinks c s w
      rw [List.mem_cons] at hx
      rcases hx with rfl | hx
      · omega
      · exact ih _ gs this.1 (by omega) hgs x hx
    · rename_i hov
      simp only [overfilled, decide_eq_true_eq] at hov
      cases gs with
      | nil => simp at hx
      | cons fs gs =>
        simp only at hx
        split at hx
        · simp at hx
        · rename_i s' ha
          obtain ⟨w', hk⟩ := append_keys fs s s' ha w
          obtain ⟨ks, hks, hf⟩ := hgs fs (List.mem_cons_self ..)
          have hlen : s'.buf.length ≤ c.nseg + g := by
            have h1 : (keys s'.buf).length ≤ (keys s.buf ++ ks).length := by
              apply w'.1.length_le_of_subset
              intro k hk'
              rw [List.mem_append]
              rcases hk k hk' with h | ⟨f, hf', e⟩
              · exact .inl h
              · exact .inr (e ▸ hf f hf')
            rw [List.length_append, keys_length, keys_length] at h1
            omega
          have hgt := get_shrinks c s' w'
          rw [List.mem_cons, List.mem_cons] at hx
          rcases hx with rfl | rfl | hx
          · exact hlen
          · omega
          · exact ih _ gs hgt.1 (by omega) (fun fs h => hgs fs (List.mem_cons_of_mem _ h)) x hx

/-- Reading a stream with the loop of the readers: if each appended group touches at most `g` time
steps, never more than `nsegments + g` time steps are held, for any stream of any length. -/
theorem C18_bounded (c : Cfg K D B) (guard : Int) (g n : Nat) (gs : List (List (Fr K D B)))
    (hgs : ∀ fs ∈ gs, ∃ ks : List Int, ks.length ≤ g ∧ ∀ f ∈ fs, f.fom ∈ ks) :
    ∀ x ∈ readerLoop c n (init c guard) gs, x ≤ c.nseg + g :=
  readerLoop_bound c g n _ gs (init_wf c guard) (by simp [init]) hgs

/-- Groups of one time step (the normal case of a file): at most `nsegments + 1`. -/
theorem C18_one_step_groups (c : Cfg K D B) (guard : Int) (n : Nat) (gs : List (List (Fr K D B)))
    (hgs : ∀ fs ∈ gs, ∃ t : Int, ∀ f ∈ fs, f.fom = t) :
    ∀ x ∈ readerLoop c n (init c guard) gs, x ≤ c.nseg + 1 := by
  refine C18_bounded c guard 1 n gs (fun fs h => ?_)
  obtain ⟨t, ht⟩ := hgs fs h
  exact ⟨[t], by simp, fun f hf => by simp [ht f hf]⟩

example : readerLoop (drxCfg [1] [1] [0, 1] 1 false) 4 (init (drxCfg [1] [1] [0, 1] 1 false) 10)
    [[fr 13 (1, 1, 0) 5, fr 12 (1, 1, 1) 6], [fr 15 (1, 1, 0) 5, fr 14 (1, 1, 1) 6]] =
    [2, 1, 3, 2, 1] := by decide +kernel

/-! ## C54 -/

theorem reorderF_sorted (c : Cfg K D B) (r : Fr K D B → Int) (h : c.rank = some r)
    (l : List (Fr K D B)) : (reorderF c l).Pairwise (fun a b => r a ≤ r b) := by
  unfold reorderF
  simp only [h]
  exact sortBy_sorted r l

theorem getKey_sorted (c : Cfg K D B) (r : Fr K D B → Int) (h : c.rank = some r) (s s' : St K D B)
    (k k' : Int) (g : List (Fr K D B)) (hg : getKey c s k = (s', .group k' g)) :
    g.Pairwise (fun a b => r a ≤ r b) := by
  unfold getKey at hg
  split at hg
  · simp at hg
  · split at hg
    · simp only [Prod.mk.injEq, GetOut.group.injEq] at hg
      rw [← hg.2.2]; exact reorderF_sorted c r h _
    · split at hg
      · split at hg
        · simp only [Prod.mk.injEq, GetOut.group.injEq] at hg
          rw [← hg.2.2]; exact List.Pairwise.nil
        · simp only [Prod.mk.injEq, GetOut.group.injEq] at hg
          rw [← hg.2.2]; exact reorderF_sorted c r h _
      · simp only [Prod.mk.injEq, GetOut.group.injEq] at hg
        rw [← hg.2.2]; exact reorderF_sorted c r h _

theorem steps_sorted {c : Cfg K D B} (r : Fr K D B → Int) (hr : c.rank = some r)
    {P : St K D B → Int → Prop} {s e s'}
    (h : Steps c P s e s') : ∀ p ∈ groups e, p.2.Pairwise (fun a b => r a ≤ r b) := by
  induction h with
  | nil s => intro p hp; simp [groups] at hp
  | arrive _ _ ih => exact ih
  | @got s k l e s'' hl _ _ ih =>
    obtain ⟨h1, h2, ⟨g, hg, hp⟩, h4, h5, h6⟩ := getKey_some c s k l hl
    rw [hg]
    intro p hp'
    have hgr : groups (Ev.out (GetOut.group k g) :: e) = (k, g) :: groups e := rfl
    rw [hgr, List.mem_cons] at hp'
    rcases hp' with rfl | hp'
    · exact getKey_sorted c r hr s (getKey c s k).1 k k g (by rw [← hg])
    · exact ih p hp'
  | nothing _ ih => exact ih

/-- Lexicographic order on (beam, tuning, polarization). -/
def LexLe (a b : Nat × Nat × Nat) : Prop :=
  a.1 < b.1 ∨ (a.1 = b.1 ∧ (a.2.1 < b.2.1 ∨ (a.2.1 = b.2.1 ∧ a.2.2 ≤ b.2.2)))

/-- With `reorder` every group of a DRX buffer comes out in (beam, tuning, polarization) order. -/
theorem C54_drx_sorted_partial (beams tunes pols : List Nat) (nseg : Nat) (guard : Int)
    (ops : List (Op (Nat × Nat × Nat) (Nat × Nat × Nat) Payload)) (s) (evs)
    (h : run (drxCfg beams tunes pols nseg true) (init (drxCfg beams tunes pols nseg true) guard) ops
      = some (s, evs)) :
    ∀ p ∈ groups evs, (∀ f ∈ p.2, f.did.2.1 < 4096 ∧ f.did.2.2 < 4096) →
      p.2.Pairwise (fun a b => LexLe a.did b.did) := by
  intro p hp hsm
  have hst := run_steps _ ops _ _ _ (init_wf _ guard) h
  have := steps_sorted (fun f => rank3 f.did) rfl hst p hp
  refine List.Pairwise.imp_of_mem ?_ this
  intro a b ha hb hab
  have h1 := hsm a ha
  have h2 := hsm b hb
  unfold LexLe
  simp only [rank3] at hab
  omega

/-- For correlator buffers the order is not by stand pair: (1, 5) comes after (2, 2). -/
theorem C54_cor_not_sorted :
    ∃ (ops : List (Op _ _ _)) (r : St _ _ _ × List (Ev _ _ _)),
      run (corCfg [1, 2, 5] [100] 1 true) (init (corCfg [1, 2, 5] [100] 1 true) 0) ops = some r ∧
      (held (groups r.2)).map (·.did) = [(1, 1), (1, 2), (2, 2), (1, 5), (2, 5), (5, 5)] := by
  refine ⟨[.put [corFr 9 1 1 100 1, corFr 9 1 2 100 1, corFr 9 1 5 100 1, corFr 9 2 2 100 1,
    corFr 9 2 5 100 1, corFr 9 5 5 100 1], .get], _, rfl, ?_⟩
  decide +kernel

example : (rank3 (1, 2, 0) : Int) < rank3 (2, 1, 1) ∧ LexLe (1, 2, 0) (2, 1, 1) := by
  refine ⟨by decide, ?_⟩
  unfold LexLe; omega

end Verif.Buffer
