import Verif.Lemmas.BufferRun
import Batteries.Data.List.Perm
/-!
# Invariants of frame buffer histories
-/
set_option linter.unusedSectionVars false
namespace Verif.Buffer
variable {K D B : Type} [DecidableEq K] [DecidableEq D]

/-! ## Observations (specification vocabulary) -/

/-- Frames handed to the buffer. -/
def arrivals : List (Ev K D B) → List (Fr K D B)
  | [] => []
  | .arrive f :: r => f :: arrivals r
  | .out _ :: r => arrivals r

/-- Groups handed out, with their time. -/
def groups : List (Ev K D B) → List (Int × List (Fr K D B))
  | [] => []
  | .out (.group k g) :: r => (k, g) :: groups r
  | _ :: r => groups r

/-- Frames handed to the buffer that were newer than the most recently returned time step;
`d` is the newest time returned so far. -/
def accepted (d : Int) : List (Ev K D B) → List (Fr K D B)
  | [] => []
  | .arrive f :: r => if d < f.fom then f :: accepted d r else accepted d r
  | .out (.group k _) :: r => accepted k r
  | .out _ :: r => accepted d r

/-- Real (not filled-in) frames handed out. -/
def delivered (evs : List (Ev K D B)) : List (Fr K D B) :=
  (held (groups evs)).filter (fun f => !f.fill)

omit [DecidableEq K] [DecidableEq D] in
theorem groups_append (e e' : List (Ev K D B)) : groups (e ++ e') = groups e ++ groups e' := by
  induction e with
  | nil => rfl
  | cons a e ih =>
    cases a with
    | arrive f => simp [groups, ih]
    | out g => cases g <;> simp [groups, ih]

omit [DecidableEq K] [DecidableEq D] in
theorem arrivals_append (e e' : List (Ev K D B)) :
    arrivals (e ++ e') = arrivals e ++ arrivals e' := by
  induction e with
  | nil => rfl
  | cons a e ih => cases a <;> simp [arrivals, ih]

omit [DecidableEq K] [DecidableEq D] in
theorem groups_map_arrive (fs : List (Fr K D B)) : groups (fs.map Ev.arrive) = [] := by
  induction fs with
  | nil => rfl
  | cons a e ih => simp [groups, ih]

omit [DecidableEq K] [DecidableEq D] in
theorem accepted_sub (e : List (Ev K D B)) : ∀ d, (accepted d e).Sublist (arrivals e) := by
  induction e with
  | nil => intro d; exact List.Sublist.refl _
  | cons a e ih =>
    intro d
    cases a with
    | arrive f =>
      simp only [accepted, arrivals]
      split
      · exact (ih d).cons_cons f
      · exact (ih d).cons f
    | out g => cases g <;> exact ih _

/-! ## Duplicate removal -/

omit [DecidableEq K] in
theorem dedup_count (l : List (Fr K D B)) : ∀ seen, (dedup seen l).1.length + (dedup seen l).2 = l.length := by
  induction l with
  | nil => intro _; rfl
  | cons f l ih =>
    intro seen
    simp only [dedup]
    split
    · have := ih seen; simp only [List.length_cons]; omega
    · have := ih (seen ++ [f.did]); simp only [List.length_cons]; omega

omit [DecidableEq K] in
theorem dedup_sub (l : List (Fr K D B)) : ∀ seen, (dedup seen l).1.Sublist l := by
  induction l with
  | nil => intro _; exact List.Sublist.refl _
  | cons f l ih =>
    intro seen
    simp only [dedup]
    split
    · exact (ih seen).cons f
    · exact (ih _).cons_cons f

omit [DecidableEq K] in
theorem dedup_spec (l : List (Fr K D B)) : ∀ seen,
    ((dedup seen l).1.map (·.did)).Nodup ∧
    (∀ f ∈ (dedup seen l).1, f.did ∉ seen) ∧
    (∀ f ∈ l, f.did ∈ seen ∨ ∃ g ∈ (dedup seen l).1, g.did = f.did) := by
  induction l with
  | nil => intro seen; simp [dedup]
  | cons f l ih =>
    intro seen
    simp only [dedup]
    split
    · rename_i hc
      rw [List.contains_iff_mem] at hc
      obtain ⟨h1, h2, h3⟩ := ih seen
      refine ⟨h1, h2, ?_⟩
      intro a ha
      rw [List.mem_cons] at ha
      rcases ha with rfl | ha
      · exact .inl hc
      · exact h3 a ha
    · rename_i hc
      rw [List.contains_iff_mem] at hc
      obtain ⟨h1, h2, h3⟩ := ih (seen ++ [f.did])
      refine ⟨?_, ?_, ?_⟩
      · simp only [List.map_cons, List.nodup_cons]
        refine ⟨?_, h1⟩
        intro hm
        rw [List.mem_map] at hm
        obtain ⟨a, ha, e⟩ := hm
        exact h2 a ha (by rw [e]; simp)
      · intro a ha
        rw [List.mem_cons] at ha
        rcases ha with rfl | ha
        · exact hc
        · intro hs; exact h2 a ha (List.mem_append_left _ hs)
      · intro a ha
        rw [List.mem_cons] at ha
        rcases ha with rfl | ha
        · right; exact ⟨a, List.mem_cons_self .., rfl⟩
        · rcases h3 a ha with h | ⟨g, hg, e⟩
          · rw [List.mem_append, List.mem_singleton] at h
            rcases h with h | h
            · exact .inl h
            · exact .inr ⟨f, List.mem_cons_self .., h.symm⟩
          · exact .inr ⟨g, List.mem_cons_of_mem _ hg, e⟩

/-! ## Groups -/

omit [DecidableEq K] [DecidableEq D] in
theorem filter_fills (c : Cfg K D B) (t : Fr K D B) (ks : List K) :
    (ks.map (createFill c t)).filter (fun f => !f.fill) = [] := by
  rw [List.filter_eq_nil_iff]
  intro a ha
  rw [List.mem_map] at ha
  obtain ⟨k, _, rfl⟩ := ha
  simp [createFill]

omit [DecidableEq K] [DecidableEq D] in
theorem filter_real (l : List (Fr K D B)) (h : ∀ f ∈ l, f.fill = false) :
    l.filter (fun f => !f.fill) = l := by
  rw [List.filter_eq_self]; intro a ha; simp [h a ha]

theorem assemble_real_count (c : Cfg K D B) (l : List (Fr K D B)) (h : ∀ f ∈ l, f.fill = false) :
    ((assemble c l).filter (fun f => !f.fill)).length + dupCount c l = l.length := by
  unfold assemble dupCount
  split
  · rename_i e; rw [filter_real l h]; simp [e]
  · split
    · have : ¬ c.nFrames < l.length := by omega
      simp only [this, if_false]
      cases l with
      | nil => rfl
      | cons t r =>
        simp only [List.filter_append, filter_fills, List.append_nil, filter_real _ h, Nat.add_zero]
    · have : c.nFrames < l.length := by omega
      simp only [this, if_true]
      rw [filter_real _ (fun f hf => h f ((dedup_sub l []).subset hf))]
      exact dedup_count l []

theorem assemble_fom (c : Cfg K D B) (l : List (Fr K D B)) (k : Int) (h : ∀ f ∈ l, f.fom = k) :
    ∀ f ∈ assemble c l, f.fom = k := by
  unfold assemble
  split
  · exact h
  · split
    · cases l with
      | nil => simp
      | cons t r =>
        intro f hf
        simp only [List.mem_append, List.mem_map] at hf
        rcases hf with hf | ⟨x, _, rfl⟩
        · exact h f hf
        · exact h t (List.mem_cons_self ..)
    · intro f hf; exact h f ((dedup_sub l []).subset hf)

/-- Hypotheses on a configuration: the expected ids are distinct and counted by `nFrames`. -/
structure CfgOK (c : Cfg K D B) : Prop where
  nodup : c.possible.Nodup
  count : c.nFrames = c.possible.length

omit [DecidableEq D] in
theorem mem_missingList (c : Cfg K D B) (l : List (Fr K D B)) (a : K) :
    a ∈ missingList c l ↔ a ∈ c.possible ∧ a ∉ l.map (·.mid) := by
  unfold missingList
  rw [List.mem_filter]
  cases h : (l.map (·.mid)).contains a with
  | true => rw [List.contains_iff_mem] at h; simp; intro _; simpa using h
  | false =>
    have : a ∉ l.map (·.mid) := by
      intro hm; rw [← List.contains_iff_mem] at hm; rw [hm] at h; cases h
    simp [this]

theorem assemble_exact (c : Cfg K D B) (hc : CfgOK c) (l : List (Fr K D B)) (hne : l ≠ [])
    (hn : (l.map (·.mid)).Nodup) (hp : ∀ f ∈ l, f.mid ∈ c.possible)
    (hr : ∀ f ∈ l, f.fill = false) :
    ((assemble c l).map (·.mid)).Perm c.possible ∧
    (assemble c l).filter (fun f => !f.fill) = l ∧ l.length ≤ c.nFrames := by
  have hsub : l.map (·.mid) ⊆ c.possible := by
    intro k hk
    rw [List.mem_map] at hk
    obtain ⟨f, hf, rfl⟩ := hk
    exact hp f hf
  have hle : l.length ≤ c.nFrames := by
    rw [hc.count]
    simpa using hn.length_le_of_subset hsub
  unfold assemble
  split
  · rename_i e
    refine ⟨?_, filter_real l hr, hle⟩
    rw [List.perm_ext_iff_of_nodup hn hc.nodup]
    intro a
    refine ⟨fun h => hsub h, fun h => ?_⟩
    apply Classical.byContradiction
    intro hna
    have : (a :: l.map (·.mid)).Nodup := List.nodup_cons.mpr ⟨hna, hn⟩
    have h2 := this.length_le_of_subset (l₂ := c.possible) (by
      intro x hx
      rw [List.mem_cons] at hx
      rcases hx with rfl | hx
      · exact h
      · exact hsub hx)
    simp at h2
    have := hc.count
    omega
  · rename_i e
    have hlt : l.length < c.nFrames := by omega
    rw [if_pos hlt]
    cases l with
    | nil => exact absurd rfl hne
    | cons t r =>
      refine ⟨?_, ?_, hle⟩
      · simp only [List.map_append, List.map_map]
        have hcomp : ((fun x => x.mid) ∘ createFill c t) = id := by funext x; rfl
        rw [hcomp, List.map_id]
        rw [List.perm_ext_iff_of_nodup ?_ hc.nodup]
        · intro a
          rw [List.mem_append]
          rw [mem_missingList]
          constructor
          · rintro (h | h)
            · exact hsub h
            · exact h.1
          · intro h
            by_cases hm : a ∈ (t :: r).map (·.mid)
            · exact .inl hm
            · exact .inr ⟨h, hm⟩
        · rw [List.nodup_append]
          refine ⟨hn, hc.nodup.filter _, ?_⟩
          intro a ha b hb e
          subst e
          rw [mem_missingList] at hb
          exact hb.2 ha
      · simp only [List.filter_append, filter_fills, List.append_nil, filter_real _ hr]

/-! ## Counting -/

omit [DecidableEq K] [DecidableEq D] in
theorem append1_fill {s s' : St K D B} {f : Fr K D B} (h : append1 s f = some s')
    (hs : ∀ g ∈ held s.buf, g.fill = false) (hf : f.fill = false) :
    ∀ g ∈ held s'.buf, g.fill = false := by
  obtain ⟨d, ds, _, _, _, _, _, h | h⟩ := append1_cases h
  · rw [h.2.1]; exact hs
  · rw [h.2.1]
    intro g hg
    rw [(insertF_held f s.buf).mem_iff, List.mem_cons] at hg
    rcases hg with rfl | hg
    · exact hf
    · exact hs g hg

omit [DecidableEq K] [DecidableEq D] in
theorem delivered_cons_group {k : Int} {g : List (Fr K D B)} {e : List (Ev K D B)} :
    delivered (.out (.group k g) :: e) = g.filter (fun f => !f.fill) ++ delivered e := by
  simp [delivered, groups]

theorem steps_count {c : Cfg K D B} {P : St K D B → Int → Prop} {s e s'}
    (h : Steps c P s e s') : (∀ f ∈ held s.buf, f.fill = false) →
    (∀ f ∈ arrivals e, f.fill = false) →
    s.dropped + (held s.buf).length + (arrivals e).length =
      s'.dropped + (held s'.buf).length + (delivered e).length ∧
    s'.full + s'.partialN = s.full + s.partialN + (groups e).length := by
  induction h with
  | nil s => intro _ _; simp [arrivals, delivered, groups]
  | @arrive s f s1 e s'' ha _ ih =>
    intro hs he
    have hf : f.fill = false := he f (List.mem_cons_self ..)
    have := ih (append1_fill ha hs hf) (fun g hg => he g (List.mem_cons_of_mem _ hg))
    simp only [arrivals, List.length_cons]
    have hd : delivered (Ev.arrive f :: e) = delivered e := rfl
    have hg : groups (Ev.arrive f :: e) = groups e := rfl
    rw [hd, hg]
    obtain ⟨d, ds, _, _, hfull, hpart, _, h | h⟩ := append1_cases ha
    · rw [h.2.1, h.2.2, hfull, hpart] at this; omega
    · have hl := (insertF_held f s.buf).length_eq
      rw [h.2.1, h.2.2, hfull, hpart] at this
      simp only [List.length_cons] at hl
      omega
  | @got s k l e s'' hl _ _ ih =>
    intro hs he
    obtain ⟨h1, h2, ⟨g, hg, hp⟩, h4, h5, h6⟩ := getKey_some c s k l hl
    have hh := lookup_some hl
    have hlr : ∀ f ∈ l, f.fill = false := fun f hf =>
      hs f (hh.2.mem_iff.mpr (List.mem_append_left _ hf))
    have := ih (by
      intro f hf; rw [h1] at hf
      exact hs f (hh.2.mem_iff.mpr (List.mem_append_right _ hf))) he
    rw [hg]
    have ha : arrivals (Ev.out (GetOut.group k g) :: e) = arrivals e := rfl
    have hgr : groups (Ev.out (GetOut.group k g) :: e) = (k, g) :: groups e := rfl
    rw [ha, hgr, delivered_cons_group, List.length_append]
    have h7 := assemble_real_count c l hlr
    have h8 := (hp.filter (fun f => !f.fill)).length_eq
    have h9 := hh.2.length_eq
    rw [List.length_append] at h9
    rw [h1, h4, h5] at this
    simp only [List.length_cons]
    omega
  | nothing _ ih => exact ih

/-! ## Order -/

theorem steps_mono {c : Cfg K D B} (hn : 1 ≤ c.nseg) {s e s'}
    (h : Steps c IsMin s e s') : ∀ d ds, s.done = d :: ds → WF s.buf → (∀ k ∈ keys s.buf, d < k) →
    ((keys (groups e)).Pairwise (· < ·)) ∧ (∀ k ∈ keys (groups e), d < k) ∧
    ∃ d' ds', s'.done = d' :: ds' ∧ d ≤ d' ∧ (∀ k ∈ keys (groups e), k ≤ d') ∧
      ∀ k ∈ keys s'.buf, d' < k := by
  induction h with
  | nil s => intro d ds hd _ hk; simp [groups]; exact ⟨d, ⟨ds, hd⟩, by omega, hk⟩
  | @arrive s f s1 e s'' ha _ ih =>
    intro d ds hd w hk
    have hg : groups (Ev.arrive f :: e) = groups e := rfl
    rw [hg]
    have w1 := append1_wf ha w
    obtain ⟨d0, ds0, h0, h1, _, _, _, h⟩ := append1_cases ha
    rw [hd] at h0
    simp only [List.cons.injEq] at h0
    obtain ⟨rfl, rfl⟩ := h0
    refine ih d ds (by rw [h1, hd]) w1 ?_
    rcases h with h | h
    · rw [h.2.1]; exact hk
    · rw [h.2.1, insertF_keys]
      split
      · exact hk
      · intro k hk'
        rw [List.mem_append, List.mem_singleton] at hk'
        rcases hk' with hk' | rfl
        · exact hk k hk'
        · exact h.1
  | @got s k l e s'' hl hmin _ ih =>
    intro d ds hd w hk
    obtain ⟨h1, h2, ⟨g, hg, hp⟩, h4, h5, h6⟩ := getKey_some c s k l hl
    rw [hg]
    have hgr : groups (Ev.out (GetOut.group k g) :: e) = (k, g) :: groups e := rfl
    rw [hgr]
    obtain ⟨n, hn'⟩ : ∃ n, c.nseg = n + 1 := ⟨c.nseg - 1, by omega⟩
    have hdone : (getKey c s k).1.done = k :: s.done.take n := by rw [h2, hn']; rfl
    have hdk : d < k := hk k hmin.1
    obtain ⟨a, b, d', ds', hd', hle, hle2, hkk⟩ := ih k _ hdone (getKey_wf c s k w) (by
      intro k' hk'
      rw [h1, erase_keys] at hk'
      have := (w.1.mem_erase_iff).mp hk'
      have := hmin.2 k' this.2
      have : k' ≠ k := by simp_all
      omega)
    simp only [keys_cons, List.pairwise_cons, List.mem_cons]
    refine ⟨⟨b, a⟩, ?_, d', ds', hd', by omega, ?_, hkk⟩
    · rintro x (rfl | hx)
      · exact hdk
      · have := b x hx; omega
    · rintro x (rfl | hx)
      · exact hle
      · exact hle2 x hx
  | nothing _ ih => exact ih

/-- Frames in a returned group all belong to the group's time step. -/
theorem steps_fom {c : Cfg K D B} {P : St K D B → Int → Prop} {s e s'}
    (h : Steps c P s e s') : WF s.buf → ∀ p ∈ groups e, ∀ f ∈ p.2, f.fom = p.1 := by
  induction h with
  | nil s => intro _ p hp; simp [groups] at hp
  | @arrive s f s1 e s'' ha _ ih => intro w; exact ih (append1_wf ha w)
  | @got s k l e s'' hl _ _ ih =>
    intro w
    obtain ⟨h1, h2, ⟨g, hg, hp⟩, h4, h5, h6⟩ := getKey_some c s k l hl
    rw [hg]
    intro p hp'
    have hgr : groups (Ev.out (GetOut.group k g) :: e) = (k, g) :: groups e := rfl
    rw [hgr, List.mem_cons] at hp'
    rcases hp' with rfl | hp'
    · intro f hf
      exact assemble_fom c l k (w.2 _ (lookup_some hl).1).2 f (hp.mem_iff.mp hf)
    · exact ih (getKey_wf c s k w) p hp'
  | nothing _ ih => exact ih

/-! ## Exact delivery -/

/-- Frames of one stream: real, of an expected id, no two with the same time and id. -/
structure Clean (c : Cfg K D B) (l : List (Fr K D B)) : Prop where
  nodup : (l.map (fun f => (f.fom, f.mid))).Nodup
  real : ∀ f ∈ l, f.fill = false
  known : ∀ f ∈ l, f.mid ∈ c.possible

omit [DecidableEq K] [DecidableEq D] in
theorem Clean.sub {c : Cfg K D B} {l l' : List (Fr K D B)} (h : Clean c l') (hs : l.Sublist l') :
    Clean c l :=
  ⟨h.nodup.sublist (hs.map _), fun f hf => h.real f (hs.subset hf),
    fun f hf => h.known f (hs.subset hf)⟩

omit [DecidableEq K] [DecidableEq D] in
theorem Clean.perm {c : Cfg K D B} {l l' : List (Fr K D B)} (h : Clean c l') (hs : l.Perm l') :
    Clean c l :=
  ⟨(hs.map _).nodup_iff.mpr h.nodup, fun f hf => h.real f (hs.mem_iff.mp hf),
    fun f hf => h.known f (hs.mem_iff.mp hf)⟩

theorem steps_exact {c : Cfg K D B} (hc : CfgOK c) (hn : 1 ≤ c.nseg)
    {P : St K D B → Int → Prop} {s e s'}
    (h : Steps c P s e s') : ∀ d ds, s.done = d :: ds → WF s.buf →
    Clean c (held s.buf ++ arrivals e) →
    (delivered e ++ held s'.buf).Perm (held s.buf ++ accepted d e) ∧
    (∀ p ∈ groups e, (p.2.map (·.mid)).Perm c.possible) ∧
    s'.missing = s.missing + ((held (groups e)).filter (fun f => f.fill)).length := by
  induction h with
  | nil s => intro d ds _ _ _; simp [delivered, groups, accepted]
  | @arrive s f s1 e s'' ha _ ih =>
    intro d ds hd w hcl
    have hd1 : delivered (Ev.arrive f :: e) = delivered e := rfl
    have hg1 : groups (Ev.arrive f :: e) = groups e := rfl
    rw [hd1, hg1]
    have w1 := append1_wf ha w
    obtain ⟨d0, ds0, h0, h1, _, _, hm, h⟩ := append1_cases ha
    rw [hd] at h0
    simp only [List.cons.injEq] at h0
    obtain ⟨rfl, rfl⟩ := h0
    rcases h with h | h
    · have := ih d ds (by rw [h1, hd]) w1 (by
        rw [h.2.1]
        exact hcl.sub (List.Sublist.append_left (List.sublist_cons_self ..) _))
      rw [h.2.1] at this
      have hnl : ¬ d < f.fom := by omega
      simp only [accepted, hnl, if_false]
      rw [hm] at this
      exact this
    · have hp := insertF_held f s.buf
      have := ih d ds (by rw [h1, hd]) w1 (by
        rw [h.2.1]
        refine hcl.perm ?_
        simp only [arrivals]
        refine (hp.append_right _).trans ?_
        exact List.perm_middle.symm)
      rw [h.2.1] at this
      simp only [accepted, h.1, if_true]
      rw [hm] at this
      refine ⟨this.1.trans ?_, this.2⟩
      refine (hp.append_right _).trans ?_
      exact List.perm_middle.symm
  | @got s k l e s'' hl _ _ ih =>
    intro d ds hd w hcl
    obtain ⟨h1, h2, ⟨g, hg, hp⟩, h4, h5, h6⟩ := getKey_some c s k l hl
    have hh := lookup_some hl
    rw [hg]
    have hgr : groups (Ev.out (GetOut.group k g) :: e) = (k, g) :: groups e := rfl
    have har : arrivals (Ev.out (GetOut.group k g) :: e) = arrivals e := rfl
    have hac : accepted d (Ev.out (GetOut.group k g) :: e) = accepted k e := rfl
    rw [hg, har] at hcl
    rw [hgr, hac, delivered_cons_group]
    obtain ⟨n, hn'⟩ : ∃ n, c.nseg = n + 1 := ⟨c.nseg - 1, by omega⟩
    have hdone : (getKey c s k).1.done = k :: s.done.take n := by rw [h2, hn']; rfl
    have hwl := w.2 _ hh.1
    have hcl2 : Clean c (l ++ (held (erase k s.buf) ++ arrivals e)) := by
      refine hcl.perm ?_
      rw [← List.append_assoc]
      exact (hh.2.append_right _).symm
    have hcll : Clean c l := hcl2.sub (List.sublist_append_left ..)
    have hnm : (l.map (·.mid)).Nodup := by
      have h := hcll.nodup
      have e1 : l.map (fun f => (f.fom, f.mid)) = (l.map (·.mid)).map (fun x => (k, x)) := by
        rw [List.map_map]
        apply List.map_congr_left
        intro f hf
        simp [hwl.2 f hf]
      rw [e1] at h
      exact (List.pairwise_map.mp h).imp (fun h e => h (by rw [e]))
    obtain ⟨q1, q2, q3⟩ := assemble_exact c hc l hwl.1 hnm hcll.known hcll.real
    have := ih k _ hdone (getKey_wf c s k w) (by
      rw [h1]; exact hcl2.sub (List.sublist_append_right ..))
    rw [h1, h6] at this
    obtain ⟨t1, t2, t3⟩ := this
    have hgf : (g.filter (fun f => !f.fill)).Perm l := by
      have := hp.filter (fun f => !f.fill); rw [q2] at this; exact this
    refine ⟨?_, ?_, ?_⟩
    · rw [List.append_assoc]
      refine (hgf.append t1).trans ?_
      rw [← List.append_assoc]
      exact hh.2.symm.append_right _
    · intro p hp'
      rw [List.mem_cons] at hp'
      rcases hp' with rfl | hp'
      · exact (hp.map _).trans q1
      · exact t2 p hp'
    · rw [t3]
      simp only [held_cons, List.filter_append, List.length_append]
      have hglen : g.length = c.nFrames := by
        rw [hp.length_eq, hc.count, ← q1.length_eq, List.length_map]
      have hsplit : (g.filter (fun f => f.fill)).length + (g.filter (fun f => !f.fill)).length
          = g.length := by
        have := (List.filter_append_perm (fun f : Fr K D B => f.fill) g).length_eq
        rw [List.length_append] at this
        exact this
      have := hgf.length_eq
      omega
  | nothing _ ih => exact ih

/-! ## Groups with duplicates -/

/-- As long as a time step has not been returned, the buffer holds exactly its accepted frames. -/
theorem steps_hold {c : Cfg K D B} (hn : 1 ≤ c.nseg) {P : St K D B → Int → Prop} {s e s'}
    (h : Steps c P s e s') : ∀ d ds, s.done = d :: ds → WF s.buf → ∀ k, k ∉ keys (groups e) →
    ((held s'.buf).filter (fun f => f.fom = k)).Perm
      ((held s.buf ++ accepted d e).filter (fun f => f.fom = k)) := by
  induction h with
  | nil s => intro d ds _ _ k _; simp [accepted]
  | @arrive s f s1 e s'' ha _ ih =>
    intro d ds hd w k hk
    have hg1 : groups (Ev.arrive f :: e) = groups e := rfl
    rw [hg1] at hk
    have w1 := append1_wf ha w
    obtain ⟨d0, ds0, h0, h1, _, _, hm, h⟩ := append1_cases ha
    rw [hd] at h0
    simp only [List.cons.injEq] at h0
    obtain ⟨rfl, rfl⟩ := h0
    have := ih d ds (by rw [h1, hd]) w1 k hk
    rcases h with h | h
    · have hnl : ¬ d < f.fom := by omega
      simp only [accepted, hnl, if_false]
      rw [h.2.1] at this
      exact this
    · simp only [accepted, h.1, if_true]
      rw [h.2.1] at this
      refine this.trans (List.Perm.filter _ ?_)
      exact ((insertF_held f s.buf).append_right _).trans List.perm_middle.symm
  | @got s k0 l e s'' hl _ _ ih =>
    intro d ds hd w k hk
    obtain ⟨h1, h2, ⟨g, hg, hp⟩, h4, h5, h6⟩ := getKey_some c s k0 l hl
    have hh := lookup_some hl
    rw [hg] at hk ⊢
    have hgr : groups (Ev.out (GetOut.group k0 g) :: e) = (k0, g) :: groups e := rfl
    have hac : accepted d (Ev.out (GetOut.group k0 g) :: e) = accepted k0 e := rfl
    rw [hgr, keys_cons, List.mem_cons, not_or] at hk
    rw [hac]
    obtain ⟨n, hn'⟩ : ∃ n, c.nseg = n + 1 := ⟨c.nseg - 1, by omega⟩
    have hdone : (getKey c s k0).1.done = k0 :: s.done.take n := by rw [h2, hn']; rfl
    have := ih k0 _ hdone (getKey_wf c s k0 w) k hk.2
    rw [h1] at this
    refine this.trans ?_
    have hwl := (w.2 _ hh.1).2
    have hnil : l.filter (fun f => f.fom = k) = [] := by
      rw [List.filter_eq_nil_iff]
      intro a ha
      have := hwl a ha
      simp only [decide_eq_true_eq]
      intro e; exact hk.1 (by rw [← e, this])
    have := ((hh.2.append_right (accepted k0 e)).filter (fun f => decide (f.fom = k))).symm
    refine List.Perm.trans ?_ this
    rw [List.append_assoc, List.filter_append (l₁ := l), hnil, List.nil_append]
  | nothing _ ih => exact ih

omit [DecidableEq K] [DecidableEq D] in
theorem held_filter {b : List (Int × List (Fr K D B))} (w : WF b) {k : Int} {l : List (Fr K D B)}
    (h : lookup k b = some l) : ((held b).filter (fun f => f.fom = k)).Perm l := by
  have hh := lookup_some h
  refine (hh.2.filter _).trans ?_
  rw [List.filter_append]
  have h1 : l.filter (fun f => decide (f.fom = k)) = l := by
    rw [List.filter_eq_self]; intro a ha; simpa using (w.2 _ hh.1).2 a ha
  have h2 : (held (erase k b)).filter (fun f => decide (f.fom = k)) = [] := by
    rw [List.filter_eq_nil_iff]
    intro a ha
    simp only [decide_eq_true_eq]
    unfold held at ha
    rw [List.mem_flatten] at ha
    obtain ⟨l', hl', ha'⟩ := ha
    rw [List.mem_map] at hl'
    obtain ⟨p, hp, rfl⟩ := hl'
    have := (w.2 p (erase_sub k b p hp)).2 a ha'
    have hk : p.1 ∈ (keys b).erase k := by rw [← erase_keys]; exact mem_keys_of hp
    have := ((w.1.mem_erase_iff).mp hk).1
    intro e
    simp_all
  rw [h1, h2, List.append_nil]

theorem assemble_covers (c : Cfg K D B) (l : List (Fr K D B)) :
    ∀ f ∈ l, ∃ g ∈ assemble c l, g ∈ l ∧ g.did = f.did := by
  intro f hf
  unfold assemble
  split
  · exact ⟨f, hf, hf, rfl⟩
  · split
    · cases l with
      | nil => simp at hf
      | cons t r => exact ⟨f, List.mem_append_left _ hf, hf, rfl⟩
    · rcases (dedup_spec l []).2.2 f hf with h | ⟨g, hg, e⟩
      · simp at h
      · exact ⟨g, hg, (dedup_sub l []).subset hg, e⟩

/-- Nothing accepted is ever lost without a frame of the same id in its place. -/
theorem steps_covers {c : Cfg K D B} (hn : 1 ≤ c.nseg) {P : St K D B → Int → Prop} {s e s'}
    (h : Steps c P s e s') : ∀ d ds, s.done = d :: ds → WF s.buf →
    ∀ f ∈ held s.buf ++ accepted d e, f ∈ held s'.buf ∨
      ∃ p ∈ groups e, p.1 = f.fom ∧ ∃ g ∈ p.2, g.did = f.did ∧ g ∈ held s.buf ++ accepted d e := by
  induction h with
  | nil s => intro d ds _ _ f hf; left; simpa [accepted] using hf
  | @arrive s f s1 e s'' ha _ ih =>
    intro d ds hd w a ha'
    have hg1 : groups (Ev.arrive f :: e) = groups e := rfl
    rw [hg1]
    have w1 := append1_wf ha w
    obtain ⟨d0, ds0, h0, h1, _, _, hm, h⟩ := append1_cases ha
    rw [hd] at h0
    simp only [List.cons.injEq] at h0
    obtain ⟨rfl, rfl⟩ := h0
    have := ih d ds (by rw [h1, hd]) w1 a
    rcases h with h | h
    · have hnl : ¬ d < f.fom := by omega
      simp only [accepted, hnl, if_false] at ha' ⊢
      rw [h.2.1] at this
      exact this ha'
    · simp only [accepted, h.1, if_true] at ha' ⊢
      rw [h.2.1] at this
      have hpm : ∀ x, x ∈ held (insertF f s.buf) ++ accepted d e ↔ x ∈ held s.buf ++ f :: accepted d e :=
        fun x => (((insertF_held f s.buf).append_right _).trans List.perm_middle.symm).mem_iff
      rcases this ((hpm a).mpr ha') with h | ⟨p, hp, e1, g, hg, e2, e3⟩
      · exact .inl h
      · exact .inr ⟨p, hp, e1, g, hg, e2, (hpm g).mp e3⟩
  | @got s k0 l e s'' hl _ _ ih =>
    intro d ds hd w a ha'
    obtain ⟨h1, h2, ⟨g, hg, hp⟩, h4, h5, h6⟩ := getKey_some c s k0 l hl
    have hh := lookup_some hl
    rw [hg] at ha' ⊢
    have hgr : groups (Ev.out (GetOut.group k0 g) :: e) = (k0, g) :: groups e := rfl
    have hac : accepted d (Ev.out (GetOut.group k0 g) :: e) = accepted k0 e := rfl
    rw [hac] at ha' ⊢
    rw [hgr]
    obtain ⟨n, hn'⟩ : ∃ n, c.nseg = n + 1 := ⟨c.nseg - 1, by omega⟩
    have hdone : (getKey c s k0).1.done = k0 :: s.done.take n := by rw [h2, hn']; rfl
    have hih := ih k0 _ hdone (getKey_wf c s k0 w) a
    rw [h1] at hih
    have hpm : ∀ x, x ∈ held s.buf ++ accepted k0 e ↔
        x ∈ l ∨ x ∈ held (erase k0 s.buf) ++ accepted k0 e := by
      intro x
      rw [(hh.2.append_right _).mem_iff, List.append_assoc, List.mem_append]
    rcases (hpm a).mp ha' with hal | hal
    · right
      obtain ⟨g', hg', hgl, hd'⟩ := assemble_covers c l a hal
      refine ⟨(k0, g), List.mem_cons_self .., ((w.2 _ hh.1).2 a hal).symm, g',
        hp.mem_iff.mpr hg', hd', (hpm g').mpr (.inl hgl)⟩
    · rcases hih hal with h | ⟨p, hp, e1, g, hg, e2, e3⟩
      · exact .inl h
      · exact .inr ⟨p, List.mem_cons_of_mem _ hp, e1, g, hg, e2, (hpm g).mpr (.inr e3)⟩
  | nothing _ ih => exact ih

/-- A group in which every expected id was received comes out with each id once. -/
theorem assemble_complete (c : Cfg K D B) (hc : CfgOK c) (l : List (Fr K D B))
    (hp : ∀ f ∈ l, f.mid ∈ c.possible)
    (hall : ∀ x ∈ c.possible, ∃ f ∈ l, f.mid = x)
    (hid : ∀ f ∈ l, ∀ g ∈ l, f.did = g.did ↔ f.mid = g.mid) :
    ((assemble c l).map (·.mid)).Perm c.possible ∧ ∀ f ∈ assemble c l, f ∈ l := by
  have hsub : c.possible ⊆ l.map (·.mid) := by
    intro x hx
    obtain ⟨f, hf, e⟩ := hall x hx
    exact List.mem_map.mpr ⟨f, hf, e⟩
  have hlen : c.nFrames ≤ l.length := by
    rw [hc.count]; simpa using hc.nodup.length_le_of_subset hsub
  unfold assemble
  split
  · rename_i e
    refine ⟨?_, fun f hf => hf⟩
    obtain ⟨l', hl', hs⟩ :=
      List.subperm_of_subset hc.nodup hsub
    have := hs.eq_of_length (by rw [hl'.length_eq, List.length_map, ← hc.count, e])
    rw [← this]; exact hl'
  · rw [if_neg (by omega)]
    refine ⟨?_, fun f hf => (dedup_sub l []).subset hf⟩
    obtain ⟨h1, _, h3⟩ := dedup_spec l []
    have hn : ((dedup [] l).1.map (·.mid)).Nodup := by
      rw [List.Nodup, List.pairwise_map] at h1 ⊢
      refine List.Pairwise.imp_of_mem ?_ h1
      intro a b ha hb hne e
      exact hne ((hid a ((dedup_sub l []).subset ha) b ((dedup_sub l []).subset hb)).mpr e)
    rw [List.perm_ext_iff_of_nodup hn hc.nodup]
    intro x
    constructor
    · intro hx
      rw [List.mem_map] at hx
      obtain ⟨f, hf, rfl⟩ := hx
      exact hp f ((dedup_sub l []).subset hf)
    · intro hx
      obtain ⟨f, hf, rfl⟩ := hall x hx
      rcases h3 f hf with h | ⟨g, hg, e⟩
      · simp at h
      · exact List.mem_map.mpr ⟨g, hg, (hid g ((dedup_sub l []).subset hg) f hf).mp e⟩

/-! ## Totality and bounds -/

theorem append_total {s : St K D B} {d ds} (h : s.done = d :: ds) (fs : List (Fr K D B)) :
    ∃ s', append s fs = some s' ∧ s'.done = s.done := by
  induction fs generalizing s with
  | nil => exact ⟨s, rfl, rfl⟩
  | cons f fs ih =>
    have : ∃ s1, append1 s f = some s1 ∧ s1.done = s.done := by
      unfold append1; rw [h]; simp only; split <;> exact ⟨_, rfl, h.symm ▸ rfl⟩
    obtain ⟨s1, h1, h2⟩ := this
    obtain ⟨s2, h3, h4⟩ := ih (h2.trans h)
    exact ⟨s2, by simp [append, h1, h3], h4.trans h2⟩

theorem insertF_length (f : Fr K D B) (b : List (Int × List (Fr K D B))) :
    (insertF f b).length ≤ b.length + 1 := by
  rw [← keys_length, ← keys_length, insertF_keys]
  split <;> simp

end Verif.Buffer
