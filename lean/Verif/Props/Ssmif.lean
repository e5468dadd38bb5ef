import Verif.Lemmas.Ssmif
/-!
# C48: station files
-/
namespace Verif.Ssmif
open Dec Parser Spec

/-! ## The parts of the antennas -/

theorem cables_some (t : Tables) (h : t.aspAT1 ≠ [] ∧ t.aspAT2 ≠ [] ∧ t.aspAT3 ≠ []) :
    ∃ cs, cables t = some cs ∧ cs.length = (bareCables t).length := by
  unfold cables
  cases h1 : t.aspAT1.min? with
  | none => exact absurd (List.min?_eq_none_iff.1 h1) h.1
  | some m1 =>
    cases h2 : t.aspAT2.min? with
    | none => exact absurd (List.min?_eq_none_iff.1 h2) h.2.1
    | some m2 =>
      cases h3 : t.aspAT3.min? with
      | none => exact absurd (List.min?_eq_none_iff.1 h3) h.2.2
      | some m3 => exact ⟨_, rfl, by simp⟩

theorem bare_get (t : Tables) (n : Nat) (h : OneToOne t n) :
    ∃ ants, bareAntennas t = some ants ∧ ants.length = n ∧ ∀ p a, ants[p]? = some a →
      a.id = p + 1 ∧ a.fee = none ∧ a.cable = none ∧ a.arx = none ∧
      (∀ s : Int, t.stdAnt[p]? = some s → (stands t)[(s - 1).toNat]? = some a.stand) ∧
      t.stdOrie[p]? = some a.pol ∧ t.stdTheta[p]? = some a.theta ∧ t.stdPhi[p]? = some a.phi ∧
      t.stdStat[p]? = some a.status := by
  obtain ⟨l1, l2, l3, l4, l5⟩ := h.antennas
  have hs : (stands t).length = t.stdPos.length := by simp [stands]
  have key : ∀ (i : Nat) (x : Int × Val × Val × Val × Val),
      (t.stdAnt.zip (t.stdOrie.zip (t.stdTheta.zip (t.stdPhi.zip t.stdStat))))[i]? = some x →
      t.stdAnt[i]? = some x.1 ∧ t.stdOrie[i]? = some x.2.1 ∧ t.stdTheta[i]? = some x.2.2.1 ∧
        t.stdPhi[i]? = some x.2.2.2.1 ∧ t.stdStat[i]? = some x.2.2.2.2 := by
    intro i x hx
    rw [List.getElem?_zip_eq_some, List.getElem?_zip_eq_some, List.getElem?_zip_eq_some,
      List.getElem?_zip_eq_some] at hx
    exact ⟨hx.1, hx.2.1, hx.2.2.1, hx.2.2.2.1, hx.2.2.2.2⟩
  have hf : ∀ s ∈ t.stdAnt, ∃ st, pyIdx t.stdPos.length (s - 1) = some (s - 1).toNat ∧
      (stands t)[(s - 1).toNat]? = some st := by
    intro s hs'
    have hr := h.stands s hs'
    exact ⟨_, pyIdx_in _ _ hr.1 hr.2, List.getElem?_eq_getElem (by omega)⟩
  obtain ⟨out, h1, h2, h3⟩ := mapM_get
    (fun x : Nat × Int × Val × Val × Val × Val =>
      match pyIdx t.stdPos.length (x.2.1 - 1) with
      | none => none
      | some p => (stands t)[p]?.map (fun s => ({ id := x.1 + 1, stand := s, pol := x.2.2.1, theta := x.2.2.2.1,
                                                   phi := x.2.2.2.2.1, status := x.2.2.2.2.2 } : Ant)))
    ((t.stdAnt.zip (t.stdOrie.zip (t.stdTheta.zip (t.stdPhi.zip t.stdStat)))).mapIdx (fun i x => (i, x))) (by
      intro x hx
      obtain ⟨i, hi, rfl⟩ := List.mem_mapIdx.1 hx
      have hk := key i _ (List.getElem?_eq_getElem hi)
      obtain ⟨st, e1, e2⟩ := hf _ (List.mem_of_getElem? hk.1)
      simp only [e1, e2]
      rfl)
  refine ⟨out, h1, by rw [h2]; simp; omega, ?_⟩
  intro p a ha
  rw [h3, List.getElem?_mapIdx] at ha
  cases hz : (t.stdAnt.zip (t.stdOrie.zip (t.stdTheta.zip (t.stdPhi.zip t.stdStat))))[p]? with
  | none => rw [hz] at ha; cases ha
  | some x =>
    rw [hz] at ha
    have hk := key p x hz
    obtain ⟨st, e1, e2⟩ := hf _ (List.mem_of_getElem? hk.1)
    simp only [Option.map_some, Option.bind_some, e1, e2, Option.some.injEq] at ha
    subst ha
    refine ⟨rfl, rfl, rfl, rfl, ?_, hk.2.1, hk.2.2.1, hk.2.2.2.1, hk.2.2.2.2⟩
    intro s hs'
    rw [hk.1] at hs'
    cases hs'
    exact e2

theorem fee_ants (fs : List Fee) (ants : List Int) (port : Nat) (h : ants.length = fs.length) :
    (feeJobs fs ants port).map Job.ant = ants := by
  simp only [feeJobs, List.map_map]
  have : (Job.ant ∘ fun x : Fee × Int =>
    (⟨x.2, fun a => { a with fee := some x.1, feePort := port }⟩ : Job)) = Prod.snd := rfl
  rw [this]; exact List.map_snd_zip (by omega)

theorem cable_ants (cs : List Cable) (ants : List Int) (h : ants.length = cs.length) :
    (cableJobs cs ants).map Job.ant = ants := by
  simp only [cableJobs, List.map_map]
  have : (Job.ant ∘ fun x : Cable × Int => (⟨x.2, fun a => { a with cable := some x.1 }⟩ : Job)) = Prod.snd := rfl
  rw [this]; exact List.map_snd_zip (by omega)

theorem skipped_iff (n : Nat) (hn : n ≤ 512) (a : Int) (_ : 0 ≤ a) (h2 : a ≤ n) : skipped a = decide (a = 0) := by
  unfold skipped
  by_cases h : a = 0
  · simp [h]
  · simp [h]; omega

theorem arx_jobs (t : Tables) (n : Nat) (hn : n ≤ 512) (h : OneToOne t n) :
    ∃ js, arxJobs t = some js ∧ js.map Job.ant = t.arxAnt.flatten.filter (fun a => a ≠ 0) ∧
      (∀ j ∈ js, ∃ i k : Nat, (t.arxAnt[i]?.bind (fun r => r[k]?)) = some j.ant ∧
        ∃ x, arxOf t i k = some x ∧ j.change = fun a => { a with arx := some x }) ∧
      (∀ (i k : Nat) (b : Int), (t.arxAnt[i]?.bind (fun r => r[k]?)) = some b → b ≠ 0 →
        ∃ j ∈ js, j.ant = b ∧ ∃ x, arxOf t i k = some x ∧ j.change = fun a => { a with arx := some x }) := by
  have hsk : ∀ c ∈ cells t.arxAnt, skipped c.2.2 = decide (c.2.2 = 0) := by
    intro c hc
    have : c.2.2 ∈ t.arxAnt.flatten := by rw [← cells_flatten]; exact List.mem_map_of_mem hc
    have hr := h.arxRange _ this
    exact skipped_iff n hn _ hr.1 hr.2
  have hcell : ∀ c ∈ (cells t.arxAnt).filter (fun c => !skipped c.2.2),
      (t.arxAnt[c.1]?.bind (fun r => r[c.2.1]?)) = some c.2.2 ∧ c.2.2 ≠ 0 ∧ (arxOf t c.1 c.2.1).isSome = true := by
    intro c hc
    obtain ⟨h1, h2⟩ := List.mem_filter.1 hc
    rw [hsk c h1] at h2
    have h3 : c.2.2 ≠ 0 := by simpa using h2
    have h4 := (mem_cells t.arxAnt c.1 c.2.1 c.2.2).1 h1
    exact ⟨h4, h3, h.arxBoards _ _ _ h4 h3⟩
  obtain ⟨js, e1, e2, e3⟩ := mapM_get
    (fun c : Nat × Nat × Int => (arxOf t c.1 c.2.1).map (fun x => (⟨c.2.2, fun a => { a with arx := some x }⟩ : Job)))
    ((cells t.arxAnt).filter (fun c => !skipped c.2.2)) (by
      intro c hc
      simpa using (hcell c hc).2.2)
  refine ⟨js, e1, ?_, ?_, ?_⟩
  · have hm : js.map Job.ant = ((cells t.arxAnt).filter (fun c => !skipped c.2.2)).map (fun c => c.2.2) := by
      apply List.ext_getElem?
      intro p
      rw [List.getElem?_map, List.getElem?_map, e3 p]
      cases hp : ((cells t.arxAnt).filter (fun c => !skipped c.2.2))[p]? with
      | none => rfl
      | some c =>
        obtain ⟨x, hx⟩ := Option.isSome_iff_exists.1 (hcell c (List.mem_of_getElem? hp)).2.2
        simp only [Option.bind_some, hx, Option.map_some]
    rw [hm, ← cells_flatten, List.filter_map]
    congr 1
    apply List.filter_congr
    intro c hc
    rw [hsk c hc]
    by_cases h0 : c.2.2 = 0 <;> simp [h0]
  · intro j hj
    obtain ⟨p, hp⟩ := List.mem_iff_getElem?.1 hj
    rw [e3 p] at hp
    cases hq : ((cells t.arxAnt).filter (fun c => !skipped c.2.2))[p]? with
    | none => rw [hq] at hp; cases hp
    | some c =>
      rw [hq] at hp
      have hc := hcell c (List.mem_of_getElem? hq)
      obtain ⟨x, hx⟩ := Option.isSome_iff_exists.1 hc.2.2
      simp only [Option.bind_some, hx, Option.map_some, Option.some.injEq] at hp
      subst hp
      exact ⟨c.1, c.2.1, hc.1, x, hx, rfl⟩
  · intro i k b hb h0
    have hm : (i, k, b) ∈ (cells t.arxAnt).filter (fun c => !skipped c.2.2) := by
      rw [List.mem_filter]
      have := (mem_cells t.arxAnt i k b).2 hb
      exact ⟨this, by rw [hsk _ this]; simp [h0]⟩
    obtain ⟨p, hp⟩ := List.mem_iff_getElem?.1 hm
    obtain ⟨x, hx⟩ := Option.isSome_iff_exists.1 (hcell _ hm).2.2
    refine ⟨⟨b, fun a => { a with arx := some x }⟩, ?_, rfl, x, hx, rfl⟩
    rw [List.mem_iff_getElem?]
    refine ⟨p, ?_⟩
    rw [e3 p, hp]
    simp only [Option.bind_some, hx, Option.map_some]

theorem snap_ants (t : Tables) (h : t.snapAnt.map List.length = t.snapInR.map List.length) :
    (snapJobs t).map Job.ant = t.snapAnt.flatten := by
  rw [← channels_ants t h, snapJobs]
  apply List.ext_getElem?
  intro p
  simp only [List.getElem?_map, List.getElem?_mapIdx]
  cases (channels t)[p]? <;> rfl

/-- The antenna at position `p` before sorting. -/
theorem wired_at (t : Tables) (n : Nat) (hn : n ≤ 512) (h : OneToOne t n) :
    ∃ l, antennas t = some l ∧ l.length = n ∧ ∀ (p : Nat) (x : Ant), l[p]? = some x →
      x.id = p + 1 ∧ OwnParts t x ∧ x.digitizer = t.snapAnt.flatten.idxOf ((p : Int) + 1) + 1 := by
  obtain ⟨cs, c1, c2⟩ := cables_some t h.asp
  obtain ⟨ants, b1, b2, b3⟩ := bare_get t n h
  obtain ⟨js, a1, a2, a3, a4⟩ := arx_jobs t n hn h
  have f1 := fee_ants (fees t) t.feeAnt1 1 h.feeLength.1
  have f2 := fee_ants (fees t) t.feeAnt2 2 h.feeLength.2
  have f3 := cable_ants cs t.rpdAnt (by rw [h.cableLength, c2])
  have f5 := snap_ants t h.snapShape
  have hjob : ∀ j ∈ feeJobs (fees t) t.feeAnt1 1 ++ feeJobs (fees t) t.feeAnt2 2 ++ cableJobs cs t.rpdAnt ++ js ++
      snapJobs t, 1 ≤ j.ant ∧ j.ant ≤ ants.length := by
    intro j hj
    rw [b2]
    simp only [List.mem_append] at hj
    rcases hj with (((hj | hj) | hj) | hj) | hj
    · exact h.feeRange _ (List.mem_append_left _ (by rw [← f1]; exact List.mem_map_of_mem hj))
    · exact h.feeRange _ (List.mem_append_right _ (by rw [← f2]; exact List.mem_map_of_mem hj))
    · exact h.cableRange _ (by rw [← f3]; exact List.mem_map_of_mem hj)
    · have hm : j.ant ∈ t.arxAnt.flatten.filter (fun a => a ≠ 0) := by rw [← a2]; exact List.mem_map_of_mem hj
      obtain ⟨m1, m2⟩ := List.mem_filter.1 hm
      have := h.arxRange _ m1
      have h0 : j.ant ≠ 0 := by simpa using m2
      omega
    · have hm : j.ant ∈ t.snapAnt.flatten := by rw [← f5]; exact List.mem_map_of_mem hj
      exact (oneTo_mem n _).1 (h.snapAll.mem_iff.1 hm)
  obtain ⟨l, p1, p2, p3⟩ := plug_get ants _ hjob
  refine ⟨l, by simp only [antennas, c1, b1, a1]; exact p1, by rw [p2, b2], ?_⟩
  intro p x hx
  rw [p3 p] at hx
  cases hp : ants[p]? with
  | none => rw [hp] at hx; cases hx
  | some a =>
    rw [hp] at hx
    simp only [Option.map_some, Option.some.injEq] at hx
    have hb := b3 p a hp
    have hpn : p < n := by
      rw [← b2]
      rcases Nat.lt_or_ge p ants.length with h' | h'
      · exact h'
      · rw [List.getElem?_eq_none h'] at hp; cases hp
    have hfeek : ∀ {β : Type} (f : Ant → β) (port : Nat) (fa : List Int), (∀ a x k, f { a with fee := x, feePort := k } = f a) →
        ∀ j ∈ feeJobs (fees t) fa port, ∀ a, f (j.change a) = f a := by
      intro β f port fa hf j hj a
      obtain ⟨y, _, rfl⟩ := List.mem_map.1 hj
      exact hf a _ _
    have hcabk : ∀ {β : Type} (f : Ant → β), (∀ a x, f { a with cable := x } = f a) →
        ∀ j ∈ cableJobs cs t.rpdAnt, ∀ a, f (j.change a) = f a := by
      intro β f hf j hj a
      obtain ⟨y, _, rfl⟩ := List.mem_map.1 hj
      exact hf a _
    have harxk : ∀ {β : Type} (f : Ant → β), (∀ a x, f { a with arx := x } = f a) →
        ∀ j ∈ js, ∀ a, f (j.change a) = f a := by
      intro β f hf j hj a
      obtain ⟨i, k, _, y, _, hc⟩ := a3 j hj
      rw [hc]; exact hf a _
    have hsnapk : ∀ {β : Type} (f : Ant → β), (∀ a x y z, f { a with board := x, digitizer := y, input := z } = f a) →
        ∀ j ∈ snapJobs t, ∀ a, f (j.change a) = f a := by
      intro β f hf j hj a
      obtain ⟨i, _, rfl⟩ := List.mem_mapIdx.1 hj
      exact hf a _ _ _
    rw [applied_append, applied_append, applied_append] at hx
    -- what each kind of job leaves alone
    have g0 : ∀ {β : Type} (f : Ant → β), (∀ a x k, f { a with fee := x, feePort := k } = f a) →
        (∀ a x, f { a with cable := x } = f a) → (∀ a x, f { a with arx := x } = f a) →
        (∀ a x y z, f { a with board := x, digitizer := y, input := z } = f a) → f x = f a := by
      intro β f k1 k2 k3 k4
      rw [← hx, applied_keeps f p _ _ (hsnapk f k4), applied_keeps f p _ _ (harxk f k3),
        applied_keeps f p _ _ (hcabk f k2)]
      apply applied_keeps
      intro j hj
      rcases List.mem_append.1 hj with hj | hj
      · exact hfeek f 1 _ k1 j hj
      · exact hfeek f 2 _ k1 j hj
    have gfee : ∀ {β : Type} (f : Ant → β), (∀ a x, f { a with cable := x } = f a) →
        (∀ a x, f { a with arx := x } = f a) →
        (∀ a x y z, f { a with board := x, digitizer := y, input := z } = f a) →
        f x = f (applied p (feeJobs (fees t) t.feeAnt1 1 ++ feeJobs (fees t) t.feeAnt2 2) a) := by
      intro β f k2 k3 k4
      rw [← hx, applied_keeps f p _ _ (hsnapk f k4), applied_keeps f p _ _ (harxk f k3),
        applied_keeps f p _ _ (hcabk f k2)]
    have gcab : x.cable = (applied p (cableJobs cs t.rpdAnt)
        (applied p (feeJobs (fees t) t.feeAnt1 1 ++ feeJobs (fees t) t.feeAnt2 2) a)).cable := by
      rw [← hx, applied_keeps Ant.cable p _ _ (hsnapk Ant.cable (fun _ _ _ _ => rfl)),
        applied_keeps Ant.cable p _ _ (harxk Ant.cable (fun _ _ => rfl))]
    have garx : x.arx = (applied p js (applied p (cableJobs cs t.rpdAnt)
        (applied p (feeJobs (fees t) t.feeAnt1 1 ++ feeJobs (fees t) t.feeAnt2 2) a))).arx := by
      rw [← hx, applied_keeps Ant.arx p _ _ (hsnapk Ant.arx (fun _ _ _ _ => rfl))]
    have hid : x.id = p + 1 := by rw [g0 Ant.id (fun _ _ _ => rfl) (fun _ _ => rfl) (fun _ _ => rfl) (fun _ _ _ _ => rfl)]; exact hb.1
    have hidp : x.id - 1 = p := by omega
    have hidi : (x.id : Int) = (p : Int) + 1 := by omega
    have hfn : ((feeJobs (fees t) t.feeAnt1 1 ++ feeJobs (fees t) t.feeAnt2 2).map Job.ant).Nodup := by
      rw [List.map_append, f1, f2]; exact h.feeOnce
    have hfee : ∀ (port : Nat) (fa : List Int) (i : Nat), fa[i]? = some (x.id : Int) → fa.length = (fees t).length →
        (∀ j ∈ feeJobs (fees t) fa port, j ∈ feeJobs (fees t) t.feeAnt1 1 ++ feeJobs (fees t) t.feeAnt2 2) →
        (fees t)[i]? = x.fee ∧ x.feePort = port := by
      intro port fa i hi hl hsub
      have hlt : i < fa.length := by
        rcases Nat.lt_or_ge i fa.length with h' | h'
        · exact h'
        · rw [List.getElem?_eq_none h'] at hi; cases hi
      have hfi : (fees t)[i]? = some ((fees t)[i]'(by omega)) := List.getElem?_eq_getElem (by omega)
      have hmem : (⟨(x.id : Int), fun a => { a with fee := some ((fees t)[i]'(by omega)), feePort := port }⟩ : Job) ∈
          feeJobs (fees t) fa port := by
        refine List.mem_map.2 ⟨((fees t)[i]'(by omega), (x.id : Int)), ?_, rfl⟩
        exact List.mem_of_getElem? (List.getElem?_zip_eq_some.2 ⟨hfi, hi⟩)
      have e1 := applied_one (fun a => (a.fee, a.feePort)) (some ((fees t)[i]'(by omega)), port) p _ _ a
        (hsub _ hmem) hidi hfn (fun _ => rfl)
      have e2 := gfee (fun a => (a.fee, a.feePort)) (fun _ _ => rfl) (fun _ _ => rfl) (fun _ _ _ _ => rfl)
      rw [e1] at e2
      simp only [Prod.mk.injEq] at e2
      exact ⟨by rw [hfi, e2.1], e2.2⟩
    have hsnap : ∀ i j : Nat, (t.snapAnt[i]?.bind (fun r => r[j]?)) = some (x.id : Int) →
        x.board = i + 1 ∧ (t.snapInR[i]?.bind (fun r => r[j]?)) = some x.input ∧
        x.digitizer = ((t.snapAnt.take i).map List.length).sum + j + 1 := by
      intro i j hij
      obtain ⟨v, hv, hc⟩ := channels_get t h.snapShape i j _ hij
      have hmem : (⟨(x.id : Int), fun a => { a with
          board := i + 1, digitizer := ((t.snapAnt.take i).map List.length).sum + j + 1, input := v }⟩ : Job) ∈
          snapJobs t := by
        rw [snapJobs, List.mem_iff_getElem?]
        exact ⟨((t.snapAnt.take i).map List.length).sum + j, by rw [List.getElem?_mapIdx, hc]; rfl⟩
      have hnod : ((snapJobs t).map Job.ant).Nodup := by
        rw [f5]; exact h.snapAll.nodup_iff.2 (oneTo_nodup n)
      have e := applied_one (fun a => (a.board, a.digitizer, a.input))
        (i + 1, ((t.snapAnt.take i).map List.length).sum + j + 1, v) p _ _
        (applied p js (applied p (cableJobs cs t.rpdAnt)
          (applied p (feeJobs (fees t) t.feeAnt1 1 ++ feeJobs (fees t) t.feeAnt2 2) a))) hmem hidi hnod (fun _ => rfl)
      rw [hx] at e
      simp only [Prod.mk.injEq] at e
      exact ⟨e.1, by rw [hv, e.2.2], e.2.1⟩
    refine ⟨hid, ?_, ?_⟩
    · refine ⟨?_, ?_, ?_, ?_, ?_, ?_, ?_, ?_, ?_, ?_, ?_, ?_, hsnap⟩
      · rw [hidp, g0 Ant.stand (fun _ _ _ => rfl) (fun _ _ => rfl) (fun _ _ => rfl) (fun _ _ _ _ => rfl)]
        exact hb.2.2.2.2.1
      · rw [hidp, g0 Ant.pol (fun _ _ _ => rfl) (fun _ _ => rfl) (fun _ _ => rfl) (fun _ _ _ _ => rfl)]
        exact hb.2.2.2.2.2.1
      · rw [hidp, g0 Ant.theta (fun _ _ _ => rfl) (fun _ _ => rfl) (fun _ _ => rfl) (fun _ _ _ _ => rfl)]
        exact hb.2.2.2.2.2.2.1
      · rw [hidp, g0 Ant.phi (fun _ _ _ => rfl) (fun _ _ => rfl) (fun _ _ => rfl) (fun _ _ _ _ => rfl)]
        exact hb.2.2.2.2.2.2.2.1
      · rw [hidp, g0 Ant.status (fun _ _ _ => rfl) (fun _ _ => rfl) (fun _ _ => rfl) (fun _ _ _ _ => rfl)]
        exact hb.2.2.2.2.2.2.2.2
      · intro i hi
        exact hfee 1 t.feeAnt1 i hi h.feeLength.1 (fun j hj => List.mem_append_left _ hj)
      · intro i hi
        exact hfee 2 t.feeAnt2 i hi h.feeLength.2 (fun j hj => List.mem_append_right _ hj)
      · intro n1 n2
        rw [gfee Ant.fee (fun _ _ => rfl) (fun _ _ => rfl) (fun _ _ _ _ => rfl), applied_none p _ _ (by
          rw [List.map_append, f1, f2, ← hidi]
          simp only [List.mem_append, not_or]
          exact ⟨n1, n2⟩)]
        exact hb.2.1
      · intro i hi
        have hlt : i < t.rpdAnt.length := by
          rcases Nat.lt_or_ge i t.rpdAnt.length with h' | h'
          · exact h'
          · rw [List.getElem?_eq_none h'] at hi; cases hi
        have hil : i < cs.length := by rw [c2, ← h.cableLength]; exact hlt
        have hci : cs[i]? = some cs[i] := List.getElem?_eq_getElem hil
        have hmem : (⟨(x.id : Int), fun a => { a with cable := some cs[i] }⟩ : Job) ∈ cableJobs cs t.rpdAnt := by
          refine List.mem_map.2 ⟨(cs[i], (x.id : Int)), ?_, rfl⟩
          exact List.mem_of_getElem? (List.getElem?_zip_eq_some.2 ⟨hci, hi⟩)
        have e := applied_one Ant.cable (some cs[i]) p _ _
          (applied p (feeJobs (fees t) t.feeAnt1 1 ++ feeJobs (fees t) t.feeAnt2 2) a) hmem hidi
          (by rw [f3]; exact h.cableOnce) (fun _ => rfl)
        rw [gcab, e, c1]; exact hci
      · intro hno
        rw [gcab, applied_none p _ _ (by rw [f3, ← hidi]; exact hno),
          applied_keeps Ant.cable p _ _ (by
            intro j hj
            rcases List.mem_append.1 hj with hj | hj
            · exact hfeek Ant.cable 1 _ (fun _ _ _ => rfl) j hj
            · exact hfeek Ant.cable 2 _ (fun _ _ _ => rfl) j hj)]
        exact hb.2.2.1
      · intro i k hik
        obtain ⟨j, hj, hja, y, hy, hch⟩ := a4 i k _ hik (by omega)
        have e := applied_one Ant.arx (some y) p js j (applied p (cableJobs cs t.rpdAnt)
          (applied p (feeJobs (fees t) t.feeAnt1 1 ++ feeJobs (fees t) t.feeAnt2 2) a)) hj (by rw [hja]; exact hidi)
          (by rw [a2]; exact h.arxOnce) (fun a => by rw [hch])
        rw [garx, e, hy]
      · intro hno
        rw [garx, applied_none p _ _ (by
            rw [a2, ← hidi]
            intro hm
            exact hno (List.mem_filter.1 hm).1),
          applied_keeps Ant.arx p _ _ (hcabk Ant.arx (fun _ _ => rfl)),
          applied_keeps Ant.arx p _ _ (by
            intro j hj
            rcases List.mem_append.1 hj with hj | hj
            · exact hfeek Ant.arx 1 _ (fun _ _ _ => rfl) j hj
            · exact hfeek Ant.arx 2 _ (fun _ _ _ => rfl) j hj)]
        exact hb.2.2.2.1
    · have hmem : (x.id : Int) ∈ t.snapAnt.flatten :=
        h.snapAll.mem_iff.2 ((oneTo_mem n _).2 (by omega))
      obtain ⟨i, j, hij⟩ := mem_flatten_get _ _ hmem
      have hd := (hsnap i j hij).2.2
      have hg := flatten_get _ i j _ hij
      have hlt : ((t.snapAnt.take i).map List.length).sum + j < t.snapAnt.flatten.length := by
        rcases Nat.lt_or_ge (((t.snapAnt.take i).map List.length).sum + j) t.snapAnt.flatten.length with h' | h'
        · exact h'
        · rw [List.getElem?_eq_none h'] at hg; cases hg
      have hnod : t.snapAnt.flatten.Nodup := h.snapAll.nodup_iff.2 (oneTo_nodup n)
      have hix := hnod.idxOf_getElem _ hlt
      rw [List.getElem?_eq_getElem hlt] at hg
      rw [Option.some.inj hg, hidi] at hix
      rw [hd, hix]

/-- C48: for every one-to-one station of up to 512 antennas, the antennas come out in digitizer order with digitizers
1 to `n`, each with its own stand, FEE, cable, ARX channel, board and connector; ARX channels marked unassigned alter
nothing. -/
theorem C48_wired_partial (t : Tables) (n : Nat) (hn : n ≤ 512) (h : OneToOne t n) :
    ∃ s, station t = some s ∧ Wired t n s.antennas := by
  obtain ⟨l, l1, l2, l3⟩ := wired_at t n hn h
  refine ⟨⟨nameOf t.idn, sort l⟩, by simp [station, l1], ?_⟩
  have hnod : t.snapAnt.flatten.Nodup := h.snapAll.nodup_iff.2 (oneTo_nodup n)
  have hlen : t.snapAnt.flatten.length = n := by rw [h.snapAll.length_eq, oneTo_length]
  have hid : l.map (fun x => (x.id : Int)) = oneTo n := by
    apply List.ext_getElem?
    intro p
    rw [List.getElem?_map]
    cases hp : l[p]? with
    | none =>
      rw [List.getElem?_eq_none_iff] at hp
      rw [List.getElem?_eq_none (by rw [oneTo_length]; omega)]; rfl
    | some x =>
      have hpn : p < n := by
        rcases Nat.lt_or_ge p l.length with h' | h'
        · omega
        · rw [List.getElem?_eq_none h'] at hp; cases hp
      rw [oneTo_get n p hpn]
      have := (l3 p x hp).1
      simp only [Option.map_some, Option.some.injEq]; omega
  have hdig : l.map (fun x => (x.digitizer : Int)) =
      (oneTo n).map (fun a => (t.snapAnt.flatten.idxOf a : Int) + 1) := by
    apply List.ext_getElem?
    intro p
    rw [List.getElem?_map, List.getElem?_map]
    cases hp : l[p]? with
    | none =>
      rw [List.getElem?_eq_none_iff] at hp
      rw [List.getElem?_eq_none (by rw [oneTo_length]; omega)]; rfl
    | some x =>
      have hpn : p < n := by
        rcases Nat.lt_or_ge p l.length with h' | h'
        · omega
        · rw [List.getElem?_eq_none h'] at hp; cases hp
      rw [oneTo_get n p hpn]
      have := (l3 p x hp).2.2
      simp only [Option.map_some, Option.some.injEq, this]; rfl
  have hflat : t.snapAnt.flatten.map (fun a => (t.snapAnt.flatten.idxOf a : Int) + 1) = oneTo n := by
    apply List.ext_getElem?
    intro p
    rw [List.getElem?_map]
    rcases Nat.lt_or_ge p n with hp | hp
    · rw [oneTo_get n p hp, List.getElem?_eq_getElem (by omega)]
      simp only [Option.map_some, hnod.idxOf_getElem]
    · rw [List.getElem?_eq_none (by omega), List.getElem?_eq_none (by rw [oneTo_length]; omega)]; rfl
  have hperm : (l.map (fun x => (x.digitizer : Int))).Perm (oneTo n) := by
    have hp1 := h.snapAll.map (fun a => (t.snapAnt.flatten.idxOf a : Int) + 1)
    rw [hflat] at hp1
    rw [hdig]; exact hp1.symm
  have hdigs : (sort l).map (fun x => (x.digitizer : Int)) = oneTo n := by
    refine sorted_unique _ _ (((sort_perm l).map _).trans hperm) ?_ (oneTo_sorted n)
    rw [List.pairwise_map]
    exact (sort_sorted l).imp (fun hab => by omega)
  have hown : ∀ x ∈ sort l, ∃ p : Nat, x.id = p + 1 ∧ OwnParts t x ∧
      x.digitizer = t.snapAnt.flatten.idxOf ((p : Int) + 1) + 1 := by
    intro x hx
    obtain ⟨p, hp⟩ := List.mem_iff_getElem?.1 ((sort_perm l).mem_iff.1 hx)
    exact ⟨p, l3 p x hp⟩
  refine ⟨hdigs, by rw [← hid]; exact (sort_perm l).map _, ?_, fun x hx => (hown x hx).elim (fun _ hp => hp.2.1)⟩
  apply List.ext_getElem?
  intro k
  rw [List.getElem?_map]
  have hsl : (sort l).length = n := by rw [(sort_perm l).length_eq, l2]
  rcases Nat.lt_or_ge k n with hk | hk
  · have hx : (sort l)[k]? = some ((sort l)[k]'(by omega)) := List.getElem?_eq_getElem (by omega)
    generalize hxe : (sort l)[k]'(by omega) = x at hx
    obtain ⟨p, q1, _, q3⟩ := hown x (List.mem_of_getElem? hx)
    have hd : ((sort l).map (fun x => (x.digitizer : Int)))[k]? = (oneTo n)[k]? := by rw [hdigs]
    rw [List.getElem?_map, hx, oneTo_get n k hk] at hd
    simp only [Option.map_some, Option.some.injEq] at hd
    have hix : t.snapAnt.flatten.idxOf ((p : Int) + 1) = k := by omega
    have hg := List.getElem_idxOf (x := (p : Int) + 1) (xs := t.snapAnt.flatten) (by omega)
    rw [hx, List.getElem?_eq_getElem (by omega)]
    simp only [Option.map_some, Option.some.injEq]
    simp only [hix] at hg
    rw [hg]; omega
  · rw [List.getElem?_eq_none (show (sort l).length ≤ k by omega), List.getElem?_eq_none (by omega)]; rfl

end Verif.Ssmif
