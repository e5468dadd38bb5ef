import Verif.Props.SsmifLine
/-!
# C48: what the tables hold after a file, and where the code goes astray
-/
namespace Verif.Ssmif
open Dec Parser Spec

/-! ## From the lines to the tables -/

theorem mapM_some_get {α β : Type} (f : α → Option β) (l : List α) (m : List β) (h : l.mapM f = some m) (p : Nat) :
    m[p]? = l[p]?.bind f := by
  induction l generalizing m p with
  | nil => simp at h; subst h; simp
  | cons x l ih =>
    rw [List.mapM_cons] at h
    cases hx : f x with
    | none => rw [hx] at h; cases h
    | some y =>
      rw [hx] at h
      cases hl : l.mapM f with
      | none => rw [hl] at h; cases h
      | some m' =>
        rw [hl] at h
        simp at h
        subst h
        cases p with
        | zero => simp [hx]
        | succ p => simpa using ih m' hl p

theorem ints_get (e : Env) (x : String) (l : List Int) (h : e.ints x = some l) (p : Nat) :
    l[p]? = (valueAt (e x) p none).bind Val.int? := by
  unfold Env.ints Env.vals at h
  cases hx : e x with
  | none => rw [hx] at h; cases h
  | some v =>
    rw [hx] at h
    cases v with
    | one _ => cases h
    | table _ => cases h
    | list m =>
      have h' : m.mapM Val.int? = some l := h
      exact mapM_some_get _ _ _ h' p

theorem intRows_get (e : Env) (x : String) (t : List (List Int)) (h : e.intRows x = some t) (p q : Nat) :
    (t[p]?.bind (fun r => r[q]?)) = (valueAt (e x) p (some q)).bind Val.int? := by
  unfold Env.intRows Env.rows at h
  cases hx : e x with
  | none => rw [hx] at h; cases h
  | some v =>
    rw [hx] at h
    cases v with
    | one _ => cases h
    | list _ => cases h
    | table m =>
      have h' : m.mapM (fun r => r.mapM Val.int?) = some t := h
      have hp := mapM_some_get _ _ _ h' p
      simp only [valueAt]
      cases hm : m[p]? with
      | none => rw [hp, hm]; rfl
      | some r =>
        rw [hm] at hp
        simp only [Option.bind_some] at hp ⊢
        cases hr : r.mapM Val.int? with
        | none =>
          rw [hr] at hp
          -- the whole table would have failed
          exfalso
          have : t.length = m.length := by
            have hl : ∀ (a : List (List Val)) (b : List (List Int)), a.mapM (fun r => r.mapM Val.int?) = some b →
                b.length = a.length := by
              intro a
              induction a with
              | nil => intro b hb; simp at hb; subst hb; rfl
              | cons y a ih =>
                intro b hb
                rw [List.mapM_cons] at hb
                cases hy : y.mapM Val.int? with
                | none => rw [hy] at hb; cases hb
                | some z =>
                  rw [hy] at hb
                  cases ha : a.mapM (fun r => r.mapM Val.int?) with
                  | none => rw [ha] at hb; cases hb
                  | some w =>
                    rw [ha] at hb; simp at hb; subst hb
                    simp [ih w ha]
            exact hl m t h'
          have h1 : p < m.length := by
            rcases Nat.lt_or_ge p m.length with h' | h'
            · exact h'
            · rw [List.getElem?_eq_none h'] at hm; cases hm
          rw [List.getElem?_eq_getElem (by omega)] at hp
          cases hp
        | some s =>
          rw [hp, hr]
          exact mapM_some_get _ _ _ hr q

theorem tables_fields (e : Env) (t : Tables) (h : tables e = some t) :
    e.ints "stdAnt" = some t.stdAnt ∧ e.ints "feeAnt1" = some t.feeAnt1 ∧ e.ints "feeAnt2" = some t.feeAnt2 ∧
    e.ints "rpdAnt" = some t.rpdAnt ∧ e.intRows "arxAnt" = some t.arxAnt ∧ e.intRows "snapAnt" = some t.snapAnt := by
  simp only [tables, bind, Option.bind_eq_some_iff, pure] at h
  obtain ⟨_, _, _, _, _, _, _, _, _, h5, _, h6, a, ha, _, _, _, _, _, _, _, _, _, _, _, _, _, _, _, _, b, hb, c, hc, _, _, _, _, _, _,
    _, _, _, _, _, _, _, _, _, _, d, hd, _, _, _, _, f, hf, _, _, _, _, g, hg, _, _, _, _, _, _, _, _, hh⟩ := h
  have hh' := Option.some.inj hh
  subst hh'
  exact ⟨ha, hb, hc, hd, hf, hg⟩

/-- C48: the assignments used for the antennas are those of the last line for each entry, or the earlier ones. -/
theorem C48_text_partial (fl : Str → Option Rat) (e e' : Env) (ls : List Line) (t : Tables)
    (h : ∀ l ∈ ls, l.Good fl e) (hp : parseText fl e (ls.map (fun l => l.s.text l.kind)) = some e')
    (ht : tables e' = some t) (p q : Nat) :
    t.stdAnt[p]? = ((lastFor ls "stdAnt" p none).or (valueAt (e "stdAnt") p none)).bind Val.int? ∧
    t.feeAnt1[p]? = ((lastFor ls "feeAnt1" p none).or (valueAt (e "feeAnt1") p none)).bind Val.int? ∧
    t.feeAnt2[p]? = ((lastFor ls "feeAnt2" p none).or (valueAt (e "feeAnt2") p none)).bind Val.int? ∧
    t.rpdAnt[p]? = ((lastFor ls "rpdAnt" p none).or (valueAt (e "rpdAnt") p none)).bind Val.int? ∧
    (t.arxAnt[p]?.bind (fun r => r[q]?)) =
      ((lastFor ls "arxAnt" p (some q)).or (valueAt (e "arxAnt") p (some q))).bind Val.int? ∧
    (t.snapAnt[p]?.bind (fun r => r[q]?)) =
      ((lastFor ls "snapAnt" p (some q)).or (valueAt (e "snapAnt") p (some q))).bind Val.int? := by
  obtain ⟨e2, h1, _, h3, _⟩ := C48_file_partial fl e ls h
  rw [hp] at h1
  cases h1
  obtain ⟨f1, f2, f3, f4, f5, f6⟩ := tables_fields e' t ht
  refine ⟨?_, ?_, ?_, ?_, ?_, ?_⟩
  · rw [ints_get _ _ _ f1 p, h3 "stdAnt" (by decide)]
  · rw [ints_get _ _ _ f2 p, h3 "feeAnt1" (by decide)]
  · rw [ints_get _ _ _ f3 p, h3 "feeAnt2" (by decide)]
  · rw [ints_get _ _ _ f4 p, h3 "rpdAnt" (by decide)]
  · rw [intRows_get _ _ _ f5 p q, h3 "arxAnt" (by decide)]
  · rw [intRows_get _ _ _ f6 p q, h3 "snapAnt" (by decide)]

/-! ## Lines that go astray -/

/-- C48, false: a line about the port of an ARX board changes its rack. -/
theorem C48_arb_port (fl : Str → Option Rat) (e : Env) (s : Setting) (n : Int) (hs : s.key = "ARB_PORT") (hc : s.Clean)
    (hf : s.Fits e .entry "arxRack") (hv : intText? s.value = some n) :
    ∃ e', step fl e (s.text .entry) = some e' ∧ OnlyAt e e' "arxRack" (s.i - 1) none (.int n) ∧
      e' "arxPort" = e "arxPort" := by
  have hk := own_keys ("ARB_PORT", .entry, "arxPort", .int) (by decide)
  simp only [Bool.and_eq_true, List.all_eq_true, Bool.not_eq_true', List.isEmpty_eq_false_iff] at hk
  rw [step_setting fl e s .entry (.entry "arxRack" .int) hc (by rw [hs]; exact hk.1) (by rw [hs]; exact hk.2)
    (by rw [hs]; rfl)]
  obtain ⟨e', h1, h2⟩ := target_run fl e s (.entry "arxRack" .int) .entry "arxRack" .int (.int n) rfl hf
    (by simp [means, hv])
  exact ⟨e', h1, h2, h2.others _ (by decide) (by decide)⟩

/-- C48, false: a line about one ASP attenuator 3 writes the value of the last line about attenuator 1, and raises an
exception when there was none. -/
theorem C48_asp_at3 (fl : Str → Option Rat) (e : Env) (s : Setting) (n : Int) (hs : s.key = "ASP_AT3") (hc : s.Clean)
    (hf : s.Fits e .entry "aspAT3") (hv : intText? s.value = some n) :
    (e "at1" = none → step fl e (s.text .entry) = none) ∧
    (∀ v, e "at1" = some (.one v) → ∃ e', step fl e (s.text .entry) = some e' ∧
      OnlyAt e e' "aspAT3" (s.i - 1) none v) := by
  have hk := own_keys ("ASP_AT3", .entry, "aspAT3", .int) (by decide)
  simp only [Bool.and_eq_true, List.all_eq_true, Bool.not_eq_true', List.isEmpty_eq_false_iff] at hk
  have hst := step_setting fl e s .entry (.asp "at3" "aspAT3" "at1") hc (by rw [hs]; exact hk.1) (by rw [hs]; exact hk.2)
    (by rw [hs]; rfl)
  obtain ⟨h1, l, hl, h2⟩ := hf
  have hput : (e.put "at3" (.one (.int n))) "at1" = e "at1" := put_other _ _ _ _ (by decide)
  constructor
  · intro h0
    rw [hst]
    simp only [Act.run, hv, hput, h0]
    rw [if_neg (by omega)]
  · intro v h0
    rw [hst]
    simp only [Act.run, hv, hput, h0]
    rw [if_neg (by omega)]
    obtain ⟨e', h5, h6⟩ := setEntry_only (e.put "at3" (.one (.int n))) "aspAT3" l s.i v
      (by rw [put_other _ _ _ _ (by decide)]; exact hl) h1 h2
    refine ⟨e', h5, h6.new, ?_, ?_, ?_⟩
    · intro p q hpq; rw [h6.rest p q hpq, put_other _ _ _ _ (by decide)]
    · intro y hy hys
      rw [h6.others y hy hys, put_other _ _ _ _ (fun h : y = "at3" => hys (by rw [h]; decide))]
    · have := h6.shape; rw [put_other _ _ _ _ (by decide)] at this; exact this

/-- C48, false: the number 0 is not refused; the line changes the last entry of the list. -/
theorem C48_index_zero (fl : Str → Option Rat) (e : Env) (s : Setting) (x : String) (c : Conv) (v : Val) (l : List Val)
    (ha : acts.lookup s.key = some (.entry x c)) (hk : ∀ c ∈ s.key.toList, isKey c = true) (hne : s.key.toList ≠ [])
    (hc : s.Clean) (hi : s.i = 0) (hl : e x = some (.list l)) (h0 : l ≠ []) (hv : c.run fl s.value = some v) :
    step fl e (s.text .entry) = some (e.put x (.list (l.set (l.length - 1) v))) := by
  have hlen : 0 < l.length := List.length_pos_iff.2 h0
  have hp : pyIdx l.length ((s.i : Int) - 1) = some (l.length - 1) := by
    unfold pyIdx
    rw [hi, if_neg (by omega), if_pos (by omega)]
    congr 1; omega
  rw [step_setting fl e s .entry _ hc hk hne ha]
  simp only [Act.run, hv, Option.bind_some, Env.setEntry, hl, setAt, hp, Option.map_some]

/-! ## Unassigned parts -/

theorem plug_append (ants : List Ant) (js ks : List Job) :
    plug ants (js ++ ks) = (plug ants js).bind (fun m => plug m ks) := by
  induction js generalizing ants with
  | nil => rfl
  | cons j js ih =>
    simp only [List.cons_append, plug]
    cases pyIdx ants.length (j.ant - 1) with
    | none => rfl
    | some p => exact ih _

theorem plug_keeps {β : Type} (f : Ant → β) (ants out : List Ant) (js : List Job) (h : plug ants js = some out)
    (hk : ∀ j ∈ js, ∀ a, f (j.change a) = f a) : out.map f = ants.map f := by
  induction js generalizing ants with
  | nil => simp [plug] at h; rw [h]
  | cons j js ih =>
    simp only [plug] at h
    cases hp : pyIdx ants.length (j.ant - 1) with
    | none => rw [hp] at h; cases h
    | some p =>
      rw [hp] at h
      rw [ih _ h (fun k hk' => hk k (List.mem_cons_of_mem _ hk'))]
      apply List.ext_getElem?
      intro q
      rw [List.getElem?_map, List.getElem?_map, List.getElem?_modify]
      cases ants[q]? with
      | none => rfl
      | some a =>
        simp only [Option.map_eq_map, Option.map_some, Option.some.injEq]
        by_cases hq : p = q
        · rw [if_pos hq]; exact hk j List.mem_cons_self a
        · rw [if_neg hq]

theorem plug_length (ants out : List Ant) (js : List Job) (h : plug ants js = some out) : out.length = ants.length := by
  have := plug_keeps (fun _ => ()) ants out js h (fun _ _ _ => rfl)
  have h2 := congrArg List.length this
  simpa using h2

/-- A job for antenna 0 is done to the last antenna. -/
theorem plug_zero {β : Type} (f : Ant → β) (v : β) (ants out : List Ant) (js ks : List Job) (j : Job)
    (h : plug ants (js ++ j :: ks) = some out) (h0 : j.ant = 0) (hv : ∀ a, f (j.change a) = v)
    (hk : ∀ k ∈ ks, ∀ a, f (k.change a) = f a) : ∃ x, out.getLast? = some x ∧ f x = v := by
  rw [plug_append] at h
  cases h1 : plug ants js with
  | none => rw [h1] at h; cases h
  | some m =>
    rw [h1] at h
    simp only [Option.bind_some, plug] at h
    cases hp : pyIdx m.length (j.ant - 1) with
    | none => rw [hp] at h; cases h
    | some p =>
      rw [hp] at h
      simp only [Option.bind_some] at h
      have hlt := pyIdx_lt _ _ _ hp
      have hpe : p = m.length - 1 := by
        unfold pyIdx at hp
        rw [h0, if_neg (by omega)] at hp
        split at hp
        · simp at hp; omega
        · cases hp
      have hm := plug_keeps f _ _ _ h hk
      have hlen := plug_length _ _ _ h
      rw [List.length_modify] at hlen
      have hmp : m[p]? = some m[p] := List.getElem?_eq_getElem hlt
      have hg : (out.map f)[p]? = some v := by
        rw [hm, List.getElem?_map, List.getElem?_modify, hmp]
        simp only [Option.map_eq_map, Option.map_some, if_pos, hv]
      rw [List.getElem?_map] at hg
      cases ho : out[p]? with
      | none => rw [ho] at hg; cases hg
      | some x =>
        rw [ho] at hg
        simp only [Option.map_some, Option.some.injEq] at hg
        refine ⟨x, ?_, hg⟩
        rw [List.getLast?_eq_getElem?, hlen, ← hpe, ho]

theorem fee_keeps {β : Type} (f : Ant → β) (fs : List Fee) (fa : List Int) (port : Nat)
    (hf : ∀ a x k, f { a with fee := x, feePort := k } = f a) : ∀ j ∈ feeJobs fs fa port, ∀ a, f (j.change a) = f a := by
  intro j hj a
  obtain ⟨y, _, rfl⟩ := List.mem_map.1 hj
  exact hf a _ _

theorem cable_keeps {β : Type} (f : Ant → β) (cs : List Cable) (fa : List Int)
    (hf : ∀ a x, f { a with cable := x } = f a) : ∀ j ∈ cableJobs cs fa, ∀ a, f (j.change a) = f a := by
  intro j hj a
  obtain ⟨y, _, rfl⟩ := List.mem_map.1 hj
  exact hf a _

theorem snap_keeps {β : Type} (f : Ant → β) (t : Tables)
    (hf : ∀ a x y z, f { a with board := x, digitizer := y, input := z } = f a) :
    ∀ j ∈ snapJobs t, ∀ a, f (j.change a) = f a := by
  intro j hj a
  obtain ⟨i, _, rfl⟩ := List.mem_mapIdx.1 hj
  exact hf a _ _ _

theorem arx_change (t : Tables) (js : List Job) (h : arxJobs t = some js) : ∀ j ∈ js,
    skipped j.ant = false ∧ j.ant ∈ t.arxAnt.flatten ∧ ∃ x, j.change = fun a => { a with arx := some x } := by
  intro j hj
  obtain ⟨p, hp⟩ := List.mem_iff_getElem?.1 hj
  rw [mapM_some_get _ _ _ h p] at hp
  cases hq : ((cells t.arxAnt).filter (fun c => !skipped c.2.2))[p]? with
  | none => rw [hq] at hp; cases hp
  | some c =>
    rw [hq] at hp
    simp only [Option.bind_some] at hp
    cases hx : arxOf t c.1 c.2.1 with
    | none => rw [hx] at hp; cases hp
    | some x =>
      rw [hx] at hp
      simp only [Option.map_some, Option.some.injEq] at hp
      subst hp
      obtain ⟨m1, m2⟩ := List.mem_filter.1 (List.mem_of_getElem? hq)
      refine ⟨by simpa using m2, ?_, x, rfl⟩
      rw [← cells_flatten]
      exact List.mem_map.2 ⟨c, m1, rfl⟩

/-- What `antennas` is made of. -/
theorem antennas_some (t : Tables) (l : List Ant) (h : antennas t = some l) :
    ∃ cs ants js, cables t = some cs ∧ bareAntennas t = some ants ∧ arxJobs t = some js ∧
      plug ants (feeJobs (fees t) t.feeAnt1 1 ++ feeJobs (fees t) t.feeAnt2 2 ++ cableJobs cs t.rpdAnt ++ js ++
        snapJobs t) = some l := by
  unfold antennas at h
  split at h
  · rename_i cs ants js h1 h2 h3
    exact ⟨cs, ants, js, h1, h2, h3, h⟩
  · cases h

/-- C48, false: when the last FEE has no antenna on port 2, the last antenna of the station gets it. -/
theorem C48_spare_fee (t : Tables) (l : List Ant) (h : antennas t = some l) (zs : List (Fee × Int)) (f : Fee)
    (hz : (fees t).zip t.feeAnt2 = zs ++ [(f, 0)]) :
    ∃ x, l.getLast? = some x ∧ x.fee = some f ∧ x.feePort = 2 := by
  obtain ⟨cs, ants, js, h1, h2, h3, h4⟩ := antennas_some t l h
  have hj : feeJobs (fees t) t.feeAnt2 2 = zs.map (fun x => (⟨x.2, fun a => { a with fee := some x.1, feePort := 2 }⟩ : Job)) ++
      [⟨0, fun a => { a with fee := some f, feePort := 2 }⟩] := by rw [feeJobs, hz]; simp
  rw [hj] at h4
  rw [show ∀ A B C D E : List Job, ∀ j : Job, A ++ (B ++ [j]) ++ C ++ D ++ E = (A ++ B) ++ j :: (C ++ (D ++ E)) by
    intros; simp] at h4
  obtain ⟨x, e1, e2⟩ := plug_zero (fun a => (a.fee, a.feePort)) (some f, 2) ants l _ _ _ h4 rfl (fun _ => rfl) (by
    intro k hk
    simp only [List.mem_append] at hk
    rcases hk with hk | hk | hk
    · exact cable_keeps (fun a => (a.fee, a.feePort)) _ _ (fun _ _ => rfl) k hk
    · obtain ⟨_, _, y, hy⟩ := arx_change t js h3 k hk
      intro a; rw [hy]
    · exact snap_keeps (fun a => (a.fee, a.feePort)) t (fun _ _ _ _ => rfl) k hk)
  simp only [Prod.mk.injEq] at e2
  exact ⟨x, e1, e2⟩

/-- C48, false: when the last cable has no antenna, the last antenna of the station gets it. -/
theorem C48_spare_cable (t : Tables) (l : List Ant) (h : antennas t = some l) (cs : List Cable) (hc : cables t = some cs)
    (zs : List (Cable × Int)) (c : Cable) (hz : cs.zip t.rpdAnt = zs ++ [(c, 0)]) :
    ∃ x, l.getLast? = some x ∧ x.cable = some c := by
  obtain ⟨cs', ants, js, h1, h2, h3, h4⟩ := antennas_some t l h
  rw [hc] at h1; cases h1
  have hj : cableJobs cs t.rpdAnt = zs.map (fun x => (⟨x.2, fun a => { a with cable := some x.1 }⟩ : Job)) ++
      [⟨0, fun a => { a with cable := some c }⟩] := by rw [cableJobs, hz]; simp
  rw [hj] at h4
  rw [show ∀ A B C D E : List Job, ∀ j : Job, A ++ B ++ (C ++ [j]) ++ D ++ E = (A ++ B ++ C) ++ j :: (D ++ E) by
    intros; simp] at h4
  exact plug_zero Ant.cable (some c) ants l _ _ _ h4 rfl (fun _ => rfl) (by
    intro k hk
    simp only [List.mem_append] at hk
    rcases hk with hk | hk
    · obtain ⟨_, _, y, hy⟩ := arx_change t js h3 k hk
      intro a; rw [hy]
    · exact snap_keeps _ t (fun _ _ _ _ => rfl) k hk)

/-- C48, false: when the last digitizer channel has no antenna, the last antenna gets its board, connector and number, so
with any spare channel the digitizers of the antennas are not 1 to their number. -/
theorem C48_spare_channel (t : Tables) (l : List Ant) (h : antennas t = some l) (zs : List (Nat × Int × Val)) (b : Nat)
    (v : Val) (hz : channels t = zs ++ [(b, 0, v)]) :
    ∃ x, l.getLast? = some x ∧ x.board = b ∧ x.digitizer = zs.length + 1 ∧ x.input = v := by
  obtain ⟨cs, ants, js, h1, h2, h3, h4⟩ := antennas_some t l h
  have hj : snapJobs t = zs.mapIdx (fun j c =>
      (⟨c.2.1, fun a => { a with board := c.1, digitizer := j + 1, input := c.2.2 }⟩ : Job)) ++
      [⟨0, fun a => { a with board := b, digitizer := zs.length + 1, input := v }⟩] := by
    rw [snapJobs, hz, List.mapIdx_append]; simp
  rw [hj, ← List.append_assoc] at h4
  obtain ⟨x, e1, e2⟩ := plug_zero (fun a => (a.board, a.digitizer, a.input)) (b, zs.length + 1, v) ants l _ [] _ h4 rfl
    (fun _ => rfl) (fun k hk => by cases hk)
  simp only [Prod.mk.injEq] at e2
  exact ⟨x, e1, e2⟩

/-! ## Limits of the ARX step -/

theorem plug_far (ants out : List Ant) (js : List Job) (h : plug ants js = some out) (p : Nat)
    (hj : ∀ j ∈ js, 1 ≤ j.ant ∧ j.ant ≤ p) : out[p]? = ants[p]? := by
  induction js generalizing ants with
  | nil => simp [plug] at h; rw [h]
  | cons j js ih =>
    simp only [plug] at h
    cases hp : pyIdx ants.length (j.ant - 1) with
    | none => rw [hp] at h; cases h
    | some q =>
      rw [hp] at h
      have hq : q < p := by
        have h1 := hj j List.mem_cons_self
        unfold pyIdx at hp
        rw [if_pos (by omega)] at hp
        split at hp
        · simp at hp; omega
        · cases hp
      rw [ih _ h (fun k hk => hj k (List.mem_cons_of_mem _ hk)), List.getElem?_modify]
      cases ants[p]? with
      | none => rfl
      | some a => simp only [Option.map_eq_map, Option.map_some]; rw [if_neg (by omega)]

theorem bare_arx (t : Tables) (ants : List Ant) (h : bareAntennas t = some ants) (p : Nat) (a : Ant)
    (ha : ants[p]? = some a) : a.arx = none := by
  unfold bareAntennas at h
  rw [mapM_some_get _ _ _ h p] at ha
  cases hx : ((t.stdAnt.zip (t.stdOrie.zip (t.stdTheta.zip (t.stdPhi.zip t.stdStat)))).mapIdx (fun i x => (i, x)))[p]? with
  | none => rw [hx] at ha; cases ha
  | some x =>
    rw [hx] at ha
    simp only [Option.bind_some] at ha
    split at ha
    · cases ha
    · rename_i q _
      cases hs : (stands t)[q]? with
      | none => rw [hs] at ha; cases ha
      | some s => rw [hs] at ha; simp at ha; rw [← ha]

/-- C48, false beyond 512: antennas after number 512 never get their ARX channel. -/
theorem C48_arx_limit (t : Tables) (l : List Ant) (h : antennas t = some l) (hr : ∀ a ∈ t.arxAnt.flatten, 0 ≤ a)
    (p : Nat) (hp : 512 ≤ p) (x : Ant) (hx : l[p]? = some x) : x.arx = none := by
  obtain ⟨cs, ants, js, h1, h2, h3, h4⟩ := antennas_some t l h
  rw [plug_append] at h4
  cases h5 : plug ants (feeJobs (fees t) t.feeAnt1 1 ++ feeJobs (fees t) t.feeAnt2 2 ++ cableJobs cs t.rpdAnt ++ js) with
  | none => rw [h5] at h4; cases h4
  | some m2 =>
    rw [h5] at h4
    have k1 := plug_keeps Ant.arx m2 l _ h4 (snap_keeps _ t (fun _ _ _ _ => rfl))
    rw [plug_append] at h5
    cases h6 : plug ants (feeJobs (fees t) t.feeAnt1 1 ++ feeJobs (fees t) t.feeAnt2 2 ++ cableJobs cs t.rpdAnt) with
    | none => rw [h6] at h5; cases h5
    | some m1 =>
      rw [h6] at h5
      have k3 := plug_far m1 m2 js h5 p (by
        intro j hj
        obtain ⟨s1, s2, _⟩ := arx_change t js h3 j hj
        have := hr _ s2
        simp [skipped] at s1
        omega)
      have k2 := plug_keeps Ant.arx ants m1 _ h6 (by
        intro j hj
        simp only [List.mem_append] at hj
        rcases hj with (hj | hj) | hj
        · exact fee_keeps Ant.arx _ _ 1 (fun _ _ _ => rfl) j hj
        · exact fee_keeps Ant.arx _ _ 2 (fun _ _ _ => rfl) j hj
        · exact cable_keeps Ant.arx _ _ (fun _ _ => rfl) j hj)
      have e1 : (l.map Ant.arx)[p]? = (m2.map Ant.arx)[p]? := by rw [k1]
      have e2 : (m1.map Ant.arx)[p]? = (ants.map Ant.arx)[p]? := by rw [k2]
      rw [List.getElem?_map, List.getElem?_map, k3, hx] at e1
      rw [List.getElem?_map, List.getElem?_map] at e2
      rw [← e1] at e2
      cases ha : ants[p]? with
      | none => rw [ha] at e2; cases e2
      | some a =>
        rw [ha] at e2
        simp only [Option.map_some, Option.some.injEq] at e2
        rw [e2]; exact bare_arx t ants h2 p a ha

/-- C48, false: a board with an antenna and without an `ARB_ID` line keeps the name `UNK` and the file is refused. -/
theorem C48_arx_unnamed (t : Tables) (i j : Nat) (a : Int) (ha : (t.arxAnt[i]?.bind (fun r => r[j]?)) = some a)
    (h1 : skipped a = false) (h2 : t.arxID[i]? = some unk) : station t = none := by
  have hx : arxOf t i j = none := by
    unfold arxOf
    rw [h2]
    simp only [unk]
    split
    · rename_i h _ _
      cases h
      have : intText? ['U', 'N', 'K'] = none := by decide
      rw [this]; rfl
    · rfl
  have hj : arxJobs t = none := by
    cases hn : arxJobs t with
    | none => rfl
    | some js =>
      exfalso
      have hm : (i, j, a) ∈ (cells t.arxAnt).filter (fun c => !skipped c.2.2) := by
        rw [List.mem_filter]; exact ⟨(mem_cells _ _ _ _).2 ha, by simp [h1]⟩
      have key : ∀ (l : List (Nat × Nat × Int)) (js : List Job), l.mapM (fun c => (arxOf t c.1 c.2.1).map
          (fun x => (⟨c.2.2, fun a => { a with arx := some x }⟩ : Job))) = some js → (i, j, a) ∉ l := by
        intro l
        induction l with
        | nil => intro _ _ h; cases h
        | cons c l ih =>
          intro js hjs hmem
          rw [List.mapM_cons] at hjs
          rcases List.mem_cons.1 hmem with hc | hmem
          · rw [← hc] at hjs; simp only [hx] at hjs; cases hjs
          · cases hf : (arxOf t c.1 c.2.1).map (fun x => (⟨c.2.2, fun a => { a with arx := some x }⟩ : Job)) with
            | none => rw [hf] at hjs; cases hjs
            | some y =>
              rw [hf] at hjs
              cases hl : l.mapM (fun c => (arxOf t c.1 c.2.1).map
                (fun x => (⟨c.2.2, fun a => { a with arx := some x }⟩ : Job))) with
              | none => rw [hl] at hjs; cases hjs
              | some ys => exact ih ys hl hmem
      exact key _ js hn hm
  unfold station antennas
  rw [hj]
  split
  · rename_i h; cases h
  · rfl

/-! ## Attenuators -/

/-- C48: cable `i` has the attenuation of ASP entry `i`, above the least of each; cables beyond the number of stands have
none, whatever the settings. -/
theorem C48_asp (t : Tables) (cs : List Cable) (h : cables t = some cs) (i : Nat) (c : Cable) (hc : cs[i]? = some c) :
    (∀ a1 a2 a3 : Int, t.aspAT1[i]? = some a1 → t.aspAT2[i]? = some a2 → t.aspAT3[i]? = some a3 →
      ∃ m1 m2 m3, t.aspAT1.min? = some m1 ∧ t.aspAT2.min? = some m2 ∧ t.aspAT3.min? = some m3 ∧
        c.atten = 2 * ((a1 - m1 : Int) : Rat) + 2 * ((a2 - m2 : Int) : Rat) + ((a3 - m3 : Int) : Rat) / 2) ∧
    (t.aspAT1.length ≤ i → c.atten = 0) := by
  unfold cables at h
  split at h
  · rename_i m1 m2 m3 e1 e2 e3
    simp only [Option.some.injEq] at h
    subst h
    rw [List.getElem?_mapIdx] at hc
    cases hb : (bareCables t)[i]? with
    | none => rw [hb] at hc; cases hc
    | some b =>
      rw [hb] at hc
      simp only [Option.map_some, Option.some.injEq] at hc
      subst hc
      constructor
      · intro a1 a2 a3 g1 g2 g3
        refine ⟨m1, m2, m3, e1, e2, e3, ?_⟩
        have hz : (t.aspAT1.zip (t.aspAT2.zip t.aspAT3))[i]? = some (a1, a2, a3) := by
          rw [List.getElem?_zip_eq_some, List.getElem?_zip_eq_some]; exact ⟨g1, g2, g3⟩
        rw [hz]
        simp only [atten]
        push_cast
        grind
      · intro hl
        have hz : (t.aspAT1.zip (t.aspAT2.zip t.aspAT3))[i]? = none := by
          rw [List.getElem?_eq_none_iff, List.length_zip]; omega
        rw [hz]
        simp only
        rw [bareCables, List.getElem?_map] at hb
        cases hy : (t.rpdID.zip (t.rpdLeng.zip (t.rpdVF.zip (t.rpdDD.zip (t.rpdA0.zip (t.rpdA1.zip (t.rpdStr.zip t.rpdFre)))))))[i]? with
        | none => rw [hy] at hb; cases hb
        | some y => rw [hy] at hb; simp at hb; rw [← hb]
  · cases h

end Verif.Ssmif
