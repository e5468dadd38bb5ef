import Verif.Lemmas.SdfParse
/-!
# C31: rendering and parsing a session

The parser keeps one dictionary for all observations of a file, so some settings of an observation
reach later ones.  `received` is the specification of what comes out of that; the round trip holds
exactly for sessions on which it changes nothing.
-/
namespace Verif.SdfParse

open Verif.Sdf

/-! ### specification -/

/-- Modes with a beam type of their own. -/
def usesBeam : Mode → Bool
  | .radec | .sol | .jov | .lun => true
  | _ => false

/-- Modes with a DRX gain. -/
def usesGain (m : Mode) : Bool := usesBeam m || m == .stepped

/-- Settings that stay in force from one observation to the next. -/
structure Carry where
  dipole : Option Dipole
  highDr : Bool
  gain : Int
  fee : List (Int × Int)
  flt : List Int
  at1 : List Int
  at2 : List Int
  at3 : List Int

/-- Nothing set. -/
def Carry.none : Carry :=
  ⟨.none, false, -1, List.replicate nstd (-1, -1), List.replicate nstd (-1), List.replicate nstd (-1),
    List.replicate nstd (-1), List.replicate nstd (-1)⟩

/-- The settings in force from observation `o` on: its own where it has one, else the earlier ones. -/
def Carry.next (c : Carry) (o : Obs) : Carry :=
  { dipole := o.dipole.or c.dipole
    highDr := c.highDr || (usesBeam o.mode && o.highDr)
    gain := if o.mode = .tbt then c.gain else orElse c.gain o.gain
    fee := mergeFee c.fee o.fee
    flt := merge c.flt o.flt
    at1 := merge c.at1 o.at1
    at2 := merge c.at2 o.at2
    at3 := merge c.at3 o.at3 }

def isSpec : Beam → Bool
  | .spec _ _ => true
  | _ => false

/-- Custom delays and gains stay in force for the following steps. -/
def receivedSteps : Option (List Int × List Gain) → List Step → List Step
  | _, [] => []
  | prev, s :: l =>
    match s.beam with
    | .spec ds gs => s :: receivedSteps (some (ds, gs)) l
    | _ =>
      match prev with
      | none => s :: receivedSteps none l
      | some (ds, gs) => { s with beam := .spec ds gs } :: receivedSteps (some (ds, gs)) l

/-- What observation `o` becomes when the settings `c` are in force. -/
def received (c : Carry) (o : Obs) : Obs :=
  let n := c.next o
  { o with
    dipole := if (receivedSteps none o.steps).any (fun s => isSpec s.beam) then none else n.dipole
    highDr := if usesBeam o.mode then n.highDr else o.highDr
    gain := if usesGain o.mode then n.gain else o.gain
    fee := n.fee, flt := n.flt, at1 := n.at1, at2 := n.at2, at3 := n.at3
    steps := receivedSteps none o.steps }

def receivedAll : Carry → List Obs → List Obs
  | _, [] => []
  | c, o :: l => received c o :: receivedAll (c.next o) l

/-- What the attributes of an observation of each class are: those the mode does not use have the
values of the constructor; angles are multiples of 1e-9 (as written to the file). -/
def ModeOk (o : Obs) : Prop :=
  match o.mode with
  | .tbt => o.dur = tbtDur o.samples ∧ o.ra = 0 ∧ o.dec = 0 ∧ o.highDr = false ∧ o.freq1 = 0 ∧
      o.freq2 = 0 ∧ o.filter = 1 ∧ o.isRadec = true ∧ o.steps = [] ∧ o.gain = -1
  | .tbs => o.ra = 0 ∧ o.dec = 0 ∧ o.highDr = false ∧ o.freq2 = 0 ∧ o.isRadec = true ∧ o.steps = [] ∧
      o.gain = -1 ∧ o.samples = 0
  | .radec => of9 (to9 o.ra) = o.ra ∧ of9 (to9 o.dec) = o.dec ∧ raDecOk o.ra o.dec = true ∧
      o.isRadec = true ∧ o.steps = [] ∧ o.samples = 0
  | .stepped => o.dur = (o.steps.map Step.dur).sum ∧ o.ra = 0 ∧ o.dec = 0 ∧ o.highDr = false ∧
      o.freq1 = 0 ∧ o.freq2 = 0 ∧ o.samples = 0 ∧
      ∀ s ∈ o.steps, of9 (to9 s.c1) = s.c1 ∧ of9 (to9 s.c2) = s.c2 ∧ BeamOk s.beam
  | _ => o.ra = 0 ∧ o.dec = 0 ∧ o.isRadec = true ∧ o.steps = [] ∧ o.samples = 0

/-- An observation as the classes make it. -/
structure Proper (o : Obs) : Prop where
  comments : o.comments.toList.length ≤ 4090
  fee : o.fee.length = nstd
  flt : o.flt.length = nstd
  at1 : o.at1.length = nstd
  at2 : o.at2.length = nstd
  at3 : o.at3.length = nstd
  feeOk : FeeOk o.fee
  mode : ModeOk o

/-! ### what the lines of one observation do -/

theorem cut_id (s : String) (h : s.toList.length ≤ 4090) : cut s = s := by
  unfold cut
  rw [List.take_of_length_le h, String.ofList_toList]

/-- The dictionary after the lines of observation `o`. -/
def tempAfter (t : Temp) (o : Obs) : Temp :=
  { t with
    name := o.name, target := o.target, comments := cut o.comments, mjd := o.mjd, mpm := o.mpm,
    dur := o.dur, mode := some o.mode
    dipole := o.dipole.or t.dipole
    ra := if o.mode = .radec then of9 (to9 o.ra) else t.ra
    dec := if o.mode = .radec then of9 (to9 o.dec) else t.dec
    highDr := t.highDr || (usesBeam o.mode && o.highDr)
    freq1 := if usesBeam o.mode || o.mode == .tbs then o.freq1 else t.freq1
    freq2 := if usesBeam o.mode then o.freq2 else t.freq2
    filter := if o.mode = .tbt then t.filter else o.filter
    isRadec := if o.mode = .stepped then o.isRadec else t.isRadec
    fee := mergeFee t.fee o.fee
    flt := merge t.flt o.flt
    at1 := merge t.at1 o.at1
    at2 := merge t.at2 o.at2
    at3 := merge t.at3 o.at3
    samples := if o.mode = .tbt then o.samples else t.samples
    gain := if o.mode = .tbt then t.gain else orElse t.gain o.gain }

/-- The step entries after the lines of observation `o`. -/
def beamsAfter (o : Obs) : List StepTemp :=
  if o.mode = .stepped then stepsAfter StepTemp.new 0 o.steps else []

theorem stepsOk (o : Obs) (h : ModeOk o) (hm : o.mode = .stepped) : ∀ s ∈ o.steps, BeamOk s.beam := by
  unfold ModeOk at h
  rw [hm] at h
  intro s hs
  exact (h.2.2.2.2.2.2.2 s hs).2.2

theorem mode_parse (t : Temp) (out : List Obs) (o : Obs) (h : ModeOk o) :
    parseLines ⟨t, [], out⟩ (modeLines o) = some ⟨{ t with
      ra := if o.mode = .radec then of9 (to9 o.ra) else t.ra
      dec := if o.mode = .radec then of9 (to9 o.dec) else t.dec
      highDr := t.highDr || (usesBeam o.mode && o.highDr)
      freq1 := if usesBeam o.mode || o.mode == .tbs then o.freq1 else t.freq1
      freq2 := if usesBeam o.mode then o.freq2 else t.freq2
      filter := if o.mode = .tbt then t.filter else o.filter
      isRadec := if o.mode = .stepped then o.isRadec else t.isRadec }, beamsAfter o, out⟩ := by
  have hst := stepsOk o h
  unfold modeLines beamsAfter
  cases hm : o.mode with
  | stepped =>
    rw [parseLines, parseLine]
    simp only
    rw [parseLines, parseLine]
    simp only
    rw [steps_parse _ _ o.steps [] 0 (by simp) (hst hm)]
    simp [usesBeam]
  | tbt => simp [parseLines, usesBeam]
  | tbs => simp [parseLines, parseLine, usesBeam]
  | radec => cases hh : o.highDr <;> cases ht : t.highDr <;> simp [parseLines, parseLine, usesBeam, ht]
  | sol => cases hh : o.highDr <;> cases ht : t.highDr <;> simp [parseLines, parseLine, usesBeam, ht]
  | jov => cases hh : o.highDr <;> cases ht : t.highDr <;> simp [parseLines, parseLine, usesBeam, ht]
  | lun => cases hh : o.highDr <;> cases ht : t.highDr <;> simp [parseLines, parseLine, usesBeam, ht]

/-- Lengths of the lists in the dictionary. -/
structure TOk (t : Temp) : Prop where
  fee : t.fee.length = nstd
  flt : t.flt.length = nstd
  at1 : t.at1.length = nstd
  at2 : t.at2.length = nstd
  at3 : t.at3.length = nstd

theorem dipole_parse (t : Temp) (bs : List StepTemp) (out : List Obs) (d : Option Dipole) :
    parseLines ⟨t, bs, out⟩ (bdmLines d) =
      some ⟨{ t with dipole := d.or t.dipole }, bs, out⟩ := by
  cases d <;> simp [bdmLines, parseLines, parseLine]

theorem last_parse (t : Temp) (bs : List StepTemp) (out : List Obs) (o : Obs) :
    parseLines ⟨t, bs, out⟩
      (endLines o) =
      some ⟨{ t with
        samples := if o.mode = .tbt then o.samples else t.samples
        gain := if o.mode = .tbt then t.gain else orElse t.gain o.gain }, bs, out⟩ := by
  unfold endLines
  by_cases h : o.mode = .tbt
  · simp [h, parseLines, parseLine]
  · by_cases hg : o.gain = -1
    · simp [h, hg, parseLines, orElse]
    · simp [h, hg, parseLines, parseLine, orElse]

theorem obs_parse (t : Temp) (out : List Obs) (id : Nat) (o : Obs) (ht : TOk t) (ho : Proper o) :
    ∃ rest, obsLines id o = .obsId id :: rest ∧
      parseLines ⟨t, [], out⟩ rest = some ⟨tempAfter t o, beamsAfter o, out⟩ := by
  refine ⟨.title o.name :: .target o.target :: .rempi (cut o.comments) :: .mjd o.mjd :: .mpm o.mpm ::
    .dur o.dur :: .mode o.mode ::
    (bdmLines o.dipole ++
    (modeLines o ++
    ((feeLines o.fee).map (fun p => .fee p.1 p.2.1 p.2.2) ++
    ((arrLines o.flt).map (fun p => .flt p.1 p.2) ++
    ((arrLines o.at1).map (fun p => .at1 p.1 p.2) ++
    ((arrLines o.at2).map (fun p => .at2 p.1 p.2) ++
    ((arrLines o.at3).map (fun p => .at3 p.1 p.2) ++
    endLines o))))))),
    ?_, ?_⟩
  · simp only [obsLines, List.append_assoc, List.cons_append, List.nil_append]
  rw [parseLines, parseLine]; simp only
  rw [parseLines, parseLine]; simp only
  rw [parseLines, parseLine]; simp only
  rw [parseLines, parseLine]; simp only
  rw [parseLines, parseLine]; simp only
  rw [parseLines, parseLine]; simp only
  rw [parseLines, parseLine]; simp only
  rw [parseLines_append, dipole_parse, Option.bind_some]
  rw [parseLines_append, mode_parse _ _ _ ho.mode, Option.bind_some]
  rw [parseLines_append, parse_fee, Option.bind_some]
  rw [parseLines_append, parse_flt, Option.bind_some]
  rw [parseLines_append, parse_at1, Option.bind_some]
  rw [parseLines_append, parse_at2, Option.bind_some]
  rw [parseLines_append, parse_at3, Option.bind_some]
  rw [last_parse]
  simp only
  rw [fee_roundtrip _ _ (by rw [ht.fee, ho.fee]) ho.feeOk, arr_roundtrip _ _ (by rw [ht.flt, ho.flt]),
    arr_roundtrip _ _ (by rw [ht.at1, ho.at1]), arr_roundtrip _ _ (by rw [ht.at2, ho.at2]),
    arr_roundtrip _ _ (by rw [ht.at3, ho.at3])]
  rfl

theorem makeSteps_after (ss : List Step) : ∀ (b : StepTemp) (k : Nat)
    (prev : Option (List Int × List Gain)),
    (match prev with
      | none => b.delays = none ∧ b.gains = none
      | some (ds, gs) => b.delays = some ds ∧ b.gains = some gs ∧ ds.length = 2 * nstd ∧ gs.length = nstd) →
    (∀ s ∈ ss, of9 (to9 s.c1) = s.c1 ∧ of9 (to9 s.c2) = s.c2 ∧ BeamOk s.beam) →
    makeSteps (stepsAfter b k ss) = some (receivedSteps prev ss) := by
  induction ss with
  | nil => intro b k prev _ _; simp [stepsAfter, makeSteps, receivedSteps]
  | cons s ss ih =>
    intro b k prev hb hs
    obtain ⟨hc1, hc2, hbeam⟩ := hs s (by simp)
    have hs' : ∀ x ∈ ss, of9 (to9 x.c1) = x.c1 ∧ of9 (to9 x.c2) = x.c2 ∧ BeamOk x.beam :=
      fun x hx => hs x (by simp [hx])
    simp only [stepsAfter, makeSteps]
    cases hsb : s.beam with
    | spec ds gs =>
      rw [hsb] at hbeam
      have e : makeStep (stepAfter b (k + 1) s) = some s := by
        unfold makeStep
        simp only [stepAfter, hsb, lenOk, hbeam.1, hbeam.2, beq_self_eq_true, Bool.not_true,
          Bool.false_eq_true, if_false, viaText_id, viaFreq_id, Option.map_some, beamOf, hc1, hc2]
        congr 1
        cases s
        simp only at hsb
        simp [hsb]
      rw [e, ih _ _ (some (ds, gs)) _ hs']
      · simp [receivedSteps, hsb]
      · simp [stepAfter, hsb, hbeam.1, hbeam.2]
    | simple =>
      cases prev with
      | none =>
        have e : makeStep (stepAfter b (k + 1) s) = some s := by
          unfold makeStep
          simp only [stepAfter, hsb, lenOk, hb.1, hb.2, Bool.not_true,
            Bool.false_eq_true, if_false, viaText_id, viaFreq_id, Option.map_some, beamOf, hc1, hc2]
          congr 1
          cases s
          simp only at hsb
          simp [hsb]
        rw [e, ih _ _ none _ hs']
        · simp [receivedSteps, hsb]
        · simp [stepAfter, hsb, hb.1, hb.2]
      | some p =>
        obtain ⟨ds, gs⟩ := p
        obtain ⟨h1, h2, h3, h4⟩ := hb
        have e : makeStep (stepAfter b (k + 1) s) = some { s with beam := .spec ds gs } := by
          unfold makeStep
          simp only [stepAfter, hsb, lenOk, h1, h2, h3, h4, beq_self_eq_true, Bool.not_true,
            Bool.false_eq_true, if_false, viaText_id, viaFreq_id, Option.map_some, beamOf, hc1, hc2]
        rw [e, ih _ _ (some (ds, gs)) _ hs']
        · simp [receivedSteps, hsb]
        · simp [stepAfter, hsb, h1, h2, h3, h4]
    | highDr =>
      cases prev with
      | none =>
        have e : makeStep (stepAfter b (k + 1) s) = some s := by
          unfold makeStep
          simp only [stepAfter, hsb, lenOk, hb.1, hb.2, Bool.not_true,
            Bool.false_eq_true, if_false, viaText_id, viaFreq_id, Option.map_some, beamOf, hc1, hc2]
          congr 1
          cases s
          simp only at hsb
          simp [hsb]
        rw [e, ih _ _ none _ hs']
        · simp [receivedSteps, hsb]
        · simp [stepAfter, hsb, hb.1, hb.2]
      | some p =>
        obtain ⟨ds, gs⟩ := p
        obtain ⟨h1, h2, h3, h4⟩ := hb
        have e : makeStep (stepAfter b (k + 1) s) = some { s with beam := .spec ds gs } := by
          unfold makeStep
          simp only [stepAfter, hsb, lenOk, h1, h2, h3, h4, beq_self_eq_true, Bool.not_true,
            Bool.false_eq_true, if_false, viaText_id, viaFreq_id, Option.map_some, beamOf, hc1, hc2]
        rw [e, ih _ _ (some (ds, gs)) _ hs']
        · simp [receivedSteps, hsb]
        · simp [stepAfter, hsb, h1, h2, h3, h4]

theorem receivedSteps_dur (ss : List Step) : ∀ prev, (receivedSteps prev ss).map Step.dur = ss.map Step.dur := by
  induction ss with
  | nil => intro prev; rfl
  | cons s ss ih =>
    intro prev
    simp only [receivedSteps]
    split
    · simp [ih]
    · split <;> simp [ih]

/-- The dictionary holds the settings in force. -/
structure Rel (c : Carry) (t : Temp) : Prop where
  dipole : t.dipole = c.dipole
  highDr : t.highDr = c.highDr
  gain : t.gain = c.gain
  fee : t.fee = c.fee
  flt : t.flt = c.flt
  at1 : t.at1 = c.at1
  at2 : t.at2 = c.at2
  at3 : t.at3 = c.at3

theorem rel_after (c : Carry) (t : Temp) (o : Obs) (h : Rel c t) : Rel (c.next o) (tempAfter t o) := by
  constructor <;> simp [tempAfter, Carry.next, h.dipole, h.highDr, h.gain, h.fee, h.flt, h.at1, h.at2, h.at3]

theorem tok_after (t : Temp) (o : Obs) (ht : TOk t) (ho : Proper o) : TOk (tempAfter t o) := by
  constructor
  · simp [tempAfter, mergeFee, ht.fee, ho.fee]
  · simp [tempAfter, merge, ht.flt, ho.flt]
  · simp [tempAfter, merge, ht.at1, ho.at1]
  · simp [tempAfter, merge, ht.at2, ho.at2]
  · simp [tempAfter, merge, ht.at3, ho.at3]

theorem create_after (c : Carry) (t : Temp) (o : Obs) (h : Rel c t) (ho : Proper o) :
    create (tempAfter t o) (beamsAfter o) = some (received c o) := by
  have hcut := cut_id o.comments ho.comments
  have hmode := ho.mode
  unfold ModeOk at hmode
  cases o with
  | mk mode name target comments mjd mpm dur dipole ra dec highDr freq1 freq2 filter isRadec steps fee
      flt at1 at2 at3 samples gain =>
  simp only at hcut hmode
  cases mode with
  | tbt =>
    simp only at hmode
    obtain ⟨h1, h2, h3, h4, h5, h6, h7, h8, h9, h10⟩ := hmode
    subst h1 h2 h3 h4 h5 h6 h7 h8 h9 h10
    simp [create, tempAfter, common, bare, received, Carry.next, receivedSteps, usesBeam, usesGain, hcut,
      h.dipole, h.fee, h.flt, h.at1, h.at2, h.at3]
    cases hd : dipole.or c.dipole <;> rfl
  | tbs =>
    simp only at hmode
    obtain ⟨h1, h2, h3, h4, h5, h6, h7, h8⟩ := hmode
    subst h1 h2 h3 h4 h5 h6 h7 h8
    simp [create, tempAfter, common, bare, received, Carry.next, receivedSteps, usesBeam, usesGain, hcut,
      h.dipole, h.fee, h.flt, h.at1, h.at2, h.at3, viaText_id, viaFreq_id]
    cases hd : dipole.or c.dipole <;> rfl
  | radec =>
    simp only at hmode
    obtain ⟨h1, h2, h3, h4, h5, h6⟩ := hmode
    subst h4 h5 h6
    simp [create, tempAfter, common, bare, received, Carry.next, receivedSteps, usesBeam, usesGain, hcut,
      h.dipole, h.fee, h.flt, h.at1, h.at2, h.at3, h.highDr, h.gain, viaText_id, viaFreq_id, h1, h2, h3]
    cases hd : dipole.or c.dipole <;> rfl
  | stepped =>
    simp only at hmode
    obtain ⟨h1, h2, h3, h4, h5, h6, h7, h8⟩ := hmode
    subst h1 h2 h3 h4 h5 h6 h7
    simp only [create, tempAfter, beamsAfter, if_true]
    rw [makeSteps_after steps StepTemp.new 0 none ⟨rfl, rfl⟩ h8, Option.map_some, receivedSteps_dur]
    congr 1
    have hT : ∀ x : Obs, x.steps.any (fun s => isSpec s.beam) = true →
        dropDipole x = { x with dipole := none } := fun x hx => if_pos hx
    have hF : ∀ x : Obs, ¬ x.steps.any (fun s => isSpec s.beam) = true → dropDipole x = x :=
      fun x hx => if_neg hx
    by_cases hs : (receivedSteps none steps).any (fun s => isSpec s.beam) = true
    · rw [hT _ hs]
      simp only [common, bare, received, if_pos hs]
      simp [Carry.next, usesBeam, usesGain, hcut, h.fee, h.flt, h.at1, h.at2, h.at3, h.gain]
    · rw [hF _ hs]
      simp only [common, bare, received, if_neg hs]
      simp [Carry.next, usesBeam, usesGain, hcut, h.dipole, h.fee, h.flt, h.at1, h.at2, h.at3, h.gain]
      cases hd : dipole.or c.dipole <;> rfl
  | sol =>
    simp only at hmode
    obtain ⟨h1, h2, h3, h4, h5⟩ := hmode
    subst h1 h2 h3 h4 h5
    simp [create, tempAfter, common, bare, received, Carry.next, receivedSteps, usesBeam, usesGain, hcut,
      h.dipole, h.fee, h.flt, h.at1, h.at2, h.at3, h.highDr, h.gain, viaText_id, viaFreq_id]
    cases hd : dipole.or c.dipole <;> rfl
  | jov =>
    simp only at hmode
    obtain ⟨h1, h2, h3, h4, h5⟩ := hmode
    subst h1 h2 h3 h4 h5
    simp [create, tempAfter, common, bare, received, Carry.next, receivedSteps, usesBeam, usesGain, hcut,
      h.dipole, h.fee, h.flt, h.at1, h.at2, h.at3, h.highDr, h.gain, viaText_id, viaFreq_id]
    cases hd : dipole.or c.dipole <;> rfl
  | lun =>
    simp only at hmode
    obtain ⟨h1, h2, h3, h4, h5⟩ := hmode
    subst h1 h2 h3 h4 h5
    simp [create, tempAfter, common, bare, received, Carry.next, receivedSteps, usesBeam, usesGain, hcut,
      h.dipole, h.fee, h.flt, h.at1, h.at2, h.at3, h.highDr, h.gain, viaText_id, viaFreq_id]
    cases hd : dipole.or c.dipole <;> rfl

/-- Parsing the remaining observations after one has been started. -/
theorem render_parse (l : List Obs) : ∀ (id : Nat) (c : Carry) (t : Temp) (o : Obs) (out : List Obs),
    0 < id → t.id ≠ 0 → Rel c t → TOk t → Proper o → (∀ x ∈ l, Proper x) →
    (match parseLines ⟨tempAfter t o, beamsAfter o, out⟩ (renderFrom id l) with
      | none => none
      | some s => if s.t.id ≠ 0 then (create s.t s.beams).map (fun x => s.out ++ [x]) else some s.out) =
      some (out ++ receivedAll c (o :: l)) := by
  induction l with
  | nil =>
    intro id c t o out _ hid hr ht ho _
    simp only [renderFrom, parseLines]
    rw [if_pos (show (tempAfter t o).id ≠ 0 from hid), create_after c t o hr ho]
    rfl
  | cons y l ih =>
    intro id c t o out hpos hid hr ht ho hl
    have hy := hl y (by simp)
    have htok : TOk { tempAfter t o with id := id } := by
      have := tok_after t o ht ho
      exact ⟨this.fee, this.flt, this.at1, this.at2, this.at3⟩
    have hrel : Rel (c.next o) { tempAfter t o with id := id } := by
      have := rel_after c t o hr
      exact ⟨this.dipole, this.highDr, this.gain, this.fee, this.flt, this.at1, this.at2, this.at3⟩
    obtain ⟨rest, hrest, hparse⟩ := obs_parse { tempAfter t o with id := id } (out ++ [received c o]) id y htok hy
    have e : parseLines ⟨tempAfter t o, beamsAfter o, out⟩ (renderFrom id (y :: l)) =
        parseLines ⟨tempAfter { tempAfter t o with id := id } y, beamsAfter y, out ++ [received c o]⟩
          (renderFrom (id + 1) l) := by
      simp only [renderFrom, hrest, List.cons_append]
      rw [parseLines, parseLine]
      simp only
      rw [if_pos (show (tempAfter t o).id ≠ 0 from hid), create_after c t o hr ho]
      simp only
      rw [parseLines_append, hparse, Option.bind_some]
    rw [e]
    have := ih (id + 1) (c.next o) { tempAfter t o with id := id } y (out ++ [received c o]) (by omega)
      (by simp only; omega) hrel htok hy (fun x hx => hl x (by simp [hx]))
    rw [this]
    simp [receivedAll]

/-! ### the property -/

/-- What parsing a rendered session gives, for every session: the same observations in the same order,
with exactly the settings that the specification says are carried over. -/
theorem C31_exact (obs : List Obs) (h : ∀ o ∈ obs, Proper o) :
    parse (render obs) = some (receivedAll Carry.none obs) := by
  cases obs with
  | nil => rfl
  | cons o l =>
    have ho := h o (by simp)
    have htok : TOk { Temp.new with id := 1 } := by
      constructor <;> simp only [Temp.new, List.length_replicate]
    have hrel : Rel Carry.none { Temp.new with id := 1 } := ⟨rfl, rfl, rfl, rfl, rfl, rfl, rfl, rfl⟩
    obtain ⟨rest, hrest, hparse⟩ := obs_parse { Temp.new with id := 1 } [] 1 o htok ho
    have e : parseLines ⟨Temp.new, [], []⟩ (render (o :: l)) =
        parseLines ⟨tempAfter { Temp.new with id := 1 } o, beamsAfter o, []⟩ (renderFrom 2 l) := by
      simp only [render, renderFrom, hrest, List.cons_append]
      rw [parseLines, parseLine]
      simp only
      rw [if_neg (show ¬ Temp.new.id ≠ 0 by decide)]
      simp only
      rw [parseLines_append, hparse, Option.bind_some]
    unfold parse
    rw [e]
    have := render_parse l 2 Carry.none { Temp.new with id := 1 } o [] (by omega) (by decide) hrel htok ho
      (fun x hx => h x (by simp [hx]))
    rw [List.nil_append] at this
    exact this

/-- A later observation `b` does not rely on a default that the earlier `a` has changed. -/
structure NoReset (a b : Obs) : Prop where
  dipole : b.dipole = none → a.dipole = none
  highDr : usesBeam b.mode = true → b.highDr = false → (usesBeam a.mode && a.highDr) = false
  gain : usesGain b.mode = true → b.gain = -1 → a.mode = .tbt ∨ a.gain = -1
  fee : ∀ (k : Nat) (u v : Int × Int), a.fee[k]? = some u → b.fee[k]? = some v →
    (v.1 = -1 → u.1 = -1) ∧ (v.2 = -1 → u.2 = -1)
  flt : ∀ (k : Nat) (u : Int), a.flt[k]? = some u → b.flt[k]? = some (-1) → u = -1
  at1 : ∀ (k : Nat) (u : Int), a.at1[k]? = some u → b.at1[k]? = some (-1) → u = -1
  at2 : ∀ (k : Nat) (u : Int), a.at2[k]? = some u → b.at2[k]? = some (-1) → u = -1
  at3 : ∀ (k : Nat) (u : Int), a.at3[k]? = some u → b.at3[k]? = some (-1) → u = -1

/-- Steps after a custom one are custom too. -/
def StepsNoReset (ss : List Step) : Prop :=
  ss.Pairwise (fun a b => isSpec a.beam = true → isSpec b.beam = true)

theorem receivedSteps_id (ss : List Step) : ∀ prev, StepsNoReset ss →
    (prev ≠ none → ∀ s ∈ ss, isSpec s.beam = true) → receivedSteps prev ss = ss := by
  induction ss with
  | nil => intro prev _ _; rfl
  | cons s ss ih =>
    intro prev hn hp
    rw [StepsNoReset, List.pairwise_cons] at hn
    cases hb : s.beam with
    | spec ds gs =>
      simp only [receivedSteps, hb]
      rw [ih _ hn.2]
      intro _ x hx
      exact hn.1 x hx (by rw [hb]; rfl)
    | simple =>
      cases prev with
      | none => simp only [receivedSteps, hb]; rw [ih none hn.2 (by simp)]
      | some p =>
        have := hp (by simp) s (by simp)
        rw [hb] at this; simp [isSpec] at this
    | highDr =>
      cases prev with
      | none => simp only [receivedSteps, hb]; rw [ih none hn.2 (by simp)]
      | some p =>
        have := hp (by simp) s (by simp)
        rw [hb] at this; simp [isSpec] at this

/-- The settings in force come from the observations so far. -/
structure From (prev : List Obs) (c : Carry) : Prop where
  dipole : (∀ a ∈ prev, a.dipole = none) → c.dipole = none
  highDr : (∀ a ∈ prev, (usesBeam a.mode && a.highDr) = false) → c.highDr = false
  gain : (∀ a ∈ prev, a.mode = .tbt ∨ a.gain = -1) → c.gain = -1
  fee : ∀ k : Nat, (∀ a ∈ prev, ∀ u : Int × Int, a.fee[k]? = some u → u.1 = -1) → ∀ u : Int × Int, c.fee[k]? = some u → u.1 = -1
  fee2 : ∀ k : Nat, (∀ a ∈ prev, ∀ u : Int × Int, a.fee[k]? = some u → u.2 = -1) → ∀ u : Int × Int, c.fee[k]? = some u → u.2 = -1
  flt : ∀ k : Nat, (∀ a ∈ prev, ∀ u : Int, a.flt[k]? = some u → u = -1) → ∀ u : Int, c.flt[k]? = some u → u = -1
  at1 : ∀ k : Nat, (∀ a ∈ prev, ∀ u : Int, a.at1[k]? = some u → u = -1) → ∀ u : Int, c.at1[k]? = some u → u = -1
  at2 : ∀ k : Nat, (∀ a ∈ prev, ∀ u : Int, a.at2[k]? = some u → u = -1) → ∀ u : Int, c.at2[k]? = some u → u = -1
  at3 : ∀ k : Nat, (∀ a ∈ prev, ∀ u : Int, a.at3[k]? = some u → u = -1) → ∀ u : Int, c.at3[k]? = some u → u = -1

theorem merge_get? (p l : List Int) (k : Nat) (u : Int) (h : (merge p l)[k]? = some u) :
    ∃ x y, p[k]? = some x ∧ l[k]? = some y ∧ u = orElse x y := by
  unfold merge at h
  rw [List.getElem?_zipWith_eq_some] at h
  obtain ⟨x, y, h1, h2, h3⟩ := h
  exact ⟨x, y, h1, h2, h3.symm⟩

theorem merge_id (p l : List Int) (hl : p.length = l.length)
    (h : ∀ (k : Nat) (u : Int), p[k]? = some u → l[k]? = some (-1) → u = -1) : merge p l = l := by
  apply List.ext_getElem?
  intro k
  unfold merge
  rw [List.getElem?_zipWith]
  cases hy : l[k]? with
  | none =>
    have : p[k]? = none := by
      rw [List.getElem?_eq_none_iff] at hy ⊢; omega
    simp [this]
  | some y =>
    have hk : k < p.length := by
      have := (List.getElem?_eq_some_iff.mp hy).1; omega
    rw [List.getElem?_eq_getElem hk]
    simp only [Option.some.injEq]
    unfold orElse
    split
    · rename_i hy1
      subst hy1
      exact h k _ (List.getElem?_eq_getElem hk) hy
    · rfl

theorem mergeFee_id (p l : List (Int × Int)) (hl : p.length = l.length)
    (h : ∀ (k : Nat) (u v : Int × Int), p[k]? = some u → l[k]? = some v →
      (v.1 = -1 → u.1 = -1) ∧ (v.2 = -1 → u.2 = -1)) : mergeFee p l = l := by
  apply List.ext_getElem?
  intro k
  unfold mergeFee
  rw [List.getElem?_zipWith]
  cases hy : l[k]? with
  | none =>
    have : p[k]? = none := by
      rw [List.getElem?_eq_none_iff] at hy ⊢; omega
    simp [this]
  | some y =>
    have hk : k < p.length := by
      have := (List.getElem?_eq_some_iff.mp hy).1; omega
    have := h k _ y (List.getElem?_eq_getElem hk) hy
    rw [List.getElem?_eq_getElem hk]
    simp only [Option.some.injEq]
    unfold orElse2 orElse
    ext
    · simp only
      split
      · rename_i h1; rw [this.1 h1, h1]
      · rfl
    · simp only
      split
      · rename_i h1; rw [this.2 h1, h1]
      · rfl

theorem from_next (prev : List Obs) (c : Carry) (o : Obs) (h : From prev c) : From (prev ++ [o]) (c.next o) := by
  have hin : ∀ {P : Obs → Prop}, (∀ a ∈ prev ++ [o], P a) → (∀ a ∈ prev, P a) ∧ P o :=
    fun h => ⟨fun a ha => h a (by simp [ha]), h o (by simp)⟩
  constructor
  · intro hp
    obtain ⟨h1, h2⟩ := hin hp
    simp [Carry.next, h.dipole h1, h2]
  · intro hp
    obtain ⟨h1, h2⟩ := hin hp
    simp [Carry.next, h.highDr h1, h2]
  · intro hp
    obtain ⟨h1, h2⟩ := hin hp
    have := h.gain h1
    simp only [Carry.next, orElse, this]
    split
    · rfl
    · rename_i hm
      rcases h2 with h2 | h2
      · exact absurd h2 hm
      · simp [h2]
  · intro k hp u hu
    obtain ⟨h1, h2⟩ := hin hp
    simp only [Carry.next, mergeFee] at hu
    rw [List.getElem?_zipWith_eq_some] at hu
    obtain ⟨x, y, hx, hy, hxy⟩ := hu
    rw [← hxy]
    simp [orElse2, orElse, h2 y hy, h.fee k h1 x hx]
  · intro k hp u hu
    obtain ⟨h1, h2⟩ := hin hp
    simp only [Carry.next, mergeFee] at hu
    rw [List.getElem?_zipWith_eq_some] at hu
    obtain ⟨x, y, hx, hy, hxy⟩ := hu
    rw [← hxy]
    simp [orElse2, orElse, h2 y hy, h.fee2 k h1 x hx]
  · intro k hp u hu
    obtain ⟨h1, h2⟩ := hin hp
    obtain ⟨x, y, hx, hy, hxy⟩ := merge_get? _ _ _ _ hu
    rw [hxy, h2 y hy, h.flt k h1 x hx]; rfl
  · intro k hp u hu
    obtain ⟨h1, h2⟩ := hin hp
    obtain ⟨x, y, hx, hy, hxy⟩ := merge_get? _ _ _ _ hu
    rw [hxy, h2 y hy, h.at1 k h1 x hx]; rfl
  · intro k hp u hu
    obtain ⟨h1, h2⟩ := hin hp
    obtain ⟨x, y, hx, hy, hxy⟩ := merge_get? _ _ _ _ hu
    rw [hxy, h2 y hy, h.at2 k h1 x hx]; rfl
  · intro k hp u hu
    obtain ⟨h1, h2⟩ := hin hp
    obtain ⟨x, y, hx, hy, hxy⟩ := merge_get? _ _ _ _ hu
    rw [hxy, h2 y hy, h.at3 k h1 x hx]; rfl

theorem none_get? (k : Nat) (u : Int) (h : (List.replicate nstd (-1 : Int))[k]? = some u) : u = -1 := by
  rw [List.getElem?_replicate] at h
  split at h
  · injection h with h; exact h.symm
  · simp at h

theorem from_none : From [] Carry.none := by
  refine ⟨fun _ => rfl, fun _ => rfl, fun _ => rfl, ?_, ?_, ?_, ?_, ?_, ?_⟩
  · intro k _ u hu
    simp only [Carry.none] at hu
    rw [List.getElem?_replicate] at hu
    split at hu
    · injection hu with hu; rw [← hu]
    · simp at hu
  · intro k _ u hu
    simp only [Carry.none] at hu
    rw [List.getElem?_replicate] at hu
    split at hu
    · injection hu with hu; rw [← hu]
    · simp at hu
  · intro k _ u hu; exact none_get? k u hu
  · intro k _ u hu; exact none_get? k u hu
  · intro k _ u hu; exact none_get? k u hu
  · intro k _ u hu; exact none_get? k u hu

/-- Lengths of the settings in force. -/
structure CLen (c : Carry) : Prop where
  fee : c.fee.length = nstd
  flt : c.flt.length = nstd
  at1 : c.at1.length = nstd
  at2 : c.at2.length = nstd
  at3 : c.at3.length = nstd

theorem received_id (prev : List Obs) (c : Carry) (o : Obs) (hf : From prev c) (hc : CLen c) (ho : Proper o)
    (hn : ∀ a ∈ prev, NoReset a o) (hs : StepsNoReset o.steps)
    (hd : o.steps.any (fun s => isSpec s.beam) = true → o.dipole = none) : received c o = o := by
  have e1 : (c.next o).dipole = o.dipole := by
    simp only [Carry.next]
    cases h : o.dipole with
    | none => simp [hf.dipole (fun a ha => (hn a ha).dipole h)]
    | some d => rfl
  have e2 : (if usesBeam o.mode then (c.next o).highDr else o.highDr) = o.highDr := by
    split
    · rename_i hu
      simp only [Carry.next, hu, Bool.true_and]
      cases h : o.highDr with
      | false => simp [hf.highDr (fun a ha => (hn a ha).highDr hu h)]
      | true => simp
    · rfl
  have e3 : (if usesGain o.mode then (c.next o).gain else o.gain) = o.gain := by
    split
    · rename_i hu
      have hm : ¬ o.mode = .tbt := by intro h; rw [h] at hu; simp [usesGain, usesBeam] at hu
      simp only [Carry.next, hm, if_false, orElse]
      split
      · rename_i hg
        rw [hf.gain (fun a ha => (hn a ha).gain hu hg), hg]
      · rfl
    · rfl
  have e4 : (c.next o).fee = o.fee := by
    apply mergeFee_id _ _ (by rw [hc.fee, ho.fee])
    intro k u v hu hv
    refine ⟨fun h1 => hf.fee k (fun a ha w hw => ((hn a ha).fee k w v hw hv).1 h1) u hu,
      fun h1 => hf.fee2 k (fun a ha w hw => ((hn a ha).fee k w v hw hv).2 h1) u hu⟩
  have e5 : (c.next o).flt = o.flt := merge_id _ _ (by rw [hc.flt, ho.flt])
    (fun k u hu hv => hf.flt k (fun a ha w hw => (hn a ha).flt k w hw hv) u hu)
  have e6 : (c.next o).at1 = o.at1 := merge_id _ _ (by rw [hc.at1, ho.at1])
    (fun k u hu hv => hf.at1 k (fun a ha w hw => (hn a ha).at1 k w hw hv) u hu)
  have e7 : (c.next o).at2 = o.at2 := merge_id _ _ (by rw [hc.at2, ho.at2])
    (fun k u hu hv => hf.at2 k (fun a ha w hw => (hn a ha).at2 k w hw hv) u hu)
  have e8 : (c.next o).at3 = o.at3 := merge_id _ _ (by rw [hc.at3, ho.at3])
    (fun k u hu hv => hf.at3 k (fun a ha w hw => (hn a ha).at3 k w hw hv) u hu)
  have e9 : receivedSteps none o.steps = o.steps := receivedSteps_id _ none hs (by simp)
  unfold received
  simp only [e1, e2, e3, e4, e5, e6, e7, e8, e9]
  cases h : o.steps.any (fun s => isSpec s.beam) with
  | false => rfl
  | true => simp [← hd h]

/-- Missing from the full property: sessions in which an observation relies on a default that an
earlier one has changed (`C31_leak`, `C31_step_leak`), FEE settings for one polarisation of all antennas
(`C31_fee_lost`) and right ascensions that round to 24 h (`C31_ra_rounds`).  Every other session, with
any number of observations of all modes, comes back as it was. -/
theorem C31_roundtrip_partial (obs : List Obs) (h : ∀ o ∈ obs, Proper o)
    (hs : ∀ o ∈ obs, StepsNoReset o.steps ∧ (o.steps.any (fun s => isSpec s.beam) = true → o.dipole = none))
    (hn : obs.Pairwise NoReset) : parse (render obs) = some obs := by
  rw [C31_exact obs h]
  congr 1
  have main : ∀ (l prev : List Obs) (c : Carry), From prev c → CLen c → (∀ o ∈ l, Proper o) →
      (∀ o ∈ l, StepsNoReset o.steps ∧ (o.steps.any (fun s => isSpec s.beam) = true → o.dipole = none)) →
      (∀ a ∈ prev, ∀ b ∈ l, NoReset a b) → l.Pairwise NoReset → receivedAll c l = l := by
    intro l
    induction l with
    | nil => intros; rfl
    | cons o l ih =>
      intro prev c hf hc ho hst hp hpw
      rw [List.pairwise_cons] at hpw
      have hoo := ho o (by simp)
      simp only [receivedAll]
      rw [received_id prev c o hf hc hoo (fun a ha => hp a ha o (by simp)) (hst o (by simp)).1
        (hst o (by simp)).2]
      rw [ih (prev ++ [o]) (c.next o) (from_next prev c o hf) ?_ (fun x hx => ho x (by simp [hx]))
        (fun x hx => hst x (by simp [hx])) ?_ hpw.2]
      · exact ⟨by simp [Carry.next, mergeFee, hc.fee, hoo.fee], by simp [Carry.next, merge, hc.flt, hoo.flt],
          by simp [Carry.next, merge, hc.at1, hoo.at1], by simp [Carry.next, merge, hc.at2, hoo.at2],
          by simp [Carry.next, merge, hc.at3, hoo.at3]⟩
      · intro a ha b hb
        rcases List.mem_append.mp ha with ha | ha
        · exact hp a ha b (by simp [hb])
        · rw [List.mem_singleton] at ha
          rw [ha]
          exact hpw.1 b hb
  refine main obs [] Carry.none from_none ?_ h hs (by simp) hn
  constructor <;> simp only [Carry.none, List.length_replicate]

/-- A session with one observation always comes back as it was. -/
theorem C31_single (o : Obs) (h : Proper o) (hs : StepsNoReset o.steps)
    (hd : o.steps.any (fun s => isSpec s.beam) = true → o.dipole = none) :
    parse (render [o]) = some [o] :=
  C31_roundtrip_partial [o] (by simpa using h) (fun x hx => by rw [List.mem_singleton] at hx; subst hx; exact ⟨hs, hd⟩) (by simp)

/-- Number and order of the observations, and every other attribute, always come back. -/
theorem C31_own_attributes (obs : List Obs) (h : ∀ o ∈ obs, Proper o) : ∃ out,
    parse (render obs) = some out ∧ out.length = obs.length ∧
    ∀ (i : Nat) (a b : Obs), out[i]? = some a → obs[i]? = some b →
      (a.mode, a.name, a.target, a.comments, a.mjd, a.mpm, a.dur) =
        (b.mode, b.name, b.target, b.comments, b.mjd, b.mpm, b.dur) ∧
      (a.ra, a.dec, a.freq1, a.freq2, a.filter, a.isRadec, a.samples, a.steps.length) =
        (b.ra, b.dec, b.freq1, b.freq2, b.filter, b.isRadec, b.samples, b.steps.length) := by
  refine ⟨_, C31_exact obs h, ?_⟩
  have hlen : ∀ (l : List Step) prev, (receivedSteps prev l).length = l.length := by
    intro l prev
    have := congrArg List.length (receivedSteps_dur l prev)
    simpa using this
  have main : ∀ (l : List Obs) (c : Carry), (receivedAll c l).length = l.length ∧
      ∀ (i : Nat) (a b : Obs), (receivedAll c l)[i]? = some a → l[i]? = some b →
      (a.mode, a.name, a.target, a.comments, a.mjd, a.mpm, a.dur) =
        (b.mode, b.name, b.target, b.comments, b.mjd, b.mpm, b.dur) ∧
      (a.ra, a.dec, a.freq1, a.freq2, a.filter, a.isRadec, a.samples, a.steps.length) =
        (b.ra, b.dec, b.freq1, b.freq2, b.filter, b.isRadec, b.samples, b.steps.length) := by
    intro l
    induction l with
    | nil => intro c; simp [receivedAll]
    | cons o l ih =>
      intro c
      obtain ⟨h1, h2⟩ := ih (c.next o)
      refine ⟨by simp [receivedAll, h1], ?_⟩
      intro i a b ha hb
      cases i with
      | zero =>
        simp only [receivedAll, List.getElem?_cons_zero, Option.some.injEq] at ha hb
        subst ha hb
        simp [received, hlen]
      | succ i =>
        simp only [receivedAll, List.getElem?_cons_succ] at ha hb
        exact h2 i a b ha hb
  exact main obs Carry.none

/-! ### where the property fails -/

/-- A tracking observation of the sun with everything at its default. -/
def plain : Obs :=
  ⟨.sol, "a", "Sun", "c", 60000, 0, 1000, none, 0, 0, false, 100, 200, 7, true, [],
    List.replicate nstd (-1, -1), List.replicate nstd (-1), List.replicate nstd (-1),
    List.replicate nstd (-1), List.replicate nstd (-1), 0, -1⟩

theorem plain_fee_ok : FeeOk plain.fee := by
  intro _
  exact ⟨fun _ => rfl, fun _ => rfl⟩

theorem plain_proper : Proper plain :=
  ⟨by decide, by simp only [plain, List.length_replicate], by simp only [plain, List.length_replicate],
    by simp only [plain, List.length_replicate], by simp only [plain, List.length_replicate],
    by simp only [plain, List.length_replicate], plain_fee_ok, ⟨rfl, rfl, rfl, rfl, rfl⟩⟩

theorem merge_none_none : merge (List.replicate nstd (-1)) (List.replicate nstd (-1)) = List.replicate nstd (-1) :=
  merge_id _ _ rfl (fun k u hu _ => none_get? k u hu)

/-- A high dynamic range observation with a DRX gain followed by a default one: the second one comes
back with the high dynamic range beam and the gain of the first. -/
theorem C31_leak (g : Int) (hg : g ≠ -1) :
    ∃ x y, parse (render [{ plain with highDr := true, gain := g }, plain]) = some [x, y] ∧
      x.highDr = true ∧ x.gain = g ∧ y.highDr = true ∧ y.gain = g ∧ plain.highDr = false ∧ plain.gain = -1 := by
  refine ⟨_, _, C31_exact _ ?_, ?_⟩
  · intro o ho
    rcases List.mem_cons.mp ho with h | h
    · subst h
      have := plain_proper
      exact ⟨this.comments, this.fee, this.flt, this.at1, this.at2, this.at3, this.feeOk, ⟨rfl, rfl, rfl, rfl, rfl⟩⟩
    · rw [List.mem_singleton] at h
      subst h; exact plain_proper
  · simp [received, Carry.next, Carry.none, usesBeam, usesGain, plain, orElse, hg]

/-- Any ASP setting of an observation that a later one leaves at its default is received by it. -/
theorem C31_leak_asp (a b : Obs) (ha : Proper a) (hb : Proper b) (k : Nat) (u : Int)
    (h1 : a.flt[k]? = some u) (h2 : b.flt[k]? = some (-1)) :
    ∃ x y, parse (render [a, b]) = some [x, y] ∧ y.flt[k]? = some u := by
  refine ⟨_, _, C31_exact _ ?_, ?_⟩
  · intro o ho
    rcases List.mem_cons.mp ho with h | h
    · subst h; exact ha
    · rw [List.mem_singleton] at h
      subst h; exact hb
  · have hk : k < nstd := by
      have := (List.getElem?_eq_some_iff.mp h1).1
      rw [ha.flt] at this; exact this
    simp only [received, Carry.next, merge]
    rw [List.getElem?_zipWith, List.getElem?_zipWith, h1, h2]
    simp only [Carry.none]
    rw [List.getElem?_replicate, if_pos hk]
    simp only [orElse, if_true]
    split
    · rename_i h; rw [h]
    · rfl

/-- A step after one with custom delays and gains is read as a custom one with the same values. -/
theorem C31_step_leak (o : Obs) (h : Proper o) (ds : List Int) (gs : List Gain) (p s : Step)
    (ho : o.steps = [p, s]) (hp : p.beam = .spec ds gs) (hs : s.beam = .simple) :
    ∃ x, parse (render [o]) = some [x] ∧ x.steps = [p, { s with beam := .spec ds gs }] := by
  refine ⟨_, C31_exact _ (by simpa using h), ?_⟩
  simp [received, ho, receivedSteps, hp, hs]

/-- The FEE power of one polarisation of all antennas is not written at all. -/
theorem C31_fee_lost (v : Int) : feeLines (List.replicate nstd (v, -1)) = [] := by
  have hall : ∀ n, (List.replicate n (v, (-1 : Int))).all (fun j => j == (v, (-1 : Int))) = true := by
    intro n
    rw [List.all_eq_true]
    intro x hx
    rw [List.eq_of_mem_replicate hx]
    exact beq_self_eq_true _
  have hh : (List.replicate nstd (v, (-1 : Int))).headD (-1, -1) = (v, -1) := rfl
  unfold feeLines
  rw [hh, if_pos (hall nstd), if_neg (by simp)]

/-- A valid right ascension just below 24 h is written as 24.000000000 h, which the parser refuses. -/
theorem C31_ra_rounds : raDecOk (24 - 1 / 10000000000) 0 = true ∧
    raDecOk (of9 (to9 (24 - 1 / 10000000000))) 0 = false := by decide +kernel

/-- The written angle is within half of 1e-9 of the true one. -/
theorem C31_angle (x : Rat) : of9 (to9 x) - x ≤ 1 / 2000000000 ∧ x - of9 (to9 x) ≤ 1 / 2000000000 := by
  have := round_half (x * 1000000000)
  unfold of9 to9
  grind

/-- Hypotheses of the round trip: two observations, the second with more settings. -/
example : (∀ o ∈ [plain, { plain with highDr := true, gain := 3 }], Proper o) ∧
    [plain, { plain with highDr := true, gain := 3 }].Pairwise NoReset ∧
    (∀ o ∈ [plain, { plain with highDr := true, gain := 3 }], StepsNoReset o.steps ∧
      (o.steps.any (fun s => isSpec s.beam) = true → o.dipole = none)) := by
  refine ⟨?_, ?_, ?_⟩
  · intro o ho
    rcases List.mem_cons.mp ho with h | h
    · subst h; exact plain_proper
    · rw [List.mem_singleton] at h
      subst h
      have := plain_proper
      exact ⟨this.comments, this.fee, this.flt, this.at1, this.at2, this.at3, this.feeOk, ⟨rfl, rfl, rfl, rfl, rfl⟩⟩
  · rw [List.pairwise_cons]
    refine ⟨?_, by simp⟩
    intro b hb
    rw [List.mem_singleton] at hb
    subst hb
    refine ⟨fun _ => rfl, fun _ h => by simp at h, fun _ h => by simp at h, ?_, ?_, ?_, ?_, ?_⟩
    · intro k u v hu hv
      simp only [plain] at hu hv
      rw [hu] at hv
      injection hv with hv
      subst hv
      exact ⟨id, id⟩
    · intro k u hu _; exact none_get? k u hu
    · intro k u hu _; exact none_get? k u hu
    · intro k u hu _; exact none_get? k u hu
    · intro k u hu _; exact none_get? k u hu
  · intro o ho
    rcases List.mem_cons.mp ho with h | h
    · subst h; simp [plain, StepsNoReset]
    · rw [List.mem_singleton] at h
      subst h; simp [plain, StepsNoReset]

end Verif.SdfParse
