import Verif.Spec.ObsFile
/-!
# C45 observation files, C64 session files and command scripts, C65 structure layout
-/
namespace Verif.ObsFile
open CStruct Spec

theorem readinto_length (m r : Bytes) : (readinto m r).1.length = m.length := by
  simp [readinto]; omega

theorem readinto_full (m r : Bytes) (h : m.length ≤ r.length) :
    r = (readinto m r).1 ++ (readinto m r).2 := by
  simp [readinto, List.drop_of_length_le h]

theorem readinto_append (m a b : Bytes) (h : a.length = m.length) : readinto m (a ++ b) = (a, b) := by
  simp only [readinto, Prod.mk.injEq]
  refine ⟨?_, ?_⟩
  · rw [List.take_left' h, List.drop_of_length_le (by simp; omega), List.append_nil]
  · exact List.drop_left' h

theorem readinto_rest (m r : Bytes) (h : 0 < (readinto m r).2.length) : m.length ≤ r.length := by
  simp [readinto] at h; omega

theorem size_osf : (fresh osf).length = 152 := by simp [fresh]; decide +kernel
theorem size_osfs : (fresh osfs).length = 24 := by simp [fresh]; decide +kernel
theorem size_beam : (fresh beamS).length = 3072 := by simp [fresh]; decide +kernel
theorem size_osf2 : (fresh osf2).length = 3084 := by simp [fresh]; decide +kernel
theorem stpN_eq (h : Bytes) : stpN h = at' h 140 4 := by
  have : offsetOf osf "OBS_STP_N" = 140 := by decide +kernel
  simp only [stpN, this, getU, at', slice]
theorem stpB_eq (h : Bytes) : stpB h = at' h 20 2 := by
  have : offsetOf osfs "OBS_STP_B" = 20 := by decide +kernel
  simp only [stpB, this, getU, at', slice]
theorem footer_eq (h : Bytes) : footerWord h = at' h 3080 4 := by
  have : offsetOf osf2 "alignment" = 3080 := by decide +kernel
  simp only [footerWord, this, getU, at', slice]

theorem fresh_block : fresh blockS = [0, 0, 0, 0] := by decide +kernel

theorem word_high (l : Bytes) (h : l.length = 4) (h0 : l.getD 3 0 = 0) : leDec l < 2 ^ 24 := by
  match l, h with
  | [a, b, c, d], _ =>
    simp at h0
    subst h0
    have := a.toNat_lt; have := b.toNat_lt; have := c.toNat_lt
    simp [leDec]; omega

/-- A word that can only come from the file has been read in full. -/
theorem word_read (m r : Bytes) (off : Nat) (hm : m.length = off + 4) (hz : m.getD (off + 3) 0 = 0)
    (h : 2 ^ 24 ≤ leDec (((readinto m r).1.drop off).take 4)) : m.length ≤ r.length := by
  refine Nat.le_of_not_lt fun hlt => ?_
  have hl := readinto_length m r
  refine absurd h (Nat.not_le.2 (word_high _ ?_ ?_))
  · simp [hl]; omega
  · simp only [List.getD_eq_getElem?_getD, readinto] at *
    rw [List.getElem?_take, if_pos (by omega), List.getElem?_drop,
      List.getElem?_append_right (by simp; omega), List.getElem?_drop]
    rw [← hz]
    congr 2
    simp; omega

theorem dec_block (l : Bytes) (h : l.length = 4) (hv : leDec l = 2 ^ 32 - 2) : l = [254, 255, 255, 255] := by
  match l, h with
  | [a, b, c, d], _ =>
    have := a.toNat_lt; have := b.toNat_lt; have := c.toNat_lt; have := d.toNat_lt
    simp only [leDec] at hv
    have ha : a.toNat = 254 := by omega
    have hb : b.toNat = 255 := by omega
    have hc : c.toNat = 255 := by omega
    have hd : d.toNat = 255 := by omega
    simp only [List.cons.injEq, and_true]
    exact ⟨UInt8.toNat_inj.1 ha, UInt8.toNat_inj.1 hb, UInt8.toNat_inj.1 hc, UInt8.toNat_inj.1 hd⟩

/-- What is required of a step. -/
def StepWf (s : Step) : Prop :=
  s.step.length = 24 ∧ (s.beam.isSome ↔ at' s.step 20 2 = 3) ∧ ∀ b, s.beam = some b → b.length = 3072

/-- A successful loop has read exactly the bytes of its steps. -/
theorem stepLoop_sound (n : Nat) : ∀ (bstep bbeam rest : Bytes) (l : List Step) (rest' : Bytes),
    bstep.length = 24 → bbeam.length = 3072 → stepLoop n bstep bbeam rest = .ok (l, rest') →
    rest = l.flatMap encStep ++ rest' ∧ l.length = n ∧ ∀ s ∈ l, StepWf s := by
  induction n with
  | zero =>
    intro bstep bbeam rest l rest' _ _ h
    simp only [stepLoop, Except.ok.injEq, Prod.mk.injEq] at h
    obtain ⟨rfl, rfl⟩ := h
    simp
  | succ n ih =>
    intro bstep bbeam rest l rest' h1 h2 h
    simp only [stepLoop, fresh_block] at h
    have l1 := readinto_length bstep rest
    have key : ∀ r2 : Bytes, getU (readinto [0, 0, 0, 0] r2).1 0 4 = 2 ^ 32 - 2 →
        r2 = [254, 255, 255, 255] ++ (readinto [0, 0, 0, 0] r2).2 ∧ 4 ≤ r2.length := by
      intro r2 hw
      have hw : leDec (((readinto [0, 0, 0, 0] r2).1.drop 0).take 4) = 2 ^ 32 - 2 := hw
      have hblk := word_read [0, 0, 0, 0] r2 0 rfl rfl (by rw [hw]; decide)
      have l3 := readinto_length [0, 0, 0, 0] r2
      have hd := dec_block (readinto [0, 0, 0, 0] r2).1 l3 (by
        rw [← hw, List.drop_zero, List.take_of_length_le (by rw [l3]; decide)])
      refine ⟨?_, hblk⟩
      rw [← hd]; exact readinto_full _ _ hblk
    by_cases hb : stpB (readinto bstep rest).1 = 3
    · simp only [hb, if_true] at h
      split at h
      · cases h
      · next hw =>
        obtain ⟨e3, hlen⟩ := key _ (Decidable.not_not.1 hw)
        split at h
        · cases h
        · next l1' rest1 hrec =>
          simp only [Except.ok.injEq, Prod.mk.injEq] at h
          obtain ⟨rfl, rfl⟩ := h
          have hfull2 := readinto_full bbeam (readinto bstep rest).2 (readinto_rest _ _ (by omega))
          have l2 := readinto_length bbeam (readinto bstep rest).2
          have hfull1 := readinto_full bstep rest (readinto_rest _ _ (by
            rw [hfull2]; simp; omega))
          obtain ⟨e, hl, hs⟩ := ih _ _ _ _ _ (by omega) (by omega) hrec
          refine ⟨?_, by simp [hl], ?_⟩
          · conv => lhs; rw [hfull1, hfull2, e3, e]
            simp [encStep]
          · intro s hs'
            rcases List.mem_cons.1 hs' with rfl | hs'
            · refine ⟨l1.trans h1, by simp [← stpB_eq, hb], ?_⟩
              intro b hb'
              simp at hb'; subst hb'; omega
            · exact hs s hs'
    · simp only [hb, if_false] at h
      split at h
      · cases h
      · next hw =>
        obtain ⟨e3, hlen⟩ := key _ (Decidable.not_not.1 hw)
        split at h
        · cases h
        · next l1' rest1 hrec =>
          simp only [Except.ok.injEq, Prod.mk.injEq] at h
          obtain ⟨rfl, rfl⟩ := h
          have hfull1 := readinto_full bstep rest (readinto_rest _ _ (by omega))
          obtain ⟨e, hl, hs⟩ := ih _ _ _ _ _ (by omega) (by omega) hrec
          refine ⟨?_, by simp [hl], ?_⟩
          · conv => lhs; rw [hfull1, e3, e]
            simp [encStep]
          · intro s hs'
            rcases List.mem_cons.1 hs' with rfl | hs'
            · refine ⟨l1.trans h1, by simp [← stpB_eq, hb], ?_⟩
              intro b hb'
              simp at hb'
            · exact hs s hs'

/-- The steps of a well-formed file are read back. -/
theorem stepLoop_enc (l : List Step) : ∀ (bstep bbeam rest : Bytes), bstep.length = 24 → bbeam.length = 3072 →
    (∀ s ∈ l, StepWf s) → stepLoop l.length bstep bbeam (l.flatMap encStep ++ rest) = .ok (l, rest) := by
  induction l with
  | nil => intro bstep bbeam rest _ _ _; rfl
  | cons s l ih =>
    intro bstep bbeam rest h1 h2 hwf
    obtain ⟨w1, w2, w3⟩ := hwf s (List.mem_cons_self ..)
    have ih := fun a b c d e => ih a b c d e (fun x hx => hwf x (List.mem_cons_of_mem _ hx))
    simp only [List.length_cons, stepLoop, List.flatMap_cons, encStep, List.append_assoc]
    rw [readinto_append _ _ _ (by omega), fresh_block]
    obtain ⟨st, bm⟩ := s
    cases bm with
    | none =>
      have hb : stpB st ≠ 3 := by
        rw [stpB_eq]; intro hc; simpa using w2.2 hc
      simp only [hb, if_false, Option.getD_none, List.nil_append]
      rw [show ([254, 255, 255, 255] : Bytes) ++ (List.flatMap encStep l ++ rest) =
        [254, 255, 255, 255] ++ (List.flatMap encStep l ++ rest) from rfl, readinto_append _ _ _ (by rfl)]
      rw [if_neg (by simp only; decide)]
      rw [ih _ _ _ (by simpa using w1) h2]
    | some b =>
      have hb : stpB st = 3 := by rw [stpB_eq]; exact w2.1 rfl
      have hlb := w3 b rfl
      simp only [hb, if_true, Option.getD_some]
      rw [readinto_append _ _ _ (by omega), readinto_append _ _ _ (by rfl)]
      rw [if_neg (by simp only; decide)]
      rw [ih _ _ _ (by simpa using w1) hlb]

/-- C45: a file is accepted only if it starts with all the bytes of a well-formed observation, which is what is
returned. -/
theorem C45_accepted_is_complete (file : Bytes) (o : Obs) (h : readObs file = .ok o) :
    Wf o ∧ ∃ extra, file = enc o ++ extra := by
  simp only [readObs] at h
  split at h
  · cases h
  · next hn =>
    split at h
    · cases h
    · next steps rest hloop =>
      split at h
      · cases h
      · next hw =>
        simp only [Except.ok.injEq] at h
        subst h
        have hw : footerWord (readinto (fresh osf2) rest).1 = 2 ^ 32 - 1 := by simpa using hw
        rw [footer_eq] at hw
        have hz : (fresh osf2).getD (3080 + 3) 0 = 0 := by
          have : 3083 < sizeof osf2 := by decide +kernel
          simp [fresh, List.getD_eq_getElem?_getD, this]
        have hlen := word_read (fresh osf2) rest 3080 size_osf2 hz (by
          simp only [at'] at hw; rw [hw]; decide)
        have hf := readinto_full _ _ hlen
        rw [size_osf2] at hlen
        obtain ⟨e, hl, hs⟩ := stepLoop_sound _ _ _ _ _ _ size_osfs size_beam hloop
        have hh := readinto_full (fresh osf) file (readinto_rest _ _ (by rw [e]; simp; omega))
        have ll := readinto_length (fresh osf) file
        have ll2 := readinto_length (fresh osf2) rest
        rw [size_osf] at ll
        rw [size_osf2] at ll2
        refine ⟨⟨ll, ll2, ?_, ?_, ?_, hs⟩, (readinto (fresh osf2) rest).2, ?_⟩
        · rw [← stpN_eq]; exact hl.symm
        · simp only [hl]; omega
        · simpa using hw
        · conv => lhs; rw [hh, e, hf]
          simp [enc]

/-- C45: a well-formed file is read back (also with further bytes behind it). -/
theorem C45_complete_is_accepted (o : Obs) (hwf : Wf o) (extra : Bytes) : readObs (enc o ++ extra) = .ok o := by
  obtain ⟨w1, w2, w3, w4, w5, w6⟩ := hwf
  simp only [readObs, enc, List.append_assoc]
  rw [readinto_append _ _ _ (by rw [w1, size_osf])]
  simp only [stpN_eq, w3, show ¬ 1024 < o.steps.length by omega, if_false]
  rw [stepLoop_enc _ _ _ _ size_osfs size_beam w6]
  simp only
  rw [readinto_append _ _ _ (by rw [w2, size_osf2])]
  simp [footer_eq, w5]

/-- C45: a well-formed file cut short at any byte is rejected. -/
theorem C45_truncated (o : Obs) (hwf : Wf o) (k : Nat) (hk : k < (enc o).length) :
    ∃ e, readObs ((enc o).take k) = .error e := by
  rcases h : readObs ((enc o).take k) with e | o'
  · exact ⟨e, rfl⟩
  · exfalso
    obtain ⟨hwf', extra, he⟩ := C45_accepted_is_complete _ _ h
    have hall : enc o = enc o' ++ (extra ++ (enc o).drop k) := by
      conv => lhs; rw [← List.take_append_drop k (enc o), he]
      simp
    have h1 := C45_complete_is_accepted o hwf []
    rw [List.append_nil, hall, C45_complete_is_accepted o' hwf'] at h1
    have : o' = o := by simpa using h1
    subst this
    have := congrArg List.length he
    simp only [List.length_take, List.length_append] at this
    omega

/-- C45: an out-of-range number of steps is rejected. -/
theorem C45_too_many (file : Bytes) (h : 152 ≤ file.length) (hn : 1024 < at' file 140 4) :
    readObs file = .error .tooManySteps := by
  have : stpN (readinto (fresh osf) file).1 = at' file 140 4 := by
    rw [stpN_eq]
    simp only [at', readinto, size_osf, List.drop_of_length_le (show (fresh osf).length ≤ file.length by rw [size_osf]; exact h),
      List.append_nil, List.drop_take, List.take_take]
    rfl
  simp only [readObs, this, hn, if_true]

/-- A concrete well-formed observation of one step without a beam. -/
def sample : Obs :=
  { header := List.replicate 140 7 ++ [1, 0, 0, 0] ++ List.replicate 8 0,
    steps := [⟨List.replicate 20 5 ++ [1, 0, 0, 0], none⟩],
    footer := List.replicate 3080 9 ++ [255, 255, 255, 255] }

example : Wf sample := by
  refine ⟨by decide +kernel, by decide +kernel, by decide +kernel, by decide, by decide +kernel, ?_⟩
  intro s hs
  rw [sample, List.mem_singleton] at hs
  subst hs
  refine ⟨by decide +kernel, by decide +kernel, fun b hb => by simp at hb⟩

/-! ## C64 -/

theorem getS_eq (b : Bytes) (off w : Nat) : getS b off w = sat b off w := rfl

theorem size_action : (fresh actionS).length = 32 := by simp [fresh]; decide +kernel
theorem fresh_action : fresh actionS = List.replicate 32 0 := by decide +kernel
theorem size_ssf : (fresh ssf).length = 128 := by simp [fresh]; decide +kernel
theorem fresh_ssf : fresh ssf = List.replicate 128 0 := by decide +kernel

/-- C64: a session file is read as it is... -/
theorem C64_session_read (f extra : Bytes) (h : f.length = 128) : readSes (f ++ extra) = f := by
  rw [readSes, readinto_append _ _ _ (by rw [h, size_ssf])]

/-- C64: ...and one cut short anywhere is accepted, with zeros for what is missing. -/
theorem C64_session_cut (f : Bytes) (h : f.length = 128) (k : Nat) (hk : k ≤ 128) :
    readSes (f.take k) = f.take k ++ List.replicate (128 - k) 0 := by
  simp only [readSes, readinto, fresh_ssf, List.take_take, List.drop_replicate, List.length_take,
    List.length_replicate, h]
  rw [Nat.min_eq_right hk, Nat.min_eq_left hk]

theorem action_zero (file : Bytes) (h : file = []) : getS (readinto (fresh actionS) file).1 0 8 = 0 := by
  subst h; decide +kernel

theorem cs_rest_lt (file : Bytes) (h : getS (readinto (fresh actionS) file).1 0 8 ≠ 0) (m : Bytes) :
    (readinto m (readinto (fresh actionS) file).2).2.length < file.length ∧
    (readinto (fresh actionS) file).2.length < file.length := by
  have : file ≠ [] := fun hc => h (action_zero _ hc)
  have : 0 < file.length := List.length_pos_iff.2 this
  simp only [readinto, List.length_drop, size_action]; omega

/-- More turns than bytes make no difference. -/
theorem csLoop_fuel (n : Nat) : ∀ (m : Nat) (file : Bytes), file.length < n → file.length < m →
    csLoop n file = csLoop m file := by
  induction n with
  | zero => intro m file h; omega
  | succ n ih =>
    intro m file h1 h2
    cases m with
    | zero => omega
    | succ m =>
      simp only [csLoop]
      by_cases h0 : getS (readinto (fresh actionS) file).1 0 8 = 0
      · simp only [h0, if_true]
      · have hl := cs_rest_lt file h0
        rw [if_neg h0, if_neg h0]
        by_cases hd : 0 < getS (readinto (fresh actionS) file).1 28 4
        · simp only [hd, if_true]
          rw [ih m _ (by have := (hl (List.replicate (getS (readinto (fresh actionS) file).1 28 4).toNat 0)).1; omega)
            (by have := (hl (List.replicate (getS (readinto (fresh actionS) file).1 28 4).toNat 0)).1; omega)]
        · simp only [hd, if_false]
          rw [ih m _ (by have := (hl []).2; omega) (by have := (hl []).2; omega)]

/-- One record in front of anything. -/
theorem readCs_cons (r : Rec) (hw : RecWf r) (rest : Bytes) :
    readCs (encRec r ++ rest) = match readCs rest with
      | .error e => .error e
      | .ok l => .ok (cmdOf r :: l) := by
  obtain ⟨w1, w2, w3, w4, w5, w6, w7, w8⟩ := hw
  simp only [readCs, encRec, List.append_assoc]
  generalize hR : csLoop (rest.length + 1) rest = R
  simp only [csLoop]
  rw [readinto_append _ _ _ (by rw [w1, size_action])]
  simp only [getS_eq, w2, if_false, w7, show ¬ (256 : Int) < r.data.length by omega, Int.toNat_natCast]
  have hsid : knownSid (sat r.act 20 4) = true := by simp [knownSid, w3]
  have hcid : knownCid (sat r.act 24 4) = true := by simp [knownCid, w6]
  by_cases hd : r.data = []
  · simp only [hd, List.length_nil, Int.natCast_zero, Int.lt_irrefl, if_false, List.nil_append, mkCmd, getS_eq,
      hsid, hcid, Bool.true_eq_false, w4, w5]
    rw [csLoop_fuel _ (rest.length + 1) _ (by simp [w1]) (by omega), hR]
    simp only [cmdOf, hd, w7, List.length_nil, if_true, Int.natCast_zero]
    cases R <;> rfl
  · have hp : (0 : Int) < r.data.length := by
      have := List.length_pos_iff.2 hd; omega
    simp only [hp, if_true]
    rw [readinto_append _ _ _ (by simp)]
    simp only [mkCmd, getS_eq, hsid, hcid, Bool.true_eq_false, w4, w5, if_false]
    rw [csLoop_fuel _ (rest.length + 1) _ (by simp; omega) (by omega), hR]
    simp only [cmdOf, hd, w7, cChars, if_false]
    cases R <;> rfl

/-- C64: the records before a point are read whatever follows. -/
theorem C64_records_then (l : List Rec) (hw : ∀ r ∈ l, RecWf r) (rest : Bytes) :
    readCs (l.flatMap encRec ++ rest) = match readCs rest with
      | .error e => .error e
      | .ok t => .ok (l.map cmdOf ++ t) := by
  induction l with
  | nil => simp only [List.flatMap_nil, List.nil_append, List.map_nil]; cases readCs rest <;> rfl
  | cons r l ih =>
    rw [List.flatMap_cons, List.append_assoc, readCs_cons r (hw r (List.mem_cons_self ..)),
      ih (fun x hx => hw x (List.mem_cons_of_mem _ hx))]
    cases readCs rest <;> simp

theorem readCs_nil : readCs [] = .ok [] := by
  have : getS (readinto (fresh actionS) []).1 0 8 = 0 := action_zero [] rfl
  simp only [readCs, csLoop, this, if_true]

/-- C64: a script is read back in full, whatever the number of its commands. -/
theorem C64_script_partial (l : List Rec) (hw : ∀ r ∈ l, RecWf r) :
    readCs (l.flatMap encRec) = .ok (l.map cmdOf) := by
  have := C64_records_then l hw []
  rw [readCs_nil] at this
  simpa using this

/-- C64: cut between two commands, it is accepted as the shorter script. -/
theorem C64_script_cut_between (l m : List Rec) (hl : ∀ r ∈ l, RecWf r) :
    readCs ((l.flatMap encRec ++ m.flatMap encRec).take (l.flatMap encRec).length) = .ok (l.map cmdOf) := by
  rw [List.take_left]; exact C64_script_partial l hl

theorem at'_append (a b : Bytes) (off w : Nat) (h : off + w ≤ a.length) : at' (a ++ b) off w = at' a off w := by
  simp only [at']
  rw [List.drop_append_of_le_length (by omega), List.take_append_of_le_length (by simp; omega)]

theorem sat_append (a b : Bytes) (off w : Nat) (h : off + w ≤ a.length) : sat (a ++ b) off w = sat a off w := by
  simp only [sat, at'_append a b off w h]

theorem at'_take (a : Bytes) (k off w : Nat) (h : off + w ≤ k) : at' (a.take k) off w = at' a off w := by
  simp only [at', List.drop_take, List.take_take]
  rw [Nat.min_eq_left (by omega)]

theorem sat_take (a : Bytes) (k off w : Nat) (h : off + w ≤ k) : sat (a.take k) off w = sat a off w := by
  simp only [sat, at'_take a k off w h]

/-- C64: cut after the subsystem of a command, the script ends with command 0 (`MCSSHT`, shutdown) for that
subsystem. -/
theorem C64_script_cut_inside (l : List Rec) (hl : ∀ r ∈ l, RecWf r) (r : Rec) (hr : RecWf r) :
    readCs (l.flatMap encRec ++ (encRec r).take 24) =
      .ok (l.map cmdOf ++ [{ cmdOf r with cid := 0, len := 0, data := none }]) := by
  rw [C64_records_then l hl]
  obtain ⟨w1, w2, w3, w4, w5, w6, w7, w8⟩ := hr
  have ht : (encRec r).take 24 = r.act.take 24 := by
    rw [encRec, List.take_append_of_le_length (by omega)]
  have hl24 : (r.act.take 24).length = 24 := by simp [w1]
  have hs : ∀ off w, off + w ≤ 24 → sat (r.act.take 24 ++ List.replicate 8 0) off w = sat r.act off w := by
    intro off w h
    rw [sat_append _ _ _ _ (by omega), sat_take _ _ _ _ h]
  have hz : ∀ off, 24 ≤ off → off + 4 ≤ 32 → sat (r.act.take 24 ++ List.replicate 8 0) off 4 = 0 := by
    intro off h1 h2
    have : at' (r.act.take 24 ++ List.replicate 8 0) off 4 = 0 := by
      simp only [at', List.drop_append, hl24, List.drop_of_length_le (show (r.act.take 24).length ≤ off by omega),
        List.nil_append, List.drop_replicate, List.take_replicate]
      rw [show min 4 (8 - (off - 24)) = 4 by omega]
      decide
    simp only [sat, this]; decide
  have hri : readinto (fresh actionS) (r.act.take 24) = (r.act.take 24 ++ List.replicate 8 0, []) := by
    simp only [readinto, fresh_action, List.take_take, hl24]
    simp [w1]
  have hsid : knownSid (sat r.act 20 4) = true := by simp [knownSid, w3]
  have : readCs ((encRec r).take 24) = .ok [{ cmdOf r with cid := 0, len := 0, data := none }] := by
    rw [ht, readCs, hl24, csLoop]
    simp only [hri, getS_eq, hs 0 8 (by omega), hz 28 (by omega) (by omega), w2, if_false, mkCmd, hs 8 8 (by omega),
      hs 16 4 (by omega), hs 20 4 (by omega), hz 24 (by omega) (by omega), hsid, w4, w5]
    simp [knownCid, cmdOf]
    have := csLoop_fuel 24 1 [] (by simp) (by simp)
    rw [this]
    have : csLoop 1 [] = .ok [] := readCs_nil
    rw [this]
  rw [this]

/-- C64: cut inside the data of a command, the script ends with that command with less data. -/
theorem C64_script_cut_data (l : List Rec) (hl : ∀ r ∈ l, RecWf r) (r : Rec) (hr : RecWf r) (j : Nat)
    (hj : j < r.data.length) :
    readCs (l.flatMap encRec ++ (encRec r).take (32 + j)) =
      .ok (l.map cmdOf ++ [{ cmdOf r with data := some ((r.data.take j).takeWhile (· ≠ 0)) }]) := by
  rw [C64_records_then l hl]
  obtain ⟨w1, w2, w3, w4, w5, w6, w7, w8⟩ := hr
  have ht : (encRec r).take (32 + j) = r.act ++ r.data.take j := by
    rw [encRec, List.take_append, w1, List.take_of_length_le (by omega)]
    congr 2; omega
  have hsid : knownSid (sat r.act 20 4) = true := by simp [knownSid, w3]
  have hcid : knownCid (sat r.act 24 4) = true := by simp [knownCid, w6]
  have hp : (0 : Int) < r.data.length := by omega
  have hdat : cChars (r.data.take j ++ List.replicate (r.data.length - j) 0) = (r.data.take j).takeWhile (· ≠ 0) := by
    rw [cChars, List.takeWhile_append]
    split
    · next h =>
      have : r.data.length - j = (r.data.length - j - 1) + 1 := by omega
      rw [this, List.replicate_succ]
      simp
      exact (List.takeWhile_prefix _).eq_of_length (by simpa using h) |>.symm
    · rfl
  have : readCs ((encRec r).take (32 + j)) =
      .ok [{ cmdOf r with data := some ((r.data.take j).takeWhile (· ≠ 0)) }] := by
    rw [ht, readCs, csLoop]
    rw [readinto_append _ _ _ (by rw [w1, size_action])]
    simp only [getS_eq, w2, if_false, w7, show ¬ (256 : Int) < r.data.length by omega, Int.toNat_natCast, hp, if_true]
    have hri : readinto (List.replicate r.data.length 0) (r.data.take j) =
        (r.data.take j ++ List.replicate (r.data.length - j) 0, []) := by
      simp only [readinto, List.length_replicate, List.take_take, List.length_take, List.drop_replicate]
      rw [Nat.min_eq_right (by omega), Nat.min_eq_left (by omega), List.drop_of_length_le (by simp; omega)]
    simp only [hri, mkCmd, getS_eq, hsid, hcid, Bool.true_eq_false, w4, w5, if_false, hdat]
    have := csLoop_fuel (r.act ++ r.data.take j).length 1 [] (by simp; omega) (by simp)
    rw [this]
    have : csLoop 1 [] = .ok [] := readCs_nil
    rw [this]
    simp only [cmdOf, w7]
  rw [this]

/-- C64: a length above 256 ends the script without an error. -/
theorem C64_script_bad_length (l : List Rec) (hl : ∀ r ∈ l, RecWf r) (act rest : Bytes) (ha : act.length = 32)
    (h : 256 < sat act 28 4) : readCs (l.flatMap encRec ++ (act ++ rest)) = .ok (l.map cmdOf) := by
  rw [C64_records_then l hl]
  have : readCs (act ++ rest) = .ok [] := by
    rw [readCs, csLoop, readinto_append _ _ _ (by rw [ha, size_action])]
    simp only [getS_eq, h, if_true, ite_self]
  rw [this]; simp

/-- C64: a record for another backend (DP or ADP), an unknown subsystem or an unknown command is an error, wherever
it stands. -/
theorem C64_script_refused (l : List Rec) (hl : ∀ r ∈ l, RecWf r) (act rest : Bytes) (ha : act.length = 32)
    (ht : sat act 0 8 ≠ 0) (hlen : sat act 28 4 ≤ 256)
    (h : sat act 20 4 = 13 ∨ sat act 20 4 = 19 ∨ ¬ (1 ≤ sat act 20 4 ∧ sat act 20 4 ≤ 20) ∨
      ¬ (0 ≤ sat act 24 4 ∧ sat act 24 4 ≤ 45)) :
    ∃ e, readCs (l.flatMap encRec ++ (act ++ rest)) = .error e := by
  rw [C64_records_then l hl]
  have : ∃ e, readCs (act ++ rest) = .error e := by
    rw [readCs, csLoop, readinto_append _ _ _ (by rw [ha, size_action])]
    simp only [getS_eq, ht, if_false, show ¬ 256 < sat act 28 4 by omega, mkCmd]
    by_cases h1 : knownSid (sat act 20 4) = false
    · simp only [h1, if_true]; exact ⟨_, rfl⟩
    by_cases h2 : knownCid (sat act 24 4) = false
    · simp only [h1, h2, if_true]; exact ⟨_, rfl⟩
    have h1' : 1 ≤ sat act 20 4 ∧ sat act 20 4 ≤ 20 := by simpa [knownSid] using h1
    have h2' : 0 ≤ sat act 24 4 ∧ sat act 24 4 ≤ 45 := by simpa [knownCid] using h2
    rcases h with h | h | h | h
    · simp only [h2, h, if_true]; exact ⟨_, rfl⟩
    · simp only [h2, h, if_true]; exact ⟨_, rfl⟩
    · exact absurd h1' h
    · exact absurd h2' h
  obtain ⟨e, he⟩ := this
  rw [he]; exact ⟨e, rfl⟩

/-- A well-formed record: data `01 00 02` for subsystem 20. -/
example : ∃ r : Rec, RecWf r ∧ r.data.length = 3 ∧ (cmdOf r).data = some [1] :=
  ⟨⟨[1] ++ List.replicate 19 0 ++ [20, 0, 0, 0, 17, 0, 0, 0, 3, 0, 0, 0], [1, 0, 2]⟩, by
    refine ⟨by decide, by decide +kernel, by decide +kernel, by decide +kernel, by decide +kernel, by decide +kernel,
      by decide +kernel, by decide⟩, rfl, by decide⟩

/-! ## C65 -/

theorem roundUp_spec (n a : Nat) (h : 0 < a) : n ≤ roundUp n a ∧ roundUp n a < n + a ∧ roundUp n a % a = 0 := by
  have h1 := Nat.div_add_mod (n + a - 1) a
  have h2 := Nat.mod_lt (n + a - 1) h
  have e : (n + a - 1) / a * a = a * ((n + a - 1) / a) := Nat.mul_comm _ _
  refine ⟨?_, ?_, ?_⟩
  · simp only [roundUp, e]; omega
  · simp only [roundUp, e]; omega
  · simp [roundUp]

theorem finish_ge (l : List Field) (hp : ∀ f ∈ l, 0 < f.size) (pos : Nat) : pos ≤ finish pos l := by
  induction l generalizing pos with
  | nil => exact Nat.le_refl _
  | cons f l ih =>
    have h1 := (roundUp_spec pos f.size (hp f (List.mem_cons_self ..))).1
    have h2 := ih (fun g hg => hp g (List.mem_cons_of_mem _ hg)) (roundUp pos f.size + f.size * f.count)
    simp only [finish]; omega

theorem offsets_bounds (l : List Field) (hp : ∀ f ∈ l, 0 < f.size) (pos : Nat) :
    ∀ x ∈ offsets pos l, pos ≤ x.2 ∧ x.2 % x.1.size = 0 ∧ x.2 + x.1.size * x.1.count ≤ finish pos l := by
  induction l generalizing pos with
  | nil => intro x hx; simp [offsets] at hx
  | cons f l ih =>
    intro x hx
    have hf := hp f (List.mem_cons_self ..)
    have hl := fun g hg => hp g (List.mem_cons_of_mem _ hg)
    obtain ⟨h1, h2, h3⟩ := roundUp_spec pos f.size hf
    simp only [offsets, List.mem_cons] at hx
    rcases hx with rfl | hx
    · refine ⟨h1, h3, ?_⟩
      exact finish_ge l hl _
    · obtain ⟨a, b, c⟩ := ih hl _ x hx
      exact ⟨by omega, b, c⟩

/-- C65: fields keep their order and do not overlap, each starts at a multiple of its element size and lies inside
the structure. -/
theorem C65_layout (l : List Field) (hp : ∀ f ∈ l, 0 < f.size) :
    (offsets 0 l).map (·.1) = l ∧
    (offsets 0 l).Pairwise (fun x y => x.2 + x.1.size * x.1.count ≤ y.2) ∧
    ∀ x ∈ offsets 0 l, x.2 % x.1.size = 0 ∧ x.2 + x.1.size * x.1.count ≤ sizeof l := by
  have hal : 0 < maxAlign l := by
    induction l with
    | nil => decide
    | cons f l ih =>
      have := hp f (List.mem_cons_self ..)
      simp only [maxAlign, List.foldr_cons]; omega
  have hnames : ∀ (l : List Field) (pos : Nat), (offsets pos l).map (·.1) = l := by
    intro l
    induction l with
    | nil => intro pos; rfl
    | cons f l ih => intro pos; simp [offsets, ih]
  have hpair : ∀ (l : List Field), (∀ f ∈ l, 0 < f.size) → ∀ pos,
      (offsets pos l).Pairwise (fun x y => x.2 + x.1.size * x.1.count ≤ y.2) := by
    intro l
    induction l with
    | nil => intro _ _; exact List.Pairwise.nil
    | cons f l ih =>
      intro hp pos
      have hl := fun g hg => hp g (List.mem_cons_of_mem _ hg)
      simp only [offsets, List.pairwise_cons]
      exact ⟨fun y hy => (offsets_bounds l hl _ y hy).1, ih hl _⟩
  refine ⟨hnames l 0, hpair l hp 0, ?_⟩
  intro x hx
  obtain ⟨_, b, c⟩ := offsets_bounds l hp 0 x hx
  exact ⟨b, Nat.le_trans c (roundUp_spec _ _ hal).1⟩

/-- C65: no more than `size - 1` bytes are left unused before a field (the layout is as tight as the alignment
allows). -/
theorem C65_tight (l : List Field) (hp : ∀ f ∈ l, 0 < f.size) (i : Nat) (h : i + 1 < (offsets 0 l).length) :
    ((offsets 0 l)[i + 1]).2 < ((offsets 0 l)[i]).2 + ((offsets 0 l)[i]).1.size * ((offsets 0 l)[i]).1.count +
      ((offsets 0 l)[i + 1]).1.size := by
  have : ∀ (l : List Field), (∀ f ∈ l, 0 < f.size) → ∀ pos i (h : i + 1 < (offsets pos l).length),
      ((offsets pos l)[i + 1]).2 < ((offsets pos l)[i]).2 + ((offsets pos l)[i]).1.size * ((offsets pos l)[i]).1.count +
        ((offsets pos l)[i + 1]).1.size := by
    intro l
    induction l with
    | nil => intro _ pos i h; simp [offsets] at h
    | cons f l ih =>
      intro hp pos i h
      have hl := fun g hg => hp g (List.mem_cons_of_mem _ hg)
      cases i with
      | zero =>
        cases l with
        | nil => simp [offsets] at h
        | cons g l =>
          have := roundUp_spec (roundUp pos f.size + f.size * f.count) g.size (hl g (List.mem_cons_self ..))
          simp only [offsets, List.getElem_cons_succ, List.getElem_cons_zero]
          omega
      | succ i =>
        simp only [offsets, List.getElem_cons_succ]
        exact ih hl _ i (by simpa [offsets] using h)
  exact this l hp 0 i h

example : (∀ f ∈ osf, 0 < f.size) ∧ sizeof osf = 152 ∧ offsetOf osf "OBS_STP_N" = 140 := by decide +kernel

end Verif.ObsFile
