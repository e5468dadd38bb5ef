import Verif.Props.LdpGroup
/-!
# C98, continued: calls end, moving in the file, and files that are not regular
-/
set_option linter.unusedSectionVars false

namespace Verif.LdpGroup
open Verif.Buffer
open Verif.Ldp (tagOf tagOf_inj tagOf_lt tagOf_succ)

variable {K D : Type} [DecidableEq K] [DecidableEq D]

/-! ## Every call ends -/

theorem readBatch_length (rd : Reader K D) (hst : rd.onSync ≠ .stay) (n : Nat) : ∀ (ns : Nat) (l : List (Item K D)),
    (readBatch rd n ns l).2.1.length ≤ l.length ∧
    ((readBatch rd n ns l).2.2.2 = .full → (readBatch rd n ns l).2.1.length + n = l.length) := by
  induction n with
  | zero => intro ns l; simp [readBatch]
  | succ n ih =>
    intro ns l
    cases l with
    | nil => simp [readBatch]
    | cons x l =>
      cases x with
      | frame f =>
        obtain ⟨h1, h2⟩ := ih 0 l
        simp only [readBatch, List.length_cons]
        exact ⟨by omega, fun h => by have := h2 h; omega⟩
      | other =>
        obtain ⟨h1, h2⟩ := ih (ns + 1) l
        simp only [readBatch, List.length_cons]
        exact ⟨by omega, fun h => by have := h2 h; omega⟩
      | sync =>
        obtain ⟨h1, h2⟩ := ih (ns + 1) l
        simp only [readBatch]
        split
        · simp
        · rename_i h; exact absurd h hst
        · split
          · simp
          · simp only [List.length_cons]
            exact ⟨by omega, fun h => by have := h2 h; omega⟩

theorem insertF_length (f : Fr K D Payload) (l : List (Int × List (Fr K D Payload))) : l.length ≤ (insertF f l).length := by
  induction l with
  | nil => simp [insertF]
  | cons x r ih =>
    obtain ⟨k, g⟩ := x
    simp only [insertF]
    split
    · simp
    · simp only [List.length_cons]; omega

theorem fillLoop_length (cf : Option (List (Fr K D Payload))) (c t0 step : Int) (n : Nat) : ∀ (m : Nat) (st st' : St K D Payload),
    fillLoop cf c t0 step st m n = .ok st' → st.buf.length ≤ st'.buf.length := by
  induction n with
  | zero => intro m st st' h; simp only [fillLoop, Except.ok.injEq] at h; rw [h]; exact Nat.le_refl _
  | succ n ih =>
    intro m st st' h
    simp only [fillLoop] at h
    split at h
    · simp at h
    · split at h
      · simp at h
      · rename_i s1 h1
        have := ih _ _ _ h
        have h2 : st.buf.length ≤ s1.buf.length := by
          unfold append1 at h1
          split at h1
          · simp at h1
          · split at h1
            · simp only [Option.some.injEq] at h1; rw [← h1]; exact Nat.le_refl _
            · simp only [Option.some.injEq] at h1; rw [← h1]; exact insertF_length _ _
        omega

theorem autofill_length (rd : Reader K D) (cf : Option (List (Fr K D Payload))) (c tt : Int) (st st' : St K D Payload)
    (h : autofill rd cf c tt st = .ok st') : st.buf.length ≤ st'.buf.length := by
  unfold autofill at h
  split at h
  · simp only [Except.ok.injEq] at h; rw [h]; exact Nat.le_refl _
  · split at h
    · simp only [Except.ok.injEq] at h; rw [h]; exact Nat.le_refl _
    · split at h
      · simp only [Except.ok.injEq] at h; rw [h]; exact Nat.le_refl _
      · simp only at h
        split at h
        · exact fillLoop_length _ _ _ _ _ _ _ _ h
        · simp only [Except.ok.injEq] at h; rw [h]; exact Nat.le_refl _

theorem autofill_no_hang (rd : Reader K D) (cf : Option (List (Fr K D Payload))) (c tt : Int) (st : St K D Payload) :
    autofill rd cf c tt st ≠ .error .hang := by
  have hf : ∀ (step : Int) (n m : Nat) (st : St K D Payload), fillLoop cf c tt step st m n ≠ .error .hang := by
    intro step n
    induction n with
    | zero => intro m st; simp [fillLoop]
    | succ n ih =>
      intro m st
      simp only [fillLoop]
      split
      · simp
      · split
        · simp
        · exact ih _ _
  unfold autofill
  split
  · simp
  · split
    · simp
    · split
      · simp
      · simp only
        split
        · exact hf _ _ _ _
        · simp

theorem copy_no_hang (rd : Reader K D) (fc : Nat) (l : List (Fr K D Payload)) : ∀ a : Acc, (copy rd fc a l).2 ≠ some .hang := by
  induction l with
  | nil => intro a; simp [copy]
  | cons f l ih =>
    intro a
    simp only [copy]
    split
    · rename_i e he
      intro h
      simp only [Option.some.injEq] at h
      subst h
      unfold copy1 at he
      simp only at he
      repeat' split at he
      all_goals simp at he
    · exact ih _

theorem place_no_hang (rd : Reader K D) (fc : Nat) (l : List (Fr K D Payload)) (a : Acc) : (place rd fc a l).2 ≠ some .hang := by
  cases l with
  | nil => simp [place]
  | cons f l =>
    simp only [place]
    generalize (if a.tt = 0 then f.fom - rd.skip else a.tt) = v
    split
    · simp
    · exact copy_no_hang _ _ _ _

theorem get_group (c : Cfg K D Payload) (st : St K D Payload) (h : c.nseg ≤ st.buf.length) (h0 : 0 < st.buf.length) :
    ∃ k l, (Buffer.get c st).2 = .group k l := by
  unfold Buffer.get peek
  rw [if_neg (by simp [filled, h])]
  cases hm : minKey st.buf with
  | none => rw [minKey_none] at hm; rw [hm] at h0; simp at h0
  | some k =>
    have hk := (minKey_some hm).1
    cases hl : lookup k st.buf with
    | none => exact absurd hk (lookup_none.mp hl)
    | some l =>
      obtain ⟨_, _, ⟨g, hg, _⟩, _⟩ := getKey_some c st k l hl
      exact ⟨k, g, hg⟩

theorem fetch_todo (rd : Reader K D) (hst : rd.onSync ≠ .stay) (hb : 1 ≤ rd.per) (fc : Nat) (s : LS K D) (he : s.eof = false) :
    (fetch rd s).2 ≠ some .hang ∧ (fetch rd s).1.n = s.n ∧ todo fc (fetch rd s).1 ≤ todo fc s ∧
    ((fetch rd s).2 = none → overfilled rd.cfg (fetch rd s).1.buf = false → todo fc (fetch rd s).1 < todo fc s) := by
  unfold fetch
  split
  · rename_i ho
    refine ⟨by simp, rfl, Nat.le_refl _, fun _ h => ?_⟩
    simp only [ho.2] at h
    cases h
  · obtain ⟨h1, h2⟩ := readBatch_length rd hst rd.per s.ns s.rem
    simp only
    generalize readBatch rd rd.per s.ns s.rem = b at *
    split
    · refine ⟨by simp, rfl, ?_, fun h => by simp at h⟩
      simp only [todo]; omega
    · rename_i hnm
      split
      · refine ⟨by simp, rfl, ?_, fun h => by simp at h⟩
        simp only [todo]; omega
      · have hlt : b.2.1.length + (fc - s.n) + (if (decide (b.2.2.2 = .eof)) = true then 0 else 1) < todo fc s := by
          simp only [todo, he]
          cases hb2 : b.2.2.2 with
          | eof => simp; omega
          | name => exact absurd hb2 hnm
          | full => have := h2 hb2; simp; omega
        refine ⟨by simp, rfl, ?_, fun _ _ => ?_⟩
        · simp only [todo] at hlt ⊢; omega
        · simp only [todo] at hlt ⊢; omega

theorem emit_todo (rd : Reader K D) (fc : Nat) (s : LS K D) (hn : s.n < fc) :
    (emit rd fc s).2 ≠ some .hang ∧ (emit rd fc s).1.n ≤ fc ∧
    ((emit rd fc s).2 = none → todo fc (emit rd fc s).1 ≤ todo fc s ∧
      (overfilled rd.cfg s.buf = true → todo fc (emit rd fc s).1 < todo fc s)) := by
  unfold emit
  split
  · rename_i hpk
    refine ⟨by simp, by simp only; omega, fun _ => ⟨Nat.le_refl _, fun ho => ?_⟩⟩
    exfalso
    simp only [overfilled, decide_eq_true_eq] at ho
    unfold peek at hpk
    rw [if_neg (by simp [filled]; omega), minKey_none] at hpk
    rw [hpk] at ho
    simp at ho
  · split
    · rename_i e he
      refine ⟨?_, by simp only; omega, fun h => by simp at h⟩
      intro h
      simp only [Option.some.injEq] at h
      subst h
      exact autofill_no_hang _ _ _ _ _ he
    · rename_i st hst
      have hlen := autofill_length _ _ _ _ _ _ hst
      simp only
      split
      · rename_i k l hg
        split
        · rename_i e he
          refine ⟨?_, by simp only; omega, fun h => by simp at h⟩
          intro h
          simp only [Option.some.injEq] at h
          subst h
          exact place_no_hang _ _ _ _ he
        · refine ⟨by simp, by simp only; omega, fun _ => ⟨?_, fun _ => ?_⟩⟩
          · simp only [todo]; omega
          · simp only [todo]; omega
      · rename_i hg
        refine ⟨by simp, by simp only; omega, fun _ => ⟨?_, fun ho => ?_⟩⟩
        · simp only [todo]; omega
        · exfalso
          simp only [overfilled, decide_eq_true_eq] at ho
          obtain ⟨k, l, h⟩ := get_group rd.cfg st (by omega) (by omega)
          exact hg k l h

theorem loop_todo (rd : Reader K D) (hst : rd.onSync ≠ .stay) (hb : 1 ≤ rd.per) (fc : Nat) (k : Nat) : ∀ s : LS K D,
    s.n ≤ fc → todo fc s < k → (loop rd fc k s).2 ≠ some .hang ∧ (loop rd fc k s).1.n ≤ fc := by
  induction k with
  | zero => intro s _ h; omega
  | succ k ih =>
    intro s hn h
    simp only [loop]
    split
    · exact ⟨by simp, hn⟩
    · rename_i hc
      have he : s.eof = false := by
        cases hh : s.eof
        · rfl
        · exact absurd (.inl hh) hc
      have hlt : s.n < fc := by
        have : s.n ≠ fc := fun e => hc (.inr e)
        omega
      obtain ⟨f1, f2, f3, f4⟩ := fetch_todo rd hst hb fc s he
      unfold turn
      simp only
      cases hf : (fetch rd s).2 with
      | some e =>
        simp only
        rw [hf] at f1
        exact ⟨f1, by omega⟩
      | none =>
        simp only
        obtain ⟨g1, g2, g3⟩ := emit_todo rd fc (fetch rd s).1 (by omega)
        split
        · rename_i e h'
          rw [h'] at g1
          exact ⟨g1, g2⟩
        · rename_i h'
          obtain ⟨g4, g5⟩ := g3 h'
          apply ih _ g2
          cases ho : overfilled rd.cfg (fetch rd s).1.buf
          · have := f4 hf ho; omega
          · have := g5 ho; omega

theorem flushLoop_todo (rd : Reader K D) (fc : Nat) (ks : List Int) : ∀ s : LS K D, s.n < fc →
    (flushLoop rd fc ks s).2 ≠ some .hang ∧ (flushLoop rd fc ks s).1.n ≤ fc := by
  induction ks with
  | nil => intro s h; exact ⟨by simp [flushLoop], by simp only [flushLoop]; omega⟩
  | cons k ks ih =>
    intro s h
    simp only [flushLoop]
    split
    · split
      · rename_i e he
        refine ⟨?_, by simp only; omega⟩
        intro hh
        simp only [Option.some.injEq] at hh
        subst hh
        exact place_no_hang _ _ _ _ he
      · split
        · rename_i h1
          exact ⟨by simp, Nat.le_of_eq h1⟩
        · rename_i h1
          exact ih _ (Nat.lt_of_le_of_ne h h1)
    · exact ⟨by simp, by simp only; omega⟩

theorem read_ends (rd : Reader K D) (hst : rd.onSync ≠ .stay) (hb : 1 ≤ rd.per) (fc : Nat) (s : RS K D) :
    (read rd fc s).2 ≠ .error .hang ∧ ∀ o, (read rd fc s).2 = .ok o → o.nsets ≤ fc := by
  unfold read
  split
  · exact ⟨by simp, fun o h => by simp at h⟩
  · obtain ⟨h1, h2⟩ := loop_todo rd hst hb fc (s.rem.length + fc + 2) (start s) (by simp [start]) (by simp [todo, start])
    simp only
    split
    · rename_i e he
      rw [he] at h1
      exact ⟨fun h => h1 (by simpa using h), fun o h => by simp at h⟩
    · generalize (loop rd fc (s.rem.length + fc + 2) (start s)).1 = l at h2
      have hq : (if l.eof = true ∧ l.n ≠ fc then flushLoop rd fc (l.buf.buf.map (·.1)) l else (l, none)).2 ≠ some .hang ∧
          (if l.eof = true ∧ l.n ≠ fc then flushLoop rd fc (l.buf.buf.map (·.1)) l else (l, none)).1.n ≤ fc := by
        split
        · rename_i hc
          exact flushLoop_todo rd fc _ _ (by omega)
        · exact ⟨by simp, h2⟩
      simp only [finish]
      generalize (if l.eof = true ∧ l.n ≠ fc then flushLoop rd fc (l.buf.buf.map (·.1)) l else (l, none)) = q at hq
      split
      · rename_i e he
        refine ⟨fun h => ?_, fun o h => by simp at h⟩
        simp only [Except.error.injEq] at h
        exact hq.1 (by rw [he, h])
      · split
        · exact ⟨by simp, fun o h => by simp at h⟩
        · refine ⟨by simp, fun o h => ?_⟩
          simp only [Except.ok.injEq] at h
          subst h
          exact hq.2

/-- A call on any TBX file and in any state ends, and never returns more than it was asked for. -/
theorem C98_tbx_ends (mapper : List Nat) (hm : mapper ≠ []) (nseg : Nat) (skip size : Int) (ci8 ig : Bool) (t : Tbx)
    (hrd : t.rd = tbxReader mapper nseg skip size ci8 ig) (q : Option Int) (s : RS Nat Nat) :
    (tbxRead t q s).2 ≠ .error .hang ∧
      ∀ o, (tbxRead t q s).2 = .ok o → (o.nsets : Int) ≤ maxCount t s ∧ ∀ n, q = some n → (o.nsets : Int) ≤ max n 1 := by
  have hst : t.rd.onSync ≠ .stay := by rw [hrd]; cases ci8 <;> simp [tbxReader]
  have hb : 1 ≤ t.rd.per := by rw [hrd]; exact List.length_pos_iff.mpr hm
  unfold tbxRead
  split
  · exact ⟨by simp, fun o h => by simp at h⟩
  · split
    · exact ⟨by simp, fun o h => by simp at h⟩
    · obtain ⟨h1, h2⟩ := read_ends t.rd hst hb (tbxCount t q s).toNat s
      refine ⟨h1, fun o h => ?_⟩
      have := h2 o h
      unfold tbxCount at *
      refine ⟨by omega, fun n hn => ?_⟩
      subst hn
      simp only [Option.getD_some] at *
      omega

/-- A `SyncError` in a COR file: the position does not move (no bytes were taken, and nothing is skipped), so with fewer
steps buffered than the buffer holds the call goes on for ever. -/
theorem C98_not_cor_ends (n : Nat) (chans : List Nat) (nseg : Nat) (skip : Int) (ig : Bool) (fc : Nat) (hfc : 1 ≤ fc)
    (s : RS (Nat × Nat × Nat) (Nat × Nat)) (l : List (Item (Nat × Nat × Nat) (Nat × Nat))) (hs : s.rem = .sync :: l)
    (hbuf : s.buf.buf.length < nseg) (k : Nat) :
    (loop (corReader n chans nseg skip ig) fc k (start s)).2 = some .hang := by
  have hb : ∀ (m ns : Nat), readBatch (corReader n chans nseg skip ig) m ns (.sync :: l) = ([], .sync :: l, ns, .full) := by
    intro m
    induction m with
    | zero => intro ns; rfl
    | succ m ih => intro ns; simp only [readBatch, corReader] at ih ⊢; exact ih ns
  have key : ∀ (k : Nat) (x : LS (Nat × Nat × Nat) (Nat × Nat)), x.rem = .sync :: l → x.buf = s.buf → x.n = 0 → x.eof = false →
      (loop (corReader n chans nseg skip ig) fc k x).2 = some .hang := by
    intro k
    induction k with
    | zero => intro x _ _ _ _; rfl
    | succ k ih =>
      intro x h1 h2 h3 h4
      have hp : (corReader n chans nseg skip ig).pause = false := rfl
      have hpk : peek (corReader n chans nseg skip ig).cfg s.buf true = none := by
        unfold peek filled
        have : (corReader n chans nseg skip ig).cfg.nseg = nseg := rfl
        rw [this, if_pos (by simp; omega)]
      have hf : fetch (corReader n chans nseg skip ig) x = ({ x with cf := some [] }, none) := by
        unfold fetch
        rw [if_neg (by rw [hp]; simp), h1, hb]
        cases x
        simp only at h1 h2 h3 h4
        subst h1 h4
        simp [append]
      have ht : turn (corReader n chans nseg skip ig) fc x = ({ x with cf := some [] }, none) := by
        simp only [turn, hf]
        unfold emit
        simp only [h2, hpk]
      simp only [loop]
      rw [if_neg (by rw [h3, h4]; simp; omega), ht]
      exact ih _ h1 h2 h3 h4
  exact key k (start s) hs rfl rfl rfl

/-! ## Durations -/

/-- The number of steps asked for, at least one, is within half a step of the duration. -/
theorem C98_tbx_request (duration rate : Rat) :
    (tbxRequest duration rate : Rat) - duration * rate ≤ 1/2 ∧ duration * rate - tbxRequest duration rate ≤ 1/2 := by
  obtain ⟨h1, h2⟩ := round_half (duration * rate)
  exact ⟨h2, h1⟩

/-- The same for COR files, where a duration is needed. -/
theorem C98_cor_count (duration tint : Rat) (hd : 0 ≤ duration) (ht : 0 < tint) :
    (∃ n, corCount (some duration) tint = .ok n ∧ 1 ≤ n ∧
      ((1/2 : Rat) < duration / tint → (n : Rat) - duration / tint ≤ 1/2 ∧ duration / tint - n ≤ 1/2)) ∧
    corCount none tint = .error .name := by
  refine ⟨?_, rfl⟩
  have hx : 0 ≤ duration / tint := by
    rw [Rat.div_def]
    exact Rat.mul_nonneg hd (Rat.le_of_lt (Rat.inv_pos.mpr ht))
  unfold corCount
  simp only
  generalize duration / tint = x at hx
  obtain ⟨h1, h2⟩ := round_half x
  have h0 : 0 ≤ roundHalfEven x := by
    apply intCast_le_of
    grind
  by_cases hz : roundHalfEven x = 0
  · rw [if_pos hz, if_neg (by omega)]
    refine ⟨1, rfl, Nat.le_refl _, fun h => ?_⟩
    rw [hz] at h1
    grind
  · rw [if_neg hz, if_neg (by omega)]
    refine ⟨_, rfl, by omega, fun h => ?_⟩
    have e : (((roundHalfEven x).toNat : Nat) : Rat) = (roundHalfEven x : Rat) := by
      rw [← Rat.intCast_natCast, Int.toNat_of_nonneg h0]
    rw [e]
    exact ⟨h2, h1⟩

/-! ## Moving in a TBX file -/

theorem truncRat_int (z : Int) : truncRat z = z := by
  unfold truncRat
  split
  · exact floor_int z
  · rw [← Rat.intCast_neg, floor_int]; omega

theorem frameOffset_steps (rd : Reader Nat Nat) (hs : 0 < rd.skip) (hp : 1 ≤ rd.per) (k b : Int) :
    frameOffset rd ((k * rd.skip + b : Int) : Rat) b = k * rd.per := by
  have hs' : (rd.skip : Rat) ≠ 0 := by
    intro h
    have : ((rd.skip : Int) : Rat) = ((0 : Int) : Rat) := by simpa using h
    rw [Rat.intCast_inj] at this
    omega
  have hp' : ((rd.per : Nat) : Rat) ≠ 0 := by
    intro h
    have : ((rd.per : Nat) : Rat) = ((0 : Nat) : Rat) := by simpa using h
    rw [Rat.natCast_inj] at this
    omega
  have e1 : (((k * rd.skip + b : Int) : Rat) - b) / rd.skip * rd.per = ((k * rd.per : Int) : Rat) := by
    rw [Rat.intCast_add, Rat.intCast_mul, Rat.intCast_mul, Rat.intCast_natCast,
      show (k : Rat) * rd.skip + b - b = k * rd.skip by grind, Rat.mul_div_cancel hs']
  have e2 : ((k * rd.per : Int) : Rat) / rd.per = (k : Rat) := by
    rw [Rat.intCast_mul, Rat.intCast_natCast, Rat.mul_div_cancel hp']
  unfold frameOffset
  rw [e1, truncRat_int, e2, truncRat_int]

/-- After `offset` the number of frames of the description is what is left, from which `read` takes off the position in
the file once more: having moved over `k` of `N` steps, `N - 2 k` are counted as left.  With `2 k > N` every call raises
`ValueError`, with `2 k = N` every call gives nothing, and otherwise the last `k` steps are not given by a call
without a duration. -/
theorem C98_not_offset_reads (t : Tbx) (frames : List (Item Nat Nat)) (N k : Nat) (hp : 1 ≤ t.rd.per) (hs : 0 < t.rd.skip)
    (hS : 0 < t.frameSize) (hn : NoSync frames) (hlen : frames.length = N * t.rd.per) (hsize : t.size = frames.length * t.frameSize)
    (hk : k < N) :
    ∃ t', tbxMove t frames ((k * t.rd.skip : Int) : Rat) (opened t.rd frames 0) =
        .ok (t', opened t.rd (frames.drop (k * t.rd.per)) 0) ∧
      maxCount t' (opened t.rd (frames.drop (k * t.rd.per)) 0) = (N : Int) - 2 * k ∧
      (N < 2 * k → ∀ q, (tbxRead t' q (opened t.rd (frames.drop (k * t.rd.per)) 0)).2 = .error .value) ∧
      (N = 2 * k → ∀ q, (tbxRead t' q (opened t.rd (frames.drop (k * t.rd.per)) 0)).2 = .ok ⟨0, none, fun _ => []⟩) := by
  have hkN : (k + 1) * t.rd.per ≤ N * t.rd.per := Nat.mul_le_mul_right _ hk
  rw [Nat.add_mul, Nat.one_mul] at hkN
  have hfo := frameOffset_steps t.rd hs hp k 0
  rw [Int.add_zero] at hfo
  refine ⟨{ t with nframe := frames.length - k * t.rd.per }, ?_, ?_⟩
  · have e : (((frames.length - (opened t.rd frames 0).rem.length : Nat) : Int) +
        frameOffset t.rd ((k * t.rd.skip : Int) : Rat) 0) = ((k * t.rd.per : Nat) : Int) := by
      rw [hfo]; simp [opened]
    have hl : lead (opened t.rd frames 0) = .ok 0 := rfl
    simp only [tbxMove, hl]
    rw [e, if_neg (by omega), Int.toNat_natCast, if_neg (by omega)]
    rfl
  · have hb := noSync_bytes t.frameSize (frames.drop (k * t.rd.per)) (noSync_suffix hn (List.drop_suffix _ _))
    rw [List.length_drop] at hb
    have hmax : maxCount { t with nframe := frames.length - k * t.rd.per } (opened t.rd (frames.drop (k * t.rd.per)) 0) = (N : Int) - 2 * k := by
      simp only [maxCount, tell, opened, init, List.length_nil]
      rw [hb, hsize, Nat.sub_zero, ← Nat.sub_mul, Nat.mul_div_cancel _ hS,
        show frames.length - (frames.length - k * t.rd.per) = k * t.rd.per by omega, hlen, ← Nat.sub_mul]
      have : (((N - k) * t.rd.per : Nat) : Int) - ((k * t.rd.per : Nat) : Int) = ((N : Int) - 2 * k) * t.rd.per := by
        rw [Int.natCast_mul, Int.natCast_mul, ← Int.sub_mul]
        congr 1
        omega
      rw [this, Int.mul_ediv_cancel _ (by omega)]
      simp
    refine ⟨hmax, ?_, ?_⟩
    · intro h2 q
      have hne : ¬ ended (opened t.rd (frames.drop (k * t.rd.per)) 0) := by
        intro he
        have := congrArg List.length he.1
        simp only [opened, List.length_drop, List.length_nil] at this
        omega
      unfold tbxRead
      rw [if_neg hne, if_pos]
      unfold tbxCount
      rw [hmax]
      omega
    · intro h2 q
      have hne : ¬ ended (opened t.rd (frames.drop (k * t.rd.per)) 0) := by
        intro he
        have := congrArg List.length he.1
        simp only [opened, List.length_drop, List.length_nil] at this
        omega
      have hc : tbxCount { t with nframe := frames.length - k * t.rd.per } q (opened t.rd (frames.drop (k * t.rd.per)) 0) = 0 := by
        unfold tbxCount
        rw [hmax]
        omega
      unfold tbxRead
      rw [if_neg hne, hc, if_neg (by decide)]
      simp only [Int.toNat_zero]
      unfold read
      rw [if_neg hne]
      simp [loop, start, finish]

/-- After reading, `offset` starts from where the file is, behind everything in the buffer: with `m` steps taken from the
file the new position is step `m + k - 1`, wherever the steps already given ended. -/
theorem C98_not_offset_position (t : Tbx) (frames : List (Item Nat Nat)) (N m k : Nat) (hp : 1 ≤ t.rd.per) (hs : 0 < t.rd.skip)
    (hlen : frames.length = N * t.rd.per) (s : RS Nat Nat) (hrem : s.rem.length = (N - m) * t.rd.per) (hm : m ≤ N) (v : Int)
    (htt : s.tt = some v) (hbuf : minKey s.buf.buf = some (v + t.rd.skip)) (hk : 1 ≤ k) (hin : m + k - 1 < N) :
    ∃ t', tbxMove t frames ((k * t.rd.skip : Int) : Rat) s = .ok (t', opened t.rd (frames.drop ((m + k - 1) * t.rd.per)) s.tail) := by
  have hfo := frameOffset_steps t.rd hs hp ((k : Int) - 1) t.rd.skip
  have hmul : (m + k - 1 + 1) * t.rd.per ≤ N * t.rd.per := Nat.mul_le_mul_right _ hin
  rw [Nat.add_mul, Nat.one_mul] at hmul
  have e1 : ((k : Int) - 1) * t.rd.skip + t.rd.skip = (k : Int) * t.rd.skip := by
    rw [Int.sub_mul, Int.one_mul]; omega
  rw [e1] at hfo
  have hfr : frames.length - s.rem.length = m * t.rd.per := by
    rw [hlen, hrem, ← Nat.sub_mul, show N - (N - m) = m by omega]
  have e2 : ((frames.length - s.rem.length : Nat) : Int) + ((k : Int) - 1) * t.rd.per = (((m + k - 1) * t.rd.per : Nat) : Int) := by
    rw [hfr, Int.natCast_mul, Int.natCast_mul, ← Int.add_mul]
    congr 1
    omega
  refine ⟨{ t with nframe := frames.length - (m + k - 1) * t.rd.per }, ?_⟩
  simp only [tbxMove, lead, htt, hbuf]
  rw [show v + t.rd.skip - v = t.rd.skip by omega, hfo, e2, if_neg (by omega), Int.toNat_natCast, if_neg (by omega)]

/-- A rest of less than one step's worth of frames in the file, with nothing in the buffer, is never given: every call
gives nothing and leaves everything as it is. -/
theorem C98_not_short_end (t : Tbx) (items : List (Item Nat Nat)) (p0 tail : Nat) (hd : Described t items p0 tail) (s : RS Nat Nat)
    (hs : s.rem <:+ items) (ht : s.tail ≤ tail) (hb : s.buf.buf = []) (hshort : s.rem.length < t.rd.per) (hne : s.rem ≠ [])
    (q : Option Int) :
    tbxRead t q s = ({ s with tt := some (s.tt.getD 0) }, .ok ⟨0, none, fun _ => []⟩) := by
  have hmax := maxCount_eq hd hs ht
  rw [hb, Nat.div_eq_of_lt hshort] at hmax
  have hc : tbxCount t q s = 0 := by
    unfold tbxCount
    rw [hmax]
    simp
    omega
  have he : ¬ ended s := fun h => hne h.1
  unfold tbxRead
  rw [if_neg he, hc, if_neg (by decide)]
  simp only [Int.toNat_zero]
  unfold read
  rw [if_neg he]
  simp [loop, start, finish, LS.rs]

/-! ## Files that are not regular -/

/-- A result without functions, for `decide`. -/
def shown : Except Err Out → Err ⊕ (Nat × Option Int × List (List Payload))
  | .error e => .inl e
  | .ok o => .inr (o.nsets, o.setTime, (List.range 3).map o.rows)

/-- A TBX frame of step `k` (steps of `d`) and first channel `c`, with one value. -/
def wf (d : Int) (k c b : Nat) : Item Nat Nat := .frame ⟨1000 + d * k, c, c, false, [b]⟩

/-- A TBX file of `items`, `p0` bytes before them and `tail` after, with frames of 10 bytes. -/
def wtbx (mapper : List Nat) (nseg : Nat) (d : Int) (items : List (Item Nat Nat)) (p0 tail : Nat) : Tbx :=
  { rd := tbxReader mapper nseg d 50 false false, size := p0 + items.length * 10 + tail, frameSize := 10
    nframe := (items.length * 10 + tail) / 10 }

/-- What the calls give on such a file. -/
def wread (mapper : List Nat) (nseg : Nat) (d : Int) (items : List (Item Nat Nat)) (p0 tail : Nat) (qs : List (Option Int)) :
    List (Err ⊕ (Nat × Option Int × List (List Payload))) :=
  let t := wtbx mapper nseg d items p0 tail
  (tbxReads t qs (opened t.rd items tail)).map shown

/-- A missing step in the middle of a file with steps of 8192 is filled with zeros. -/
theorem C98_gap_filled :
    wread [1] 2 8192 [wf 8192 0 1 5, wf 8192 1 1 6, wf 8192 3 1 7, wf 8192 4 1 8, wf 8192 5 1 9, wf 8192 6 1 4] 0 0 [some 9, some 9] =
    [.inr (6, some 1000, [[[5], [6], [0], [7], [8], [9]], [], []]), .inr (1, some (1000 + 6 * 8192), [[[4]], [], []])] := by
  decide +kernel

/-- In a file with the steps of TBX as the code has them elsewhere, `fS / sample_rate` = 7840 for instance, the filling
works with 8192 and is never right: the call raises. -/
theorem C98_not_gap_filled :
    wread [1] 2 7840 [wf 7840 0 1 5, wf 7840 1 1 6, wf 7840 3 1 7, wf 7840 4 1 8, wf 7840 5 1 9, wf 7840 6 1 4] 0 0 [some 9] =
    [.inl .timetag] := by decide +kernel

/-- Steps of two times 8192: a complete file, and the call raises because a step is put in between. -/
theorem C98_not_double_step :
    wread [1] 2 16384 [wf 16384 0 1 5, wf 16384 1 1 6, wf 16384 2 1 7, wf 16384 3 1 8] 0 0 [some 9] = [.inl .timetag] := by
  decide +kernel

/-- When the file ends in the middle of a step while a gap is to be filled, `cFrames` is empty and `cFrames[0]` raises
`IndexError` (only `NameError` is caught, ldp.py:1759-1762). -/
theorem C98_gap_at_partial_end_raises :
    wread [1, 4] 2 8192 [wf 8192 0 1 5, wf 8192 0 4 5, wf 8192 1 1 6, wf 8192 1 4 6, wf 8192 3 1 7, wf 8192 3 4 7, wf 8192 4 1 8]
      0 0 [some 9] = [.inl .index] := by decide +kernel

/-- A frame that comes twice while another one of its step is missing: the step has the right number of frames and is
taken as it is, so that one channel gets two values, the other none.  In the last step asked for this raises
`IndexError`; before it all later values of the channel are one step late. -/
theorem C98_not_twice :
    wread [1, 4] 2 8192 [wf 8192 0 1 5, wf 8192 0 1 5, wf 8192 1 1 6, wf 8192 1 4 6, wf 8192 2 1 7, wf 8192 2 4 7] 0 0 [some 1] =
      [.inl .bounds] ∧
    wread [1, 4] 2 8192 [wf 8192 0 1 5, wf 8192 0 1 5, wf 8192 1 4 6, wf 8192 1 4 6, wf 8192 2 1 7, wf 8192 2 4 7] 0 0 [some 3] =
      [.inr (3, some 1000, [[[5], [5], [7]], [[6], [6], [7]], []])] := by
  constructor <;> decide +kernel

/-- With a frame's worth of bytes or more before the first frame, the position in the file counts them as frames read: one
step is counted too few, and the last one, in the buffer, is never given. -/
theorem C98_not_leading_bytes :
    wread [1] 2 8192 [wf 8192 0 1 5, wf 8192 1 1 6, wf 8192 2 1 7] 5 4 [none, none] =
      [.inr (3, some 1000, [[[5], [6], [7]], [], []]), .inl .eof] ∧
    wread [1] 2 8192 [wf 8192 0 1 5, wf 8192 1 1 6, wf 8192 2 1 7] 12 0 [none, none, some 1] =
      [.inr (2, some 1000, [[[5], [6]], [], []]), .inr (0, none, [[], [], []]), .inr (0, none, [[], [], []])] := by
  constructor <;> decide +kernel

/-- A damaged place counts as bytes of a DRX frame in the size of the file but not as a frame: reading 8-bit data at such a
place raises `NameError`. -/
theorem C98_not_sync_ci8 :
    let items := [wf 8192 0 1 5, .sync, wf 8192 1 1 6, wf 8192 2 1 7]
    let t : Tbx := { rd := tbxReader [1] 2 8192 50 true false, size := 30 + 4128, frameSize := 10, nframe := 415 }
    (tbxReads t [some 2] (opened t.rd items 0)).map shown = [.inl .name] := by decide +kernel

/-- Moving after a call when nothing is in the buffer asks for an attribute that does not exist. -/
theorem C98_not_offset_empty_buffer :
    let items := [wf 8192 0 1 5, wf 8192 1 1 6, wf 8192 2 1 7]
    let t := wtbx [1] 1 8192 items 0 0
    let r := tbxRead t (some 1) (opened t.rd items 0)
    shown r.2 = .inr (1, some 1000, [[[5]], [], []]) ∧ r.1.rem.length = 2 ∧
      (match tbxMove t items 8192 r.1 with | .error e => some e | .ok _ => none) = some .attr := by decide +kernel

/-- Steps: 29 integrations of 10 ms are 56840000 in units of the time tag, but the code computes 56839999. -/
theorem C98_not_corSkip : corSkip 29 = 56839999 ∧ corSkip 1 = 1960000 ∧ corSkip 100 = 196000000 ∧
    corSkip 58 = 58 * 1960000 - 1 := by decide +kernel

/-- A COR frame of step `k` (steps of `d`), baseline `(i, j)` and channel `c`. -/
def wc (d : Int) (k i j c b : Nat) : Item (Nat × Nat × Nat) (Nat × Nat) :=
  .frame ⟨1000 + d * k, (i, j, c), (i, j), false, [b]⟩

/-- With that step a good file cannot be read: the second step raises. -/
theorem C98_not_cor_navg29 :
    let items := [wc (29 * 1960000) 0 1 1 7 5, wc (29 * 1960000) 1 1 1 7 6, wc (29 * 1960000) 2 1 1 7 4]
    (reads (corReader 1 [7] 2 (corSkip 29) false) [1, 1] (opened (corReader 1 [7] 2 (corSkip 29) false) items 0)).map shown =
      [.inr (1, some 1000, [[[5]], [], []]), .inl .timetag] ∧
    (reads (corReader 1 [7] 2 (29 * 1960000) false) [1, 1] (opened (corReader 1 [7] 2 (29 * 1960000) false) items 0)).map shown =
      [.inr (1, some 1000, [[[5]], [], []]), .inr (1, some (1000 + 29 * 1960000), [[[6]], [], []])] := by
  constructor <;> decide +kernel

/-- The numbering of baselines is made for a fixed number of inputs (256): in a file with fewer of them, here 2 of 3, the
places are those of the larger number and do not fit. -/
theorem C98_not_cor_fewer_inputs :
    let rd := { corReader 3 [7] 2 10 false with per := 3, cfg := corCfg (List.range' 1 2) [7] 2 false }
    (reads rd [1] (opened rd [wc 10 0 1 1 7 5, wc 10 0 1 2 7 6, wc 10 0 2 2 7 4, wc 10 1 1 1 7 5, wc 10 1 1 2 7 6, wc 10 1 2 2 7 4]
      0)).map shown = [.inl .bounds] := by decide +kernel

/-- `offset` by one step (of three): the description says 2 frames, the position is 1, one step
is counted as left, and the other one is never given. -/
theorem C98_not_offset_witness :
    let items := [wf 8192 0 1 5, wf 8192 1 1 6, wf 8192 2 1 7]
    let t := wtbx [1] 2 8192 items 0 0
    (match tbxMove t items 8192 (opened t.rd items 0) with
      | .error _ => []
      | .ok (t', s) => (tbxReads t' [none, none, none] s).map shown) =
      [.inr (1, some (1000 + 8192), [[[6]], [], []]), .inr (0, none, [[], [], []]), .inr (0, none, [[], [], []])] ∧
    (match tbxMove t items 16384 (opened t.rd items 0) with
      | .error _ => []
      | .ok (t', s) => (tbxReads t' [none, some 1] s).map shown) = [.inl .value, .inl .value] := by
  constructor <;> decide +kernel

/-! ## Regular files exist -/

/-- A count without `Except`, for `decide`. -/
def counted : Except Err Nat → Err ⊕ Nat
  | .error e => .inl e
  | .ok n => .inr n

/-- Two channels, a late frame, and other data in between. -/
def exampleFile : List (Item Nat Nat) :=
  [wf 7840 0 1 1, wf 7840 0 4 2, wf 7840 1 1 3, .other, wf 7840 2 1 5, wf 7840 1 4 4, wf 7840 2 4 6]

example : Regular [1, 4] 3 1 1000 7840 (framesOf exampleFile) :=
  ⟨by decide, by decide, by decide, by decide,
    ⟨0, by decide, by decide, by decide, 0, by decide, by decide, by decide, 1, by decide, by decide, by decide,
     2, by decide, by decide, by decide, 1, by decide, by decide, by decide, 2, by decide, by decide, by decide, trivial⟩,
    by decide⟩

example : Complete [1, 4] 1000 7840 (framesOf exampleFile) := by
  have h : stepCount 1000 7840 0 (framesOf exampleFile) = 3 := by decide
  unfold Complete
  rw [h]
  decide

example : Described (wtbx [1, 4] 3 7840 exampleFile 4 5) exampleFile 4 5 :=
  ⟨by decide, by decide, by decide, trivial⟩

example : wread [1, 4] 3 7840 exampleFile 4 5 [some 2, none, none] =
    [.inr (2, some 1000, [[[1], [3]], [[2], [4]], []]), .inr (1, some (1000 + 2 * 7840), [[[5]], [[6]], []]), .inl .eof] := by
  decide +kernel

/-- Two inputs and two channels, with a frame missing. -/
def exampleCor : List (Item (Nat × Nat × Nat) (Nat × Nat)) :=
  [wc 10 0 1 1 7 1, wc 10 0 1 1 9 2, wc 10 0 1 2 7 3, wc 10 0 1 2 9 4, wc 10 0 2 2 7 5, wc 10 0 2 2 9 6, wc 10 1 1 1 7 7]

example : Regular (corIds (List.range' 1 2) [7, 9]) 2 1 1000 10 (framesOf exampleCor) :=
  ⟨by decide, by decide, by decide, by decide,
    ⟨0, by decide, by decide, by decide, 0, by decide, by decide, by decide, 0, by decide, by decide, by decide,
     0, by decide, by decide, by decide, 0, by decide, by decide, by decide, 0, by decide, by decide, by decide,
     1, by decide, by decide, by decide, trivial⟩,
    by decide⟩

example : (reads (corReader 2 [7, 9] 2 10 false) [2, 1] (opened (corReader 2 [7, 9] 2 10 false) exampleCor 0)).map shown =
    [.inr (2, some 1000, [[[1], [7]], [[2], [0]], [[3], [0]]]), .inl .eof] := by decide +kernel

example : tbxRequest (1/2) 25000 = 12500 ∧ counted (corCount (some 1) (1/2)) = .inr 2 ∧
    counted (corCount (some 0) 1) = .inr 1 ∧ counted (corCount (some (-1)) (1/2)) = .inl .value := by decide +kernel

end Verif.LdpGroup
