import Verif.Lemmas.LdpRead
import Verif.Lemmas.PyNum
import Verif.Props.Buffer
/-!
# C40: consecutive reads of a DRX file
-/
namespace Verif.Ldp
open Verif.Buffer

/-- The reader of a file whose description found one beam, these tunings and these polarizations. -/
def drxReader (beam : Nat) (tunes pols : List Nat) (nseg nbeampol : Nat) (skip autofill : Int) (ig : Bool) : Reader :=
  ⟨drxCfg [beam] tunes pols nseg false, nbeampol, skip, autofill, ig⟩

theorem opened_inv {rd : Reader} {len : Nat} {t0 : Int} {fs : List F} (hx : Ctx rd len t0 fs) (hg : drxGuard < t0)
    (frames : List (Option F)) (hf : frames.filterMap id = fs) (tail : Bool) :
    CInv rd len t0 fs 0 (opened rd frames tail) := by
  have hseg := hx.seg
  have h0 : 0 < stepCount t0 rd.skip 0 fs := by
    cases fs with
    | nil => exact absurd rfl hx.reg.nonempty
    | cons f l =>
      obtain ⟨k, hk, hk0, _, _⟩ := hx.reg.order
      have : k = 0 := by omega
      subst this
      have hsp := stepCount_spec hx.skip (f :: l) 0 hx.reg.order
      have := (hsp 0).mpr (Or.inr ⟨f, List.mem_cons_self, hk⟩)
      omega
  refine ⟨⟨[], fs, 0, rfl, hf, ⟨Nat.le_refl _, hx.reg.order, by simp, by omega, ?_, ?_, ?_⟩⟩, ?_, by omega⟩
  · intro f hfm
    obtain ⟨k, hk⟩ := inOrder_late fs 0 hx.reg.order f hfm
    exact ⟨k, by omega, hk.1⟩
  · simp [opened, init, bufAt]
  · refine ⟨drxGuard, [], init_done _ (by omega) _, ?_⟩
    simpa [tagOf] using hg
  · intro r; simp [opened, ttAt]

theorem reads_inv {rd : Reader} {len : Nat} {t0 : Int} {fs : List F} (hx : Ctx rd len t0 fs) (fcs : List Nat)
    (hfc : ∀ n ∈ fcs, 1 ≤ n) : ∀ (a : Nat) (s : RS), CInv rd len t0 fs a s → a ≤ stepCount t0 rd.skip 0 fs →
      reads rd fcs s = expected (chunk rd.cfg.possible t0 rd.skip len fs) (stepCount t0 rd.skip 0 fs) fcs a := by
  induction fcs with
  | nil => intro a s _ _; rfl
  | cons fc fcs ih =>
    intro a s h ha
    obtain ⟨h1, h2⟩ := read_inv hx (hfc fc List.mem_cons_self) h
    simp only [reads, expected]
    by_cases hlt : a < stepCount t0 rd.skip 0 fs
    · obtain ⟨e1, e2⟩ := h1 hlt
      rw [if_pos hlt, e1, ih (fun n hn => hfc n (List.mem_cons_of_mem _ hn)) _ _ e2 (by omega)]
    · rw [if_neg hlt, h2 (by omega)]
      simp only
      rw [ih (fun n hn => hfc n (List.mem_cons_of_mem _ hn)) _ _ h (by omega)]

theorem drxReader_ctx {beam nseg nbeampol len : Nat} {tunes pols : List Nat} {skip autofill t0 : Int} {ig : Bool}
    {fs : List F} (ht : tunes.Nodup) (hp : pols.Nodup) (ht' : ∀ t ∈ tunes, t = 1 ∨ t = 2)
    (hp' : ∀ p ∈ pols, p = 0 ∨ p = 1) (hs : 2 ≤ nseg) (hb : 1 ≤ nbeampol) (hk : 0 < skip)
    (hr : Regular (drxIds [beam] tunes pols) nseg len t0 skip fs) :
    Ctx (drxReader beam tunes pols nseg nbeampol skip autofill ig) len t0 fs := by
  have hmem : ∀ x ∈ drxIds [beam] tunes pols, x.1 = beam ∧ (x.2.1 = 1 ∨ x.2.1 = 2) ∧ (x.2.2 = 0 ∨ x.2.2 = 1) := by
    intro x hx
    simp only [drxIds, List.mem_flatMap, List.mem_map, List.mem_singleton] at hx
    obtain ⟨b, rfl, t, h1, p, h2, rfl⟩ := hx
    exact ⟨rfl, ht' t h1, hp' p h2⟩
  have hok := drxCfg_ok [beam] tunes pols (by simp) ht hp nseg false
  refine ⟨hok, rfl, hs, ?_, ?_, hk, hb, hr⟩
  · intro x hx
    obtain ⟨_, h1, h2⟩ := hmem x hx
    unfold rowOf rowNumber
    rw [if_pos (by omega)]
  · refine nodup_map_of_inj hok.nodup ?_
    intro x hx y hy e
    obtain ⟨a1, a2, a3⟩ := hmem x hx
    obtain ⟨b1, b2, b3⟩ := hmem y hy
    obtain ⟨x1, x2, x3⟩ := x
    obtain ⟨y1, y2, y3⟩ := y
    simp only [rowNumber] at *
    simp only [Prod.mk.injEq]
    omega

/-- For a regular file (with frames missing, late frames and sync errors anywhere) every sequence of calls
returns the steps of the file one after the other, each call as many as asked for or left, and after the
last one every call raises `EOFError`. -/
theorem C40_reads_partial (beam nseg nbeampol len : Nat) (tunes pols : List Nat) (skip autofill t0 : Int) (ig : Bool)
    (fs : List F) (ht : tunes.Nodup) (hp : pols.Nodup) (ht' : ∀ t ∈ tunes, t = 1 ∨ t = 2)
    (hp' : ∀ p ∈ pols, p = 0 ∨ p = 1) (hs : 2 ≤ nseg) (hb : 1 ≤ nbeampol) (hk : 0 < skip) (hg : drxGuard < t0)
    (hr : Regular (drxIds [beam] tunes pols) nseg len t0 skip fs)
    (frames : List (Option F)) (hf : frames.filterMap id = fs) (tail : Bool)
    (fcs : List Nat) (hfc : ∀ n ∈ fcs, 1 ≤ n) :
    let rd := drxReader beam tunes pols nseg nbeampol skip autofill ig
    reads rd fcs (opened rd frames tail) =
      expected (chunk (drxIds [beam] tunes pols) t0 skip len fs) (stepCount t0 skip 0 fs) fcs 0 := by
  intro rd
  have hx : Ctx rd len t0 fs := drxReader_ctx ht hp ht' hp' hs hb hk hr
  exact reads_inv hx fcs hfc 0 _ (opened_inv hx hg frames hf tail) (Nat.zero_le _)

/-- The steps of a regular file are those its frames belong to. -/
theorem C40_steps_of_file {possible : List Id} {w len : Nat} {t0 skip : Int} {fs : List F} (hk : 0 < skip)
    (hr : Regular possible w len t0 skip fs) (k : Nat) :
    k < stepCount t0 skip 0 fs ↔ ∃ f ∈ fs, f.fom = tagOf t0 skip k := by
  rw [stepCount_spec hk fs 0 hr.order k]
  simp

/-- Each frame of a regular file is what `content` has for its step and id. -/
theorem C40_content_of_frame {possible : List Id} {w len : Nat} {t0 skip : Int} {fs : List F}
    (hr : Regular possible w len t0 skip fs) (k : Nat) (f : F) (hf : f ∈ fs) (hk : f.fom = tagOf t0 skip k) :
    content t0 skip len fs k f.mid = f.body := by
  unfold content
  cases h : fs.find? (fun g => decide (g.fom = tagOf t0 skip k ∧ g.mid = f.mid)) with
  | none =>
    have := List.find?_eq_none.mp h f hf
    simp [hk] at this
  | some g =>
    have h1 := List.find?_some h
    simp only [decide_eq_true_eq] at h1
    have := unique_frame hr.nodup hf (List.mem_of_find?_eq_some h) (by rw [h1.1, hk]) h1.2.symm
    rw [this]

/-- What all the calls put in row `r`, one after the other. -/
def allOf (r : Nat) (l : List (Except Err Out)) : List Payload :=
  l.flatMap (fun x => match x with | .ok o => o.rows r | .error _ => [])

theorem allOf_expected (possible : List Id) (t0 skip : Int) (len : Nat) (fs : List F) (total r : Nat) (fcs : List Nat) :
    ∀ a, allOf r (expected (chunk possible t0 skip len fs) total fcs a) =
      (chunk possible t0 skip len fs a (min fcs.sum (total - a))).rows r := by
  induction fcs with
  | nil => intro a; simp only [expected, allOf, chunk, List.flatMap_nil, List.sum_nil, Nat.zero_min, List.range'_zero]; split <;> rfl
  | cons fc fcs ih =>
    intro a
    simp only [expected]
    split
    · rename_i h
      rw [allOf, List.flatMap_cons, ← allOf, ih]
      simp only [chunk, List.sum_cons]
      split
      · rfl
      · rw [← List.map_append]
        congr 1
        have := List.range'_append_1 (s := a) (m := min fc (total - a)) (n := min fcs.sum (total - (a + min fc (total - a))))
        rw [this]
        congr 1
        omega
    · rename_i h
      rw [allOf, List.flatMap_cons, ← allOf, ih]
      simp only [List.nil_append, List.sum_cons]
      rw [show total - a = 0 by omega]
      simp

/-- When enough is asked for in all, each row is the content of its id for all the steps of the file, each once
and in order, no matter how the reading was split. -/
theorem C40_everything_once_partial (beam nseg nbeampol len : Nat) (tunes pols : List Nat) (skip autofill t0 : Int)
    (ig : Bool) (fs : List F) (ht : tunes.Nodup) (hp : pols.Nodup) (ht' : ∀ t ∈ tunes, t = 1 ∨ t = 2)
    (hp' : ∀ p ∈ pols, p = 0 ∨ p = 1) (hs : 2 ≤ nseg) (hb : 1 ≤ nbeampol) (hk : 0 < skip) (hg : drxGuard < t0)
    (hr : Regular (drxIds [beam] tunes pols) nseg len t0 skip fs)
    (frames : List (Option F)) (hf : frames.filterMap id = fs) (tail : Bool)
    (fcs : List Nat) (hfc : ∀ n ∈ fcs, 1 ≤ n) (hsum : stepCount t0 skip 0 fs ≤ fcs.sum)
    (t p : Nat) (htm : t ∈ tunes) (hpm : p ∈ pols) :
    let rd := drxReader beam tunes pols nseg nbeampol skip autofill ig
    allOf (2 * (t - 1) + p) (reads rd fcs (opened rd frames tail)) =
      (List.range (stepCount t0 skip 0 fs)).map (fun k => content t0 skip len fs k (beam, t, p)) := by
  intro rd
  have hx : Ctx rd len t0 fs := drxReader_ctx ht hp ht' hp' hs hb hk hr
  rw [C40_reads_partial beam nseg nbeampol len tunes pols skip autofill t0 ig fs ht hp ht' hp' hs hb hk hg hr frames
    hf tail fcs hfc, allOf_expected, Nat.min_eq_right (by omega), Nat.sub_zero]
  have hmem : (beam, t, p) ∈ drxIds [beam] tunes pols := by
    simp only [drxIds, List.mem_flatMap, List.mem_map, List.mem_singleton]
    exact ⟨beam, rfl, t, htm, p, hpm, rfl⟩
  have hfind : (drxIds [beam] tunes pols).find? (fun x => decide (rowNumber x = 2 * (t - 1) + p)) = some (beam, t, p) := by
    cases h : (drxIds [beam] tunes pols).find? (fun x => decide (rowNumber x = 2 * (t - 1) + p)) with
    | none =>
      have := List.find?_eq_none.mp h _ hmem
      simp [rowNumber] at this
    | some y =>
      have h1 := List.find?_some h
      simp only [decide_eq_true_eq] at h1
      rw [inj_of_nodup hx.rows (List.mem_of_find?_eq_some h) hmem h1]
  simp only [chunk, hfind, List.range_eq_range']

/-! ## Any file -/

theorem insertF_length (f : F) (b : List (Int × List F)) : b.length ≤ (insertF f b).length := by
  induction b with
  | nil => simp [insertF]
  | cons q r ih =>
    obtain ⟨k, l⟩ := q
    simp only [insertF]
    split
    · simp
    · simp only [List.length_cons]; omega

theorem fillLoop_length (rd : Reader) (cf : Option (List F)) (c t0 : Int) (n : Nat) : ∀ (st st' : St Id Id Payload) (m : Nat),
    fillLoop rd cf c t0 st m n = .ok st' → st.buf.length ≤ st'.buf.length := by
  induction n with
  | zero => intro st st' m h; simp only [fillLoop, Except.ok.injEq] at h; rw [h]; exact Nat.le_refl _
  | succ n ih =>
    intro st st' m h
    simp only [fillLoop] at h
    split at h
    · cases h
    · split at h
      · cases h
      · rename_i st1 h1
        refine Nat.le_trans ?_ (ih _ _ _ h)
        unfold append1 at h1
        split at h1
        · cases h1
        · split at h1
          · simp only [Option.some.injEq] at h1; subst h1; exact Nat.le_refl _
          · simp only [Option.some.injEq] at h1; subst h1; exact insertF_length _ _

theorem autofill_length (rd : Reader) (cf : Option (List F)) (c : Int) (tt : Nat → Int) (st st' : St Id Id Payload)
    (h : autofill rd cf c tt st = .ok st') : st.buf.length ≤ st'.buf.length := by
  unfold autofill at h
  split at h
  · simp only [Except.ok.injEq] at h; rw [h]; exact Nat.le_refl _
  · split at h
    · simp only [Except.ok.injEq] at h; rw [h]; exact Nat.le_refl _
    · simp only at h
      split at h
      · exact fillLoop_length _ _ _ _ _ _ _ _ h
      · simp only [Except.ok.injEq] at h; rw [h]; exact Nat.le_refl _

theorem get_group (c : Cfg Id Id Payload) (st : St Id Id Payload) (h : c.nseg ≤ st.buf.length) (h0 : 0 < st.buf.length) :
    ∃ k l, (Buffer.get c st).2 = .group k l := by
  unfold Buffer.get peek
  rw [if_neg (by simp [filled, h])]
  cases hm : minKey st.buf with
  | none => rw [minKey_none] at hm; rw [hm] at h0; simp at h0
  | some k =>
    have hk := (minKey_some hm).1
    cases hl : lookup k st.buf with
    | none => exact absurd hk (lookup_none.mp hl)
    | some l =>
      obtain ⟨_, _, ⟨g, hg, _⟩, _⟩ := getKey_some c st k l hl
      exact ⟨k, g, hg⟩

theorem fetch_todo (rd : Reader) (hb : 1 ≤ rd.nbeampol) (fc : Nat) (s : LS) (he : s.eof = false) :
    (fetch rd s).2 ≠ some .hang ∧ (fetch rd s).1.n = s.n ∧ todo fc (fetch rd s).1 ≤ todo fc s ∧
    ((fetch rd s).2 = none → overfilled rd.cfg (fetch rd s).1.buf = false → todo fc (fetch rd s).1 < todo fc s) := by
  unfold fetch
  split
  · rename_i ho
    refine ⟨by simp, rfl, Nat.le_refl _, fun _ h => ?_⟩
    simp only [ho] at h
    cases h
  · obtain ⟨u, hu1, _, _, hu4⟩ := readBatch_spec rd.nbeampol s.rem
    have hl := congrArg List.length hu1
    rw [List.length_append] at hl
    simp only
    split
    · refine ⟨by simp, rfl, ?_, fun h => by simp at h⟩
      simp only [todo]; omega
    · have hlt : s.rem.length - u.length + (fc - s.n) + (if (readBatch rd.nbeampol s.rem).2.2 = true then 0 else 1)
          < todo fc s := by
        simp only [todo, he]
        by_cases hb2 : (readBatch rd.nbeampol s.rem).2.2 = true
        · rw [if_pos hb2, if_neg (by simp)]; omega
        · rw [if_neg hb2, if_neg (by simp)]
          have := hu4 (by simpa using hb2)
          omega
      have e : (readBatch rd.nbeampol s.rem).2.1.length = s.rem.length - u.length := by omega
      refine ⟨by simp, rfl, ?_, fun _ _ => ?_⟩
      · simp only [todo, e] at hlt ⊢; omega
      · simp only [todo, e] at hlt ⊢; omega

theorem autofill_no_hang (rd : Reader) (cf : Option (List F)) (c : Int) (tt : Nat → Int) (st : St Id Id Payload) :
    autofill rd cf c tt st ≠ .error .hang := by
  have hf : ∀ (n m : Nat) (st : St Id Id Payload), fillLoop rd cf c (tt 0) st m n ≠ .error .hang := by
    intro n
    induction n with
    | zero => intro m st; simp [fillLoop]
    | succ n ih =>
      intro m st
      simp only [fillLoop]
      split
      · simp
      · split
        · simp
        · exact ih _ _
  unfold autofill
  split
  · simp
  · split
    · simp
    · simp only
      split
      · exact hf _ _ _
      · simp

theorem place_no_hang (rd : Reader) (fc : Nat) (l : List F) : ∀ a : Acc, (place rd fc a l).2 ≠ some .hang := by
  induction l with
  | nil => intro a; simp [place]
  | cons f l ih =>
    intro a
    simp only [place]
    split
    · rename_i e he
      intro h
      simp only [Option.some.injEq] at h
      subst h
      unfold place1 at he
      split at he
      · simp at he
      · simp only at he
        repeat' split at he
        all_goals simp at he
    · exact ih _

theorem emit_todo (rd : Reader) (fc : Nat) (s : LS) (hn : s.n < fc) :
    (emit rd fc s).2 ≠ some .hang ∧ (emit rd fc s).1.n ≤ fc ∧
    ((emit rd fc s).2 = none → todo fc (emit rd fc s).1 ≤ todo fc s ∧
      (overfilled rd.cfg s.buf = true → todo fc (emit rd fc s).1 < todo fc s)) := by
  unfold emit
  split
  · rename_i hpk
    refine ⟨by simp, by simp only; omega, fun _ => ⟨Nat.le_refl _, fun ho => ?_⟩⟩
    exfalso
    simp only [overfilled, decide_eq_true_eq] at ho
    unfold peek at hpk
    rw [if_neg (by simp [filled]; omega), minKey_none] at hpk
    rw [hpk] at ho
    simp at ho
  · split
    · rename_i e he
      refine ⟨?_, by simp only; omega, fun h => by simp at h⟩
      intro h
      simp only [Option.some.injEq] at h
      subst h
      exact autofill_no_hang _ _ _ _ _ he
    · rename_i st hst
      have hlen := autofill_length _ _ _ _ _ _ hst
      simp only
      split
      · rename_i k l hg
        split
        · rename_i e he
          refine ⟨?_, by simp only; omega, fun h => by simp at h⟩
          intro h
          simp only [Option.some.injEq] at h
          subst h
          exact place_no_hang _ _ _ _ he
        · refine ⟨by simp, by simp only; omega, fun _ => ⟨?_, fun _ => ?_⟩⟩
          · simp only [todo]; omega
          · simp only [todo]; omega
      · rename_i hg
        refine ⟨by simp, by simp only; omega, fun _ => ⟨?_, fun ho => ?_⟩⟩
        · simp only [todo]; omega
        · exfalso
          simp only [overfilled, decide_eq_true_eq] at ho
          obtain ⟨k, l, h⟩ := get_group rd.cfg st (by omega) (by omega)
          exact hg k l h

theorem loop_todo (rd : Reader) (hb : 1 ≤ rd.nbeampol) (fc : Nat) (k : Nat) : ∀ s : LS, s.n ≤ fc → todo fc s < k →
    (loop rd fc k s).2 ≠ some .hang ∧ (loop rd fc k s).1.n ≤ fc := by
  induction k with
  | zero => intro s _ h; omega
  | succ k ih =>
    intro s hn h
    simp only [loop]
    split
    · exact ⟨by simp, hn⟩
    · rename_i hc
      have he : s.eof = false := by
        cases hh : s.eof
        · rfl
        · exact absurd (.inl hh) hc
      have hlt : s.n < fc := by
        have : s.n ≠ fc := fun e => hc (.inr e)
        omega
      obtain ⟨f1, f2, f3, f4⟩ := fetch_todo rd hb fc s he
      unfold turn
      simp only
      cases hf : (fetch rd s).2 with
      | some e =>
        simp only
        rw [hf] at f1
        exact ⟨f1, by omega⟩
      | none =>
        simp only
        obtain ⟨g1, g2, g3⟩ := emit_todo rd fc (fetch rd s).1 (by omega)
        split
        · rename_i e h'
          rw [h'] at g1
          exact ⟨g1, g2⟩
        · rename_i h'
          obtain ⟨g4, g5⟩ := g3 h'
          apply ih _ g2
          cases ho : overfilled rd.cfg (fetch rd s).1.buf
          · have := f4 hf ho; omega
          · have := g5 ho; omega

theorem flushLoop_todo (rd : Reader) (fc : Nat) (ks : List Int) : ∀ s : LS, s.n < fc →
    (flushLoop rd fc ks s).2 ≠ some .hang ∧ (flushLoop rd fc ks s).1.n ≤ fc := by
  induction ks with
  | nil => intro s h; exact ⟨by simp [flushLoop], by simp only [flushLoop]; omega⟩
  | cons k ks ih =>
    intro s h
    simp only [flushLoop]
    split
    · split
      · rename_i e he
        refine ⟨?_, by simp only; omega⟩
        intro hh
        simp only [Option.some.injEq] at hh
        subst hh
        exact place_no_hang _ _ _ _ he
      · split
        · rename_i h1
          exact ⟨by simp, Nat.le_of_eq h1⟩
        · rename_i h1
          exact ih _ (Nat.lt_of_le_of_ne h h1)
    · exact ⟨by simp, by simp only; omega⟩

/-- A call on any file and in any state ends, and never returns more than it was asked for. -/
theorem C40_read_ends (rd : Reader) (hb : 1 ≤ rd.nbeampol) (fc : Nat) (s : RS) :
    (read rd fc s).2 ≠ .error .hang ∧ ∀ o, (read rd fc s).2 = .ok o → o.nsets ≤ fc := by
  unfold read
  split
  · exact ⟨by simp, fun o h => by simp at h⟩
  · obtain ⟨h1, h2⟩ := loop_todo rd hb fc (s.rem.length + fc + 2) (start s) (by simp [start]) (by simp [todo, start])
    simp only
    split
    · rename_i e he
      rw [he] at h1
      exact ⟨fun h => h1 (by simpa using h), fun o h => by simp at h⟩
    · simp only [finish]
      split
      · rename_i e he
        refine ⟨?_, fun o h => by simp at h⟩
        intro h
        simp only [Except.error.injEq] at h
        subst h
        split at he
        · rename_i hc
          exact (flushLoop_todo rd fc _ _ (by omega)).1 he
        · simp at he
      · refine ⟨by simp, fun o h => ?_⟩
        simp only [Except.ok.injEq] at h
        subst h
        simp only
        split
        · rename_i hc
          exact (flushLoop_todo rd fc _ _ (by omega)).2
        · exact h2

/-! ## Durations -/

/-- The number of frame sets asked for is at least one and, when the duration is half a frame or more, within
half a frame of the duration. -/
theorem C40_frameCount (duration rate : Rat) (hd : 0 ≤ duration) (hr : 0 < rate) :
    ∃ n, frameCount duration rate = some n ∧ 1 ≤ n ∧
      ((1/2 : Rat) < duration * rate / 4096 →
        (n : Rat) - duration * rate / 4096 ≤ 1/2 ∧ duration * rate / 4096 - n ≤ 1/2) := by
  have hx : 0 ≤ duration * rate / 4096 := by
    have : 0 ≤ duration * rate := Rat.mul_nonneg hd (Rat.le_of_lt hr)
    grind
  unfold frameCount
  generalize duration * rate / 4096 = x at hx
  obtain ⟨h1, h2⟩ := round_half x
  have h0 : 0 ≤ roundHalfEven x := by
    apply intCast_le_of
    grind
  simp only
  by_cases hz : roundHalfEven x = 0
  · rw [if_pos hz, if_neg (by omega)]
    refine ⟨1, rfl, Nat.le_refl _, fun h => ?_⟩
    rw [hz] at h1
    grind
  · rw [if_neg hz, if_neg (by omega)]
    refine ⟨_, rfl, by omega, fun h => ?_⟩
    have e : (((roundHalfEven x).toNat : Nat) : Rat) = (roundHalfEven x : Rat) := by
      rw [← Rat.intCast_natCast, Int.toNat_of_nonneg h0]
    rw [e]
    exact ⟨h2, h1⟩

/-! ## Files that are not regular -/

/-- Frame of step `k` (the time tags are 10 apart) with one value. -/
def wf (k t p b : Nat) : Option F := some ⟨61849368000000100 + 10 * k, (1, t, p), (1, t, p), false, [b]⟩

/-- The time tag of step `k`. -/
def wt (k : Nat) : Int := 61849368000000100 + 10 * k

/-- Reader of the examples: default autofill size, time tag errors not ignored. -/
def wrd (tunes pols : List Nat) (nseg : Nat) : Reader :=
  drxReader 1 tunes pols nseg (tunes.length * pols.length) 10 50 false

/-- A result without functions, for `decide`. -/
def shown : Except Err Out → Err ⊕ (Nat × Option Int × List (List Payload))
  | .error e => .inl e
  | .ok o => .inr (o.nsets, o.setTime, (List.range 4).map o.rows)

/-- A missing step in the middle of a file is filled with zeros. -/
theorem C40_gap_filled :
    (reads (wrd [1] [0] 2) [9, 9] (opened (wrd [1] [0] 2)
      [wf 0 1 0 5, wf 1 1 0 6, wf 3 1 0 7, wf 4 1 0 8, wf 5 1 0 9] false)).map shown =
    [.inr (6, some (wt 0), [[[5], [6], [0], [7], [8], [9]], [], [], []]), .inl .eof] := by decide +kernel

/-- The gap must be smaller than the configured size: with size 2 one step is filled, two are not. -/
theorem C40_gap_limit :
    ((reads { wrd [1] [0] 2 with autofill := 2 } [9] (opened (wrd [1] [0] 2)
      [wf 0 1 0 5, wf 1 1 0 6, wf 3 1 0 7, wf 4 1 0 8] false)).map shown =
      [.inr (5, some (wt 0), [[[5], [6], [0], [7], [8]], [], [], []])]) ∧
    ((reads { wrd [1] [0] 2 with autofill := 2 } [9] (opened (wrd [1] [0] 2)
      [wf 0 1 0 5, wf 1 1 0 6, wf 4 1 0 7, wf 5 1 0 8] false)).map shown = [.inl .timetag]) := by
  constructor <;> decide +kernel

/-- With time tag errors ignored, frames of another beam go to the same rows, and the call raises `ValueError`
when the row is full. -/
theorem C40_other_beam_overflows :
    (reads { wrd [1] [0] 2 with ignoreErr := true } [2] (opened (wrd [1] [0] 2)
      [wf 0 1 0 5, some ⟨wt 0, (2, 1, 0), (2, 1, 0), false, [6]⟩, wf 1 1 0 7, wf 2 1 0 8] false)).map shown =
    [.inl .shape] := by decide +kernel

/-- The same file recorded with tuning 2 only: the gap is not filled, the call raises. -/
theorem C40_gap_tuning2_raises :
    (reads (wrd [2] [0] 2) [9] (opened (wrd [2] [0] 2)
      [wf 0 2 0 5, wf 1 2 0 6, wf 3 2 0 7, wf 4 2 0 8, wf 5 2 0 9] false)).map shown = [.inl .timetag] := by
  decide +kernel

/-- A gap among the last buffered steps is not filled either. -/
theorem C40_gap_at_end_raises :
    (reads (wrd [1] [0] 2) [9] (opened (wrd [1] [0] 2)
      [wf 0 1 0 5, wf 1 1 0 6, wf 2 1 0 7, wf 4 1 0 8] false)).map shown = [.inl .timetag] := by decide +kernel

/-- When the file ends in the middle of a step while a gap is to be filled, `cFrames` is empty and
`cFrames[0]` raises `IndexError` (only `NameError` is caught, ldp.py:625-628). -/
theorem C40_gap_at_partial_end_raises :
    (reads (wrd [1] [0, 1] 2) [9] (opened (wrd [1] [0, 1] 2)
      [wf 0 1 0 5, wf 0 1 1 5, wf 1 1 0 6, wf 1 1 1 6, wf 3 1 0 7, wf 3 1 1 7, wf 4 1 0 8] false)).map shown =
    [.inl .index] := by decide +kernel

/-- Frames out of order in the middle of the file are put in order; at the end of the file they raise, because
the flush hands out the steps in order of arrival. -/
theorem C40_late_at_end_raises :
    ((reads (wrd [1] [0] 3) [9] (opened (wrd [1] [0] 3)
      [wf 0 1 0 5, wf 2 1 0 7, wf 1 1 0 6, wf 3 1 0 8, wf 4 1 0 9] false)).map shown =
      [.inr (5, some (wt 0), [[[5], [6], [7], [8], [9]], [], [], []])]) ∧
    ((reads (wrd [1] [0] 3) [9] (opened (wrd [1] [0] 3)
      [wf 0 1 0 5, wf 2 1 0 7, wf 1 1 0 6] false)).map shown = [.inl .timetag]) := by constructor <;> decide +kernel

/-- A tuning that was not seen when the file was opened and begins at step 2: its data are put at the start of
its row, two steps too early. -/
theorem C40_late_tuning_shifted :
    (reads (wrd [1] [0] 2) [9] (opened (wrd [1] [0] 2)
      [wf 0 1 0 5, wf 1 1 0 6, wf 2 1 0 7, wf 2 2 0 70, wf 3 1 0 8, wf 3 2 0 80] false)).map shown =
    [.inr (4, some (wt 0), [[[5], [6], [7], [8]], [], [[70], [80]], []])] := by decide +kernel

/-- With one buffered step, some bytes after the last frame give a call that returns nothing instead of
raising `EOFError`: the requirement of two buffered steps cannot be dropped. -/
theorem C40_empty_read :
    (reads (wrd [1] [0] 1) [2, 1, 1] (opened (wrd [1] [0] 1) [wf 0 1 0 5, wf 1 1 0 6] true)).map shown =
    [.inr (2, some (wt 0), [[[5], [6]], [], [], []]), .inr (0, none, [[], [], [], []]), .inl .eof] := by
  decide +kernel

/-- A regular file: four ids, a missing frame, a late frame, a sync error, and what is read from it. -/
def exampleFile : List (Option F) :=
  [wf 0 1 0 1, wf 0 1 1 2, wf 0 2 0 3, wf 0 2 1 4, wf 1 1 0 5, wf 1 1 1 6, none, wf 1 2 1 8, wf 2 1 0 9, wf 1 2 0 7,
   wf 2 2 0 11, wf 2 2 1 12]

example : Regular (drxIds [1] [1, 2] [0, 1]) 3 1 (wt 0) 10 (exampleFile.filterMap id) :=
  ⟨by decide, by decide, by decide, by decide,
    ⟨0, by decide, by decide, by decide, 0, by decide, by decide, by decide, 0, by decide, by decide, by decide,
     0, by decide, by decide, by decide, 1, by decide, by decide, by decide, 1, by decide, by decide, by decide,
     1, by decide, by decide, by decide, 2, by decide, by decide, by decide, 1, by decide, by decide, by decide,
     2, by decide, by decide, by decide, 2, by decide, by decide, by decide, trivial⟩,
    by decide⟩

example : (reads (wrd [1, 2] [0, 1] 3) [2, 2, 1] (opened (wrd [1, 2] [0, 1] 3) exampleFile false)).map shown =
    [.inr (2, some (wt 0), [[[1], [5]], [[2], [6]], [[3], [7]], [[4], [8]]]),
     .inr (1, some (wt 2), [[[9]], [[0]], [[11]], [[12]]]), .inl .eof] := by decide +kernel

example : frameCount (1/100) 19600000 = some 48 ∧ frameCount 0 19600000 = some 1 ∧
    frameCount (-1) 19600000 = none := by decide +kernel

end Verif.Ldp
