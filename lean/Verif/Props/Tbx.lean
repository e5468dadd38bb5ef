import Verif.Model.Tbx
import Verif.Lemmas.Bytes
/-!
# C09: TBX reader and its history
-/
namespace Verif.Tbx

/-! ## Specification: reading without any memory of earlier reads -/

def modeAt (f : Bytes) (pos : Nat) : Nat × Nat :=
  (beDec (readAt f (pos + 16) 2), beDec (readAt f (pos + 18) 2))

/-- Outcome and position for a file that has enough bytes left to look at. -/
def specRead (f : Bytes) (pos : Nat) : Except ReadErr Frame × Nat :=
  if ¬ supported (modeAt f pos) then (.error .sync, pos)
  else if f.length < pos + frameSize (modeAt f pos) then (.error .eof, f.length)
  else if readAt f pos 4 ≠ Drx.syncBytes then (.error .sync, pos)
  else (.ok (decode (readAt f pos (frameSize (modeAt f pos)))), pos + frameSize (modeAt f pos))

/-- States the process can be in: the cached python size belongs to the cached mode. -/
def Consistent (st : State) : Prop := st.size = none ∨ st.size = some (frameSize (dispatch st))

/-! ## Proofs -/

theorem slice_readAt (f : Bytes) (pos n a w : Nat) (h : a + w ≤ n) :
    slice (readAt f pos n) a w = readAt f (pos + a) w := by
  unfold slice readAt
  rw [List.drop_take, List.drop_drop, List.take_take, Nat.min_eq_left (by omega)]

theorem dispatch_supported (m : Nat × Nat) (h : supported m = true) (s : Option Nat) :
    dispatch ⟨m.1, m.2, s⟩ = m := by
  obtain ⟨a, b⟩ := m
  simp only [supported, Bool.and_eq_true, Bool.or_eq_true, beq_iff_eq] at h
  unfold dispatch
  simp only [Prod.mk.injEq]
  constructor
  · rcases h.1 with (h | h) | h <;> simp [h]
  · rcases h.2 with ((h | h) | h) | h <;> simp [h]

theorem dispatch_is_supported (st : State) : supported (dispatch st) = true := by
  have h1 : (dispatch st).1 = 64 ∨ (dispatch st).1 = 128 ∨ (dispatch st).1 = 256 := by
    unfold dispatch; simp only; split <;> (try split) <;> simp
  have h2 : (dispatch st).2 = 4 ∨ (dispatch st).2 = 8 ∨ (dispatch st).2 = 12 ∨
      (dispatch st).2 = 16 := by
    unfold dispatch; simp only; split <;> (try split) <;> (try split) <;> simp
  simp only [supported, Bool.and_eq_true, Bool.or_eq_true, beq_iff_eq]
  omega

theorem frameSize_bounds (m : Nat × Nat) (h : supported m = true) :
    540 ≤ frameSize m ∧ frameSize m ≤ 8220 := by
  obtain ⟨a, b⟩ := m
  simp only [supported, Bool.and_eq_true, Bool.or_eq_true, beq_iff_eq] at h
  obtain ⟨h1, h2⟩ := h
  unfold frameSize
  rcases h1 with (h1 | h1) | h1 <;> rcases h2 with ((h2 | h2) | h2) | h2 <;> simp [h1, h2]

theorem frameSize_mk (a b : Nat) : frameSize (a, b) = 28 + 2 * a * b := by
  simp only [frameSize]; grind

/-- One call when the header in the file already has the mode of the instance. -/
theorem impl_match (fuel : Nat) (m : Nat × Nat) (st : State) (f : Bytes) (pos : Nat)
    (hm : supported m = true) (hsz : st.size = none ∨ st.size = some (frameSize m))
    (hmode : modeAt f pos = m) :
    ∃ st', readImpl (fuel + 1) m st f pos = some ((specRead f pos).1,
        if f.length < pos + frameSize m then max pos f.length else (specRead f pos).2, st') ∧
      st' = { st with size := some (frameSize m) } := by
  have hs : st.size.getD (frameSize m) = frameSize m := by rcases hsz with h | h <;> simp [h]
  have hb := frameSize_bounds m hm
  have hl := readAt_length f pos (frameSize m)
  refine ⟨_, ?_, rfl⟩
  unfold readImpl
  simp only [hs]
  unfold specRead
  rw [hmode]
  simp only [hm, not_true_eq_false, ↓reduceIte]
  by_cases hlen : f.length < pos + frameSize m
  · rw [if_pos (by omega)]
    simp only [hlen, ↓reduceIte, Option.some.injEq, Prod.mk.injEq, true_and, and_true]
    omega
  · rw [if_neg (by omega)]
    have e1 : slice (readAt f pos (frameSize m)) 16 2 = readAt f (pos + 16) 2 :=
      slice_readAt _ _ _ _ _ (by omega)
    have e2 : slice (readAt f pos (frameSize m)) 18 2 = readAt f (pos + 18) 2 :=
      slice_readAt _ _ _ _ _ (by omega)
    have e0 : slice (readAt f pos (frameSize m)) 0 4 = readAt f pos 4 :=
      slice_readAt _ _ _ _ _ (by omega)
    simp only [e1, e2, e0]
    rw [show (beDec (readAt f (pos + 16) 2), beDec (readAt f (pos + 18) 2)) = m from hmode]
    simp only [ne_eq, not_true_eq_false, ↓reduceIte, hlen]
    split
    · simp only [Option.some.injEq, Prod.mk.injEq, true_and, and_true]; omega
    · simp only [Option.some.injEq, Prod.mk.injEq, true_and, and_true]; omega

/-- What a read does in any consistent state, in full: end of file if the cached mode's size is not
available; otherwise exactly the memoryless specification. -/
theorem read_char (fuel : Nat) (st : State) (hst : Consistent st) (f : Bytes) (pos : Nat) :
    ∃ st', (f.length < pos + frameSize (dispatch st) ∨ ¬ supported (modeAt f pos) = true ∨
        dispatch st' = modeAt f pos) ∧ read (fuel + 2) st f pos =
      if f.length < pos + frameSize (dispatch st) then some (.error .eof, max pos f.length, st')
      else some ((specRead f pos).1, (specRead f pos).2, st') := by
  have hd := dispatch_is_supported st
  have hb := frameSize_bounds _ hd
  have hl := readAt_length f pos (frameSize (dispatch st))
  have hs : st.size.getD (frameSize (dispatch st)) = frameSize (dispatch st) := by
    rcases hst with h | h <;> simp [h]
  by_cases hlen : f.length < pos + frameSize (dispatch st)
  · refine ⟨{ st with size := some (frameSize (dispatch st)) }, .inl hlen, ?_⟩
    unfold read readImpl
    simp only [hs, hlen, ↓reduceIte]
    rw [if_pos (by omega)]
    simp only [Option.some.injEq, Prod.mk.injEq, true_and, and_true]
    omega
  · simp only [hlen, ↓reduceIte]
    by_cases hmode : modeAt f pos = dispatch st
    · obtain ⟨st', h1, h2⟩ := impl_match (fuel + 1) (dispatch st) st f pos hd hst hmode
      refine ⟨st', by rw [h2, hmode]; exact .inr (.inr rfl), ?_⟩
      unfold read
      rw [h1]
      simp [hlen]
    · have e1 : slice (readAt f pos (frameSize (dispatch st))) 16 2 = readAt f (pos + 16) 2 :=
        slice_readAt _ _ _ _ _ (by omega)
      have e2 : slice (readAt f pos (frameSize (dispatch st))) 18 2 = readAt f (pos + 18) 2 :=
        slice_readAt _ _ _ _ _ (by omega)
      have hp : pos + (readAt f pos (frameSize (dispatch st))).length - frameSize (dispatch st)
          = pos := by omega
      unfold read readImpl
      simp only [hs]
      rw [if_neg (by omega)]
      simp only [e1, e2]
      have hne : (beDec (readAt f (pos + 16) 2), beDec (readAt f (pos + 18) 2)) ≠ dispatch st := hmode
      rw [if_pos hne, hp]
      by_cases hsup : supported (modeAt f pos) = true
      · obtain ⟨st', h1, h2⟩ := impl_match fuel (modeAt f pos)
          ⟨(modeAt f pos).1, (modeAt f pos).2, none⟩ f pos hsup (.inl rfl) rfl
        refine ⟨st', ?_, ?_⟩
        · rw [h2]; right; right; exact dispatch_supported _ hsup _
        · have hsup' : supported (beDec (readAt f (pos + 16) 2), beDec (readAt f (pos + 18) 2)) = true :=
            hsup
          rw [if_pos hsup']
          refine h1.trans ?_
          simp only [Option.some.injEq, Prod.mk.injEq, true_and, and_true]
          split
          · rename_i hc
            unfold specRead
            simp only [hsup, not_true_eq_false, ↓reduceIte, hc]
            omega
          · rfl
      · refine ⟨⟨(modeAt f pos).1, (modeAt f pos).2, none⟩, .inr (.inl hsup), ?_⟩
        have hsup' : ¬ supported (beDec (readAt f (pos + 16) 2), beDec (readAt f (pos + 18) 2)) = true :=
          hsup
        rw [if_neg hsup']
        unfold specRead
        simp only [hsup]
        simp [modeAt]

/-- A history of reads of any files at any positions, from load time on. -/
inductive Reachable : State → Prop
  | init : Reachable State.init
  | step {st : State} {fuel : Nat} {f : Bytes} {pos : Nat} {r : Except ReadErr Frame} {p : Nat}
      {st' : State} : Reachable st → read fuel st f pos = some (r, p, st') → Reachable st'

theorem readImpl_consistent : ∀ (fuel : Nat) (m : Nat × Nat) (st : State) (f : Bytes) (pos : Nat)
    (r : Except ReadErr Frame) (p : Nat) (st' : State),
    dispatch st = m → Consistent st →
    readImpl fuel m st f pos = some (r, p, st') → Consistent st' := by
  intro fuel
  induction fuel with
  | zero => intro m st f pos r p st' _ _ h; simp [readImpl] at h
  | succ fuel ih =>
    intro m st f pos r p st' hm hst h
    have hs : st.size.getD (frameSize m) = frameSize m := by
      rcases hst with h | h <;> simp [h, hm]
    unfold readImpl at h
    simp only [hs] at h
    have hc : Consistent { st with size := some (frameSize m) } := by
      right; rw [← hm]; rfl
    split at h
    · simp only [Option.some.injEq, Prod.mk.injEq] at h; rw [← h.2.2]; exact hc
    · split at h
      · split at h
        · rename_i hsup
          exact ih _ _ _ _ _ _ _ (dispatch_supported _ hsup none) (.inl rfl) h
        · simp only [Option.some.injEq, Prod.mk.injEq] at h; rw [← h.2.2]; exact .inl rfl
      · split at h
        · simp only [Option.some.injEq, Prod.mk.injEq] at h; rw [← h.2.2]; exact hc
        · simp only [Option.some.injEq, Prod.mk.injEq] at h; rw [← h.2.2]; exact hc

theorem reachable_consistent {st : State} (h : Reachable st) : Consistent st := by
  induction h with
  | init => exact .inl rfl
  | step _ hr ih => exact readImpl_consistent _ _ _ _ _ _ _ _ rfl ih hr

/-- The automatic re-read always terminates: two nested calls suffice, after any history. -/
theorem C09_terminates (st : State) (h : Reachable st) (f : Bytes) (pos fuel : Nat) (hf : 2 ≤ fuel) :
    read fuel st f pos ≠ none := by
  obtain ⟨st', _, hr⟩ := read_char (fuel - 2) st (reachable_consistent h) f pos
  rw [show fuel - 2 + 2 = fuel by omega] at hr
  rw [hr]; split <;> simp

/-- After any history, a read with at least 8220 bytes left (the largest frame) gives exactly the
memoryless result and position.  Missing from the full property: fewer bytes left
(`C09_short_file`). -/
theorem C09_history_free_partial (st : State) (h : Reachable st) (f : Bytes) (pos fuel : Nat)
    (hf : 2 ≤ fuel) (hlen : pos + 8220 ≤ f.length) :
    ∃ st', read fuel st f pos = some ((specRead f pos).1, (specRead f pos).2, st') := by
  obtain ⟨st', _, hr⟩ := read_char (fuel - 2) st (reachable_consistent h) f pos
  have hb := frameSize_bounds _ (dispatch_is_supported st)
  rw [show fuel - 2 + 2 = fuel by omega, if_neg (by omega)] at hr
  exact ⟨st', hr⟩

/-- The exact limit: the result is memoryless whenever a frame of the last mode seen would fit, and
otherwise it is an end-of-file error. -/
theorem C09_exact (st : State) (h : Reachable st) (f : Bytes) (pos fuel : Nat) (hf : 2 ≤ fuel) :
    ∃ st', read fuel st f pos = if f.length < pos + frameSize (dispatch st) then
        some (.error .eof, max pos f.length, st')
      else some ((specRead f pos).1, (specRead f pos).2, st') := by
  obtain ⟨st', _, hr⟩ := read_char (fuel - 2) st (reachable_consistent h) f pos
  rw [show fuel - 2 + 2 = fuel by omega] at hr
  exact ⟨st', hr⟩

/-- A homogeneous stream: once a frame of a mode has been read, frames of that mode are read to the
very last one. -/
theorem C09_same_mode (st : State) (h : Reachable st) (f : Bytes) (pos fuel : Nat) (hf : 2 ≤ fuel)
    (hm : modeAt f pos = dispatch st) (hlen : pos + frameSize (modeAt f pos) ≤ f.length) :
    ∃ st', read fuel st f pos = some ((specRead f pos).1, (specRead f pos).2, st') ∧
      dispatch st' = dispatch st := by
  obtain ⟨st', h1, h2⟩ := impl_match (fuel - 1) (dispatch st) st f pos (dispatch_is_supported st)
    (reachable_consistent h) hm
  rw [hm] at hlen
  refine ⟨st', ?_, by rw [h2]; rfl⟩
  unfold read
  rw [show fuel = fuel - 1 + 1 by omega, h1, if_neg (by omega)]

/-- A file with one 64-stand 4-channel frame. -/
def tinyFile : Bytes := Drx.syncBytes ++ [8, 0, 0, 1] ++ [0, 0, 0, 0] ++ [0, 0, 0, 100] ++ [0, 64] ++
  [0, 4] ++ [0, 0, 0, 0, 0, 0, 0, 9] ++ List.replicate 512 0x1F

/-- The same frame with other data behind it. -/
def longFile : Bytes := tinyFile ++ List.replicate 7680 0

theorem tiny_mode : modeAt tinyFile 0 = (64, 4) := by decide
theorem long_mode : modeAt longFile 0 = (64, 4) := by decide
theorem tiny_length : tinyFile.length = 540 := by
  simp only [tinyFile, List.length_append, List.length_replicate]; rfl
theorem long_length : longFile.length = 8220 := by
  simp only [longFile, List.length_append, List.length_replicate, tiny_length]
theorem tiny_spec : specRead tinyFile 0 = (.ok (decode (readAt tinyFile 0 540)), 540) := by
  unfold specRead
  rw [tiny_mode, tiny_length]
  rw [if_neg (by decide), if_neg (by decide), if_neg (by decide)]
  rfl

/-- The property is false: a complete 540-byte file cannot be read by a fresh process, but the same
file is read by a process that has read such a frame from a longer file before. -/
theorem C09_short_file : ∃ st, Reachable st ∧
    (∃ st', read 2 State.init tinyFile 0 = some (.error .eof, 540, st')) ∧
    ∃ fr st', read 2 st tinyFile 0 = some (.ok fr, 540, st') ∧ fr.nstand = 64 ∧ fr.nchan = 4 ∧
      fr.timetag = 9 := by
  obtain ⟨st1, h1, h2⟩ := read_char 0 State.init (.inl rfl) longFile 0
  have hi : frameSize (dispatch State.init) = 8220 := by decide
  rw [hi, long_length] at h1 h2
  rw [if_neg (by decide)] at h2
  have hd : dispatch st1 = (64, 4) := by
    rcases h1 with h | h | h
    · omega
    · rw [long_mode] at h; exact absurd (by decide) h
    · rw [h, long_mode]
  have hr : Reachable st1 := .step .init h2
  refine ⟨st1, hr, ?_, ?_⟩
  · obtain ⟨st', h⟩ := C09_exact State.init .init tinyFile 0 2 (by omega)
    rw [hi, tiny_length, if_pos (by decide)] at h
    exact ⟨st', h⟩
  · obtain ⟨st', h⟩ := C09_exact st1 hr tinyFile 0 2 (by omega)
    rw [hd, tiny_length, if_neg (by decide), tiny_spec] at h
    exact ⟨_, st', h, by decide, by decide, by decide⟩

/-- The hypotheses of the theorems above are met by this file after any history. -/
example (st : State) (h : Reachable st) : ∃ fr st', read 2 st longFile 0 = some (.ok fr, 540, st') ∧
    fr.nstand = 64 := by
  obtain ⟨st', h⟩ := C09_history_free_partial st h longFile 0 2 (by omega) (by rw [long_length]; omega)
  refine ⟨decode (readAt longFile 0 540), st', ?_, by decide⟩
  have : specRead longFile 0 = (.ok (decode (readAt longFile 0 540)), 540) := by
    unfold specRead
    rw [long_mode, long_length]
    rw [if_neg (by decide), if_neg (by decide), if_neg (by decide)]
    rfl
  rw [h, this]

/-- Field values of a decoded frame, stated on the bytes of the file. -/
theorem C09_fields (f : Bytes) (pos : Nat) (fr : Frame) (p : Nat)
    (h : specRead f pos = (.ok fr, p)) :
    fr.frameId = beDec (readAt f (pos + 4) 1) ∧ fr.frameCount = beDec (readAt f (pos + 5) 3) ∧
    fr.secondCount = beDec (readAt f (pos + 8) 4) ∧ fr.firstChan = toSigned 32 (beDec (readAt f (pos + 12) 4)) ∧
    (fr.nstand, fr.nchan) = modeAt f pos ∧ fr.timetag = toSigned 64 (beDec (readAt f (pos + 20) 8)) ∧
    fr.data.length = 2 * fr.nstand * fr.nchan ∧ p = pos + 28 + 2 * fr.nstand * fr.nchan := by
  unfold specRead at h
  split at h
  · simp at h
  · rename_i hs
    have hb := frameSize_bounds (modeAt f pos) (by simpa using hs)
    split at h
    · simp at h
    · split at h
      · simp at h
      · rename_i hl _
        simp only [Prod.mk.injEq, Except.ok.injEq] at h
        obtain ⟨rfl, rfl⟩ := h
        have hn : ((decode (readAt f pos (frameSize (modeAt f pos)))).nstand,
            (decode (readAt f pos (frameSize (modeAt f pos)))).nchan) = modeAt f pos := by
          simp only [decode]
          rw [slice_readAt _ _ _ _ _ (by omega), slice_readAt _ _ _ _ _ (by omega)]; rfl
        have hsz : frameSize (modeAt f pos) = 28 +
            2 * (decode (readAt f pos (frameSize (modeAt f pos)))).nstand *
              (decode (readAt f pos (frameSize (modeAt f pos)))).nchan := by
          rw [← frameSize_mk, hn]
        refine ⟨?_, ?_, ?_, ?_, hn, ?_, ?_, ?_⟩
        · exact congrArg beDec (slice_readAt _ _ _ _ _ (by omega))
        · exact congrArg beDec (slice_readAt _ _ _ _ _ (by omega))
        · exact congrArg beDec (slice_readAt _ _ _ _ _ (by omega))
        · exact congrArg (toSigned 32 ∘ beDec) (slice_readAt _ _ _ _ _ (by omega))
        · exact congrArg (toSigned 64 ∘ beDec) (slice_readAt _ _ _ _ _ (by omega))
        · have : (decode (readAt f pos (frameSize (modeAt f pos)))).data.length =
              frameSize (modeAt f pos) - 28 := by
            simp only [decode, Drx.decodeData, List.length_map, List.length_drop, readAt_length]
            omega
          omega
        · omega

/-- The sample of channel `c`, stand `s`, polarisation `p` is the pair of 4-bit two's complement
numbers in byte `28 + (c * nstand + s) * 2 + p` of the frame. -/
theorem C09_samples (f : Bytes) (pos : Nat) (fr : Frame) (q : Nat)
    (h : specRead f pos = (.ok fr, q)) (c s p : Nat) (hc : c < fr.nchan) (hs : s < fr.nstand)
    (hp : p < 2) :
    fr.data[(c * fr.nstand + s) * 2 + p]? =
      (f[pos + 28 + ((c * fr.nstand + s) * 2 + p)]?).map (fun b => (Drx.lut b 0, Drx.lut b 1)) := by
  have hf := C09_fields f pos fr q h
  have hlt : (c * fr.nstand + s) * 2 + p < fr.nchan * fr.nstand * 2 := by
    have h1 : (c + 1) * fr.nstand ≤ fr.nchan * fr.nstand := Nat.mul_le_mul_right _ hc
    rw [Nat.add_mul] at h1
    omega
  generalize (c * fr.nstand + s) * 2 + p = i at hlt ⊢
  have hm : frameSize (modeAt f pos) = 28 + fr.nchan * fr.nstand * 2 := by
    rw [← hf.2.2.2.2.1]; rfl
  unfold specRead at h
  split at h
  · simp at h
  · split at h
    · simp at h
    · split at h
      · simp at h
      · simp only [Prod.mk.injEq, Except.ok.injEq] at h
        rw [← h.1]
        simp only [decode, Drx.decodeData, List.getElem?_map, List.getElem?_drop, readAt]
        rw [List.getElem?_take_of_lt (by omega), List.getElem?_drop]
        rw [show pos + (28 + i) = pos + 28 + i by omega]

/-- A TBX frame on the wire, from the format description: all numbers big-endian. -/
def wire (id fc sc chan ns nc tt : Nat) (payload : Bytes) : List Bytes :=
  [[0xDE, 0xC0, 0xDE, 0x5C], beEnc 1 id, beEnc 3 fc, beEnc 4 sc, beEnc 4 chan, beEnc 2 ns, beEnc 2 nc,
    beEnc 8 tt, payload]

/-- Every frame put on the wire is read back field by field, in every context, after every history
(when 8220 bytes are available). -/
theorem C09_wire (st : State) (h : Reachable st) (id fc sc chan ns nc tt : Nat) (payload : Bytes)
    (pre post : Bytes) (hid : id < 256) (hfc : fc < 2 ^ 24) (hsc : sc < 2 ^ 32) (hch : chan < 2 ^ 31)
    (hm : supported (ns, nc) = true) (htt : tt < 2 ^ 63) (hpl : payload.length = 2 * ns * nc)
    (hpost : 8220 ≤ 28 + 2 * ns * nc + post.length) :
    ∃ st', read 2 st (pre ++ (wire id fc sc chan ns nc tt payload).flatten ++ post) pre.length =
      some (.ok ⟨id, fc, sc, chan, ns, nc, tt, Drx.decodeData payload⟩,
        pre.length + 28 + 2 * ns * nc, st') := by
  have hb : (wire id fc sc chan ns nc tt payload).flatten.length = 28 + 2 * ns * nc := by
    simp only [wire, List.length_flatten, List.map_cons, List.map_nil, beEnc_length, hpl,
      List.sum_cons, List.sum_nil, List.length_cons, List.length_nil]
    omega
  have h2 : ns < 65536 ∧ nc < 65536 := by
    simp only [supported, Bool.and_eq_true, Bool.or_eq_true, beq_iff_eq] at hm; omega
  obtain ⟨st', hr⟩ := C09_history_free_partial st h
    (pre ++ (wire id fc sc chan ns nc tt payload).flatten ++ post) pre.length 2 (by omega)
    (by simp only [List.length_append, hb]; omega)
  refine ⟨st', ?_⟩
  rw [hr]
  have hsl : ∀ off w, off + w ≤ 28 + 2 * ns * nc →
      readAt (pre ++ (wire id fc sc chan ns nc tt payload).flatten ++ post) (pre.length + off) w =
        slice (wire id fc sc chan ns nc tt payload).flatten off w := by
    intro off w hle
    unfold readAt slice
    rw [List.append_assoc, List.drop_append, List.drop_of_length_le (by omega), List.nil_append,
      Nat.add_sub_cancel_left, List.drop_append_of_le_length (by omega),
      List.take_append_of_le_length (by simp [hb]; omega)]
  have hmode : modeAt (pre ++ (wire id fc sc chan ns nc tt payload).flatten ++ post) pre.length
      = (ns, nc) := by
    unfold modeAt
    rw [hsl 16 2 (by omega), hsl 18 2 (by omega),
      slice_fields _ 5 (beEnc 2 ns) rfl (by simp [wire]) (by simp),
      slice_fields _ 6 (beEnc 2 nc) rfl (by simp [wire]) (by simp),
      beDec_beEnc_of_lt (by omega), beDec_beEnc_of_lt (by omega)]
  have hall := hsl 0 (28 + 2 * ns * nc) (by omega)
  have hs4 := hsl 0 4 (by omega)
  simp only [Nat.add_zero] at hall hs4
  unfold specRead
  rw [hmode, frameSize_mk, hall, hs4, slice_fields _ 0 [0xDE, 0xC0, 0xDE, 0x5C] (off := 0) (w := 4) rfl rfl rfl]
  rw [if_neg (by simp [hm]), if_neg (by simp only [List.length_append, hb]; omega),
    if_neg (by simp [Drx.syncBytes])]
  simp only [Option.some.injEq, Prod.mk.injEq, Except.ok.injEq, and_true]
  refine ⟨?_, by omega⟩
  have hfull : slice (wire id fc sc chan ns nc tt payload).flatten 0 (28 + 2 * ns * nc) =
      (wire id fc sc chan ns nc tt payload).flatten := by
    unfold slice; rw [List.drop_zero, List.take_of_length_le (by omega)]
  rw [hfull]
  unfold decode
  rw [slice_fields _ 1 (beEnc 1 id) rfl (by simp [wire]) (by simp),
    slice_fields _ 2 (beEnc 3 fc) rfl (by simp [wire]) (by simp),
    slice_fields _ 3 (beEnc 4 sc) rfl (by simp [wire]) (by simp),
    slice_fields _ 4 (beEnc 4 chan) rfl (by simp [wire]) (by simp),
    slice_fields _ 5 (beEnc 2 ns) rfl (by simp [wire]) (by simp),
    slice_fields _ 6 (beEnc 2 nc) rfl (by simp [wire]) (by simp),
    slice_fields _ 7 (beEnc 8 tt) rfl (by simp [wire]) (by simp)]
  have hd : (wire id fc sc chan ns nc tt payload).flatten.drop 28 = payload := by
    have := slice_fields (wire id fc sc chan ns nc tt payload) 8 payload (off := 28) rfl
      (by simp [wire]) rfl
    unfold slice at this
    rw [List.take_of_length_le (by rw [List.length_drop, hb]; omega)] at this
    exact this
  rw [hd, beDec_beEnc_of_lt (by omega), beDec_beEnc_of_lt (by omega), beDec_beEnc_of_lt (by omega),
    beDec_beEnc_of_lt (by omega), beDec_beEnc_of_lt (by omega), beDec_beEnc_of_lt (by omega),
    beDec_beEnc_of_lt (by omega)]
  simp only [toSigned, Frame.mk.injEq, true_and, and_true]
  constructor
  · rw [if_pos (by omega)]
  · rw [if_pos (by omega)]

/-- A frame and a context to which `C09_wire` applies. -/
example : supported (64, 4) = true ∧ (List.replicate 512 (0x1F : UInt8)).length = 2 * 64 * 4 ∧
    8220 ≤ 28 + 2 * 64 * 4 + (List.replicate 9000 (0 : UInt8)).length := by
  refine ⟨by decide, by simp only [List.length_replicate], ?_⟩
  rw [List.length_replicate]; omega

end Verif.Tbx
