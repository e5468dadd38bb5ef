import Verif.Model.Cor
import Verif.Props.Tbx
/-!
# C10: COR reader and its history
-/
namespace Verif.Cor

open Tbx (slice_readAt)

/-! ## Specification on the bytes of the file -/

/-- A frame of `n` channels at `pos` would be followed by another frame. -/
def SyncAfter (f : Bytes) (pos n : Nat) : Prop := readAt f (pos + frameSize n) 4 = Drx.syncBytes

instance (f : Bytes) (pos n : Nat) : Decidable (SyncAfter f pos n) := by
  unfold SyncAfter; infer_instance

/-- Number of channels seen when up to `n` channels are looked at. -/
def chansUpTo (f : Bytes) (pos n : Nat) : Nat :=
  match [33, 72, 112].filter (fun k => decide (k < n) && decide (SyncAfter f pos k)) with
  | k :: _ => k
  | [] => n

/-- Outcome and position when up to `n` channels are looked at. -/
def specRead (n : Nat) (f : Bytes) (pos : Nat) : Except ReadErr Frame × Nat :=
  if f.length < pos + frameSize n then (.error .eof, max pos f.length)
  else if readAt f pos 4 ≠ Drx.syncBytes then (.error .sync, pos)
  else (.ok (decode (readAt f pos (frameSize (chansUpTo f pos n)))),
    pos + frameSize (chansUpTo f pos n))

/-- The cached python size belongs to the cached channel count. -/
def Consistent (st : State) : Prop := st.size = none ∨ st.size = some (frameSize (dispatch st))

def Mode (n : Nat) : Prop := n = 33 ∨ n = 72 ∨ n = 112 ∨ n = 192

/-! ## Proofs -/

theorem dispatch_mode (st : State) : Mode (dispatch st) := by
  unfold dispatch Mode; split <;> (try split) <;> (try split) <;> simp

theorem dispatch_of_mode {n : Nat} (h : Mode n) (s : Option Nat) : dispatch ⟨n, s⟩ = n := by
  rcases h with h | h | h | h <;> subst h <;> rfl

theorem slice_sync (f : Bytes) (pos n k : Nat) (h : k < n) :
    slice (readAt f pos (frameSize n)) (32 + k * 32) 4 = Drx.syncBytes ↔ SyncAfter f pos k := by
  rw [slice_readAt _ _ _ _ _ (by unfold frameSize; omega)]; rfl

theorem detect_eq (f : Bytes) (pos n : Nat) (h : Mode n) :
    detect n (readAt f pos (frameSize n)) = chansUpTo f pos n := by
  rcases h with h | h | h | h <;> subst h
  · simp [detect, chansUpTo]
  · simp only [detect, slice_sync f pos 72 33 (by decide), chansUpTo]
    by_cases a : SyncAfter f pos 33 <;> simp [a]
  · simp only [detect, slice_sync f pos 112 33 (by decide), slice_sync f pos 112 72 (by decide),
      chansUpTo]
    by_cases a : SyncAfter f pos 33 <;> by_cases b : SyncAfter f pos 72 <;> simp [a, b]
  · simp only [detect, slice_sync f pos 192 33 (by decide), slice_sync f pos 192 72 (by decide),
      slice_sync f pos 192 112 (by decide), chansUpTo]
    by_cases a : SyncAfter f pos 33 <;> by_cases b : SyncAfter f pos 72 <;>
      by_cases c : SyncAfter f pos 112 <;> simp [a, b, c]

theorem chans_mode (f : Bytes) (pos n : Nat) (h : Mode n) :
    Mode (chansUpTo f pos n) ∧ chansUpTo f pos n ≤ n := by
  unfold chansUpTo
  split
  · rename_i k l hk
    have hm : k ∈ [33, 72, 112].filter (fun k => decide (k < n) && decide (SyncAfter f pos k)) := by
      rw [hk]; exact List.mem_cons_self
    simp only [List.mem_filter, Bool.and_eq_true, decide_eq_true_eq] at hm
    refine ⟨?_, by omega⟩
    have := hm.1
    simp only [List.mem_cons, List.not_mem_nil, or_false] at this
    unfold Mode; omega
  · exact ⟨h, Nat.le_refl _⟩

/-- Looking again with the count just found finds the same count: no further re-read. -/
theorem chans_stable (f : Bytes) (pos n : Nat) (h : Mode n) :
    chansUpTo f pos (chansUpTo f pos n) = chansUpTo f pos n := by
  unfold chansUpTo
  by_cases a : SyncAfter f pos 33 <;> by_cases b : SyncAfter f pos 72 <;>
    by_cases c : SyncAfter f pos 112 <;>
    rcases h with h | h | h | h <;> subst h <;> simp [a, b, c]

/-- One call with no re-read needed. -/
theorem impl_match (fuel n : Nat) (st : State) (f : Bytes) (pos : Nat) (hn : Mode n)
    (hsz : st.size = none ∨ st.size = some (frameSize n)) (hc : chansUpTo f pos n = n) :
    readImpl (fuel + 1) n st f pos =
      if f.length < pos + frameSize n then
        some (.error .eof, max pos f.length, { st with size := some (frameSize n) })
      else if readAt f pos 4 ≠ Drx.syncBytes then some (.error .sync, pos, State.init)
      else some (.ok (decode (readAt f pos (frameSize n))), pos + frameSize n,
        { st with size := some (frameSize n) }) := by
  have hs : st.size.getD (frameSize n) = frameSize n := by rcases hsz with h | h <;> simp [h]
  have hl := readAt_length f pos (frameSize n)
  have hp : 4 ≤ frameSize n := by unfold frameSize; omega
  have h0 : slice (readAt f pos (frameSize n)) 0 4 = readAt f pos 4 := slice_readAt _ _ _ _ _ (by omega)
  unfold readImpl
  simp only [hs, detect_eq f pos n hn, hc, h0]
  by_cases hlen : f.length < pos + frameSize n
  · rw [if_pos (by omega), if_pos hlen]
    simp only [Option.some.injEq, Prod.mk.injEq, true_and, and_true]; omega
  · rw [if_neg (by omega), if_neg hlen, if_neg (by simp)]
    split
    · simp only [Option.some.injEq, Prod.mk.injEq, true_and, and_true]; omega
    · simp only [Option.some.injEq, Prod.mk.injEq, true_and, and_true]; omega

/-- What a read does in any consistent state. -/
theorem read_char (fuel : Nat) (st : State) (hst : Consistent st) (f : Bytes) (pos : Nat) :
    ∃ st', read (fuel + 2) st f pos =
        some ((specRead (dispatch st) f pos).1, (specRead (dispatch st) f pos).2, st') ∧
      ((specRead (dispatch st) f pos).1 = .error .sync → st' = State.init) ∧
      ((∃ fr, (specRead (dispatch st) f pos).1 = .ok fr) →
        dispatch st' = chansUpTo f pos (dispatch st)) := by
  have hd := dispatch_mode st
  have hl := readAt_length f pos (frameSize (dispatch st))
  have hs : st.size.getD (frameSize (dispatch st)) = frameSize (dispatch st) := by
    rcases hst with h | h <;> simp [h]
  by_cases hc : chansUpTo f pos (dispatch st) = dispatch st
  · have h := impl_match (fuel + 1) (dispatch st) st f pos hd hst hc
    unfold read specRead
    rw [h, hc]
    by_cases hlen : f.length < pos + frameSize (dispatch st)
    · simp [hlen]
    · by_cases hsync : readAt f pos 4 = Drx.syncBytes
      · simp [hlen, hsync]; rfl
      · simp [hlen, hsync]
  · by_cases hlen : f.length < pos + frameSize (dispatch st)
    · refine ⟨{ st with size := some (frameSize (dispatch st)) }, ?_⟩
      unfold read readImpl specRead
      simp only [hs, hlen, ↓reduceIte]
      have : 0 < frameSize (dispatch st) := by unfold frameSize; omega
      rw [if_pos (by omega)]
      simp
      omega
    · have hm := chans_mode f pos _ hd
      have hle : frameSize (chansUpTo f pos (dispatch st)) ≤ frameSize (dispatch st) := by
        unfold frameSize; omega
      have h := impl_match fuel _ ⟨chansUpTo f pos (dispatch st), none⟩ f pos hm.1 (.inl rfl)
        (chans_stable f pos _ hd)
      have hp : pos + (readAt f pos (frameSize (dispatch st))).length - frameSize (dispatch st)
          = pos := by omega
      unfold read readImpl specRead
      simp only [hs, detect_eq f pos _ hd]
      rw [if_neg (by omega), if_pos hc, hp, h, if_neg (by omega), if_neg hlen]
      by_cases hsync : readAt f pos 4 = Drx.syncBytes
      · simp [hsync, dispatch_of_mode hm.1]
      · simp [hsync]

/-- A history of reads of any files at any positions, from load time on. -/
inductive Reachable : State → Prop
  | init : Reachable State.init
  | step {st : State} {fuel : Nat} {f : Bytes} {pos : Nat} {r : Except ReadErr Frame} {p : Nat}
      {st' : State} : Reachable st → read fuel st f pos = some (r, p, st') → Reachable st'

theorem readImpl_consistent : ∀ (fuel n : Nat) (st : State) (f : Bytes) (pos : Nat)
    (r : Except ReadErr Frame) (p : Nat) (st' : State),
    dispatch st = n → Consistent st →
    readImpl fuel n st f pos = some (r, p, st') → Consistent st' := by
  intro fuel
  induction fuel with
  | zero => intro n st f pos r p st' _ _ h; simp [readImpl] at h
  | succ fuel ih =>
    intro n st f pos r p st' hm hst h
    have hn : Mode n := hm ▸ dispatch_mode st
    have hs : st.size.getD (frameSize n) = frameSize n := by
      rcases hst with h | h <;> simp [h, hm]
    unfold readImpl at h
    simp only [hs, detect_eq f pos n hn] at h
    have hc : Consistent { st with size := some (frameSize n) } := by
      right; rw [← hm]; rfl
    split at h
    · simp only [Option.some.injEq, Prod.mk.injEq] at h; rw [← h.2.2]; exact hc
    · split at h
      · exact ih _ _ _ _ _ _ _ (dispatch_of_mode (chans_mode f pos n hn).1 none) (.inl rfl) h
      · split at h
        · simp only [Option.some.injEq, Prod.mk.injEq] at h; rw [← h.2.2]; exact .inl rfl
        · simp only [Option.some.injEq, Prod.mk.injEq] at h; rw [← h.2.2]; exact hc

theorem reachable_consistent {st : State} (h : Reachable st) : Consistent st := by
  induction h with
  | init => exact .inl rfl
  | step _ hr ih => exact readImpl_consistent _ _ _ _ _ _ _ _ rfl ih hr

/-- After any history the read terminates with at most one re-read, and its outcome depends on the
history only through the channel count of the last frame. -/
theorem C10_exact (st : State) (h : Reachable st) (f : Bytes) (pos fuel : Nat) (hf : 2 ≤ fuel) :
    ∃ st', read fuel st f pos =
      some ((specRead (dispatch st) f pos).1, (specRead (dispatch st) f pos).2, st') := by
  obtain ⟨st', hr, _⟩ := read_char (fuel - 2) st (reachable_consistent h) f pos
  rw [show fuel - 2 + 2 = fuel by omega] at hr
  exact ⟨st', hr⟩

/-- The file holds at `pos` a frame of `n` channels: there is a sync word; the first candidate
length followed by another sync word is `n`, or `n` is 192 and no shorter candidate is. -/
def Holds (f : Bytes) (pos n : Nat) : Prop :=
  Mode n ∧ readAt f pos 4 = Drx.syncBytes ∧ (∀ k, Mode k → k < n → ¬ SyncAfter f pos k) ∧
    (n = 192 ∨ SyncAfter f pos n)

/-- Missing from the full property: a frame longer than the last one read, or fewer bytes left than
the last one read needs.  If the last frame read had at least as many channels, the frame that the
file holds is returned whole, whatever the history. -/
theorem C10_history_free_partial (st : State) (h : Reachable st) (f : Bytes) (pos n fuel : Nat)
    (hf : 2 ≤ fuel) (hold : Holds f pos n) (hge : n ≤ dispatch st)
    (hlen : pos + frameSize (dispatch st) ≤ f.length) :
    ∃ st', read fuel st f pos = some (.ok (decode (readAt f pos (frameSize n))),
      pos + frameSize n, st') := by
  obtain ⟨st', hr⟩ := C10_exact st h f pos fuel hf
  refine ⟨st', ?_⟩
  rw [hr]
  obtain ⟨hm, hsync, hno, hat⟩ := hold
  have hd := dispatch_mode st
  have hc : chansUpTo f pos (dispatch st) = n := by
    have h33 : 33 < n → ¬ SyncAfter f pos 33 := hno 33 (.inl rfl)
    have h72 : 72 < n → ¬ SyncAfter f pos 72 := hno 72 (.inr (.inl rfl))
    have h112 : 112 < n → ¬ SyncAfter f pos 112 := hno 112 (.inr (.inr (.inl rfl)))
    unfold chansUpTo
    rcases hd with e | e | e | e <;> rw [e] at hge ⊢ <;> clear e hr <;>
    rcases hm with e | e | e | e <;> subst e <;> simp_all
  unfold specRead
  rw [if_neg (by omega), hc]
  simp [hsync]

/-- A frame of a homogeneous file is read whole up to the last one (no following frame needed). -/
theorem C10_same_mode (st : State) (h : Reachable st) (f : Bytes) (pos fuel : Nat) (hf : 2 ≤ fuel)
    (hsync : readAt f pos 4 = Drx.syncBytes)
    (hno : ∀ k, Mode k → k < dispatch st → ¬ SyncAfter f pos k)
    (hlen : pos + frameSize (dispatch st) ≤ f.length) :
    ∃ st', read fuel st f pos = some (.ok (decode (readAt f pos (frameSize (dispatch st)))),
      pos + frameSize (dispatch st), st') ∧ dispatch st' = dispatch st := by
  obtain ⟨st', hr, _, hd⟩ := read_char (fuel - 2) st (reachable_consistent h) f pos
  rw [show fuel - 2 + 2 = fuel by omega] at hr
  have hc : chansUpTo f pos (dispatch st) = dispatch st := by
    have h33 := hno 33 (.inl rfl)
    have h72 := hno 72 (.inr (.inl rfl))
    have h112 := hno 112 (.inr (.inr (.inl rfl)))
    unfold chansUpTo
    rcases dispatch_mode st with e | e | e | e <;> rw [e] at h33 h72 h112 ⊢ <;> simp_all
  have hs : specRead (dispatch st) f pos = (.ok (decode (readAt f pos (frameSize (dispatch st)))),
      pos + frameSize (dispatch st)) := by
    unfold specRead
    rw [if_neg (by omega), hc]
    simp [hsync]
  rw [hs] at hr hd
  exact ⟨st', hr, by rw [hd ⟨_, rfl⟩, hc]⟩

/-- After a synchronisation error every history is forgotten. -/
theorem C10_sync_resets (st : State) (h : Reachable st) (f : Bytes) (pos fuel : Nat) (hf : 2 ≤ fuel)
    (hlen : pos + frameSize (dispatch st) ≤ f.length) (hs : readAt f pos 4 ≠ Drx.syncBytes) :
    read fuel st f pos = some (.error .sync, pos, State.init) := by
  obtain ⟨st', hr, h1, _⟩ := read_char (fuel - 2) st (reachable_consistent h) f pos
  rw [show fuel - 2 + 2 = fuel by omega] at hr
  have e : specRead (dispatch st) f pos = (.error .sync, pos) := by
    unfold specRead; rw [if_neg (by omega), if_pos hs]
  rw [e] at hr h1
  rw [hr, h1 rfl]

/-- The channel count that a process remembers never grows by reading frames. -/
theorem C10_never_grows (st : State) (h : Reachable st) (f : Bytes) (pos fuel : Nat) (hf : 2 ≤ fuel)
    (fr : Frame) (p : Nat) (st' : State) (hr : read fuel st f pos = some (.ok fr, p, st')) :
    p ≤ pos + frameSize (dispatch st) := by
  obtain ⟨st2, h2⟩ := C10_exact st h f pos fuel hf
  rw [h2] at hr
  simp only [Option.some.injEq, Prod.mk.injEq] at hr
  have hm := chans_mode f pos _ (dispatch_mode st)
  rw [← hr.2.1]
  unfold specRead
  have := hr.1
  unfold specRead at this
  split
  · rename_i hc; simp [hc] at this
  · split
    · simp
    · simp only [frameSize]; omega

/-! ## The property fails -/

/-- Two 33-channel frames and more. -/
def file33 : Bytes := Drx.syncBytes ++ List.replicate 1084 0 ++ Drx.syncBytes ++ List.replicate 5084 0

/-- One 192-channel frame. -/
def file192 : Bytes := Drx.syncBytes ++ List.replicate 6172 0

theorem file33_length : file33.length = 6176 := by
  simp only [file33, List.length_append, List.length_replicate]; rfl
theorem file192_length : file192.length = 6176 := by
  simp only [file192, List.length_append, List.length_replicate]; rfl

theorem file33_sync : readAt file33 0 4 = Drx.syncBytes := by rfl
theorem file192_sync : readAt file192 0 4 = Drx.syncBytes := by rfl

theorem file33_after : SyncAfter file33 0 33 := by
  unfold SyncAfter file33 frameSize readAt
  rw [List.append_assoc, List.drop_append_of_le_length (by
    simp only [List.length_append, List.length_replicate]; decide)]
  rw [List.drop_of_length_le (by
    simp only [List.length_append, List.length_replicate]; decide)]
  rfl

theorem drop192 (n : Nat) (h : 4 ≤ n) : List.drop n file192 = List.replicate (6176 - n) 0 := by
  unfold file192
  rw [List.drop_append, List.drop_of_length_le (by exact h), List.drop_replicate]
  simp only [List.nil_append]
  rw [show Drx.syncBytes.length = 4 from rfl]
  congr 1
  omega

theorem file192_after (n : Nat) : ¬ SyncAfter file192 0 n := by
  unfold SyncAfter readAt
  rw [drop192 _ (by unfold frameSize; omega), List.take_replicate]
  generalize min 4 _ = k
  intro h
  have : (0xDE : UInt8) ∈ List.replicate k 0 := by rw [h]; decide
  exact absurd (List.eq_of_mem_replicate this) (by decide)

theorem holds33 : Holds file33 0 33 :=
  ⟨.inl rfl, file33_sync, by intro k hk; unfold Mode at hk; omega, .inr file33_after⟩

theorem holds192 : Holds file192 0 192 :=
  ⟨.inr (.inr (.inr rfl)), file192_sync, fun k _ _ => file192_after k, .inl rfl⟩

/-- The property is false: after a 33-channel frame has been read, a 192-channel frame is returned
cut to 33 channels and the file is left in the middle of the frame; a fresh process reads it whole. -/
theorem C10_truncates : ∃ st, Reachable st ∧
    (∃ st', read 2 State.init file192 0 =
      some (.ok (decode (readAt file192 0 6176)), 6176, st')) ∧
    (∃ st', read 2 st file192 0 = some (.ok (decode (readAt file192 0 1088)), 1088, st')) := by
  obtain ⟨st1, h1, _, h2⟩ := read_char 0 State.init (.inl rfl) file33 0
  have hr : Reachable st1 := .step .init h1
  have hc : chansUpTo file33 0 (dispatch State.init) = 33 := by
    have := file33_after
    rw [show dispatch State.init = 192 from rfl]
    unfold chansUpTo
    simp [this]
  have hs : specRead (dispatch State.init) file33 0 = (.ok (decode (readAt file33 0 1088)), 1088) := by
    unfold specRead
    rw [hc, file33_length, if_neg (by decide), if_neg (by simp [file33_sync])]
    rfl
  rw [hs] at h2
  have hd : dispatch st1 = 33 := by rw [h2 ⟨_, rfl⟩, hc]
  refine ⟨st1, hr, ?_, ?_⟩
  · exact C10_history_free_partial State.init .init file192 0 192 2 (by omega) holds192
      (by decide) (by rw [file192_length]; decide)
  · obtain ⟨st', h⟩ := C10_exact st1 hr file192 0 2 (by omega)
    refine ⟨st', ?_⟩
    rw [h, hd]
    unfold specRead
    rw [file192_length, if_neg (by decide), if_neg (by simp [file192_sync])]
    rfl

/-- The two frames of `C10_truncates` differ: 132 visibilities instead of 768. -/
theorem complexes_length : ∀ (k : Nat) (b : Bytes), b.length = 8 * k → (complexes b).length = k
  | 0, b, h => by
    have : b = [] := List.eq_nil_of_length_eq_zero (by omega)
    subst this; rfl
  | k + 1, b, h => by
    match b, h with
    | a :: b :: c :: d :: e :: f :: g :: i :: l, h =>
      simp only [complexes, List.length_cons]
      rw [complexes_length k l (by simp only [List.length_cons] at h; omega)]

theorem fixAuto_length : ∀ (l : List (Nat × Nat)), (fixAuto l).length = l.length
  | [] => rfl
  | [_] => rfl
  | [_, _] => rfl
  | [_, _, _] => rfl
  | _ :: _ :: _ :: _ :: l => by simp [fixAuto, fixAuto_length l]

theorem C10_data_length (f : Bytes) (pos n : Nat) (h : pos + frameSize n ≤ f.length) :
    (decode (readAt f pos (frameSize n))).data.length = 4 * n := by
  have hl : ((readAt f pos (frameSize n)).drop 32).length = 8 * (4 * n) := by
    rw [List.length_drop, readAt_length]; unfold frameSize at *; omega
  simp only [decode]
  split
  · rw [fixAuto_length, complexes_length _ _ hl]
  · exact complexes_length _ _ hl

theorem C10_truncates_lengths : (decode (readAt file192 0 6176)).data.length = 768 ∧
    (decode (readAt file192 0 1088)).data.length = 132 :=
  ⟨C10_data_length file192 0 192 (by rw [file192_length]; decide),
   C10_data_length file192 0 33 (by rw [file192_length]; decide)⟩

theorem complexes_lt : ∀ (b : Bytes) (z : Nat × Nat), z ∈ complexes b → z.2 < 4294967296 := by
  intro b
  induction b using complexes.induct with
  | case1 a b c d e f g h l ih =>
    intro z hz
    simp only [complexes, List.mem_cons] at hz
    rcases hz with hz | hz
    · subst hz
      have := leDec_lt [e, f, g, h]
      simp only [List.length_cons, List.length_nil, Nat.reduceAdd, Nat.reducePow] at this
      exact this
    · exact ih z hz
  | case2 l h => intro z hz; simp [complexes] at hz

theorem fixAuto_entries : ∀ (l : List (Nat × Nat)), (∀ z ∈ l, z.2 < 4294967296) →
    ∀ c, 4 * c + 3 < l.length →
    (fixAuto l)[4 * c]? = l[4 * c]? ∧ (fixAuto l)[4 * c + 1]? = l[4 * c + 1]? ∧
    (fixAuto l)[4 * c + 2]? = (l[4 * c + 1]?).map (fun z =>
      (z.1, (z.2 + 2147483648) % 4294967296)) ∧ (fixAuto l)[4 * c + 3]? = l[4 * c + 3]? := by
  intro l
  induction l using fixAuto.induct with
  | case1 a b x d l ih =>
    intro hz c hc
    have hb := hz b (by simp)
    cases c with
    | zero =>
      simp [fixAuto, conj]
      split <;> omega
    | succ c =>
      have h := ih (fun z h => hz z (by simp [h])) c (by simp only [List.length_cons] at hc; omega)
      simp only [fixAuto]
      rw [show 4 * (c + 1) = 4 * c + 4 by omega]
      simpa using h
  | case2 l h =>
    intro _ c hc
    match l, h, hc with
    | [], _, hc => simp at hc
    | [_], _, hc => simp at hc
    | [_, _], _, hc => simp at hc; omega
    | [_, _, _], _, hc => simp at hc; omega
    | a :: b :: x :: d :: l, h, _ => exact absurd rfl (h a b x d l)

/-- The data of a frame of `n` channels: entry XX, XY, YY of channel `c` are the bit patterns in the
file; YX is the pattern in the file for two different stands and the conjugate (sign bit of the
imaginary part flipped) of XY for a stand with itself. -/
theorem C10_entries (b : Bytes) (c : Nat) (hc : 4 * c + 3 < (complexes (b.drop 32)).length) :
    (decode b).data[4 * c]? = (complexes (b.drop 32))[4 * c]? ∧
    (decode b).data[4 * c + 1]? = (complexes (b.drop 32))[4 * c + 1]? ∧
    (decode b).data[4 * c + 3]? = (complexes (b.drop 32))[4 * c + 3]? ∧
    (decode b).data[4 * c + 2]? = if slice b 28 2 = slice b 30 2 then
        ((complexes (b.drop 32))[4 * c + 1]?).map (fun z => (z.1, (z.2 + 2147483648) % 4294967296))
      else (complexes (b.drop 32))[4 * c + 2]? := by
  have h := fixAuto_entries _ (complexes_lt (b.drop 32)) c hc
  simp only [decode]
  split
  · exact ⟨h.1, h.2.1, h.2.2.2, h.2.2.1⟩
  · exact ⟨rfl, rfl, rfl, rfl⟩

/-- Visibility `k` of the payload is made of bytes `8 k .. 8 k + 7`, little-endian. -/
theorem C10_complex_at : ∀ (k : Nat) (b : Bytes), 8 * k + 8 ≤ b.length →
    (complexes b)[k]? = some (leDec (slice b (8 * k) 4), leDec (slice b (8 * k + 4) 4))
  | 0, b, h => by
    match b, h with
    | a :: b :: c :: d :: e :: f :: g :: i :: l, h => rfl
  | k + 1, b, h => by
    match b, h with
    | a :: b :: c :: d :: e :: f :: g :: i :: l, h =>
      have := C10_complex_at k l (by simp only [List.length_cons] at h; omega)
      simp only [complexes, List.getElem?_cons_succ, this]
      rw [show 8 * (k + 1) = 8 * k + 8 by omega, show 8 * k + 8 + 4 = 8 * k + 4 + 8 by omega]
      rfl

/-- The hypotheses of `C10_history_free_partial` are met by `file33` in the initial state. -/
example : ∃ st', read 2 State.init file33 0 = some (.ok (decode (readAt file33 0 1088)), 1088, st') :=
  C10_history_free_partial State.init .init file33 0 33 2 (by omega) holds33 (by decide)
    (by rw [file33_length]; decide)

/-- A COR frame on the wire: header numbers big-endian, visibilities as they are. -/
def wire (id fc sc chan gain tt navg s0 s1 : Nat) (payload : Bytes) : List Bytes :=
  [[0xDE, 0xC0, 0xDE, 0x5C], beEnc 1 id, beEnc 3 fc, beEnc 4 sc, beEnc 2 chan, beEnc 2 gain,
    beEnc 8 tt, beEnc 4 navg, beEnc 2 s0, beEnc 2 s1, payload]

/-- Every header field of a frame on the wire is decoded to its value. -/
theorem C10_wire (id fc sc chan gain tt navg s0 s1 : Nat) (payload : Bytes) (hid : id < 256)
    (hfc : fc < 2 ^ 24) (hsc : sc < 2 ^ 32) (hch : chan < 2 ^ 15) (hg : gain < 2 ^ 15)
    (htt : tt < 2 ^ 63) (hn : navg < 2 ^ 31) (h0 : s0 < 2 ^ 15) (h1 : s1 < 2 ^ 15) :
    decode (wire id fc sc chan gain tt navg s0 s1 payload).flatten =
      ⟨id, fc, sc, chan, gain, tt, navg, s0, s1,
        if s0 = s1 then fixAuto (complexes payload) else complexes payload⟩ := by
  have hd : (wire id fc sc chan gain tt navg s0 s1 payload).flatten.drop 32 = payload := by
    have := slice_fields (wire id fc sc chan gain tt navg s0 s1 payload) 10 payload (off := 32) rfl
      (by simp [wire]) rfl
    unfold slice at this
    rw [List.take_of_length_le (by
      simp only [wire, List.length_drop, List.length_flatten, List.map_cons, List.map_nil,
        beEnc_length, List.sum_cons, List.sum_nil, List.length_cons, List.length_nil]; omega)] at this
    exact this
  have hinj : beEnc 2 s0 = beEnc 2 s1 ↔ s0 = s1 := by
    constructor
    · intro h
      have := congrArg beDec h
      rwa [beDec_beEnc_of_lt (by omega), beDec_beEnc_of_lt (by omega)] at this
    · intro h; rw [h]
  unfold decode
  rw [slice_fields _ 1 (beEnc 1 id) rfl (by simp [wire]) (by simp),
    slice_fields _ 2 (beEnc 3 fc) rfl (by simp [wire]) (by simp),
    slice_fields _ 3 (beEnc 4 sc) rfl (by simp [wire]) (by simp),
    slice_fields _ 4 (beEnc 2 chan) rfl (by simp [wire]) (by simp),
    slice_fields _ 5 (beEnc 2 gain) rfl (by simp [wire]) (by simp),
    slice_fields _ 6 (beEnc 8 tt) rfl (by simp [wire]) (by simp),
    slice_fields _ 7 (beEnc 4 navg) rfl (by simp [wire]) (by simp),
    slice_fields _ 8 (beEnc 2 s0) rfl (by simp [wire]) (by simp),
    slice_fields _ 9 (beEnc 2 s1) rfl (by simp [wire]) (by simp), hd]
  rw [beDec_beEnc_of_lt (by omega), beDec_beEnc_of_lt (by omega), beDec_beEnc_of_lt (by omega),
    beDec_beEnc_of_lt (by omega), beDec_beEnc_of_lt (by omega), beDec_beEnc_of_lt (by omega),
    beDec_beEnc_of_lt (by omega), beDec_beEnc_of_lt (by omega), beDec_beEnc_of_lt (by omega)]
  simp only [Tbx.toSigned, asH, hinj]
  simp only [Frame.mk.injEq, true_and, and_true]
  refine ⟨?_, ?_, ?_, ?_, ?_, ?_⟩ <;> rw [if_pos (by omega)]

/-- A gain or first channel with its top bit set is reported as a number above four billion (the
value is a C `short` passed for an unsigned conversion). -/
theorem C10_wide_channel : asH 32768 = 4294934528 := by decide

end Verif.Cor
