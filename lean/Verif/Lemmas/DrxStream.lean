import Verif.Lemmas.Drx

namespace Verif.Drx

/-- Any raw frame the reader can accept: right length and sync word. -/
def IsRaw (b : Bytes) : Prop := b.length = 4128 ∧ b.take 4 = [0xDE, 0xC0, 0xDE, 0x5C]

/-- What the reader makes of the raw frame. -/
def decode (b : Bytes) : Frame := decodeHeader b (decodeData (b.drop 32))

theorem readDrx_raw {pre b post : Bytes} (h : IsRaw b) :
    readDrx (pre ++ (b ++ post)) pre.length = (.ok (decode b), pre.length + 4128) := by
  have hr : readAt (pre ++ (b ++ post)) pre.length frameSize = b := by
    have := readAt_append pre b post
    rwa [h.1, List.append_assoc] at this
  simp only [readDrx, hr]
  simp only [h.1, h.2, frameSize, syncBytes, decode]
  simp

theorem readDrx_eof {f : Bytes} {pos : Nat} (h : f.length < pos + 4128) :
    (readDrx f pos).1 = .error .eof := by
  simp only [readDrx]
  rw [if_pos]
  simp [readAt, frameSize]; omega

theorem flatten_length (bs : List Bytes) (h : ∀ b ∈ bs, IsRaw b) : bs.flatten.length = 4128 * bs.length := by
  induction bs with
  | nil => simp
  | cons b bs ih =>
    rw [List.flatten_cons, List.length_append, ih (fun x hx => h x (List.mem_cons_of_mem _ hx)),
      (h b List.mem_cons_self).1, List.length_cons]
    omega

theorem readLoop_frames (bs : List Bytes) (h : ∀ b ∈ bs, IsRaw b) (pre tail : Bytes)
    (ht : tail.length < 4128) (n : Nat) (hn : bs.length < n) :
    readLoop (pre ++ (bs.flatten ++ tail)) n pre.length = (bs.map decode, some .eof) := by
  induction bs generalizing pre n with
  | nil =>
    match n, hn with
    | n + 1, _ =>
      have he : (readDrx (pre ++ ([].flatten ++ tail)) pre.length).1 = .error .eof := by
        apply readDrx_eof; simp; omega
      rw [readLoop]
      match hr : readDrx (pre ++ ([].flatten ++ tail)) pre.length with
      | (.ok fr, p) => rw [hr] at he; simp at he
      | (.error e, p) => rw [hr] at he; simp at he; subst he; simp
  | cons b bs ih =>
    match n, hn with
    | n + 1, hn =>
      have hb := h b List.mem_cons_self
      rw [readLoop, List.flatten_cons, List.append_assoc, readDrx_raw hb]
      have := ih (fun x hx => h x (List.mem_cons_of_mem _ hx)) (pre ++ b) n (by simp at hn; omega)
      simp only [List.append_assoc, List.length_append, hb.1] at this
      simp only [this]
      simp

/-- Reading the `i`-th frame of a run of frames. -/
theorem readDrx_nth (bs : List Bytes) (h : ∀ b ∈ bs, IsRaw b) (pre tail : Bytes) (i : Nat)
    (hi : i < bs.length) :
    readDrx (pre ++ (bs.flatten ++ tail)) (pre.length + i * 4128)
      = (.ok (decode bs[i]), pre.length + (i + 1) * 4128) := by
  induction bs generalizing pre i with
  | nil => simp at hi
  | cons b bs ih =>
    have hb := h b List.mem_cons_self
    match i with
    | 0 =>
      simp only [Nat.zero_mul, Nat.add_zero, List.flatten_cons, List.append_assoc]
      rw [readDrx_raw hb]; simp
    | i + 1 =>
      have := ih (fun x hx => h x (List.mem_cons_of_mem _ hx)) (pre ++ b) i (by simpa using hi)
      simp only [List.append_assoc, List.length_append, hb.1] at this
      simp only [List.flatten_cons, List.append_assoc]
      rw [show pre.length + (i + 1) * 4128 = pre.length + 4128 + i * 4128 by omega, this]
      simp only [List.getElem_cons_succ]
      congr 1
      omega

theorem readMany_frames (bs : List Bytes) (h : ∀ b ∈ bs, IsRaw b) (pre tail : Bytes) (n i : Nat)
    (hi : i + n ≤ bs.length) :
    ∃ l, readMany (pre ++ (bs.flatten ++ tail)) n (pre.length + i * 4128)
      = .ok (l, pre.length + (i + n) * 4128) := by
  induction n generalizing i with
  | zero => exact ⟨[], rfl⟩
  | succ n ih =>
    obtain ⟨l, hl⟩ := ih (i + 1) (by omega)
    refine ⟨decode bs[i] :: l, ?_⟩
    rw [readMany, readDrx_nth bs h pre tail i (by omega)]
    simp only
    rw [hl]
    rw [show i + 1 + n = i + (n + 1) by omega]

theorem align_skip (f : Bytes) (n pos : Nat) (hlen : pos + n + 4128 ≤ f.length)
    (hs : ∀ i, pos ≤ i → i < pos + n → (f.drop i).take 4 ≠ [0xDE, 0xC0, 0xDE, 0x5C]) :
    align f pos = align f (pos + n) := by
  induction n generalizing pos with
  | zero => rfl
  | succ n ih =>
    have hl : (readAt f pos frameSize).length = 4128 := by simp [readAt, frameSize]; omega
    have h4 : (readAt f pos frameSize).take 4 = (f.drop pos).take 4 := by
      simp [readAt, frameSize, List.take_take]
    have hr : readDrx f pos = (.error .sync, pos + 4128) := by
      simp only [readDrx, hl, h4, syncBytes]
      rw [if_neg (by simp [frameSize]), if_pos (hs pos (Nat.le_refl _) (by omega))]
    rw [align]
    split
    · rename_i h; rw [hr] at h; simp at h
    · rename_i p h
      rw [hr] at h
      simp only [Prod.mk.injEq, true_and] at h
      subst h
      rw [show pos + 4128 - 4128 + 1 = pos + 1 by omega]
      rw [ih (pos + 1) (by omega) (fun i h1 h2 => hs i (by omega) (by omega))]
      congr 1
      omega
    · rename_i h; rw [hr] at h; simp at h

theorem align_good {f : Bytes} {pos : Nat} {fr : Frame} {p : Nat} (hr : readDrx f pos = (.ok fr, p))
    (hg : goodFrame fr = true) : align f pos = .ok (fr, pos) := by
  have := readDrx_next hr (by simp)
  rw [align]
  split
  · rename_i h; rw [hr] at h; simp at h
  · rename_i h; rw [hr] at h; simp at h
  · rename_i fr' p' h
    rw [hr] at h
    simp only [Prod.mk.injEq, Except.ok.injEq] at h
    obtain ⟨rfl, rfl⟩ := h
    rw [if_pos hg, this.1]
    simp

end Verif.Drx
