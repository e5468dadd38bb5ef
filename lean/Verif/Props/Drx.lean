import Verif.Lemmas.Drx
/-!
# Properties of DRX / DRX8 frames (C01-C05, C53)
-/
namespace Verif.Drx

/-! ## C01: round trip -/

/-- A simulated frame in the documented ranges is accepted by the writer, and reading the written
bytes at their place in any file gives back the same identifiers, header values, time tag and
(rounded, clipped) samples, leaving the file at the end of the frame.  The 64-bit flags word of the
simulator covers the reader's tuning word (high half) and flags (low half). -/
theorem C01_drx_roundtrip (s : SimFrame) (pre post : Bytes)
    (hb : 1 ≤ s.beam ∧ s.beam ≤ 4) (ht : 1 ≤ s.tune ∧ s.tune ≤ 2) (hp : s.pol ≤ 1)
    (hdec : s.decimation < 65536) (hoff : s.timeOffset < 65536) (htt : s.obsTime < 2 ^ 64)
    (hfl : s.flags < 2 ^ 64) (hlen : s.data.length = 4096) :
    ∃ raw fr, s.createRaw = some raw ∧
      readDrx (pre ++ raw ++ post) pre.length = (.ok fr, pre.length + 4128) ∧
      unpackId fr.drxId = (s.beam, s.tune, s.pol) ∧ isDrx fr.drxId = true ∧
      fr.decimation = s.decimation ∧ fr.timeOffset = s.timeOffset ∧ fr.timetag = s.obsTime ∧
      fr.tuningWord * 2 ^ 32 + fr.flags = s.flags ∧
      fr.data = s.data.map (fun x => (min 7 (max (-8) (roundHalfEven x.1)),
        min 7 (max (-8) (roundHalfEven x.2)))) := by
  have hid : unpackId (packId s.beam s.tune s.pol) = (s.beam, s.tune, s.pol) ∧
      isDrx (packId s.beam s.tune s.pol) = true := by
    have key : ∀ b < 5, ∀ t < 3, ∀ p < 2, unpackId (packId b t p) = (b, t, p) ∧
      isDrx (packId b t p) = true := by decide
    exact key _ (by omega) _ (by omega) _ (by omega)
  have hraw : s.createRaw = some s.toBytes := by
    simp only [SimFrame.createRaw, hid.1, hlen]
    rw [if_neg, if_neg, if_neg, if_neg]
    · simp
    · simp; omega
    · simp; omega
    · simp; omega
  have hl : s.toBytes.length = 4128 := by rw [toBytes_length, hlen]
  refine ⟨s.toBytes, decodeHeader s.toBytes (decodeData (s.toBytes.drop 32)), hraw, ?_, ?_⟩
  · have hr : readAt (pre ++ s.toBytes ++ post) pre.length frameSize = s.toBytes := by
      have := readAt_append pre s.toBytes post
      rwa [hl] at this
    have hs : s.toBytes.take 4 = syncBytes := by simp [SimFrame.toBytes, syncBytes]
    simp only [readDrx, hr]
    simp only [hl, hs, frameSize]
    simp
  · rw [decodeHeader_toBytes, decodeData_toBytes]
    refine ⟨hid.1, hid.2, ?_, ?_, ?_, ?_, rfl⟩ <;> simp only <;> omega

/-- Non-vacuity of C01. -/
example : ∃ s : SimFrame, (1 ≤ s.beam ∧ s.beam ≤ 4) ∧ (1 ≤ s.tune ∧ s.tune ≤ 2) ∧ s.pol ≤ 1 ∧
    s.decimation < 65536 ∧ s.timeOffset < 65536 ∧ s.obsTime < 2 ^ 64 ∧ s.flags < 2 ^ 64 ∧
    s.data.length = 4096 :=
  ⟨⟨2, 1, 1, 10, 7, 0, 196000000 * 1700000000, 0x1234567800000001,
    List.replicate 4096 (5/2, -9)⟩, by decide, by decide, by decide, by decide, by decide, by decide,
    by decide, List.length_replicate⟩

/-- The rounding used is to a nearest integer. -/
theorem C01_rounding_nearest (x : Rat) :
    x - roundHalfEven x ≤ 1/2 ∧ roundHalfEven x - x ≤ 1/2 := by
  have h1 := Rat.floor_le x
  have h2 := @Rat.lt_floor x
  unfold roundHalfEven
  simp only
  split
  · grind
  · split
    · simp only [Rat.intCast_add, Rat.intCast_one]; grind
    · split
      · grind
      · simp only [Rat.intCast_add, Rat.intCast_one]; grind

/-! ## C02: outcome of a read for arbitrary bytes -/

theorem C02_drx_eof_iff (f : Bytes) (pos : Nat) :
    (readDrx f pos).1 = .error .eof ↔ f.length < pos + 4128 := by
  simp only [readDrx, frameSize, readAt, List.length_take, List.length_drop]
  split
  · simp; omega
  · split <;> simp <;> omega

theorem C02_drx_sync_iff (f : Bytes) (pos : Nat) :
    (readDrx f pos).1 = .error .sync ↔
      pos + 4128 ≤ f.length ∧ (f.drop pos).take 4 ≠ [0xDE, 0xC0, 0xDE, 0x5C] := by
  have h4 : ((f.drop pos).take 4128).take 4 = (f.drop pos).take 4 := by simp [List.take_take]
  simp only [readDrx, frameSize, readAt, List.length_take, List.length_drop, h4, syncBytes]
  split
  · simp; omega
  · split
    · rename_i h1 h2; simp [h2]; omega
    · rename_i h1 h2; simp at h2; simp [h2]

theorem C02_drx_ok (f : Bytes) (pos : Nat) (fr : Frame) (h : (readDrx f pos).1 = .ok fr) :
    (readDrx f pos).2 = pos + 4128 ∧ fr.data.length = 4096 ∧
    (∀ x ∈ fr.data, -8 ≤ x.1 ∧ x.1 ≤ 7 ∧ -8 ≤ x.2 ∧ x.2 ≤ 7) ∧
    fr.drxId < 256 ∧ fr.frameCount < 2 ^ 24 ∧ fr.timetag < 2 ^ 64 ∧ fr.tuningWord < 2 ^ 32 := by
  have hn : (readDrx f pos).1 ≠ .error .eof := by rw [h]; simp
  have hpos := readDrx_next (f := f) (pos := pos) rfl hn
  have hlen : (readAt f pos frameSize).length = 4128 := by
    simp [readAt, frameSize]; omega
  simp only [readDrx] at h
  split at h
  · simp at h
  split at h
  · simp at h
  simp only [Except.ok.injEq] at h
  subst h
  refine ⟨hpos.1, ?_, ?_, ?_, ?_, ?_, ?_⟩
  · simp [decodeHeader, decodeData, hlen]
  · intro x hx
    simp only [decodeHeader, decodeData, List.mem_map] at hx
    obtain ⟨b, _, rfl⟩ := hx
    have h1 := lut_range b 0
    have h2 := lut_range b 1
    exact ⟨h1.1, h1.2, h2.1, h2.2⟩
  · exact Nat.lt_of_lt_of_le (beDec_lt _) (Nat.pow_le_pow_right (by omega) (by simp [slice]; omega : _ ≤ 1))
  · exact Nat.lt_of_lt_of_le (beDec_lt _) (Nat.pow_le_pow_right (by omega) (by simp [slice]; omega : _ ≤ 3))
  · exact Nat.lt_of_lt_of_le (beDec_lt _) (Nat.pow_le_pow_right (by omega) (by simp [slice]; omega : _ ≤ 8))
  · exact Nat.lt_of_lt_of_le (beDec_lt _) (Nat.pow_le_pow_right (by omega) (by simp [slice]; omega : _ ≤ 4))

theorem C02_drx8_eof_iff (f : Bytes) (pos : Nat) :
    (readDrx8 f pos).1 = .error .eof ↔ f.length < pos + 8224 := by
  simp only [readDrx8, frameSize8, readAt, List.length_take, List.length_drop]
  split
  · simp; omega
  · split <;> simp <;> omega

theorem C02_drx8_sync_iff (f : Bytes) (pos : Nat) :
    (readDrx8 f pos).1 = .error .sync ↔
      pos + 8224 ≤ f.length ∧ (f.drop pos).take 4 ≠ [0xDE, 0xC0, 0xDE, 0x5C] := by
  have h4 : ((f.drop pos).take 8224).take 4 = (f.drop pos).take 4 := by simp [List.take_take]
  simp only [readDrx8, frameSize8, readAt, List.length_take, List.length_drop, h4, syncBytes]
  split
  · simp; omega
  · split
    · rename_i h1 h2; simp [h2]; omega
    · rename_i h1 h2; simp at h2; simp [h2]

theorem C02_drx8_ok (f : Bytes) (pos : Nat) (fr : Frame) (h : (readDrx8 f pos).1 = .ok fr) :
    (readDrx8 f pos).2 = pos + 8224 ∧ fr.data.length = 4096 ∧
    (∀ x ∈ fr.data, -128 ≤ x.1 ∧ x.1 ≤ 127 ∧ -128 ≤ x.2 ∧ x.2 ≤ 127) := by
  simp only [readDrx8] at h ⊢
  split at h
  · simp at h
  rename_i hl
  split at h
  · simp at h
  simp only [Except.ok.injEq] at h
  have hl' : (readAt f pos frameSize8).length = 8224 := by simpa [frameSize8] using hl
  subst h
  refine ⟨?_, ?_, ?_⟩
  · rw [if_neg hl, if_neg (by assumption), hl']
  · simp [decodeHeader, decodeData8_length, hl']
  · exact decodeData8_range _

theorem lut_spec (b : UInt8) :
    lut b 0 = (b.toBitVec.extractLsb' 4 4).toInt ∧ lut b 1 = (b.toBitVec.extractLsb' 0 4).toInt := by
  have key : ∀ v : BitVec 8, lut (UInt8.ofBitVec v) 0 = (v.extractLsb' 4 4).toInt ∧
      lut (UInt8.ofBitVec v) 1 = (v.extractLsb' 0 4).toInt := by decide +kernel
  exact key b.toBitVec

theorem lut8_spec (b : UInt8) : lut8 b = b.toBitVec.toInt := by
  have key : ∀ v : BitVec 8, lut8 (UInt8.ofBitVec v) = v.toInt := by decide +kernel
  exact key b.toBitVec

theorem decodeData8_get (b : Bytes) : ∀ k, 2 * k + 1 < b.length →
    (decodeData8 b)[k]? = (b[2 * k]?).bind (fun r => (b[2 * k + 1]?).map (fun i =>
      (r.toBitVec.toInt, i.toBitVec.toInt))) := by
  fun_induction decodeData8 b with
  | case1 r i l ih =>
    intro k hk
    cases k with
    | zero => simp [lut8_spec]
    | succ k =>
      have := ih k (by simp at hk; omega)
      rw [List.getElem?_cons_succ, this]
      rw [show 2 * (k + 1) = 2 * k + 1 + 1 by omega]
      simp
  | case2 t h =>
    intro k hk
    match t, h with
    | [], _ => simp at hk
    | [a], _ => simp at hk
    | a :: b :: l, h => exact absurd rfl (h a b l)

/-- Sample `k` of a DRX frame is byte `32 + k` read as two 4-bit two's complement numbers, real
part in the high nibble. -/
theorem C02_drx_samples (f : Bytes) (pos : Nat) (fr : Frame) (h : (readDrx f pos).1 = .ok fr)
    (k : Nat) (hk : k < 4096) : ∃ b, f[pos + 32 + k]? = some b ∧
    fr.data[k]? = some ((b.toBitVec.extractLsb' 4 4).toInt, (b.toBitVec.extractLsb' 0 4).toInt) := by
  simp only [readDrx] at h
  split at h
  · simp at h
  rename_i hl
  split at h
  · simp at h
  simp only [Except.ok.injEq] at h
  have hl' : (readAt f pos frameSize).length = 4128 := by simpa [frameSize] using hl
  have hf : pos + 4128 ≤ f.length := by
    simp [readAt, frameSize] at hl'; omega
  subst h
  refine ⟨f[pos + 32 + k]'(by omega), List.getElem?_eq_getElem _, ?_⟩
  simp only [decodeHeader, decodeData, List.getElem?_map, List.getElem?_drop, readAt, frameSize]
  rw [List.getElem?_take_of_lt (by omega), List.getElem?_drop, ← Nat.add_assoc,
    List.getElem?_eq_getElem (by omega)]
  simp [(lut_spec _).1, (lut_spec _).2]

/-- Sample `k` of a DRX8 frame is bytes `32 + 2k` (real) and `33 + 2k` (imaginary) read as 8-bit
two's complement numbers. -/
theorem C02_drx8_samples (f : Bytes) (pos : Nat) (fr : Frame) (h : (readDrx8 f pos).1 = .ok fr)
    (k : Nat) (hk : k < 4096) : ∃ r i, f[pos + 32 + 2 * k]? = some r ∧
    f[pos + 33 + 2 * k]? = some i ∧ fr.data[k]? = some (r.toBitVec.toInt, i.toBitVec.toInt) := by
  simp only [readDrx8] at h
  split at h
  · simp at h
  rename_i hl
  split at h
  · simp at h
  simp only [Except.ok.injEq] at h
  have hl' : (readAt f pos frameSize8).length = 8224 := by simpa [frameSize8] using hl
  have hf : pos + 8224 ≤ f.length := by
    simp [readAt, frameSize8] at hl'; omega
  subst h
  refine ⟨f[pos + 32 + 2 * k]'(by omega), f[pos + 33 + 2 * k]'(by omega),
    List.getElem?_eq_getElem _, List.getElem?_eq_getElem _, ?_⟩
  simp only [decodeHeader]
  rw [decodeData8_get _ k (by rw [List.length_drop, hl']; omega)]
  simp only [List.getElem?_drop, readAt, frameSize8]
  rw [List.getElem?_take_of_lt (by omega), List.getElem?_take_of_lt (by omega),
    List.getElem?_drop, List.getElem?_drop, ← Nat.add_assoc, List.getElem?_eq_getElem (by omega),
    show pos + (32 + (2 * k + 1)) = pos + 33 + 2 * k by omega, List.getElem?_eq_getElem (by omega)]
  simp

/-- All three outcomes occur. -/
example : (∃ fr, (readDrx (syncBytes ++ List.replicate 4124 0x18) 0).1 = .ok fr) ∧
    (readDrx [] 0).1 = .error .eof ∧ (readDrx (List.replicate 4128 0) 0).1 = .error .sync := by
  have hl : (syncBytes ++ List.replicate 4124 (0x18 : UInt8)).length = 4128 := by
    rw [List.length_append, List.length_replicate]; rfl
  refine ⟨?_, ?_, ?_⟩
  · match h : (readDrx (syncBytes ++ List.replicate 4124 0x18) 0).1 with
    | .ok fr => exact ⟨fr, rfl⟩
    | .error .eof => rw [C02_drx_eof_iff, hl] at h; omega
    | .error .sync =>
      rw [C02_drx_sync_iff] at h
      exact absurd rfl h.2
  · rw [C02_drx_eof_iff]; exact Nat.zero_lt_succ _
  · rw [C02_drx_sync_iff, List.length_replicate]
    exact ⟨Nat.le_refl _, by decide⟩

end Verif.Drx
