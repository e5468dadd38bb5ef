import Verif.Lemmas.Vdif
import Verif.Lemmas.PyNum
/-!
# C06, C07, C08, C56, C57: VDIF writer and reader
-/
namespace Verif.Vdif

theorem readAt_sub (pre raw post : Bytes) (a n : Nat) (h : a + n ≤ raw.length) :
    readAt (pre ++ raw ++ post) (pre.length + a) n = slice raw a n := by
  unfold readAt slice
  rw [List.append_assoc, ← List.drop_drop, List.drop_left, List.drop_append_of_le_length (by omega),
    List.take_append_of_le_length (by simp; omega)]

/-- What the caller has to respect: fields fit their widths, samples are in range of the bit depth,
and the data fill a whole number of 8-byte units. -/
structure WOk (w : WFrame) : Prop where
  bits : w.bits = 1 ∨ w.bits = 2 ∨ w.bits = 4 ∨ w.bits = 8
  seconds : w.seconds < 2 ^ 30
  epoch : w.epoch < 64
  frame : w.frame < 2 ^ 24
  stand : w.stand < 65536
  rate : w.rateKHz < 2 ^ 24
  range : ∀ l ∈ w.data, l < 2 ^ w.bits
  full : w.data.length % (2 * (32 / w.bits)) = 0
  size : w.data.length * w.bits < 2 ^ 30 - 256

theorem pow_digits {bits : Nat} (h : bits = 1 ∨ bits = 2 ∨ bits = 4 ∨ bits = 8) :
    (2 ^ bits) ^ (8 / bits) = 256 ∧ 32 / bits = 4 * (8 / bits) ∧ 0 < 32 / bits := by
  rcases h with rfl | rfl | rfl | rfl <;> decide

theorem data_levels (bits n : Nat) (h : bits = 1 ∨ bits = 2 ∨ bits = 4 ∨ bits = 8) :
    ∀ data : List Nat, (∀ l ∈ data, l < 2 ^ bits) → data.length = n * (32 / bits) →
      ((List.range n).flatMap fun i =>
        leEnc 4 (orWord bits ((data.drop (i * (32 / bits))).take (32 / bits)))).flatMap
          (byteLevels bits) = data := by
  obtain ⟨h1, h2, h3⟩ := pow_digits h
  induction n with
  | zero => intro data _ hl; simp at hl; simp [hl]
  | succ n ih =>
    intro data hd hl
    rw [Nat.succ_mul] at hl
    rw [List.range_succ_eq_map, List.flatMap_cons, List.flatMap_append, List.flatMap_map]
    have e : (fun a => leEnc 4 (orWord bits ((data.drop (a.succ * (32 / bits))).take (32 / bits)))) =
        (fun a => leEnc 4 (orWord bits (((data.drop (32 / bits)).drop (a * (32 / bits))).take
          (32 / bits)))) := by
      funext a
      rw [List.drop_drop, Nat.succ_mul, Nat.add_comm]
    rw [e, ih (data.drop (32 / bits)) (fun l hl => hd l (List.mem_of_mem_drop hl))
      (by rw [List.length_drop]; omega), Nat.zero_mul, List.drop_zero,
      word_levels bits h1 _ (fun l hl => hd l (List.mem_of_mem_take hl))
        (by rw [List.length_take]; omega), List.take_append_drop]

theorem flat_len (n : Nat) (g : Nat → Nat) : ((List.range n).flatMap fun i => leEnc 4 (g i)).length
    = 4 * n := by
  induction n with
  | zero => rfl
  | succ n ih => rw [List.range_succ, List.flatMap_append, List.length_append, ih]; simp; omega

theorem sizes (w : WFrame) (h : WOk w) : ∃ k, w.data.length = k * 2 * samplesPerWord w.bits ∧
    rawLen w = 32 + 8 * k ∧ nWords w = k * 2 ∧ 32 + 8 * k < 2 ^ 27 := by
  obtain ⟨k, hk⟩ : ∃ k, w.data.length = (2 * (32 / w.bits)) * k := by
    exact (Nat.dvd_of_mod_eq_zero h.full)
  have hs : 0 < samplesPerWord w.bits := (pow_digits h.bits).2.2
  have hr : rawLen w = 32 + 8 * k := by
    unfold rawLen
    rw [hk]
    have : 4 * (2 * (32 / w.bits) * k) = samplesPerWord w.bits * (8 * k) := by
      unfold samplesPerWord
      rw [Nat.mul_comm 2 (32 / w.bits), Nat.mul_assoc, ← Nat.mul_assoc 4, Nat.mul_comm 4,
        Nat.mul_assoc, ← Nat.mul_assoc 4 2 k]
    rw [this, Nat.mul_div_cancel_left _ hs]
  refine ⟨k, ?_, hr, ?_, ?_⟩
  · rw [hk]; unfold samplesPerWord
    rw [Nat.mul_comm 2, Nat.mul_assoc, Nat.mul_comm, Nat.mul_comm 2 k]
  · unfold nWords; rw [hr]; omega
  · have hsz := h.size
    rw [hk] at hsz
    rcases h.bits with hb | hb | hb | hb <;> rw [hb] at hsz <;> simp at hsz <;> omega

/-- The header the reader should report for a written frame. -/
def expected (w : WFrame) (k : Nat) : BHeader where
  seconds := w.seconds
  isLegacy := 0
  isInvalid := 0
  frameInSecond := w.frame
  refEpoch := w.epoch
  unassigned := 0
  frameLength := 4 + k
  log2Nchan := 0
  version := 2
  station := w.stand
  thread := 0
  bitsMinusOne := w.bits - 1
  isComplex := if w.isComplex then 1 else 0

theorem parse_written (w : WFrame) (h : WOk w) (k : Nat) (hk : rawLen w = 32 + 8 * k)
    (hk2 : 32 + 8 * k < 2 ^ 27) (d : Bytes) :
    parseHeader (slice (rawHeader w ++ d) 0 16) = expected w k := by
  have hs := h.seconds; have he := h.epoch; have hf := h.frame; have ht := h.stand
  have hq : rawLen w / 8 = 4 + k := by omega
  simp only [show (2:Nat) ^ 30 = 1073741824 from rfl, show (2:Nat) ^ 24 = 16777216 from rfl,
    show (2:Nat) ^ 27 = 134217728 from rfl] at hs hf hk2
  have e0 : leDec (slice (slice (rawHeader w ++ d) 0 16) 0 4) = w.seconds := by
    show leDec [_, _, _, _] = _
    simp [leDec]; omega
  have e1 : leDec (slice (slice (rawHeader w ++ d) 0 16) 4 4) = w.frame + 16777216 * w.epoch := by
    show leDec [_, _, _, _] = _
    simp [leDec]; omega
  have e2 : leDec (slice (slice (rawHeader w ++ d) 0 16) 8 4) = 4 + k + 16777216 * 64 := by
    show leDec [_, _, _, _] = _
    simp [leDec, hq]; omega
  have e3 : leDec (slice (slice (rawHeader w ++ d) 0 16) 12 4) = w.stand +
      16777216 * ((if w.isComplex then 128 else 0) + (w.bits - 1) * 4) := by
    show leDec [_, _, _, _] = _
    have hb : w.bits - 1 < 8 := by rcases h.bits with hb | hb | hb | hb <;> omega
    cases w.isComplex <;> simp [leDec] <;> omega
  have hb : w.bits - 1 < 8 := by rcases h.bits with hb | hb | hb | hb <;> omega
  unfold parseHeader
  rw [e0, e1, e2, e3]
  unfold parseWords expected
  simp only [BHeader.mk.injEq]
  refine ⟨by omega, by omega, by omega, by omega, by omega, by omega, by omega, by omega, by omega,
    by split <;> omega, by split <;> omega, by split <;> omega, by split <;> omega⟩

theorem ext_words (w : WFrame) (hr : w.rateKHz < 2 ^ 24) :
    (leDec (slice [UInt8.ofNat w.rateKHz, UInt8.ofNat (w.rateKHz / 256),
        UInt8.ofNat (w.rateKHz / 65536), 1, 0, 0, 0, 0, 0, 0, 0, 0, 0, 0, 0, 0] 0 4),
     leDec (slice [UInt8.ofNat w.rateKHz, UInt8.ofNat (w.rateKHz / 256),
        UInt8.ofNat (w.rateKHz / 65536), 1, 0, 0, 0, 0, 0, 0, 0, 0, 0, 0, 0, 0] 4 4),
     leDec (slice [UInt8.ofNat w.rateKHz, UInt8.ofNat (w.rateKHz / 256),
        UInt8.ofNat (w.rateKHz / 65536), 1, 0, 0, 0, 0, 0, 0, 0, 0, 0, 0, 0, 0] 8 4),
     leDec (slice [UInt8.ofNat w.rateKHz, UInt8.ofNat (w.rateKHz / 256),
        UInt8.ofNat (w.rateKHz / 65536), 1, 0, 0, 0, 0, 0, 0, 0, 0, 0, 0, 0, 0] 12 4)) =
      (w.rateKHz + 16777216, 0, 0, 0) := by
  simp only [show (2:Nat) ^ 24 = 16777216 from rfl] at hr
  refine Prod.ext ?_ rfl
  show leDec [_, _, _, _] = _
  simp [leDec]
  omega

/-- **C06.** A written frame is read back with the same seconds, frame number, reference epoch,
station, thread 0, bit depth, data kind, one channel, sample rate word and the same samples, and the
file is left exactly after the frame, whatever surrounds it.  Missing from the full property: the
version field (`C06_version`), and data that do not fill 8-byte units (`C06_odd_length`). -/
theorem C06_roundtrip_partial (w : WFrame) (h : WOk w) (pre post : Bytes) :
    ∃ raw r, encode w = some raw ∧ raw.length = rawLen w ∧
      read (pre ++ raw ++ post) pre.length = (.ok r, pre.length + raw.length) ∧
      r.levels = w.data ∧ r.nChan = 1 ∧ r.bitsPerSample = w.bits ∧
      r.header.seconds = w.seconds ∧ r.header.frameInSecond = w.frame ∧
      r.header.refEpoch = w.epoch ∧ r.header.station = w.stand ∧ r.header.thread = 0 ∧
      r.header.isComplex = (if w.isComplex then 1 else 0) ∧ r.header.isInvalid = 0 ∧
      r.header.isLegacy = 0 ∧ r.header.version = 2 ∧ 8 * r.header.frameLength = raw.length ∧
      r.ext = (w.rateKHz + 16777216, 0, 0, 0) := by
  obtain ⟨k, hlen, hraw, hnw, hk2⟩ := sizes w h
  have henc : encode w = some (rawHeader w ++ (List.range (k * 2)).flatMap fun i =>
      leEnc 4 (orWord w.bits ((w.data.drop (i * samplesPerWord w.bits)).take
        (samplesPerWord w.bits)))) := by
    unfold encode
    simp only [hnw, hlen, gt_iff_lt, Nat.lt_irrefl, ↓reduceIte]
  have hlev := data_levels w.bits (k * 2) h.bits w.data h.range hlen
  have hdl := flat_len (k * 2) (fun i => orWord w.bits ((w.data.drop (i * samplesPerWord w.bits)).take
        (samplesPerWord w.bits)))
  generalize hD : ((List.range (k * 2)).flatMap fun i =>
      leEnc 4 (orWord w.bits ((w.data.drop (i * samplesPerWord w.bits)).take
        (samplesPerWord w.bits)))) = D at henc hdl
  have hlev' : D.flatMap (byteLevels w.bits) = w.data := by rw [← hD]; exact hlev
  have hhl : (rawHeader w).length = 32 := rfl
  have hrl : (rawHeader w ++ D).length = 32 + 8 * k := by
    rw [List.length_append, hhl, hdl]; omega
  have hp := parse_written w h k hraw hk2 D
  have hl16 : (slice (rawHeader w ++ D) 0 16).length = 16 := by simp [slice]; omega
  have hbits : w.bits - 1 + 1 = w.bits := by rcases h.bits with hb | hb | hb | hb <;> omega
  have hext : slice (rawHeader w ++ D) 16 16 = [UInt8.ofNat w.rateKHz, UInt8.ofNat (w.rateKHz / 256),
      UInt8.ofNat (w.rateKHz / 65536), 1, 0, 0, 0, 0, 0, 0, 0, 0, 0, 0, 0, 0] := rfl
  have hdat : slice (rawHeader w ++ D) 32 (8 * k) = D := by
    unfold slice
    rw [List.drop_left' hhl, List.take_of_length_le (by omega)]
  refine ⟨rawHeader w ++ D, ⟨expected w k, 1, w.bits, (w.rateKHz + 16777216, 0, 0, 0), w.data⟩, henc,
    by rw [hrl, hraw], ?_, rfl, rfl, rfl, rfl, rfl, rfl, rfl, rfl, rfl, rfl, rfl, rfl, ?_, rfl⟩
  · have r1 := readAt_sub pre (rawHeader w ++ D) post 0 16 (by omega)
    have r2 := readAt_sub pre (rawHeader w ++ D) post 16 16 (by omega)
    have r3 := readAt_sub pre (rawHeader w ++ D) post 32 (8 * k) (by omega)
    have hfl : (expected w k).frameLength * 8 - 32 = 8 * k := by
      show (4 + k) * 8 - 32 = 8 * k; omega
    have hd : (8 * k) / 4 = 2 * k := by omega
    rw [Nat.add_zero] at r1
    unfold read
    simp only [r1, hl16, hp]
    rw [if_neg (by simp)]
    have hhs : headerSize (expected w k) = 32 := rfl
    rw [hhs, if_neg (by show ¬ (4 + k) * 8 < 32; omega)]
    simp only [show (expected w k).isLegacy = 0 from rfl, ↓reduceIte, r2, hext, List.length_cons,
      List.length_nil]
    rw [show pre.length + 16 + (0 + 1 + 1 + 1 + 1 + 1 + 1 + 1 + 1 + 1 + 1 + 1 + 1 + 1 + 1 + 1 + 1) =
      pre.length + 32 by omega]
    simp only [hfl, r3, hdat, hdl]
    rw [if_neg (by simp), if_neg (by simp; omega)]
    rw [show (expected w k).bitsMinusOne + 1 = w.bits from hbits]
    rw [if_neg (by simpa using (by rcases h.bits with hb | hb | hb | hb <;> simp [hb]))]
    rw [if_neg (by simp [expected])]
    rw [hlev', hrl]
    rw [ext_words w h.rate, show pre.length + 32 + 8 * k = pre.length + (32 + 8 * k) by omega]
    rfl
  · show 8 * (4 + k) = _; rw [hrl]; omega

/-- The version field is false as documented: every frame written (as "version 1") is read with
version 2. -/
theorem C06_version (w : WFrame) (h : WOk w) (pre post : Bytes) :
    ∃ raw r p, encode w = some raw ∧ read (pre ++ raw ++ post) pre.length = (.ok r, p) ∧
      r.header.version ≠ 1 := by
  obtain ⟨raw, r, h1, _, h2, _, _, _, _, _, _, _, _, _, _, _, h3, _⟩ :=
    C06_roundtrip_partial w h pre post
  exact ⟨raw, r, _, h1, h2, by omega⟩

/-- A frame whose data fill an odd number of 4-byte words is written, but read back without them and
leaving the file inside the frame. -/
theorem C06_odd_length : ∃ w raw r, encode w = some raw ∧ w.data = [1, 2, 3, 4] ∧ w.bits = 8 ∧
    read raw 0 = (.ok r, raw.length - 4) ∧ r.levels = [] :=
  ⟨⟨5, 6, 7, 8, false, 9, 19600, [1, 2, 3, 4]⟩, _, _, rfl, rfl, rfl, rfl, rfl⟩

/-- Signed samples of a bit depth. -/
def InDepth (bits : Nat) (x : Int) : Prop := -(2 ^ (bits - 1) : Nat) ≤ x ∧ x < (2 ^ (bits - 1) : Nat)

/-- The level written for an in-range sample is in range and is turned back by the integer tables
into the sample (4, 8 bits) or the documented odd level `2x+1` (1, 2 bits); the float tables are
strictly increasing in the sample. -/
theorem C06_samples (bits : Nat) (hb : bits = 1 ∨ bits = 2 ∨ bits = 4 ∨ bits = 8) (x y : Int)
    (hx : InDepth bits x) (hy : InDepth bits y) :
    bias bits x < 2 ^ bits ∧
    i8Value bits (bias bits x) = (if bits = 4 ∨ bits = 8 then x else 2 * x + 1) ∧
    (x < y → f32Value bits (bias bits x) < f32Value bits (bias bits y)) := by
  have hbias : ∀ z, InDepth bits z → ((bias bits z : Nat) : Int) = z + (2 ^ (bits - 1) : Nat) ∧
      bias bits z < 2 ^ bits := by
    intro z hz
    unfold bias InDepth at *
    rcases hb with rfl | rfl | rfl | rfl <;> simp at hz ⊢ <;> omega
  obtain ⟨bx, bx2⟩ := hbias x hx
  obtain ⟨by1, by2⟩ := hbias y hy
  refine ⟨bx2, ?_, ?_⟩
  · unfold i8Value
    rcases hb with rfl | rfl | rfl | rfl <;> simp at bx ⊢ <;> omega
  · intro hlt
    have hlt2 : bias bits x < bias bits y := by omega
    generalize bias bits x = a at *
    generalize bias bits y = b at *
    unfold f32Value
    rcases hb with rfl | rfl | rfl | rfl
    · have ha : a = 0 := by omega
      have hb : b = 1 := by omega
      subst ha; subst hb; simp; decide +kernel
    · have : (a = 0 ∧ b = 1) ∨ (a = 0 ∧ b = 2) ∨ (a = 0 ∧ b = 3) ∨ (a = 1 ∧ b = 2) ∨
        (a = 1 ∧ b = 3) ∨ (a = 2 ∧ b = 3) := by omega
      rcases this with ⟨rfl, rfl⟩ | ⟨rfl, rfl⟩ | ⟨rfl, rfl⟩ | ⟨rfl, rfl⟩ | ⟨rfl, rfl⟩ | ⟨rfl, rfl⟩ <;>
        decide +kernel
    · simp
      have : (a : Rat) < (b : Rat) := by exact_mod_cast hlt2
      grind
    · simp
      have : (a : Rat) < (b : Rat) := by exact_mod_cast hlt2
      grind

/-- Complex samples: the real and imaginary part of time sample `t` of a written frame are where the
reader's complex array takes them from. -/
theorem C06_complex (zs : List (Int × Int)) (t : Nat) (h : t < zs.length) (r : RFrame)
    (hc : r.header.isComplex = 1) (hn : r.nChan = 1) :
    (interlace zs)[flatIndex r 0 t 0]? = some zs[t].1 ∧
    (interlace zs)[flatIndex r 0 t 1]? = some zs[t].2 ∧ (interlace zs).length = 2 * zs.length := by
  simp only [flatIndex, hc, ↓reduceIte, hn, Nat.mul_one, Nat.add_zero]
  induction zs generalizing t with
  | nil => simp at h
  | cons z zs ih =>
    have hl : (interlace zs).length = 2 * zs.length := by
      cases zs with
      | nil => rfl
      | cons y ys => exact (ih 0 (by simp)).2.2
    cases t with
    | zero => simp [interlace, hl]; omega
    | succ t =>
      have := ih t (by simpa using h)
      simp only [interlace, List.length_cons, List.getElem_cons_succ]
      rw [show 2 * (t + 1) = (2 * t + 1) + 1 by omega, List.getElem?_cons_succ,
        List.getElem?_cons_succ, show (2 * t + 1) + 1 + 1 = (2 * t + 1 + 1) + 1 by omega,
        List.getElem?_cons_succ, List.getElem?_cons_succ]
      exact ⟨this.1, this.2.1, by omega⟩

example : WOk ⟨123456, 45, 77, 4, true, 258, 19600, List.replicate 16 15⟩ :=
  ⟨by decide, by decide, by decide, by decide, by decide, by decide, by decide, by decide, by decide⟩
example : InDepth 4 (-8) ∧ InDepth 4 7 := by simp [InDepth]

/-! ## C07 -/

/-- Field widths of the VDIF standard's words 0-3. -/
structure Fits (h : BHeader) : Prop where
  seconds : h.seconds < 2 ^ 30
  legacy : h.isLegacy < 2
  invalid : h.isInvalid < 2
  frame : h.frameInSecond < 2 ^ 24
  epoch : h.refEpoch < 2 ^ 6
  unassigned : h.unassigned < 2 ^ 2
  length : h.frameLength < 2 ^ 24
  nchan : h.log2Nchan < 2 ^ 5
  version : h.version < 2 ^ 3
  station : h.station < 2 ^ 16
  thread : h.thread < 2 ^ 10
  bits : h.bitsMinusOne < 2 ^ 5
  complex : h.isComplex < 2

/-- The words of the standard, from the fields. -/
def packWords (h : BHeader) : Nat × Nat × Nat × Nat :=
  (h.seconds + 2 ^ 30 * h.isLegacy + 2 ^ 31 * h.isInvalid,
   h.frameInSecond + 2 ^ 24 * h.refEpoch + 2 ^ 30 * h.unassigned,
   h.frameLength + 2 ^ 24 * h.log2Nchan + 2 ^ 29 * h.version,
   h.station + 2 ^ 16 * h.thread + 2 ^ 26 * h.bitsMinusOne + 2 ^ 31 * h.isComplex)

/-- Every four 32-bit words decode to in-range fields that pack to exactly these words. -/
theorem C07_repack (w0 w1 w2 w3 : Nat) (h0 : w0 < 2 ^ 32) (h1 : w1 < 2 ^ 32) (h2 : w2 < 2 ^ 32)
    (h3 : w3 < 2 ^ 32) :
    Fits (parseWords w0 w1 w2 w3) ∧ packWords (parseWords w0 w1 w2 w3) = (w0, w1, w2, w3) := by
  constructor
  · constructor <;> exact Nat.mod_lt _ (by decide)
  · simp only [packWords, parseWords, Prod.mk.injEq]
    refine ⟨?_, ?_, ?_, ?_⟩ <;> omega

/-- Conversely every in-range header survives packing and decoding: no two are confused. -/
theorem C07_unpack (h : BHeader) (hf : Fits h) :
    parseWords (packWords h).1 (packWords h).2.1 (packWords h).2.2.1 (packWords h).2.2.2 = h := by
  obtain ⟨a1, a2, a3, a4, a5, a6, a7, a8, a9, a10, a11, a12, a13⟩ := hf
  cases h
  simp only at *
  simp only [packWords, parseWords, BHeader.mk.injEq]
  refine ⟨?_, ?_, ?_, ?_, ?_, ?_, ?_, ?_, ?_, ?_, ?_, ?_, ?_⟩ <;> omega

/-- Through the file: the reader's header is the decoding of the 16 bytes, so two files whose next
16 bytes differ have different headers. -/
theorem C07_injective (b b' : Bytes) (h : b.length = 16) (h' : b'.length = 16)
    (he : parseHeader b = parseHeader b') : b = b' := by
  have key : ∀ c : Bytes, c.length = 16 → c = leEnc 4 (packWords (parseHeader c)).1 ++
      leEnc 4 (packWords (parseHeader c)).2.1 ++ leEnc 4 (packWords (parseHeader c)).2.2.1 ++
      leEnc 4 (packWords (parseHeader c)).2.2.2 := by
    intro c hc
    have hl : ∀ a, a + 4 ≤ 16 → (slice c a 4).length = 4 := by intro a ha; simp [slice]; omega
    have lt : ∀ a, a + 4 ≤ 16 → leDec (slice c a 4) < 2 ^ 32 := by
      intro a ha; have := leDec_lt (slice c a 4); rw [hl a ha] at this; simpa using this
    have back : ∀ a, a + 4 ≤ 16 → leEnc 4 (leDec (slice c a 4)) = slice c a 4 := by
      intro a ha; have := leEnc_leDec (slice c a 4); rwa [hl a ha] at this
    have := (C07_repack _ _ _ _ (lt 0 (by omega)) (lt 4 (by omega)) (lt 8 (by omega))
      (lt 12 (by omega))).2
    unfold parseHeader
    rw [this]
    simp only
    rw [back 0 (by omega), back 4 (by omega), back 8 (by omega), back 12 (by omega)]
    match c, hc with
    | [_, _, _, _, _, _, _, _, _, _, _, _, _, _, _, _], _ => rfl
  rw [key b h, key b' h', he]

example : Fits (parseWords 0xFFFFFFFF 1 2 0x80000000) := (C07_repack _ _ _ _ (by decide) (by decide)
  (by decide) (by decide)).1

/-! ## C08 -/

/-- Header found at a position. -/
def headerAt (f : Bytes) (pos : Nat) : BHeader := parseHeader (readAt f pos 16)

/-- Whole header present but its length field smaller than the header: sync error with the file at
the start of the frame, ready for a re-alignment. -/
theorem C08_sync_iff (f : Bytes) (pos : Nat) :
    (read f pos).1 = .error .sync ↔
      pos + 16 ≤ f.length ∧ (headerAt f pos).frameLength * 8 < headerSize (headerAt f pos) := by
  have hl := readAt_length f pos 16
  unfold read headerAt
  simp only
  split
  · simp; omega
  · split
    · simp only [true_iff]
      refine ⟨by omega, by assumption⟩
    · have : ¬ (pos + 16 ≤ f.length ∧ (parseHeader (readAt f pos 16)).frameLength * 8 <
          headerSize (parseHeader (readAt f pos 16))) := by omega
      simp only [this, iff_false]
      repeat' split
      all_goals simp

theorem C08_sync_position (f : Bytes) (pos : Nat) (h : (read f pos).1 = .error .sync) :
    (read f pos).2 = pos := by
  revert h
  unfold read
  simp only
  repeat' split
  all_goals simp

/-- End of file exactly when the 16 header bytes, or the frame length they announce, are not all
there. -/
theorem C08_eof_iff (f : Bytes) (pos : Nat) :
    (read f pos).1 = .error .eof ↔
      f.length < pos + 16 ∨ (headerSize (headerAt f pos) ≤ (headerAt f pos).frameLength * 8 ∧
        f.length < pos + 8 * (headerAt f pos).frameLength) := by
  have hl := readAt_length f pos 16
  unfold read headerAt
  simp only
  generalize hh : parseHeader (readAt f pos 16) = h
  split
  · simp; omega
  · split
    · simp; omega
    · rename_i h1 h2
      have hl2 := readAt_length f (pos + 16) 16
      have hs : headerSize h = if h.isLegacy = 0 then 32 else 16 := rfl
      by_cases hg : h.isLegacy = 0
      · simp only [hg, true_and, ↓reduceIte] at hs ⊢
        split
        · simp; omega
        · rename_i h3
          have hl3 := readAt_length f (pos + 16 + (readAt f (pos + 16) 16).length)
            (h.frameLength * 8 - headerSize h)
          split
          · simp; omega
          · have hne : ¬ (f.length < pos + 16 ∨ (headerSize h ≤ h.frameLength * 8 ∧
              f.length < pos + 8 * h.frameLength)) := by omega
            simp only [hne, iff_false]
            repeat' split
            all_goals simp
      · simp only [hg, false_and, ↓reduceIte, List.length_nil, Nat.add_zero] at hs ⊢
        have hl3 := readAt_length f (pos + 16) (h.frameLength * 8 - headerSize h)
        split
        · simp; omega
        · have hne : ¬ (f.length < pos + 16 ∨ (headerSize h ≤ h.frameLength * 8 ∧
            f.length < pos + 8 * h.frameLength)) := by omega
          simp only [hne, iff_false]
          repeat' split
          all_goals simp

/-- In every other case (a frame, an unsupported bit depth, or samples that do not divide into the
channels) the file advances by exactly eight times the length field. -/
theorem C08_advance (f : Bytes) (pos : Nat) (h1 : (read f pos).1 ≠ .error .eof)
    (h2 : (read f pos).1 ≠ .error .sync) :
    (read f pos).2 = pos + 8 * (headerAt f pos).frameLength := by
  have e1 := mt (C08_eof_iff f pos).mpr h1
  have e2 := mt (C08_sync_iff f pos).mpr h2
  have hl := readAt_length f pos 16
  revert e1 e2 h1 h2
  unfold read headerAt
  simp only
  generalize hh : parseHeader (readAt f pos 16) = h
  split
  · simp
  · split
    · simp
    · rename_i h1 h2
      have hl2 := readAt_length f (pos + 16) 16
      have hs : headerSize h = if h.isLegacy = 0 then 32 else 16 := rfl
      by_cases hg : h.isLegacy = 0
      · simp only [hg, true_and, ↓reduceIte] at hs ⊢
        split
        · simp
        · repeat' split
          all_goals (simp; try omega)
      · simp only [hg, false_and, ↓reduceIte, List.length_nil, Nat.add_zero] at hs ⊢
        repeat' split
        all_goals (simp; try omega)

/-- The position never moves back before the frame start, whatever the bytes. -/
theorem C08_never_back (f : Bytes) (pos : Nat) : pos ≤ (read f pos).2 := by
  unfold read
  simp only
  repeat' split
  all_goals (simp; try omega)

/-- A returned frame holds exactly the announced number of samples, all in range of its bit depth. -/
theorem C08_samples (f : Bytes) (pos : Nat) (r : RFrame) (h : (read f pos).1 = .ok r) :
    r.header = headerAt f pos ∧
    r.levels.length * r.bitsPerSample = 8 * (8 * r.header.frameLength - headerSize r.header) ∧
    ∀ l ∈ r.levels, l < 2 ^ r.bitsPerSample := by
  have key : ∀ (bits : Nat) (db : Bytes), (bits = 8 ∨ bits = 4 ∨ bits = 2 ∨ bits = 1) →
      (db.flatMap (byteLevels bits)).length * bits = 8 * db.length ∧
      ∀ l ∈ db.flatMap (byteLevels bits), l < 2 ^ bits := by
    intro bits db hb
    constructor
    · induction db with
      | nil => simp
      | cons b db ih =>
        rw [List.flatMap_cons, List.length_append, Nat.add_mul, ih]
        have : (byteLevels bits b).length * bits = 8 := by
          simp only [byteLevels, List.length_map, List.length_range]
          rcases hb with rfl | rfl | rfl | rfl <;> decide
        rw [this, List.length_cons]; omega
    · intro l hl
      simp only [List.mem_flatMap, byteLevels, List.mem_map] at hl
      obtain ⟨_, _, _, _, rfl⟩ := hl
      exact Nat.mod_lt _ (Nat.pow_pos (by omega))
  revert h
  unfold read headerAt
  simp only
  repeat' split
  all_goals try (intro h; simp at h; done)
  all_goals
    intro h
    simp only [Except.ok.injEq] at h
    subst h
    have hb : (parseHeader (readAt f pos 16)).bitsMinusOne + 1 = 8 ∨
        (parseHeader (readAt f pos 16)).bitsMinusOne + 1 = 4 ∨
        (parseHeader (readAt f pos 16)).bitsMinusOne + 1 = 2 ∨
        (parseHeader (readAt f pos 16)).bitsMinusOne + 1 = 1 := Decidable.not_not.mp (by assumption)
    refine ⟨rfl, ?_, (key _ _ hb).2⟩
    simp only
    rw [(key _ _ hb).1]
    simp_all
    try omega

example : (read (List.replicate 40 0) 3).1 = .error .sync ∧ (read (List.replicate 40 0) 3).2 = 3 :=
  ⟨rfl, rfl⟩

/-! ## C56: memory accesses of the integer reader -/

/-- The complex branch stays inside the sample array exactly when its elements are four bytes (the
float reader) or there are no samples: the int8 reader reads three times beyond its array. -/
theorem C56_complex_in_bounds_iff (sz nSamples : Nat) :
    complexBytesRead nSamples ≤ allocBytes sz nSamples ↔ 4 ≤ sz ∨ nSamples = 0 := by
  unfold complexBytesRead allocBytes
  constructor
  · intro h
    rcases Nat.eq_zero_or_pos nSamples with h0 | h0
    · exact .inr h0
    · exact .inl (Nat.le_of_mul_le_mul_right h h0)
  · rintro (h | h)
    · exact Nat.mul_le_mul_right _ h
    · simp [h]

/-- The float variant (4-byte elements) is safe for every number of samples. -/
theorem C56_float_safe_partial (nSamples : Nat) : complexBytesRead nSamples ≤ allocBytes 4 nSamples :=
  (C56_complex_in_bounds_iff 4 nSamples).mpr (.inl (Nat.le_refl _))

/-- The integer variant (1-byte elements) is not, for any non-empty frame. -/
theorem C56_int8_out_of_bounds (nSamples : Nat) (h : 0 < nSamples) :
    ¬ complexBytesRead nSamples ≤ allocBytes 1 nSamples := by
  rw [C56_complex_in_bounds_iff]; omega

/-! ## C57: time of a written frame -/

/-- For every date from 2000 to 2031 the reference epoch fits its six bits and the reader's origin is
the first of January or July the writer counted from. -/
theorem C57_epoch (year month : Nat) (hy : 2000 ≤ year ∧ year < 2032) (hm : 1 ≤ month ∧ month ≤ 12) :
    0 ≤ epochOf year month ∧ epochOf year month < 64 ∧
    epochOrigin (epochOf year month % 64).toNat = (year, originMonth month) ∧
    originMonth month ≤ month ∧ month < originMonth month + 6 := by
  unfold epochOf epochOrigin originMonth
  split <;> simp only [Prod.mk.injEq] <;> omega

/-- From 2032 on the epoch byte is that of 32 years earlier, and the frame is read as such. -/
theorem C57_wraps (year month : Nat) : epochOf (year + 32) month % 64 = epochOf year month % 64 := by
  unfold epochOf; split <;> omega

/-- A frame that starts less than half a frame from frame `k` of second `s` (and within that second)
is written with exactly that second and frame number. -/
theorem C57_grid_partial (s k : Int) (t rate : Rat) (n : Nat) (hs : 0 ≤ s)
    (ht : (s : Rat) ≤ t ∧ t < s + 1)
    (h1 : (t - s) * (rate / n) - k < 1 / 2) (h2 : k - (t - s) * (rate / n) < 1 / 2) :
    timeSplit t rate n = (s, k) := by
  have hp : pyInt t = s := pyInt_eq_of_near hs ht.1 ht.2
  unfold timeSplit
  simp only [hp]
  rw [round_near h1 h2]

/-- Missing from the full property (frame number below the frames per second): a time in the last
half frame of a second gets frame number = frames per second instead of frame 0 of the next
second. -/
theorem C57_overflow : timeSplit (3 / 4) 10000000 10000000 = (0, 1) ∧
    (10000000 : Rat) / (10000000 : Nat) = 1 := by
  decide +kernel

example : timeSplit (5 + 1 / 2) 40960 4096 = (5, 5) := by decide +kernel
example : (5 : Rat) ≤ 5 + 1 / 2 ∧ (5 + 1 / 2 : Rat) < 5 + 1 := by constructor <;> grind

end Verif.Vdif
