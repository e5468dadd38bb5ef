import Verif.Lemmas.DrxStream
import Verif.Props.Drx
/-!
# DRX streams, ids and file alignment (C03, C04, C05, C53)

A raw frame here is any 4128 bytes that start with the Mark 5C sync word (`IsRaw`), so the
theorems cover frames from any encoder, including the simulator (`C03_sim_isRaw`).
-/
namespace Verif.Drx

/-! ## C03 -/

/-- Frames made by the simulator are raw frames. -/
theorem C03_sim_isRaw (s : SimFrame) (h : s.data.length = 4096) : IsRaw s.toBytes := by
  refine ⟨by rw [toBytes_length, h], by simp [SimFrame.toBytes, syncBytes]⟩

/-- A concatenation of frames with an incomplete tail is read as exactly these frames, in order,
followed by end-of-file. -/
theorem C03_drx_stream (bs : List Bytes) (tail : Bytes) (h : ∀ b ∈ bs, IsRaw b)
    (ht : tail.length < 4128) :
    readAll (bs.flatten ++ tail) = (bs.map decode, some .eof) := by
  have hl := flatten_length bs h
  have := readLoop_frames bs h [] tail ht ((bs.flatten ++ tail).length + 1)
    (by rw [List.length_append]; omega)
  simpa [readAll] using this

example : ∃ bs : List Bytes, bs.length = 3 ∧ ∀ b ∈ bs, IsRaw b := by
  refine ⟨List.replicate 3 (syncBytes ++ List.replicate 4124 0x7F), List.length_replicate, ?_⟩
  intro b hb
  rw [List.eq_of_mem_replicate hb]
  exact ⟨by rw [List.length_append, List.length_replicate]; rfl, rfl⟩

/-! ## C04 -/

/-- Reader decoding inverts the simulator / buffer packing, and the DRX8 variant is marked as
DRX8. -/
theorem C04_id_roundtrip (b t p : Nat) (hb : b < 8) (ht : t < 8) (hp : p < 2) :
    unpackId (packId b t p) = (b, t, p) ∧ packId b t p < 256 ∧ isDrx (packId b t p) = true ∧
    unpackId (packId8 b t p) = (b, t, p) ∧ packId8 b t p < 256 ∧ isDrx8 (packId8 b t p) = true := by
  have key : ∀ (b : Fin 8) (t : Fin 8) (p : Fin 2),
      unpackId (packId b t p) = (b.val, t.val, p.val) ∧ packId b t p < 256 ∧
      isDrx (packId b t p) = true ∧
      unpackId (packId8 b t p) = (b.val, t.val, p.val) ∧ packId8 b t p < 256 ∧
      isDrx8 (packId8 b t p) = true := by
    decide +kernel
  exact key ⟨b, hb⟩ ⟨t, ht⟩ ⟨p, hp⟩

/-- Exactly one of the two format tests holds, for every id. -/
theorem C04_drx_xor_drx8 (id : Nat) : isDrx id = !isDrx8 id := by
  simp only [isDrx, isDrx8, Nat.and_one_is_mod]
  rcases Nat.mod_two_eq_zero_or_one (id >>> 6) with h | h <;> simp [h]

/-- The id byte is determined by (beam, tune, pol) and the format bit. -/
theorem C04_id_injective (i j : Nat) (hi : i < 256) (hj : j < 256)
    (h : unpackId i = unpackId j) (hf : isDrx i = isDrx j) : i = j := by
  have key : ∀ i < 256, (if isDrx i then packId (unpackId i).1 (unpackId i).2.1 (unpackId i).2.2
      else packId8 (unpackId i).1 (unpackId i).2.1 (unpackId i).2.2) = i := by decide +kernel
  rw [← key i hi, ← key j hj, h, hf]

example : (7 : Nat) < 8 ∧ unpackId 0xD1 = (1, 2, 1) ∧ isDrx8 0xD1 = true := by decide

/-! ## C05 -/

/-- Alignment: for any junk without a sync word at any of its positions, followed by a usable
frame, the alignment loop stops exactly at the first byte of that frame, and it is this frame that
is returned. -/
theorem C05_align_skips_junk (junk b rest : Bytes) (hb : IsRaw b) (hg : goodFrame (decode b) = true)
    (hj : ∀ i, i < junk.length →
      ((junk ++ (b ++ rest)).drop i).take 4 ≠ [0xDE, 0xC0, 0xDE, 0x5C]) :
    align (junk ++ (b ++ rest)) 0 = .ok (decode b, junk.length) := by
  rw [align_skip _ junk.length 0 (by simp [hb.1]) (fun i _ h => hj i (by omega)),
    Nat.zero_add]
  exact align_good (readDrx_raw hb) hg

/-- For arbitrary bytes: if the alignment loop stops at `p`, then the bytes at `p` are read as a
usable frame (so a false alignment is never reported): a DRX frame with a non-zero decimation and a
time tag after the start of 1980 (315558000 s at 196 MHz). -/
theorem C05_align_sound (f : Bytes) (pos : Nat) (fr : Frame) (p : Nat) (h : align f pos = .ok (fr, p)) :
    pos ≤ p ∧ readDrx f p = (.ok fr, p + 4128) ∧
    isDrx fr.drxId = true ∧ 0 < fr.decimation ∧ 315558000 * 196000000 < fr.timetag := by
  suffices hs : pos ≤ p ∧ readDrx f p = (.ok fr, p + 4128) ∧ goodFrame fr = true by
    refine ⟨hs.1, hs.2.1, ?_⟩
    have := hs.2.2
    simp only [goodFrame, Bool.and_eq_true, bne_iff_ne, decide_eq_true_eq] at this
    exact ⟨this.1.1, by omega, by omega⟩
  fun_induction align f pos with
  | case1 => simp at h
  | case2 pos q hq ih =>
    have := readDrx_next hq (by simp)
    have := ih h
    exact ⟨by omega, this.2⟩
  | case3 pos fr' q hq hg =>
    have hn := readDrx_next hq (by simp)
    simp only [Except.ok.injEq, Prod.mk.injEq] at h
    obtain ⟨rfl, rfl⟩ := h
    refine ⟨by omega, ?_, hg⟩
    rw [show q - 4128 = pos by omega, hq]
    congr 1
    exact hn.1
  | case4 pos fr' q hq hg ih =>
    have := readDrx_next hq (by simp)
    have := ih h
    exact ⟨by omega, this.2⟩

/-- The alignment loop fails only by reaching the end of the file. -/
theorem C05_align_error (f : Bytes) (pos : Nat) (e : ReadErr) (h : align f pos = .error e) : e = .eof := by
  fun_induction align f pos with
  | case1 => simpa using h.symm
  | case2 pos q hq ih => exact ih h
  | case3 pos fr' q hq hg => simp at h
  | case4 pos fr' q hq hg ih => exact ih h

/-- A concrete usable frame: zero samples, decimation 10, time tag after 1980. -/
def sampleRaw : Bytes :=
  syncBytes ++ beEnc 1 (packId 1 1 0) ++ beEnc 3 0 ++ beEnc 4 0 ++ beEnc 2 10 ++ beEnc 2 0
    ++ beEnc 8 (196000000 * 1700000000) ++ beEnc 8 0 ++ List.replicate 4096 0

theorem sampleRaw_ok : IsRaw sampleRaw ∧ goodFrame (decode sampleRaw) = true := by
  refine ⟨⟨?_, rfl⟩, ?_⟩
  · simp only [sampleRaw, List.length_append, beEnc_length, List.length_replicate]; rfl
  · decide +kernel

example : ∃ junk b : Bytes, junk.length = 3 ∧ IsRaw b ∧ goodFrame (decode b) = true ∧
    ∀ i, i < junk.length → ((junk ++ (b ++ [])).drop i).take 4 ≠ [0xDE, 0xC0, 0xDE, 0x5C] := by
  refine ⟨[1, 2, 0xDE], sampleRaw, rfl, sampleRaw_ok.1, sampleRaw_ok.2, ?_⟩
  intro i hi
  match i, hi with
  | 0, _ => decide
  | 1, _ => decide
  | 2, _ => decide

/-! ## C53: which files can be opened -/

/-- Number of frames skipped by the gap check with a checkpoint of `c` MiB. -/
def gapFrames (c : Nat) : Nat := (c * 1024 ^ 2 - 1) / 4128 + 1

/-- A file of at least 32 usable frames (after junk) without a 300 s gap can be opened at its first
frame, **provided** that whenever it is larger than a checkpoint it also contains the frame the gap
check looks at.  The proviso is the missing part: see `C53_open_fails`. -/
theorem C53_open_partial (junk tail : Bytes) (bs : List Bytes) (h : ∀ b ∈ bs, IsRaw b)
    (hn : 32 ≤ bs.length) (hg : ∀ b ∈ bs, goodFrame (decode b) = true)
    (hj : ∀ i, i < junk.length →
      ((junk ++ (bs.flatten ++ tail)).drop i).take 4 ≠ [0xDE, 0xC0, 0xDE, 0x5C])
    (hgap : ∀ b ∈ bs, ∀ b' ∈ bs, sampleTime (decode b) - sampleTime (decode b') ≤ 300 * 196000000)
    (hsize : ∀ c ∈ [1, 2, 4, 8, 16], (junk ++ (bs.flatten ++ tail)).length > c * 1024 ^ 2 →
      gapFrames c < bs.length) :
    readyFile (junk ++ (bs.flatten ++ tail)) 0 = .ok junk.length := by
  match bs, h, hn, hg, hgap, hsize, hj with
  | b :: bs, h, hn, hg, hgap, hsize, hj =>
    have hb := h b List.mem_cons_self
    have ha : align (junk ++ ((b :: bs).flatten ++ tail)) 0 = .ok (decode b, junk.length) := by
      have := C05_align_skips_junk junk b (bs.flatten ++ tail) hb (hg b List.mem_cons_self)
        (by simpa [List.append_assoc] using hj)
      simpa [List.append_assoc] using this
    have hgc : ∀ cs : List Nat, (∀ c ∈ cs, c ∈ [1, 2, 4, 8, 16]) →
        gapCheck (junk ++ ((b :: bs).flatten ++ tail)) junk.length (decode b) cs = .ok junk.length := by
      intro cs
      induction cs with
      | nil => intro _; rfl
      | cons c cs ih =>
        intro hc
        have ih := ih (fun x hx => hc x (List.mem_cons_of_mem _ hx))
        rw [gapCheck]
        split
        · rename_i hbig
          have hlt := hsize c (hc c List.mem_cons_self) hbig
          unfold gapFrames at hlt
          simp only
          rw [readDrx_nth (b :: bs) h junk tail _ hlt]
          simp only
          rw [if_neg, ih]
          rintro ⟨h1, _⟩
          have := hgap _ (List.getElem_mem hlt) b List.mem_cons_self
          omega
        · exact ih
    simp only [readyFile, ha, hgc _ (fun _ h => h)]
    obtain ⟨l, hl⟩ := readMany_frames (b :: bs) h junk tail 32 0 (by omega)
    simp only [Nat.zero_mul, Nat.add_zero] at hl
    rw [hl]
    simp only
    rw [show junk.length + (0 + 32) * 4128 - 32 * 4128 = junk.length by omega]

/-- **The claim "any file with at least 32 usable frames can be opened" is false.**  A file of
exactly 255 usable frames is larger than 1 MiB, and the gap check then reads the (missing) 256th
frame: opening it always fails with end-of-file.  The same happens with 509 and 1017 frames. -/
theorem C53_open_fails (bs : List Bytes) (h : ∀ b ∈ bs, IsRaw b) (hlen : bs.length = 255)
    (hg : ∀ b ∈ bs, goodFrame (decode b) = true) :
    readyFile bs.flatten 0 = .error .eof := by
  match bs, h, hlen, hg with
  | b :: bs, h, hlen, hg =>
    have hb := h b List.mem_cons_self
    have hfl := flatten_length (b :: bs) h
    rw [hlen] at hfl
    have ha : align (b :: bs).flatten 0 = .ok (decode b, 0) := by
      have := C05_align_skips_junk [] b bs.flatten hb (hg b List.mem_cons_self)
        (by intro i hi; simp at hi)
      simpa using this
    have hgc : gapCheck (b :: bs).flatten 0 (decode b) [1, 2, 4, 8, 16] = .error .eof := by
      rw [gapCheck, if_pos (by omega)]
      have he := readDrx_eof (f := (b :: bs).flatten)
        (pos := 0 + ((1 * 1024 ^ 2 - 1) / 4128 + 1) * 4128) (by omega)
      simp only
      match hr : readDrx (b :: bs).flatten (0 + ((1 * 1024 ^ 2 - 1) / 4128 + 1) * 4128) with
      | (.ok fr, p) => rw [hr] at he; simp at he
      | (.error e, p) => rw [hr] at he; simpa using he
    simp only [readyFile, ha, hgc]

example : ∃ bs : List Bytes, (∀ b ∈ bs, IsRaw b) ∧ bs.length = 255 ∧
    ∀ b ∈ bs, goodFrame (decode b) = true := by
  refine ⟨List.replicate 255 sampleRaw, ?_, List.length_replicate, ?_⟩
  · intro b hb; rw [List.eq_of_mem_replicate hb]; exact sampleRaw_ok.1
  · intro b hb; rw [List.eq_of_mem_replicate hb]; exact sampleRaw_ok.2

end Verif.Drx
