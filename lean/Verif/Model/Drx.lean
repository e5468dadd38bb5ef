import Verif.Model.Bytes
import Verif.Model.PyNum
/-!
# DRX and DRX8 frames: simulator/writer and reader
-/
namespace Verif.Drx

/-- Frame as exposed by the reader: /repo/lsl/reader/drx.py:63-75 (header) and the payload
attributes set in /repo/lsl/reader/drx.cpp:142-190.  Samples are (re, im) pairs. -/
structure Frame where
  frameCount : Nat
  drxId : Nat
  secondCount : Nat
  decimation : Nat
  timeOffset : Nat
  timetag : Nat
  tuningWord : Nat
  flags : Nat
  data : List (Int × Int)
  deriving DecidableEq, Repr

/-- `drx.FRAME_SIZE`, /repo/lsl/reader/drx.py:63 = sizeof(DRXFrame) of drx.cpp:14-49. -/
def frameSize : Nat := 4128

/-- DRX8: /repo/lsl/reader/drx8.py FRAME_SIZE, drx8.cpp `bytes[8192]`. -/
def frameSize8 : Nat := 8224

/-- First four bytes of a frame.  `validSync5C` (/repo/lsl/reader/readers.hpp:52-57) compares the
little-endian word with 0x5CDEC0DE. -/
def syncBytes : Bytes := [0xDE, 0xC0, 0xDE, 0x5C]

/-- `drxLUT[i][j]`, /repo/lsl/reader/gofast.cpp:45-55: `t = (i >> 4*(1-j)) & 15` stored in an int8
after subtracting `(t&8)<<1`. -/
def lut (b : UInt8) (j : Nat) : Int :=
  let t : Nat := (b.toNat >>> (4 * (1 - j))) &&& 15
  (t : Int) - (((t &&& 8) <<< 1 : Nat) : Int)

/-- `drx8LUT[i]`, /repo/lsl/reader/gofast.cpp:38-42: `i - ((i&128)<<1)`. -/
def lut8 (b : UInt8) : Int :=
  (b.toNat : Int) - (((b.toNat &&& 128) <<< 1 : Nat) : Int)

/-- Payload decoding of DRX: one byte is one complex sample, high nibble real
(/repo/lsl/reader/drx.cpp:112-131). -/
def decodeData (b : Bytes) : List (Int × Int) := b.map (fun x => (lut x 0, lut x 1))

/-- Payload decoding of DRX8: two bytes per complex sample (/repo/lsl/reader/drx8.cpp). -/
def decodeData8 : Bytes → List (Int × Int)
  | r :: i :: l => (lut8 r, lut8 i) :: decodeData8 l
  | _ => []

/-- Header decoding shared by `read_drx` and `read_drx8` (/repo/lsl/reader/drx.cpp:14-49 for the
packed layout, 103-110 for the byte swaps).  After the swap the id is the top byte of the frame
count word, i.e. its first byte in the file. -/
def decodeHeader (b : Bytes) (data : List (Int × Int)) : Frame where
  drxId := beDec (slice b 4 1)
  frameCount := beDec (slice b 5 3)
  secondCount := beDec (slice b 8 4)
  decimation := beDec (slice b 12 2)
  timeOffset := beDec (slice b 14 2)
  timetag := beDec (slice b 16 8)
  tuningWord := beDec (slice b 24 4)
  flags := beDec (slice b 28 4)
  data := data

/-- `read_drx`, /repo/lsl/reader/drx.cpp:55-196 (and `drx.read_frame`, drx.py:219-238, which only
translates the exceptions).  Returns the outcome and the new file position. -/
def readDrx (f : Bytes) (pos : Nat) : Except ReadErr Frame × Nat :=
  let b := readAt f pos frameSize
  if b.length ≠ frameSize then (.error .eof, pos + b.length)
  else if b.take 4 ≠ syncBytes then (.error .sync, pos + b.length)
  else (.ok (decodeHeader b (decodeData (b.drop 32))), pos + b.length)

/-- `read_drx8`, /repo/lsl/reader/drx8.cpp:55-190. -/
def readDrx8 (f : Bytes) (pos : Nat) : Except ReadErr Frame × Nat :=
  let b := readAt f pos frameSize8
  if b.length ≠ frameSize8 then (.error .eof, pos + b.length)
  else if b.take 4 ≠ syncBytes then (.error .sync, pos + b.length)
  else (.ok (decodeHeader b (decodeData8 (b.drop 32))), pos + b.length)

/-- `FrameHeader.id`, /repo/lsl/reader/drx.py:98-108: (beam, tune, pol). -/
def unpackId (id : Nat) : Nat × Nat × Nat := (id &&& 7, (id >>> 3) &&& 7, (id >>> 7) &&& 1)

/-- `FrameHeader.is_drx`, /repo/lsl/reader/drx.py:88-94. -/
def isDrx (id : Nat) : Bool := (id >>> 6) &&& 1 == 0

/-- `FrameHeader.is_drx8`, /repo/lsl/reader/drx8.py. -/
def isDrx8 (id : Nat) : Bool := (id >>> 6) &&& 1 == 1

/-- Id byte built by the simulator (/repo/lsl/sim/drx.py:146) and by `DRXFrameBuffer.create_fill`
(/repo/lsl/reader/buffer.py). -/
def packId (beam tune pol : Nat) : Nat := (beam &&& 7) ||| ((tune &&& 7) <<< 3) ||| ((pol &&& 1) <<< 7)

/-- Id byte built by `DRX8FrameBuffer.create_fill` (additionally sets bit 6). -/
def packId8 (beam tune pol : Nat) : Nat :=
  (beam &&& 7) ||| ((tune &&& 7) <<< 3) ||| 0x40 ||| ((pol &&& 1) <<< 7)

/-- Simulated frame: the arguments of `SimFrame.__init__`, /repo/lsl/sim/drx.py:99-130.
`data` are the complex samples as exact (re, im) rationals. -/
structure SimFrame where
  beam : Nat
  tune : Nat
  pol : Nat
  decimation : Nat
  timeOffset : Nat
  frameCount : Nat
  obsTime : Nat
  flags : Nat
  data : List (Rat × Rat)

/-- Round, clip and convert to int8: /repo/lsl/sim/drx.py:76-84. -/
def quantise (x : Rat) : BitVec 8 := BitVec.ofInt 8 (clip (-8) 7 (roundHalfEven x))

/-- `i += ((i & 8) << 1)` in int8 arithmetic, /repo/lsl/sim/drx.py:85-86. -/
def addBit (i : BitVec 8) : BitVec 8 := i + ((i &&& 8#8) <<< 1)

/-- `((i & 0xF) << 4) | (q & 0xF)`, /repo/lsl/sim/drx.py:88. -/
def packSample (i q : BitVec 8) : UInt8 :=
  UInt8.ofBitVec (((addBit i &&& 0xF#8) <<< 4) ||| (addBit q &&& 0xF#8))

/-- `frame_to_frame` after `SimFrame._update` (/repo/lsl/sim/drx.py:22-90 and 132-150).
`_update` multiplies the frame count and second count by 0, so these fields are written as 0. -/
def SimFrame.toBytes (s : SimFrame) : Bytes :=
  syncBytes ++ beEnc 1 (packId s.beam s.tune s.pol) ++ beEnc 3 (0 * s.frameCount)
    ++ beEnc 4 (0 * (s.obsTime / 196000000)) ++ beEnc 2 s.decimation ++ beEnc 2 s.timeOffset
    ++ beEnc 8 s.obsTime ++ beEnc 8 s.flags
    ++ s.data.map (fun x => packSample (quantise x.1) (quantise x.2))

/-- `SimFrame.is_valid(raise_errors=True)` as used by `create_raw_frame`
(/repo/lsl/sim/drx.py:181-233).  The time-offset test returns `False` without raising, and
`create_raw_frame` ignores the return value, so only the raising tests matter here.  The id is
read back from the packed byte, so it is masked before it is compared. -/
def SimFrame.createRaw (s : SimFrame) : Option Bytes :=
  let id := unpackId (packId s.beam s.tune s.pol)
  if id.1 ∉ [1, 2, 3, 4] then none
  else if id.2.1 ∉ [1, 2] then none
  else if id.2.2 ∉ [0, 1] then none
  else if s.data.length ≠ 4096 then none
  else some s.toBytes

/-- Reading frames until an exception: the loop used with `read_frame` everywhere in the package
(e.g. /repo/lsl/reader/ldp.py DRXFile.read).  `fuel` bounds the number of iterations; it is chosen
as the file length + 1 by `readAll`. -/
def readLoop (f : Bytes) : Nat → Nat → List Frame × Option ReadErr
  | 0, _ => ([], none)
  | n + 1, pos =>
    match readDrx f pos with
    | (.ok fr, pos') => let r := readLoop f n pos'; (fr :: r.1, r.2)
    | (.error e, _) => ([], some e)

/-- Read a whole file; a frame consumes at least one byte so the fuel is never exhausted. -/
def readAll (f : Bytes) : List Frame × Option ReadErr := readLoop f (f.length + 1) 0

end Verif.Drx

namespace Verif.Drx

/-- The three tests made on a successfully read frame by `DRXFile._ready_file`
(/repo/lsl/reader/ldp.py:325-333): is DRX, `fS / decimation` does not divide by zero, the time tag
is after 1980. -/
def goodFrame (fr : Frame) : Bool :=
  isDrx fr.drxId && fr.decimation != 0 && decide (fr.timetag > 61849368000000000)

theorem readDrx_next {f : Bytes} {pos : Nat} {r : Except ReadErr Frame} {p : Nat}
    (h : readDrx f pos = (r, p)) (hr : r ≠ .error .eof) : p = pos + 4128 ∧ pos + 4128 ≤ f.length := by
  simp only [readDrx] at h
  have hl : (readAt f pos frameSize).length = min 4128 (f.length - pos) := by
    simp [readAt, frameSize]
  split at h
  · simp only [Prod.mk.injEq] at h; exact absurd h.1.symm hr
  · rename_i hne
    have h4 : (readAt f pos frameSize).length = 4128 := by simpa [frameSize] using hne
    split at h <;> (simp only [Prod.mk.injEq] at h; omega)

/-- First loop of `DRXFile._ready_file`, /repo/lsl/reader/ldp.py:320-337: on a sync error move to
the byte after the place just tried (`seek(-FRAME_SIZE+1, 1)`); on an unsuitable frame continue
after it; end-of-file is not caught; on success step back to the start of the frame.  The
recursion is on the remaining number of bytes, so the loop always terminates. -/
def align (f : Bytes) (pos : Nat) : Except ReadErr (Frame × Nat) :=
  match h : readDrx f pos with
  | (.error .eof, _) => .error .eof
  | (.error .sync, p) => align f (p - 4128 + 1)
  | (.ok fr, p) => if goodFrame fr then .ok (fr, p - 4128) else align f p
termination_by f.length - pos
decreasing_by
  · have := readDrx_next h (by simp); omega
  · have := readDrx_next h (by simp); omega

/-- `frame.time` in units of 1/fS: /repo/lsl/reader/drx.py:206-213. -/
def sampleTime (fr : Frame) : Int := (fr.timetag : Int) - fr.timeOffset

/-- The large-gap check of `DRXFile._ready_file`, /repo/lsl/reader/ldp.py:342-362.  The time
difference in seconds is compared exactly (the code compares floats). -/
def gapCheck (f : Bytes) (pos : Nat) (fr0 : Frame) : List Nat → Except ReadErr Nat
  | [] => .ok pos
  | c :: cs =>
    if f.length > c * 1024 ^ 2 then
      let q := pos + ((c * 1024 ^ 2 - 1) / 4128 + 1) * 4128
      match readDrx f q with
      | (.error e, _) => .error e
      | (.ok fr, p) =>
        if sampleTime fr - sampleTime fr0 > 300 * 196000000 ∧ p - 4128 > 0 then .ok (p - 4128)
        else gapCheck f pos fr0 cs
    else gapCheck f pos fr0 cs

/-- `n` calls of `drx.read_frame`, /repo/lsl/reader/ldp.py:367-373. -/
def readMany (f : Bytes) : Nat → Nat → Except ReadErr (List Frame × Nat)
  | 0, pos => .ok ([], pos)
  | n + 1, pos =>
    match readDrx f pos with
    | (.error e, _) => .error e
    | (.ok fr, p) =>
      match readMany f n p with
      | .error e => .error e
      | .ok (l, q) => .ok (fr :: l, q)

/-- `DRXFile._ready_file`, /repo/lsl/reader/ldp.py:312-376: result is the final position of the
file, or the uncaught exception. -/
def readyFile (f : Bytes) (pos : Nat) : Except ReadErr Nat :=
  match align f pos with
  | .error e => .error e
  | .ok (fr, p) =>
    match gapCheck f p fr [1, 2, 4, 8, 16] with
    | .error e => .error e
    | .ok p' =>
      match readMany f 32 p' with
      | .error e => .error e
      | .ok (_, q) => .ok (q - 32 * 4128)

end Verif.Drx
