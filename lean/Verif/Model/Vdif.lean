import Verif.Model.Bytes
import Verif.Model.PyNum
/-!
# VDIF frames: /repo/lsl/writer/vdif.py and /repo/lsl/reader/vdif.cpp

Samples are kept as unsigned levels (what the look-up tables are indexed with); `i8Value` and
`f32Value` are the tables.
-/
namespace Verif.Vdif

/-! ## Writer -/

/-- The attributes of `lsl.writer.vdif.Frame` used by `create_raw_frame`; `data` is the biased
unsigned data left by `_data_adjust`. -/
structure WFrame where
  seconds : Nat
  epoch : Nat
  frame : Nat
  bits : Nat
  isComplex : Bool
  stand : Nat
  rateKHz : Nat
  data : List Nat
  deriving Repr

/-- `_data_adjust`, writer/vdif.py:69-70: `(x + 2**(bits-1)).astype(uint32) & (2**bits-1)`. -/
def bias (bits : Nat) (x : Int) : Nat := ((x + (2 ^ (bits - 1) : Nat)) % (2 ^ bits : Nat)).toNat

/-- Real and imaginary parts interlaced, writer/vdif.py:65-67. -/
def interlace : List (Int × Int) → List Int
  | [] => []
  | (re, im) :: rest => re :: im :: interlace rest

/-- The packing loop over `p`, writer/vdif.py:154-156: `word |= data[..] << (bits*p)`. -/
def orWord (bits : Nat) (levels : List Nat) : Nat :=
  (levels.foldl (fun (acc : Nat × Nat) d => (acc.1 ||| (d <<< (bits * acc.2)), acc.2 + 1)) (0, 0)).1

/-- `samplesPerWord = int(32 // bits)`, writer/vdif.py:107. -/
def samplesPerWord (bits : Nat) : Nat := 32 / bits

/-- `len(raw)`, writer/vdif.py:108. -/
def rawLen (w : WFrame) : Nat := 32 + 4 * w.data.length / samplesPerWord w.bits

/-- The 32 header bytes, writer/vdif.py:112-149. -/
def rawHeader (w : WFrame) : Bytes :=
  [ UInt8.ofNat w.seconds, UInt8.ofNat (w.seconds / 256), UInt8.ofNat (w.seconds / 65536),
    UInt8.ofNat (w.seconds / 16777216 % 64),
    UInt8.ofNat w.frame, UInt8.ofNat (w.frame / 256), UInt8.ofNat (w.frame / 65536),
    UInt8.ofNat (w.epoch % 64),
    UInt8.ofNat (rawLen w / 8), UInt8.ofNat (rawLen w / 8 / 256), UInt8.ofNat (rawLen w / 8 / 65536),
    64,
    UInt8.ofNat w.stand, UInt8.ofNat (w.stand / 256), 0,
    UInt8.ofNat ((if w.isComplex then 128 else 0) + (w.bits - 1) % 32 * 4),
    UInt8.ofNat w.rateKHz, UInt8.ofNat (w.rateKHz / 256), UInt8.ofNat (w.rateKHz / 65536), 1,
    0, 0, 0, 0, 0, 0, 0, 0, 0, 0, 0, 0 ]

/-- Number of iterations of `for f in range(32, len(raw), 4)`, writer/vdif.py:152. -/
def nWords (w : WFrame) : Nat := (rawLen w - 32 + 3) / 4

/-- `create_raw_frame`, writer/vdif.py:99-162; `none` is the IndexError of the packing loop (data
that do not fill the last word). -/
def encode (w : WFrame) : Option Bytes :=
  let spw := samplesPerWord w.bits
  if nWords w * spw > w.data.length then none
  else some (rawHeader w ++ (List.range (nWords w)).flatMap fun i =>
    leEnc 4 (orWord w.bits ((w.data.drop (i * spw)).take spw)))

/-- Time split of `_set_epoch`, writer/vdif.py:92-97: whole seconds and frame number; `t` is
`epochSeconds.sec`, `n` the number of time samples in the frame. -/
def timeSplit (t rate : Rat) (n : Nat) : Int × Int :=
  let s := pyInt t
  (s, roundHalfEven ((t - s) * (rate / n)))

/-- Reference epoch of `_set_epoch`, writer/vdif.py:90. -/
def epochOf (year month : Nat) : Int := 2 * ((year : Int) - 2000) + (if month > 6 then 1 else 0)

/-- First month of the half year used as origin, writer/vdif.py:91. -/
def originMonth (month : Nat) : Nat := month / 7 * 6 + 1

/-- The reader's origin (year, month), reader/vdif.py:132. -/
def epochOrigin (e : Nat) : Nat × Nat := (2000 + e / 2, e % 2 * 6 + 1)

/-! ## Reader -/

/-- The packed bit-fields of `VDIFBasicHeader`, vdif.cpp:17-39 (least significant bits first). -/
structure BHeader where
  seconds : Nat
  isLegacy : Nat
  isInvalid : Nat
  frameInSecond : Nat
  refEpoch : Nat
  unassigned : Nat
  frameLength : Nat
  log2Nchan : Nat
  version : Nat
  station : Nat
  thread : Nat
  bitsMinusOne : Nat
  isComplex : Nat
  deriving DecidableEq, Repr

/-- The bit-fields of the four 32-bit words. -/
def parseWords (w0 w1 w2 w3 : Nat) : BHeader where
  seconds := w0 % 2 ^ 30
  isLegacy := w0 / 2 ^ 30 % 2
  isInvalid := w0 / 2 ^ 31 % 2
  frameInSecond := w1 % 2 ^ 24
  refEpoch := w1 / 2 ^ 24 % 2 ^ 6
  unassigned := w1 / 2 ^ 30 % 2 ^ 2
  frameLength := w2 % 2 ^ 24
  log2Nchan := w2 / 2 ^ 24 % 2 ^ 5
  version := w2 / 2 ^ 29 % 2 ^ 3
  station := w3 % 2 ^ 16
  thread := w3 / 2 ^ 16 % 2 ^ 10
  bitsMinusOne := w3 / 2 ^ 26 % 2 ^ 5
  isComplex := w3 / 2 ^ 31 % 2

/-- `memcpy(&bHeader, ..)`, vdif.cpp:212, on a little-endian host. -/
def parseHeader (b : Bytes) : BHeader :=
  parseWords (leDec (slice b 0 4)) (leDec (slice b 4 4)) (leDec (slice b 8 4)) (leDec (slice b 12 4))

/-- Samples of one byte, lowest bits first: the `(b >> D*i) & (2^D - 1)` of the look-up tables,
vdif.cpp:89-113. -/
def byteLevels (bits : Nat) (b : UInt8) : List Nat :=
  (List.range (8 / bits)).map fun i => (b.toNat >>> (bits * i)) % 2 ^ bits

/-- The integer table, vdif.cpp:89-113. -/
def i8Value (bits level : Nat) : Int :=
  if bits = 8 ∨ bits = 4 then (level : Int) - (2 ^ (bits - 1) : Nat)
  else 2 * (level : Int) - (2 ^ bits - 1 : Nat)

/-- The float table, vdif.cpp:79-113 (HiMag = 3.3359, FourBit1sigma = 2.95). -/
def f32Value (bits level : Nat) : Rat :=
  if bits = 8 then (2 * (level : Rat) - 255) / 256
  else if bits = 4 then ((level : Rat) - 8) / (295 / 100)
  else if bits = 2 then
    (if level = 0 then -33359 / 10000 else if level = 1 then -1 else if level = 2 then 1
     else 33359 / 10000)
  else (if level = 0 then -1 else 1)

inductive VErr
  | eof
  | sync
  | badBits
  | memory
  deriving DecidableEq, Repr

/-- What `read_vdif` stores in the frame. -/
structure RFrame where
  header : BHeader
  nChan : Nat
  bitsPerSample : Nat
  ext : Nat × Nat × Nat × Nat
  levels : List Nat
  deriving DecidableEq, Repr

/-- `headerSize`, vdif.cpp:221-224. -/
def headerSize (h : BHeader) : Nat := if h.isLegacy = 0 then 32 else 16

/-- `read_vdif`, vdif.cpp:179-464: the result and the file position left behind. -/
def read (f : Bytes) (pos : Nat) : Except VErr RFrame × Nat :=
  let hb := readAt f pos 16
  if hb.length ≠ 16 then (.error .eof, pos + hb.length)
  else
    let h := parseHeader hb
    let bits := h.bitsMinusOne + 1
    if h.frameLength * 8 < headerSize h then (.error .sync, pos + 16 - 16)
    else
      let eb := if h.isLegacy = 0 then readAt f (pos + 16) 16 else []
      if h.isLegacy = 0 ∧ eb.length ≠ 16 then (.error .eof, pos + 16 + eb.length)
      else
        let ext := if h.isLegacy = 0 then
          (leDec (slice eb 0 4), leDec (slice eb 4 4), leDec (slice eb 8 4), leDec (slice eb 12 4))
          else (0, 0, 0, 0)
        let p := pos + 16 + eb.length
        let dataLength := h.frameLength * 8 - headerSize h
        let db := readAt f p dataLength
        if db.length ≠ dataLength then (.error .eof, p + db.length)
        else if ¬ (bits = 8 ∨ bits = 4 ∨ bits = 2 ∨ bits = 1) then (.error .badBits, p + dataLength)
        else
          let levels := db.flatMap (byteLevels bits)
          let nSamples := dataLength / 4 * (32 / bits) / (if h.isComplex = 1 then 2 else 1)
          let nChan := 2 ^ h.log2Nchan
          if nChan > 1 ∧ nSamples / nChan * nChan ≠ nSamples then (.error .memory, p + dataLength)
          else (.ok ⟨h, nChan, bits, ext, levels⟩, p + dataLength)

/-- Array element at channel `c`, time `t` after the reshape and transpose of vdif.cpp:347-372
(component `k` of the value: 0 real, 1 imaginary), as an index into the flat sample list. -/
def flatIndex (r : RFrame) (c t k : Nat) : Nat :=
  if r.header.isComplex = 1 then 2 * (t * r.nChan + c) + k else t * r.nChan + c

/-- Bytes of the sample array allocated by `parse_vdif` (vdif.cpp:132) and bytes the complex branch
reads from it as `float` (vdif.cpp:331-338), for element size `sz`. -/
def allocBytes (sz nSamples : Nat) : Nat := sz * nSamples
def complexBytesRead (nSamples : Nat) : Nat := 4 * nSamples

end Verif.Vdif
