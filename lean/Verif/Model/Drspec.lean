import Verif.Model.Bytes
/-!
# DR spectrometer reader: /repo/lsl/reader/drspec.cpp

Floats are kept as 32-bit patterns; a normalised value is the pair (pattern, divisor).  An access
outside the block that was read is `none` (undefined behaviour in C++).
-/
namespace Verif.Drspec

/-- `DRSpecHeader`, drspec.cpp:25-46 (packed, little-endian host). -/
structure Header where
  timeTag : Nat
  timeOffset : Nat
  decFactor : Nat
  freqCode : List Nat
  fills : List Nat
  errors : List Nat
  beam : Nat
  fmt : Nat
  version : Nat
  flags : Nat
  nFreqs : Nat
  nInts : Nat
  sat : List Nat
  deriving DecidableEq, Repr

def headerSize : Nat := 76

/-- `memcpy` into the packed structure, drspec.cpp:279. -/
def decodeHeader (b : Bytes) : Header where
  timeTag := leDec (slice b 4 8)
  timeOffset := leDec (slice b 12 2)
  decFactor := leDec (slice b 14 2)
  freqCode := [leDec (slice b 16 4), leDec (slice b 20 4)]
  fills := [leDec (slice b 24 4), leDec (slice b 28 4), leDec (slice b 32 4), leDec (slice b 36 4)]
  errors := [leDec (slice b 40 1), leDec (slice b 41 1), leDec (slice b 42 1), leDec (slice b 43 1)]
  beam := leDec (slice b 44 1)
  fmt := leDec (slice b 45 1)
  version := leDec (slice b 46 1)
  flags := leDec (slice b 47 1)
  nFreqs := leDec (slice b 48 4)
  nInts := leDec (slice b 52 4)
  sat := [leDec (slice b 56 4), leDec (slice b 60 4), leDec (slice b 64 4), leDec (slice b 68 4)]

/-- `pol_count`, drspec.cpp:64-71; the loop clears the lowest bit until none is left. -/
def polCount (v : Nat) : Nat :=
  if h : v = 0 then 0 else polCount (v &&& (v - 1)) + 1
termination_by v
decreasing_by
  have : v &&& (v - 1) ≤ v - 1 := Nat.and_le_right
  omega

/-- Divisor used for a product, per tuning: fills of X, of Y, or the smaller of the two. -/
inductive Norm
  | x
  | y
  | both
  deriving DecidableEq, Repr

/-- One output of a `parse_*` function: array slot (0..3 = A..D), stride and offset of the product
in the block, divisor. -/
structure Out where
  slot : Nat
  stride : Nat
  off : Nat
  norm : Norm
  deriving DecidableEq, Repr

/-- Dispatch drspec.cpp:384-432 with the bodies of `parse_*`, drspec.cpp:73-248. -/
def parser (fmt : Nat) : List Out :=
  if fmt &&& 15 ≠ 0 then
    if fmt = 0x01 then [⟨0, 1, 0, .x⟩]
    else if fmt = 0x02 then [⟨1, 1, 0, .both⟩]
    else if fmt = 0x04 then [⟨2, 1, 0, .both⟩]
    else if fmt = 0x08 then [⟨3, 1, 0, .y⟩]
    else if fmt = 0x09 then [⟨0, 2, 0, .x⟩, ⟨3, 2, 1, .y⟩]
    else if fmt = 0x06 then [⟨1, 2, 0, .both⟩, ⟨2, 2, 1, .both⟩]
    else [⟨0, 4, 0, .x⟩, ⟨1, 4, 1, .both⟩, ⟨2, 4, 2, .both⟩, ⟨3, 4, 3, .y⟩]
  else
    if fmt = 0x10 then [⟨0, 1, 0, .both⟩]
    else if fmt = 0x20 then [⟨1, 1, 0, .both⟩]
    else if fmt = 0x40 then [⟨2, 1, 0, .both⟩]
    else if fmt = 0x80 then [⟨3, 1, 0, .both⟩]
    else if fmt = 0x90 then [⟨0, 2, 0, .both⟩, ⟨3, 2, 1, .both⟩]
    else [⟨0, 4, 0, .both⟩, ⟨1, 4, 1, .both⟩, ⟨2, 4, 2, .both⟩, ⟨3, 4, 3, .both⟩]

/-- Index into the block for tuning `t` (0 or 1), channel `i`. -/
def Out.index (o : Out) (n t i : Nat) : Nat := t * o.stride * n + o.stride * i + o.off

/-- `nFreqs * fills`, a product of two `uint32_t`. -/
def normValue (h : Header) (t : Nat) : Norm → Nat
  | .x => h.nFreqs * h.fills.getD (2 * t) 0 % 2 ^ 32
  | .y => h.nFreqs * h.fills.getD (2 * t + 1) 0 % 2 ^ 32
  | .both => h.nFreqs * min (h.fills.getD (2 * t) 0) (h.fills.getD (2 * t + 1) 0) % 2 ^ 32

/-- The block as 32-bit patterns. -/
def floats : Bytes → List Nat
  | a :: b :: c :: d :: l => leDec [a, b, c, d] :: floats l
  | _ => []

/-- One filled array. -/
def Out.fill (o : Out) (h : Header) (data : List Nat) (t : Nat) : List (Option Nat × Nat) :=
  (List.range h.nFreqs).map (fun i => (data[o.index h.nFreqs t i]?, normValue h t o.norm))

/-- Array in a slot: filled by the parser, else left as zeros. -/
def slotData (h : Header) (data : List Nat) (s t : Nat) : List (Option Nat × Nat) :=
  match (parser h.fmt).find? (fun o => o.slot == s) with
  | some o => o.fill h data t
  | none => List.replicate h.nFreqs (some 0, 1)

/-- Attributes set on the payload, drspec.cpp:540-575: attribute `k` (0..7 = XX, XY_real, XY_imag,
YY, I, Q, U, V) of tuning `t` is stored when bit `k` of the format is set; slot `k % 4`. -/
def attr (h : Header) (data : List Nat) (k t : Nat) : Option (List (Option Nat × Nat)) :=
  if h.fmt.testBit k then some (slotData h data (k % 4) t) else none

/-- Result of a read: header and the block. -/
structure Frame where
  header : Header
  data : List Nat
  deriving DecidableEq, Repr

/-- Number of bytes of the data section, drspec.cpp:291 and 350. -/
def blockBytes (h : Header) : Nat := 4 * (polCount h.fmt * 2) * h.nFreqs

/-- `drspec_size_dat`, drspec.cpp:359-364: the cached python integer is replaced when it differs. -/
def datSize (cached : Option Nat) (n : Nat) : Nat :=
  match cached with
  | none => n
  | some c => if c ≠ n then n else c

/-- `read_drspec`, drspec.cpp:251-622 (memory exhaustion is not modelled); the state is
`drspec_size_dat`. -/
def read (cached : Option Nat) (f : Bytes) (pos : Nat) :
    Except ReadErr Frame × Nat × Option Nat :=
  let b := readAt f pos headerSize
  if b.length ≠ headerSize then (.error .eof, pos + b.length, cached)
  else if leDec (slice b 0 4) ≠ 0xC0DEC0DE ∨ leDec (slice b 72 4) ≠ 0xED0CED0C then
    (.error .sync, pos + b.length - headerSize, cached)
  else
    let h := decodeHeader b
    let size := datSize cached (blockBytes h)
    let d := readAt f (pos + headerSize) size
    if d.length ≠ blockBytes h then (.error .eof, pos + headerSize + d.length, some size)
    else (.ok ⟨h, floats d⟩, pos + headerSize + d.length, some size)

end Verif.Drspec
