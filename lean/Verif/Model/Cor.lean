import Verif.Model.Tbx
/-!
# COR reader with its process-wide cache: /repo/lsl/reader/cor.cpp

Visibilities are kept as pairs of 32-bit patterns (little-endian); conjugation flips the sign bit of
the imaginary part.
-/
namespace Verif.Cor

/-- Static variables, cor.cpp:51-54: `cached_nchan` and the python integer `cor_size`. -/
structure State where
  nchan : Nat
  size : Option Nat
  deriving DecidableEq, Repr

def State.init : State := ⟨192, none⟩

/-- Frame as stored by cor.cpp:171-216; `data` has four entries (XX, XY, YX, YY) per channel. -/
structure Frame where
  adpId : Nat
  frameCount : Nat
  secondCount : Nat
  firstChan : Nat
  gain : Nat
  timetag : Int
  navg : Int
  stand0 : Int
  stand1 : Int
  data : List (Nat × Nat)
  deriving DecidableEq, Repr

/-- `frameSize`, cor.cpp:64: header (16 bytes) + 8 + 4 + 2 + 2 + NCHAN*8*4. -/
def frameSize (n : Nat) : Nat := 32 + n * 32

/-- Instance chosen for the cached value, cor.cpp:229-241. -/
def dispatch (st : State) : Nat :=
  if st.nchan = 33 then 33 else if st.nchan = 72 then 72 else if st.nchan = 112 then 112 else 192

/-- A `short` passed to `Py_BuildValue("H", ...)`: sign extended to 32 bits, read as unsigned. -/
def asH (n : Nat) : Nat := if n < 32768 then n else n + (4294967296 - 65536)

/-- `std::complex<float>` array as 32-bit patterns. -/
def complexes : Bytes → List (Nat × Nat)
  | a :: b :: c :: d :: e :: f :: g :: h :: l =>
    (leDec [a, b, c, d], leDec [e, f, g, h]) :: complexes l
  | _ => []

/-- `std::conj`. -/
def conj (z : Nat × Nat) : Nat × Nat :=
  (z.1, if z.2 < 2147483648 then z.2 + 2147483648 else z.2 - 2147483648)

/-- The loop of cor.cpp:152-160: entry 4i+2 becomes the conjugate of entry 4i+1. -/
def fixAuto : List (Nat × Nat) → List (Nat × Nat)
  | a :: b :: _ :: d :: l => a :: b :: conj b :: d :: fixAuto l
  | l => l

/-- Channel count found in the buffer, cor.cpp:100-109 (`raw[n*4*2]` is byte 32 + 32 n). -/
def detect (n : Nat) (b : Bytes) : Nat :=
  if 33 < n ∧ slice b (32 + 33 * 32) 4 = Drx.syncBytes then 33
  else if 72 < n ∧ slice b (32 + 72 * 32) 4 = Drx.syncBytes then 72
  else if 112 < n ∧ slice b (32 + 112 * 32) 4 = Drx.syncBytes then 112
  else n

/-- cor.cpp:135-161. -/
def decode (b : Bytes) : Frame where
  adpId := beDec (slice b 4 1)
  frameCount := beDec (slice b 5 3)
  secondCount := beDec (slice b 8 4)
  firstChan := asH (beDec (slice b 12 2))
  gain := asH (beDec (slice b 14 2))
  timetag := Tbx.toSigned 64 (beDec (slice b 16 8))
  navg := Tbx.toSigned 32 (beDec (slice b 24 4))
  stand0 := Tbx.toSigned 16 (beDec (slice b 28 2))
  stand1 := Tbx.toSigned 16 (beDec (slice b 30 2))
  data := if slice b 28 2 = slice b 30 2 then fixAuto (complexes (b.drop 32))
    else complexes (b.drop 32)

/-- `read_cor_impl<NCHAN>`, cor.cpp:57-226; `fuel` counts the nested calls of cor.cpp:118-131. -/
def readImpl : Nat → Nat → State → Bytes → Nat → Option (Except ReadErr Frame × Nat × State)
  | 0, _, _, _, _ => none
  | fuel + 1, n, st, f, pos =>
    let size := st.size.getD (frameSize n)
    let st1 := { st with size := some size }
    let b := readAt f pos size
    if b.length ≠ frameSize n then some (.error .eof, pos + b.length, st1)
    else if detect n b ≠ n then
      readImpl fuel (detect n b) ⟨detect n b, none⟩ f (pos + b.length - frameSize n)
    else if slice b 0 4 ≠ Drx.syncBytes then
      some (.error .sync, pos + b.length - frameSize n, State.init)
    else some (.ok (decode b), pos + b.length, st1)

/-- `read_cor`, cor.cpp:228-242. -/
def read (fuel : Nat) (st : State) (f : Bytes) (pos : Nat) :
    Option (Except ReadErr Frame × Nat × State) := readImpl fuel (dispatch st) st f pos

end Verif.Cor
