/-!
# Bytes, files and python file reads

Files are byte lists plus an absolute position.  `readAt` is python's
`filehandle.read(n)` on a regular binary file: it returns at most `n` bytes and
fewer only at the end of the file.  The C++ readers call exactly this method
(e.g. /repo/lsl/reader/drx.cpp:81-98).
-/
namespace Verif

abbrev Bytes := List UInt8

/-- `fh.read(n)` of a regular file holding `f` at position `pos`. -/
def readAt (f : Bytes) (pos n : Nat) : Bytes := (f.drop pos).take n

/-- Big-endian encoding of `n` on `w` bytes: byte `i` is `(n >> 8*(w-1-i)) & 255`, as spelled
out byte by byte in /repo/lsl/sim/drx.py:33-70. -/
def beEnc : Nat → Nat → Bytes
  | 0, _ => []
  | w + 1, n => UInt8.ofNat (n / 256 ^ w) :: beEnc w n

/-- Big-endian decoding (the `__bswap_*` calls of the C++ readers on a little-endian host,
/repo/lsl/reader/drx.cpp:103-110). -/
def beDec (l : Bytes) : Nat := l.foldl (fun a b => a * 256 + b.toNat) 0

/-- Little-endian encoding on `w` bytes. -/
def leEnc : Nat → Nat → Bytes
  | 0, _ => []
  | w + 1, n => UInt8.ofNat n :: leEnc w (n / 256)

/-- Little-endian decoding. -/
def leDec : Bytes → Nat
  | [] => 0
  | b :: l => b.toNat + 256 * leDec l

/-- The bytes `[off, off+w)` of a buffer (a field of a packed C structure). -/
def slice (b : Bytes) (off w : Nat) : Bytes := (b.drop off).take w

/-- What a reader can report (/repo/lsl/reader/errors.py). -/
inductive ReadErr
  | eof
  | sync
  deriving DecidableEq, Repr

end Verif
