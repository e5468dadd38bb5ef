import Verif.Model.Bytes
/-!
# C structures: `parse_c_struct`, /repo/lsl/common/mcs.py:333-523

The parsed declaration is a list of fields; parsing of the text itself is not modelled.  The structure is a
`ctypes.Structure` with `_pack_ = 8` on a 64 bit machine: every field starts at a multiple of the size of its
element (1, 2, 4 or 8, never above the packing of 8) and the size is a multiple of the largest of them.
-/
namespace Verif.CStruct

/-- A field: name, size in bytes of one element (mcs.py:408-437) and number of elements (the product of the
dimensions, mcs.py:440-456; 1 for a plain value). -/
structure Field where
  name : String
  size : Nat
  count : Nat
  deriving DecidableEq

/-- The next multiple of `a`. -/
def roundUp (n a : Nat) : Nat := (n + a - 1) / a * a

/-- Offsets of the fields, in order, from position `pos`. -/
def offsets (pos : Nat) : List Field → List (Field × Nat)
  | [] => []
  | f :: l => (f, roundUp pos f.size) :: offsets (roundUp pos f.size + f.size * f.count) l

/-- End of the last field. -/
def finish (pos : Nat) : List Field → Nat
  | [] => pos
  | f :: l => finish (roundUp pos f.size + f.size * f.count) l

/-- Largest alignment. -/
def maxAlign (l : List Field) : Nat := l.foldr (fun f a => max f.size a) 1

/-- `ctypes.sizeof`, mcs.py:504-509. -/
def sizeof (l : List Field) : Nat := roundUp (finish 0 l) (maxAlign l)

/-- Offset of a field. -/
def offsetOf (l : List Field) (name : String) : Nat :=
  match (offsets 0 l).find? (fun x => x.1.name = name) with
  | some x => x.2
  | none => 0

/-- A new structure object: all zeros. -/
def fresh (l : List Field) : Bytes := List.replicate (sizeof l) 0

/-- `fh.readinto(struct)` of a regular file with the bytes `rest` left: at most the size of the structure is
taken, a short read leaves the end of the structure as it was and is not an error.  Gives the structure and
the bytes left. -/
def readinto (mem rest : Bytes) : Bytes × Bytes :=
  (rest.take mem.length ++ mem.drop rest.length, rest.drop mem.length)

/-- A little-endian unsigned value of a field. -/
def getU (mem : Bytes) (off w : Nat) : Nat := leDec (slice mem off w)

/-- A little-endian signed value of a field. -/
def getS (mem : Bytes) (off w : Nat) : Int :=
  let n := getU mem off w
  if n < 2 ^ (8 * w - 1) then n else (n : Int) - (2 ^ (8 * w) : Nat)

end Verif.CStruct
