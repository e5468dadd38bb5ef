import Verif.Model.Bytes
/-!
# Multi-part files: /repo/lsl/reader/utils.py, class SplitFileWrapper

`parts` are the contents of the files in order (the constructor sorts the names).  The underlying
file object of the open part is its position `fpos`; `pos` is the attribute `_pos`.
-/
namespace Verif.SplitFile

/-- Attributes `_idx`, `_fh` (position) and `_pos`.  `_idx` can become -1 (python indexing). -/
structure State where
  idx : Int
  fpos : Nat
  pos : Int
  deriving DecidableEq, Repr

/-- `_offsets`, utils.py:43-45 for part `i`: total size of the parts before it. -/
def offset (parts : List Bytes) (i : Nat) : Nat := ((parts.take i).map List.length).sum

/-- `_total_size`, utils.py:46. -/
def total (parts : List Bytes) : Nat := (parts.map List.length).sum

/-- Python list index: -1 is the last entry. -/
def pyIdx (n : Nat) (i : Int) : Nat := if i < 0 then (i + n).toNat else i.toNat

/-- `_open_part(index)`, utils.py:60-70. -/
def openPart (parts : List Bytes) (i : Int) : State :=
  ⟨i, 0, offset parts (pyIdx parts.length i)⟩

/-- `_open_part()` without an index, utils.py:66-67. -/
def openNext (parts : List Bytes) (st : State) : State :=
  openPart parts (min (st.idx + 1) (parts.length - 1))

/-- Content of the open part. -/
def current (parts : List Bytes) (st : State) : Bytes := parts.getD (pyIdx parts.length st.idx) []

/-- State after the constructor, utils.py:51. -/
def init (parts : List Bytes) : State := openPart parts 0

/-- `self._fh.read(n)` with the update of `_pos`. -/
def readPart (parts : List Bytes) (st : State) (n : Nat) : Bytes × State :=
  let d := readAt (current parts st) st.fpos n
  (d, ⟨st.idx, st.fpos + d.length, st.pos + d.length⟩)

/-- `read(size)`, utils.py:79-90, for `size >= 0`. -/
def read (parts : List Bytes) (st : State) (size : Nat) : Bytes × State :=
  let (data, st1) := readPart parts st size
  if data.length < size ∧ st1.idx < parts.length - 1 then
    let (data2, st2) := readPart parts (openNext parts st1) (size - data.length)
    (data ++ data2, st2)
  else (data, st1)

/-- `tell()`, utils.py:96-100. -/
def tell (st : State) : Int := st.pos

/-- `bisect(self._offsets, pos)`: number of offsets not above `pos` (the offsets are sorted). -/
def bisect (parts : List Bytes) (pos : Int) : Nat :=
  ((List.range parts.length).filter (fun i => decide ((offset parts i : Int) ≤ pos))).length

/-- `seek(pos, 0)`, utils.py:106-111; `false` is the exception of `fh.seek` with a negative offset
(the part has been opened by then). -/
def seekSet (parts : List Bytes) (pos : Int) : Bool × State :=
  let st := openPart parts ((bisect parts pos : Int) - 1)
  let off := pos - st.pos
  if off < 0 then (false, st)
  else (true, ⟨st.idx, off.toNat, st.pos + off⟩)

/-- `seek(pos, whence)`, utils.py:102-119. -/
def seek (parts : List Bytes) (st : State) (pos : Int) (whence : Nat) : Bool × State :=
  if whence = 0 then seekSet parts pos
  else if whence = 1 then seekSet parts (st.pos + pos)
  else seekSet parts (total parts - pos)

end Verif.SplitFile
