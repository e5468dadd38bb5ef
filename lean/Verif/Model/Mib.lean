import Verif.Model.Bytes
/-!
# MIB entry values: /repo/lsl/common/mcs.py:1008-1150
-/
namespace Verif.Mib

/-- A decoded value.  Floats are kept as their IEEE bit pattern. -/
inductive Value where
  | str (raw : Bytes)
  | int (n : Int)
  | float (bits : Nat)
  deriving DecidableEq, Repr

/-- Reading a ctypes `c_char * n` structure field gives the bytes up to the first NUL
(mcs.py:339-342, 359-360 chooses `c_char`; mcs.py:1145 reads `record.val`). -/
def cField (field : Bytes) : Bytes := field.takeWhile (· ≠ 0)

/-- `struct.unpack` of one unsigned little-endian integer of `w` bytes; `none` is `struct.error`,
raised unless exactly `w` bytes are given. -/
def unpackLE (w : Nat) (b : Bytes) : Option Nat := if b.length = w then some (leDec b) else none
/-- The same, big-endian. -/
def unpackBE (w : Nat) (b : Bytes) : Option Nat := if b.length = w then some (beDec b) else none

/-- Two's complement reading of a 4 byte unsigned number (`'<1i'`). -/
def signed32 (n : Nat) : Int := if n < 2147483648 then n else (n : Int) - 4294967296

/-- `MIBEntry._parse_value`, mcs.py:1008-1096; `none` is the ValueError for an unknown type code.
Strings are returned as their bytes. -/
def parseValue (value : Bytes) (dataType : List Char) : Option Value :=
  if dataType = ['N', 'U', 'L'] ∨ dataType = [] then some (.str value)
  else if dataType.head? = some 'a' then some (.str value)
  else if dataType.head? = some 'r' then some (.str value)
  else if dataType.take 3 = ['i', '1', 'u'] then some (.int ((unpackLE 1 value).getD 0))
  else if dataType.take 3 = ['i', '2', 'u'] then some (.int ((unpackLE 2 value).getD 0))
  else if dataType.take 3 = ['i', '4', 'u'] then some (.int ((unpackLE 4 value).getD 0))
  else if dataType.take 3 = ['i', '4', 's'] then
    some (.int (((unpackLE 4 value).map signed32).getD 0))
  else if dataType.take 3 = ['i', '8', 'u'] then some (.int ((unpackLE 8 value).getD 0))
  else if dataType.take 3 = ['f', '4', 'r'] then some (.float ((unpackBE 4 value).getD 0))
  else if dataType.take 2 = ['f', '4'] then some (.float ((unpackLE 4 value).getD 0))
  else if dataType.take 3 = ['f', '8', 'r'] then some (.float ((unpackBE 8 value).getD 0))
  else if dataType.take 2 = ['f', '8'] then some (.float ((unpackLE 8 value).getD 0))
  else none

/-- The value part of `MIBEntry.from_entry`, mcs.py:1145. -/
def entryValue (valField : Bytes) (dbmType : List Char) : Option Value :=
  parseValue (cField valField) dbmType

end Verif.Mib
