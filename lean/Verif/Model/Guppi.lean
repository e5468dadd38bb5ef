import Verif.Spec.Guppi
import Verif.Model.Dec

/-! Reading of GUPPI headers (lsl/reader/vdif.py:365-399).

Simplifications: the file is the list of the texts that `read(80)` gives, one after the
other, and at its end gives the empty text; texts are ASCII; Python's `float` is a
parameter; integers are without underscores; the dictionary is a function. -/

namespace Verif.Guppi

/-- Values of a header. -/
inductive Value
  | int (n : Int)
  | float (q : Rat)
  | text (s : Str)
  deriving DecidableEq, Repr

/-- Errors: `ValueError` of a card that cannot be split, `UnboundLocalError`,
`TypeError` and `KeyError`. -/
inductive Err
  | value | unbound | type | key
  deriving DecidableEq, Repr

/-- `str.strip`. -/
def strip (s : Str) : Str :=
  ((s.dropWhile Char.isWhitespace).reverse.dropWhile Char.isWhitespace).reverse

/-- `line.split('=', 1)` into two (vdif.py:385). -/
def splitEq (line : Str) : Option (Str × Str) :=
  if '=' ∈ line then
    some (line.takeWhile (· != '='), (line.dropWhile (· != '=')).drop 1)
  else none

/-- `line.split(None, 1)` into two (vdif.py:382): the rest after the first word. -/
def afterWord (line : Str) : Option Str :=
  match ((line.dropWhile Char.isWhitespace).dropWhile (!Char.isWhitespace ·)).dropWhile
      Char.isWhitespace with
  | [] => none
  | r => some r

/-- The value of a text (vdif.py:387-393). -/
def convert (flt : Str → Option Rat) (v : Str) : Value :=
  match Dec.parseInt? (strip v) with
  | some n => .int n
  | none =>
    match flt v with
    | some q => .float q
    | none => .text ((strip v).filter (· != '\''))

/-- The dictionary. -/
abbrev Header := Str → Option Value

def setKey (h : Header) (k : Str) (v : Value) : Header := fun j => if j = k then some v else h j

/-- The loop (vdif.py:373-394), with the name and the value of the card before. -/
def cards (flt : Str → Option Rat) : List Str → Header → Option (Str × Value) →
    Except Err (Header × List Str)
  | [], _, _ => .error .value
  | line :: rest, h, last =>
    if line.take 3 = ['E', 'N', 'D'] then .ok (h, rest)
    else if line.take 8 = "CONTINUE".toList then
      match afterWord line with
      | none => .error .value
      | some value2 =>
        match last with
        | none => .error .unbound
        | some (name, .text value) =>
          let v := convert flt (value.dropLast ++ value2.dropLast)
          cards flt rest (setKey h name v) (some (name, v))
        | some _ => .error .type
    else
      match splitEq line with
      | none => .error .value
      | some (name, value) =>
        let v := convert flt value
        cards flt rest (setKey h (strip name) v) (some (strip name, v))

/-- `header[key] *= 1e6` (vdif.py:395-396). -/
def million (h : Header) (k : Str) : Except Err Header :=
  match h k with
  | none => .error .key
  | some (.text _) => .error .type
  | some (.int n) => .ok (setKey h k (.float (n * 1000000)))
  | some (.float q) => .ok (setKey h k (.float (q * 1000000)))

/-- `read_guppi_header` of a file that has one: the header, and what is left of the
file. -/
def readHeader (flt : Str → Option Rat) (file : List Str) : Except Err (Header × List Str) := do
  let (h, rest) ← cards flt file (fun _ => none) none
  let h ← million h "OBSBW".toList
  let h ← million h "OBSFREQ".toList
  pure (h, rest)

end Verif.Guppi
