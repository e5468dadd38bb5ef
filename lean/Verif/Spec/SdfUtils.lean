import Verif.Model.SdfUtils
/-!
# How times are written
-/
namespace Verif.SdfUtils.Spec

open Verif.SdfUtils Verif.Idf

def Digits (lo hi : Nat) (t : Text) : Prop := lo ≤ t.length ∧ t.length ≤ hi ∧ ∀ c ∈ t, c.isDigit = true

def Letters (t : Text) : Prop := t.length = 3 ∧ ∀ c ∈ t, isLetter c = true

def ZoneName (z : Text) : Prop := 2 ≤ z.length ∧ z.length ≤ 3 ∧ ∀ c ∈ z, isUpper c = true

/-- A separator: any character from the space to the slash. -/
def Sep (c : Char) : Prop := isSep c = true

/-- Characters between the parts. -/
structure Marks where
  sep1 : Char
  sep2 : Char
  t : Char
  gap : Bool
  colon : Bool
  newline : Bool

def zoneText : Option Text → Text
  | none => []
  | some z => z ++ [' ']

def fracText (f : Text) : Text := if f = [] then [] else '.' :: f

/-- A shift with two groups of digits. -/
structure Shift where
  neg : Bool
  a : Text
  b : Text

def shiftText (m : Marks) : Option Shift → Text
  | none => []
  | some s => (if s.neg then '-' else '+') :: (s.a ++ ((if m.colon then [':'] else []) ++ s.b))

/-- A written time. -/
structure Form where
  zone : Option Text
  year : Text
  month : Text
  day : Text
  hour : Text
  minute : Text
  second : Text
  frac : Text
  shift : Option Shift

def Form.text (f : Form) (m : Marks) : Text :=
  zoneText f.zone ++ (f.year ++ (m.sep1 :: (f.month ++ (m.sep2 :: (f.day ++ (m.t :: (f.hour ++ (':' :: (f.minute ++ (':' :: (f.second ++
    (fracText f.frac ++ ((if m.gap then [' '] else []) ++ (shiftText m f.shift ++ if m.newline then ['\n'] else []))))))))))))))

structure Form.Ok (f : Form) (m : Marks) : Prop where
  zone : ∀ z, f.zone = some z → ZoneName z
  year : Digits 4 4 f.year
  month : Digits 1 2 f.month ∨ Letters f.month
  day : Digits 1 2 f.day
  hour : Digits 1 2 f.hour
  minute : Digits 1 2 f.minute
  second : Digits 1 2 f.second
  frac : Digits 0 6 f.frac
  shift : ∀ s, f.shift = some s → Digits 1 2 s.a ∧ Digits 1 2 s.b
  sep1 : Sep m.sep1
  sep2 : Sep m.sep2
  t : m.t = ' ' ∨ m.t = 'T'

/-- What the pattern should find. -/
def Form.found (f : Form) : Found :=
  ⟨f.zone, f.year, f.month, f.day, f.hour, f.minute, f.second, f.frac, f.shift.map fun s => (s.neg, s.a ++ s.b)⟩

/-- Sidereal time in hours at `h` hours of UT of a day, from the formula cited in the code. -/
def siderealAt (day : Int) (lon eq h : Rat) : Rat :=
  let d0 : Rat := (day : Rat) + 4800001 / 2 - 2451545
  6697374558 / 1000000000 + 6570982441908 / 100000000000000 * d0 + 1002737909350795 / 1000000000000000 * h + 26 / 1000000 * (d0 / 36525) ^ 2 + eq + lon

end Verif.SdfUtils.Spec
