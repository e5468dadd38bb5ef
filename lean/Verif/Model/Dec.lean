/-!
# Decimal text: python's `%i`, `%0wi`, `%.kf` of exact values, `int()`, `str.split`

Texts are lists of characters.  `int()` of python also accepts surrounding blanks and underscores
between digits; the modelled writers never produce those.
-/
namespace Verif.Dec

/-- `"%i"` of a natural number. -/
def showNat (n : Nat) : List Char := Nat.toDigits 10 n

/-- `"%i"`. -/
def showInt (i : Int) : List Char := if i < 0 then '-' :: showNat (-i).toNat else showNat i.toNat

/-- `"%0wi"` of a natural number. -/
def showPad (w n : Nat) : List Char := List.replicate (w - (showNat n).length) '0' ++ showNat n

/-- `int(text, 10)` of unsigned text. -/
def parseNat? (l : List Char) : Option Nat :=
  if l ≠ [] ∧ l.all Char.isDigit then some (Nat.ofDigitChars 10 l 0) else none

/-- `int(text, 10)`; `none` is the `ValueError`. -/
def parseInt? : List Char → Option Int
  | '-' :: l => (parseNat? l).map (fun n : Nat => -(n : Int))
  | '+' :: l => (parseNat? l).map (fun n : Nat => (n : Int))
  | l => (parseNat? l).map (fun n : Nat => (n : Int))

/-- `text.split(c)`. -/
def splitOn (c : Char) : List Char → List (List Char)
  | [] => [[]]
  | x :: l =>
    if x = c then [] :: splitOn c l
    else match splitOn c l with
      | [] => [[x]]
      | p :: ps => (x :: p) :: ps

/-- `float(text)` of digits with an optional fraction, exactly. -/
def parseDec? (l : List Char) : Option Rat :=
  match splitOn '.' l with
  | [a] => (parseNat? a).map (fun n : Nat => (n : Rat))
  | [a, b] =>
    match parseNat? a, parseNat? b with
    | some n, some m => some ((n : Rat) + (m : Rat) / ((10 ^ b.length : Nat) : Rat))
    | _, _ => none
  | _ => none

end Verif.Dec
