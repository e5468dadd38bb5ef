/-!
# What is in the files of an antenna simulation

`mark`s are what lines are known by.  The output has a block for every frequency: a heading, the frequency, and the impedance
two lines below its heading.
-/
namespace Verif.Nec

abbrev Text := List Char

/-- A block of the output: lines before the heading, the heading, lines before the frequency, the frequency, lines before the heading
of the antenna, this heading, lines before the heading of the table, this heading, the units, the table's first line. -/
structure Block where
  before : List Text
  heading : Text
  between : List Text
  freq : Text
  gap : List Text
  antenna : Text
  gap2 : List Text
  table : Text
  units : Text
  first : Text

def Block.lines (b : Block) : List Text :=
  b.before ++ b.heading :: b.between ++ b.freq :: b.gap ++ b.antenna :: b.gap2 ++ [b.table, b.units, b.first]

/-- A card: its fields, each with the separator before it. -/
inductive Sep
  | comma
  | blanks (k : Nat)

def Sep.text : Sep → Text
  | .comma => [',']
  | .blanks k => List.replicate (k + 1) ' '

def cardText (first : Text) (rest : List (Sep × Text)) : Text := first ++ rest.flatMap fun x => x.1.text ++ x.2

/-- The part of the power of an antenna of impedance `r + i x` that a line of impedance `z` takes. -/
def matched (z r x : Rat) : Rat := 4 * z * r / ((z + r) * (z + r) + x * x)

end Verif.Nec
