/-! Cards of a GUPPI header: 80 characters with a name, `=` and a value. -/

namespace Verif.Guppi

abbrev Str := List Char

/-- Padded with blanks on the right. -/
def padTo (n : Nat) (s : Str) : Str := s ++ List.replicate (n - s.length) ' '

/-- The card of a name and the text of its value. -/
def card (name text : Str) : Str := padTo 80 (padTo 8 name ++ ['=', ' '] ++ text)

/-- The last card. -/
def endCard : Str := padTo 80 ['E', 'N', 'D']

/-- A card that continues a text. -/
def continueCard (text : Str) : Str := padTo 80 ("CONTINUE  ".toList ++ text)

/-- A text between quotes. -/
def quoted (s : Str) : Str := '\'' :: s ++ ['\'']

/-- A name that is one: without blanks, without `=`, and not that of a special card. -/
def IsName (s : Str) : Prop :=
  s ≠ [] ∧ (∀ c ∈ s, c ≠ ' ' ∧ c ≠ '=' ∧ c.isWhitespace = false) ∧
    ¬ ['E', 'N', 'D'] <+: s ∧ s.take 8 ≠ "CONTINUE".toList

end Verif.Guppi
