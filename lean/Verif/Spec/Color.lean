import Verif.Model.Color
/-!
# Marked text, and what a terminal shows
-/
namespace Verif.Color.Spec

/-- A text with markup: characters, and tags with their own text. -/
inductive Doc
  | nil
  | chr (c : Char) (rest : Doc)
  | tag (name : Str) (kids rest : Doc)

/-- The text in the markup language. -/
def render : Doc → Str
  | .nil => []
  | .chr c r => c :: render r
  | .tag n k r => ['{', '{', '%'] ++ n ++ [' '] ++ render k ++ ['}', '}'] ++ render r

/-- The text without markup. -/
def plain : Doc → Str
  | .nil => []
  | .chr c r => c :: plain r
  | .tag _ k r => plain k ++ plain r

/-- Nesting depth. -/
def depth : Doc → Nat
  | .nil => 0
  | .chr _ r => depth r
  | .tag _ k r => max (depth k + 1) (depth r)

/-- Each character with the codes of the tags around it, from the outermost one. -/
def styled (path : List Str) : Doc → List (Char × List Str)
  | .nil => []
  | .chr c r => (c, path) :: styled path r
  | .tag n k r =>
    styled (path ++ (match colors.lookup (n.map Char.toLower) with | some s => [s] | none => [])) k ++ styled path r

/-- What is sent to the terminal: characters and codes. -/
inductive Tok
  | chr (c : Char)
  | code (s : Str)
  deriving DecidableEq

def Tok.str : Tok → Str
  | .chr c => [c]
  | .code s => s

/-- The bytes sent. -/
def flat (l : List Tok) : Str := l.flatMap Tok.str

/-- The terminal: a code adds to the active ones, the reset code clears them; each character is shown with the
active codes. -/
def terminal : List Str → List Tok → List (Char × List Str)
  | _, [] => []
  | st, .chr c :: l => (c, st) :: terminal st l
  | st, .code s :: l => terminal (if s = [Char.ofNat 27, '[', '0', 'm'] then [] else st ++ [s]) l

/-- Texts of the kind the function is for: tags named by letters and `-`, no `reset` tag, no braces, backslashes or
escape characters in the text, and no line ends inside tags. -/
def Ok (inTag : Bool) : Doc → Prop
  | .nil => True
  | .chr c r => (c ≠ '{' ∧ c ≠ '}' ∧ c ≠ '\\' ∧ c ≠ Char.ofNat 27 ∧ (inTag = true → c ≠ '\n')) ∧ Ok inTag r
  | .tag n k r =>
    (n ≠ [] ∧ (∀ c ∈ n, c.isAlpha = true ∨ c = '-') ∧ n.map Char.toLower ≠ "reset".toList) ∧ Ok true k ∧ Ok inTag r

end Verif.Color.Spec
