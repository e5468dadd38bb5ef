import Verif.Model.Dec
/-!
# Colour markup: /repo/lsl/common/color.py

Texts are lists of characters.  `\d` of the regular expressions is taken as the ten ASCII digits.
-/
namespace Verif.Color
open Dec

abbrev Str := List Char

/-- The escape character. -/
def ESC : Char := Char.ofNat 27

/-- `_COLORS`, lines 16-37, in the order of the dictionary. -/
def colors : List (Str × Str) :=
  [("black", "[30m"), ("red", "[31m"), ("green", "[32m"), ("yellow", "[33m"), ("blue", "[34m"), ("magenta", "[35m"),
   ("cyan", "[36m"), ("white", "[37m"), ("bkg-black", "[40m"), ("bkg-red", "[41m"), ("bkg-green", "[42m"),
   ("bkg-yellow", "[43m"), ("bkg-blue", "[44m"), ("bkg-magenta", "[45m"), ("bkg-cyan", "[46m"), ("bkg-white", "[47m"),
   ("reset", "[0m"), ("bold", "[1m"), ("underline", "[4m"), ("blink", "[5m"), ("reverse", "[7m")].map
  (fun p => (p.1.toList, ESC :: p.2.toList))

/-- `_COLORS['reset']`. -/
def reset : Str := [ESC, '[', '0', 'm']

inductive Err
  /-- `post[0]` at the end of the text, line 63. -/
  | indexError
  /-- A bad escape in the replacement, line 134 (`re.error`); also stands for references to groups. -/
  | badEscape
  /-- Still running after the given number of turns. -/
  | outOfTurns
  deriving DecidableEq

/-- The loop of `_label`, lines 51-75: the level and the text from the current position on; gives the new text
from there.  After an insertion the position moves on by 5, whatever the number of digits of the level. -/
def labelLoop : Nat → Int → Str → Except Err Str
  | _, _, [] => .ok []
  | 0, _, _ :: _ => .error .outOfTurns
  | fuel + 1, lv, c :: r =>
    if (c :: r).take 2 = ['{', '{'] then
      match (c :: r).drop 2 with
      | [] => .error .indexError
      | p :: q =>
        if p = '%' then
          let t := ['{', '{'] ++ showInt lv ++ ['{', '{'] ++ p :: q
          (labelLoop fuel (lv + 1) (t.drop 5)).map (t.take 5 ++ ·)
        else (labelLoop fuel lv r).map (c :: ·)
    else if (c :: r).take 2 = ['}', '}'] then
      if 0 ≤ lv - 1 then
        let t := ['}', '}'] ++ showInt (lv - 1) ++ ['}', '}'] ++ (c :: r).drop 2
        (labelLoop fuel (lv - 1) (t.drop 5)).map (t.take 5 ++ ·)
      else (labelLoop fuel (lv - 1) r).map (c :: ·)
    else (labelLoop fuel lv r).map (c :: ·)

/-- The level at the start of a text, if there is one: `{{(?P<depth>\d+){{%`, line 108. -/
def levelAt (s : Str) : Nat :=
  if ['{', '{'].isPrefixOf s then
    let ds := (s.drop 2).takeWhile Char.isDigit
    if ds ≠ [] ∧ ['{', '{', '%'].isPrefixOf ((s.drop 2).dropWhile Char.isDigit) then (parseNat? ds).getD 0 else 0
  else 0

/-- The largest level of a text, lines 108-110, 113. -/
def maxLevel : Str → Nat
  | [] => 0
  | c :: r => max (levelAt (c :: r)) (maxLevel r)

def openTag (n : Nat) : Str := ['{', '{'] ++ showNat n ++ ['{', '{', '%']
def closeTag (n : Nat) : Str := ['}', '}'] ++ showNat n ++ ['}', '}']

/-- `[a-zA-Z-]`. -/
def isTagChar (c : Char) : Bool := c.isAlpha || c == '-'

/-- `(?P<text>.*?)}}n}}` at the start of a text: the shortest text, without line ends.  Gives also the rest. -/
def lazyClose (n : Nat) : Str → Option (Str × Str)
  | [] => none
  | c :: r =>
    if (closeTag n).isPrefixOf (c :: r) then some ([], (c :: r).drop (closeTag n).length)
    else if c = '\n' then none
    else (lazyClose n r).map (fun m => (c :: m.1, m.2))

/-- A match of `tagRE` at the start of a text, line 115: tag, text and rest. -/
def matchAt (n : Nat) (s : Str) : Option (Str × Str × Str) :=
  if (openTag n).isPrefixOf s then
    let s1 := s.drop (openTag n).length
    if s1.takeWhile isTagChar = [] then none
    else
      match s1.dropWhile isTagChar with
      | [] => none
      | b :: s3 => if b = ' ' then (lazyClose n s3).map (fun m => (s1.takeWhile isTagChar, m.1, m.2)) else none
  else none

/-- The first match: the text before, the tag, its text and the rest. -/
def search (n : Nat) : Str → Option (Str × Str × Str × Str)
  | [] => none
  | c :: r =>
    match matchAt n (c :: r) with
    | some m => some ([], m)
    | none => (search n r).map (fun m => (c :: m.1, m.2))

/-- `text.replace(pat, rep)` for a pattern that is not empty. -/
def replaceAll (pat rep : Str) : Str → Str
  | [] => []
  | c :: r =>
    if pat.isPrefixOf (c :: r) then rep ++ replaceAll pat rep (r.drop (pat.length - 1))
    else c :: replaceAll pat rep r
termination_by s => s.length
decreasing_by all_goals simp_all <;> omega

/-- The replacement as `re.sub` reads it: escapes are interpreted. -/
def template : Str → Option Str
  | [] => some []
  | [c] => if c = '\\' then none else some [c]
  | c :: d :: r =>
    if c = '\\' then
      if d = '\\' then (template r).map ('\\' :: ·)
      else if d = 'n' then (template r).map ('\n' :: ·)
      else if d = 't' then (template r).map ('\t' :: ·)
      else if d = 'r' then (template r).map ('\r' :: ·)
      else if d = 'a' then (template r).map (Char.ofNat 7 :: ·)
      else if d = 'b' then (template r).map (Char.ofNat 8 :: ·)
      else if d = 'f' then (template r).map (Char.ofNat 12 :: ·)
      else if d = 'v' then (template r).map (Char.ofNat 11 :: ·)
      else if d.isAlphanum then none
      else (template r).map (fun s => c :: d :: s)
    else (template (d :: r)).map (c :: ·)

/-- The code of a tag, lines 123-128: nothing for an unknown tag. -/
def codeOf (tag : Str) : Str := (colors.lookup (tag.map Char.toLower)).getD []

/-- The replacement for a match, lines 134-136. -/
def repl (tag txt : Str) : Str :=
  replaceAll reset (reset ++ codeOf tag) (codeOf tag ++ txt) ++ reset

/-- The loop over the matches of one level, lines 118-140. -/
def levelLoop (n : Nat) : Nat → Nat → Str → Except Err Str
  | 0, _, _ => .error .outOfTurns
  | fuel + 1, pos, text =>
    match search n (text.drop pos) with
    | none => .ok text
    | some m =>
      if text.length ≤ pos then .ok text
      else
        match template (repl m.2.1 m.2.2.1) with
        | none => .error .badEscape
        | some t =>
          match search n text with
          | none => levelLoop n fuel (pos + m.1.length + 1) text
          | some m0 => levelLoop n fuel (pos + m.1.length + 1) (m0.1 ++ t ++ m0.2.2.2)

/-- All levels, from the deepest up, line 113. -/
def levels (fuel : Nat) : Nat → Str → Except Err Str
  | 0, text => levelLoop 0 fuel 0 text
  | n + 1, text => (levelLoop (n + 1) fuel 0 text).bind (levels fuel n)

/-- `colorfy`, lines 79-143.  `fuel` bounds the turns of each loop. -/
def colorfy (fuel : Nat) (text : Str) : Except Err Str :=
  (labelLoop fuel 0 text).bind (fun t => levels fuel (maxLevel t) t)

/-- `uncolorfy`, lines 146-158. -/
def uncolorfy (text : Str) : Str := colors.foldl (fun t p => replaceAll p.2 [] t) text

end Verif.Color
