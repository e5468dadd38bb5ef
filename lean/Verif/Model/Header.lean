import Verif.Model.ConfigFile
/-!
# Structured text headers: /repo/lsl/common/header.py

Headers with sections and key/value lines, comment `#`, automatic width (`width <= 0`, so no line is
wrapped).  A value is its JSON text; `json.loads` is represented by a test `isJson` for the texts it
accepts.  Free-form lines (`line`, `columns`) and rules are not modelled: `parse` gives `none` for a line
without a colon.
-/
namespace Verif.Header
open Verif.Dec Verif.ConfigFile

/-- Contents in order: key/value pairs and sections, each followed by the rest at its level. -/
inductive Tree (α : Type)
  | nil
  | kv (key : Text) (value : α) (rest : Tree α)
  | sec (name : Text) (body rest : Tree α)
  deriving DecidableEq, Repr

def spaces (n : Nat) : Text := List.replicate n ' '

/-- An entry of `_contents`: indent and value text, header.py:126-147. -/
structure Line where
  indent : Nat
  text : Text
  deriving DecidableEq, Repr

/-- `section` (a colon is appended to the name unless it ends in one; names without are modelled) and
`key_value`, header.py:110-147; `b` is the base indent. -/
def contents (b : Nat) : Nat → Tree Text → List Line
  | _, .nil => []
  | i, .kv k v rest => ⟨i, k ++ ": ".toList ++ v⟩ :: contents b i rest
  | i, .sec n body rest => ⟨i, n ++ ":".toList⟩ :: (contents b (i + b) body ++ contents b i rest)

/-- A line of a `CommentHeader`, header.py:252-271 with style 'left'. -/
def leftLine (l : Line) : Text := '#' :: (spaces l.indent ++ l.text)

/-- A line of a `BoxHeader`, header.py:252-271 with style 'box'. -/
def boxLine (width b : Nat) (l : Line) : Text :=
  let ewidth := width - 1 - l.indent - (b + 1)
  '#' :: (spaces l.indent ++ (l.text ++ spaces (ewidth - l.text.length)) ++ spaces b ++ ['#'])

/-- Automatic width of a box, header.py:222-229. -/
def boxWidth (b : Nat) (ls : List Line) : Nat :=
  (ls.map (fun l => l.text.length + l.indent)).foldl max 0 + 1 + 2 * b + 1

/-- `CommentHeader.write`, as lines. -/
def writeLeft (b : Nat) (t : Tree Text) : List Text := (contents b b t).map leftLine

/-- `BoxHeader.write`, header.py:233-276, as lines; nothing for an empty header. -/
def writeBox (b : Nat) (t : Tree Text) : List Text :=
  let c := contents b b t
  if c = [] then [] else
    let w := boxWidth b c
    let bar := List.replicate w '#'
    let gap := '#' :: (spaces (w - 2) ++ ['#'])
    bar :: gap :: (c.map (boxLine w b) ++ [gap, bar])

/-! ### parsing -/

/-- Values in the result: decoded JSON (given by its text) or the plain text. -/
inductive PV
  | json (t : Text)
  | raw (t : Text)
  deriving DecidableEq, Repr

abbrev Dict := Tree PV

/-- `d[key] = value`: in place or at the end. -/
def assignKv (d : Dict) (k : Text) (v : PV) : Dict :=
  match d with
  | .nil => .kv k v .nil
  | .kv k' v' r => if k' = k then .kv k v r else .kv k' v' (assignKv r k v)
  | .sec k' b r => if k' = k then .kv k v r else .sec k' b (assignKv r k v)

/-- `d[key] = dictionary`. -/
def assignSec (d : Dict) (k : Text) (body : Dict) : Dict :=
  match d with
  | .nil => .sec k body .nil
  | .kv k' v' r => if k' = k then .sec k body r else .kv k' v' (assignSec r k body)
  | .sec k' b r => if k' = k then .sec k body r else .sec k' b (assignSec r k body)

/-- `active`: the innermost dictionary, and the enclosing ones with the key of the entry being filled. -/
structure Active where
  cur : Dict
  frames : List (Dict × Text)
  deriving DecidableEq, Repr

def Active.push (a : Active) (k : Text) : Active := ⟨.nil, (assignSec a.cur k .nil, k) :: a.frames⟩

/-- `if len(active) > 1: active.pop()`. -/
def Active.pop (a : Active) : Active :=
  match a.frames with
  | [] => a
  | (d, k) :: fs => ⟨assignSec d k a.cur, fs⟩

def Active.popN : Nat → Active → Active
  | 0, a => a
  | n + 1, a => Active.popN n a.pop

/-- `curr_indent` and `base_indent` (`none` for -1). -/
structure PState where
  curr : Option Nat
  base : Option Nat
  active : Active
  deriving DecidableEq, Repr

structure Tok where
  indent : Nat
  key : Text
  value : Text
  deriving DecidableEq, Repr

/-- `text.split(':', 1)`. -/
def splitColon (l : Text) : Option (Text × Text) :=
  match l with
  | [] => none
  | c :: r => if c = ':' then some ([], r) else (splitColon r).map (fun p => (c :: p.1, p.2))

/-- header.py:367-383: `none` for a line that is skipped, `some none` for a line without a colon. -/
def tokenize (line : Text) : Option (Option Tok) :=
  if line.head? ≠ some '#' then none
  else
    let l := rstrip (line.filter (fun c => c != '#'))
    if l = [] then none
    else
      match splitColon l with
      | some (k, v) => some (some ⟨l.length - (lstrip l).length, strip k, strip v⟩)
      | none => some none

/-- `json.loads` or the text. -/
def decode (isJson : Text → Bool) (t : Text) : PV := if isJson t then .json t else .raw t

/-- The body of the loop, header.py:385-519, for a line with a colon. -/
def stepTok (isJson : Text → Bool) (s : PState) (t : Tok) : PState :=
  let higher := match s.curr with
    | none => true
    | some c => decide (c < t.indent)
  if higher then
    let base := if s.curr = none then some t.indent else s.base
    if t.value = [] then ⟨some t.indent, base, s.active.push t.key⟩
    else ⟨some t.indent, base, ⟨assignKv s.active.cur t.key (decode isJson t.value), s.active.frames⟩⟩
  else
    let c := s.curr.getD 0
    if t.indent < c then
      let a := s.active.popN ((c - t.indent) / s.base.getD 0)
      if t.value = [] then ⟨some t.indent, s.base, a.push t.key⟩
      else ⟨some t.indent, s.base, ⟨assignKv a.cur t.key (decode isJson t.value), a.frames⟩⟩
    else ⟨s.curr, s.base, ⟨assignKv s.active.cur t.key (decode isJson t.value), s.active.frames⟩⟩

def parseLines (isJson : Text → Bool) : PState → List Text → Option PState
  | s, [] => some s
  | s, x :: l =>
    match tokenize x with
    | none => parseLines isJson s l
    | some none => none
    | some (some t) => parseLines isJson (stepTok isJson s t) l

/-- The whole dictionary: the innermost ones put back. -/
def Active.root (a : Active) : Dict := (a.popN a.frames.length).cur

/-- `parse_header`, header.py:343-521, of a list of lines. -/
def parse (isJson : Text → Bool) (lines : List Text) : Option Dict :=
  (parseLines isJson ⟨none, none, ⟨.nil, []⟩⟩ lines).map (fun s => s.active.root)

/-- The text of lines as written. -/
def text (lines : List Text) : Text := lines.flatMap (fun l => l ++ ['\n'])

/-- `parse_header` of a text, header.py:359-360. -/
def parseText (isJson : Text → Bool) (t : Text) : Option Dict := parse isJson (splitOn '\n' t)

end Verif.Header
