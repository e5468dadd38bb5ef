import Verif.Model.Dec
/-!
# The configuration file: /repo/lsl/config.py, `_load_config`, `_save_config`, `__str__`

Texts are lists of characters.  A float is represented by the text python shows for it.  White space is
that of ASCII; digits are ASCII digits (python's `int`, `float` also take other scripts).
-/
namespace Verif.ConfigFile
open Verif.Dec

abbrev Text := List Char

inductive V
  | none
  | bool (b : Bool)
  | int (i : Int)
  | float (t : Text)
  | str (s : Text)
  deriving DecidableEq, Repr

/-- `str(value)`. -/
def V.show : V → Text
  | .none => "None".toList
  | .bool true => "True".toList
  | .bool false => "False".toList
  | .int i => showInt i
  | .float t => t
  | .str s => s

/-- Characters removed by `strip()`. -/
def isSpace (c : Char) : Bool :=
  c == ' ' || c == '\t' || c == '\n' || c == '\r' || c == '\x0b' || c == '\x0c' ||
  c == '\x1c' || c == '\x1d' || c == '\x1e' || c == '\x1f'

def lstrip : Text → Text
  | [] => []
  | c :: l => if isSpace c then lstrip l else c :: l

def rstrip : Text → Text
  | [] => []
  | c :: l =>
    match rstrip l with
    | [] => if isSpace c then [] else [c]
    | r => c :: r

/-- `text.strip()`. -/
def strip (l : Text) : Text := rstrip (lstrip l)

/-- Unsigned digits with single underscores between digits. -/
def natU? (l : Text) : Option Nat :=
  let g := splitOn '_' l
  if g.all (fun x => decide (x ≠ [])) then parseNat? g.flatten else none

/-- `int(value, 10)` of stripped text; `none` is the `ValueError`. -/
def pyInt? : Text → Option Int
  | '-' :: l => (natU? l).map (fun n : Nat => -(n : Int))
  | '+' :: l => (natU? l).map (fun n : Nat => (n : Int))
  | l => (natU? l).map (fun n : Nat => (n : Int))

def unsigned : Text → Text
  | '-' :: l => l
  | '+' :: l => l
  | l => l

/-- Digits, a point and digits, at least one side present. -/
def isMantissa (l : Text) : Bool :=
  match splitOn '.' l with
  | [a] => (natU? a).isSome
  | [a, b] => (a == [] && (natU? b).isSome) || ((natU? a).isSome && (b == [] || (natU? b).isSome))
  | _ => false

/-- Whether `float(value)` accepts stripped text. -/
def isFloat (l : Text) : Bool :=
  let u := (unsigned l).map Char.toLower
  u == "inf".toList || u == "infinity".toList || u == "nan".toList ||
  (match splitOn 'e' u with
   | [m] => isMantissa m
   | [m, e] => isMantissa m && (natU? (unsigned e)).isSome
   | _ => false)

/-- The value of the text after `=`, config.py:284-297. -/
def classify (t : Text) : V :=
  if t = "True".toList then .bool true
  else if t = "False".toList then .bool false
  else match pyInt? t with
    | some i => .int i
    | none => if isFloat t then .float t else if t = [] then .none else .str t

/-- A parameter with the parts of its name (`section.item`) and the lines of its help text. -/
structure Entry where
  sec : Text
  item : Text
  help : List Text
  value : V
  deriving DecidableEq, Repr

def Entry.name (e : Entry) : Text := e.sec ++ '.' :: e.item

/-- `LSLConfigParameter.__str__`, config.py:189-199, as lines. -/
def paramLines (e : Entry) : List Text :=
  e.help ++ [if e.value = .none then '#' :: e.item ++ " = ".toList else e.item ++ " = ".toList ++ e.value.show]

/-- One turn of the loop in `LSLConfigContainer.__str__`, config.py:233-241. -/
def entryLines (last : Option Text) (e : Entry) : List Text :=
  (if last ≠ some e.sec then [[], "[ ".toList ++ e.sec ++ " ]".toList] else []) ++ paramLines e ++ [[]]

def allLines : Option Text → List Entry → List Text
  | _, [] => []
  | last, e :: l => entryLines last e ++ allLines (some e.sec) l

/-- `LSLConfigContainer.__str__`, config.py:229-242, as lines. -/
def fileLines (ver : Text) (l : List Entry) : List Text :=
  "# LSL Configuration File".toList :: ("# LSL Version: ".toList ++ ver) :: allLines none l

/-- The text written. -/
def fileText (ver : Text) (l : List Entry) : Text := (fileLines ver l).flatMap (fun x => x ++ ['\n'])

abbrev Params := List (Text × V)

def lookup (ps : Params) (n : Text) : Option V :=
  match ps with
  | [] => none
  | (m, v) :: l => if m = n then some v else lookup l n

/-- `self._parameters[name].value = value`, or a new parameter at the end, config.py:299-303. -/
def assign (ps : Params) (n : Text) (v : V) : Params :=
  match ps with
  | [] => [(n, v)]
  | (m, w) :: l => if m = n then (m, v) :: l else (m, w) :: assign l n v

/-- Text after the first occurrence of `pat`. -/
def after (pat : Text) : Text → Option Text
  | [] => if pat = [] then some [] else none
  | c :: l => if pat.isPrefixOf (c :: l) then some ((c :: l).drop pat.length) else after pat l

/-- `line.split('=', 1)`; `none` when there is no `=`. -/
def splitFirst (l : Text) : Option (Text × Text) :=
  match l with
  | [] => none
  | c :: r => if c = '=' then some ([], r) else (splitFirst r).map (fun p => (c :: p.1, p.2))

structure LState where
  sec : Option Text
  params : Params
  versionChanged : Bool
  deriving DecidableEq, Repr

/-- One line, config.py:263-303; `none` is the `ValueError` of a line without `=`. -/
def loadLine (ver : Text) (st : LState) (raw : Text) : Option LState :=
  let line := strip raw
  if line.length < 3 then some st
  else if line.head? = some '#' then
    match after "LSL Version:".toList line with
    | some r => some (if strip r ≠ ver then { st with versionChanged := true } else st)
    | none => some st
  else if line.head? = some '[' then
    some { st with sec := some (strip ((line.filter (fun c => c != '[')).filter (fun c => c != ']'))) }
  else match splitFirst line with
    | none => none
    | some (n, v) =>
      let name := match st.sec with
        | some s => s ++ '.' :: strip n
        | none => strip n
      some { st with params := assign st.params name (classify (strip v)) }

def loadLines (ver : Text) : LState → List Text → Option LState
  | st, [] => some st
  | st, x :: l =>
    match loadLine ver st x with
    | some st' => loadLines ver st' l
    | none => none

/-- `_load_config`, config.py:244-309, of a file with this text, starting from the default values. -/
def load (ver : Text) (defaults : Params) (text : Text) : Option LState :=
  loadLines ver ⟨none, defaults, false⟩ (splitOn '\n' text)

/-! ### sessions -/

/-- The file on disk: modification time and text. -/
structure File where
  mtime : Nat
  text : Text
  deriving DecidableEq, Repr

/-- Attributes of the container that decide about saving.  `pending` is `len(_param_changed_list) > 0`. -/
structure Session where
  entries : List Entry
  loaded : Nat
  pending : Bool
  changed : Bool
  versionChanged : Bool
  deriving DecidableEq, Repr

def setEntry (l : List Entry) (n : Text) (v : V) : List Entry :=
  l.map (fun e => if e.name = n then { e with value := v } else e)

/-- A `set` that changes the value away from the one loaded (see `Config.set`). -/
def Session.change (s : Session) (n : Text) (v : V) : Session :=
  { s with entries := setEntry s.entries n v, pending := true, changed := true }

/-- `_save_config`, config.py:311-338, at time `now`. -/
def Session.save (ver : Text) (s : Session) (f : Option File) (now : Nat) : Session × Option File :=
  let newer := match f with
    | some g => s.pending && decide (s.loaded < g.mtime)
    | none => false
  let s1 := if newer then { s with pending := false, changed := if s.versionChanged then s.changed else false } else s
  if s1.changed then
    ({ s1 with pending := false, changed := false, versionChanged := false }, some ⟨now, fileText ver s1.entries⟩)
  else (s1, f)

end Verif.ConfigFile
