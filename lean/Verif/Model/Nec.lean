import Verif.Spec.Nec
import Verif.Model.Ionex
/-!
# Files of antenna simulations: /repo/lsl/sim/necutils.py

Simplifications: a file is the list of its lines; in output files without their ends.  `num` is `float` and `whole` is `int` of a text,
`none` if it raises; `fmt` is `"%.2f"`.  Numbers are exact.
-/
namespace Verif.Nec
open Verif.Ionex (contains words)

inductive Err
  | runtime | value | index | name
  deriving DecidableEq

def sSpec : Text := "STRUCTURE SPECIFICATION".toList
def sFreq : Text := "FREQUENCY".toList
def sFreqEq : Text := "FREQUENCY=".toList
def sFreqColon : Text := "FREQUENCY :".toList
def sAnt : Text := "ANTENNA INPUT PARAMETERS".toList
def sImp : Text := "IMPEDANCE".toList
def sRad : Text := "RADIATION PATTERN".toList
def sExc : Text := "EXCITATION".toList
def sDb : Text := "DB".toList

/-- `for line in fh: if line.find(p) >= 0: break`: the line, and the lines after it. -/
def seek (p : Text) : List Text → Option (Text × List Text)
  | [] => none
  | l :: r => if contains p l then some (l, r) else seek p r
/-- The lines left over. -/
def left (p : Text) (ls : List Text) : List Text := ((seek p ls).map (·.2)).getD []

/-- `float(line[line.find(c)+1:].split()[0])`, lines 73, 76. -/
def after (c : Char) (l : Text) : Text := (l.dropWhile (· ≠ c)).drop 1
def valueAt (num : Text → Option Rat) (c : Char) (l : Text) : Except Err Rat :=
  match words (after c l) with
  | [] => .error .index
  | w :: _ => match num w with
    | none => .error .value
    | some x => .ok x

/-- The frequency, lines 71-80 and 168-176; `none` is the end of the file. -/
def freqAt (num : Text → Option Rat) : List Text → Except Err (Option (Rat × List Text))
  | [] => .ok none
  | l :: r =>
    if contains sFreqEq l then (valueAt num '=' l).map fun x => some (x, r)
    else if contains sFreqColon l then (valueAt num ':' l).map fun x => some (x, r)
    else freqAt num r

/-- `open_and_get_nec_freq`, lines 45-83. -/
def openFreq (num : Text → Option Rat) (ls : List Text) : Except Err (Rat × List Text) :=
  match seek sSpec ls with
  | none => .error .runtime
  | some (_, r) =>
    match freqAt num (left sFreq r) with
    | .error e => .error e
    | .ok none => .error .runtime
    | .ok (some x) => .ok x

/-! ## Impedances, lines 130-202 -/

/-- `re.sub(r'(\d)-', r'\1 -', line)`, line 195. -/
def spaced : Text → Text
  | [] => []
  | c :: l => if c.isDigit ∧ l.head? = some '-' then c :: ' ' :: spaced l else c :: spaced l

/-- The variable `line` after lines 188-191, and what is left of the file. -/
def twoLines (l : Text) : List Text → Text × List Text
  | [] => (l, [])
  | [a] => (a, [])
  | _ :: b :: r => (b, r)

/-- Lines 195-199. -/
def zOf (num : Text → Option Rat) (l : Text) : Except Err (Rat × Rat) :=
  match (words (spaced l))[6]?, (words (spaced l))[7]? with
  | some a, some b =>
    match num a, num b with
    | some x, some y => .ok (x, y)
    | _, _ => .error .value
  | some a, none => if (num a).isSome then .error .index else .error .value
  | none, _ => .error .index

/-- One turn of the loop, lines 163-199; `none` is `break`. -/
def turn (num : Text → Option Rat) (ls : List Text) : Except Err (Option ((Rat × Rat × Rat) × List Text)) :=
  match freqAt num (left sFreq ls) with
  | .error e => .error e
  | .ok none => .ok none
  | .ok (some (f, r)) =>
    match seek sImp (left sAnt r) with
    | none => .error .runtime
    | some (l, r) =>
      match zOf num (twoLines l r).1 with
      | .error e => .error e
      | .ok z => .ok (some ((f, z), (twoLines l r).2))

/-- The loop; a turn takes lines off the file, so that as many turns as lines are enough. -/
def turns (num : Text → Option Rat) : Nat → List Text → Except Err (List (Rat × Rat × Rat))
  | 0, _ => .ok []
  | n + 1, ls =>
    match turn num ls with
    | .error e => .error e
    | .ok none => .ok []
    | .ok (some (x, r)) => (turns num n r).map (x :: ·)

/-- `NECImpedance`. -/
def impedance (num : Text → Option Rat) (ls : List Text) : Except Err (List (Rat × Rat × Rat)) :=
  match seek sSpec ls with
  | none => .error .runtime
  | some (_, r) => turns num (r.length + 1) r

/-- `calculate_ime`, lines 121-122, for one frequency. -/
def ime (zpre r x : Rat) : Rat :=
  1 - ((zpre - r) * (zpre - r) + x * x) / ((zpre + r) * (zpre + r) + x * x)

/-! ## Input files, lines 86-108 -/

/-- `re.split(',| +', line)`, line 98; `inBlanks` is whether the character before was one of the blanks of a separator. -/
def splitCard : Bool → Text → List Text
  | _, [] => [[]]
  | inBlanks, c :: l =>
    if c = ',' then [] :: splitCard false l
    else if c = ' ' then if inBlanks then splitCard true l else [] :: splitCard true l
    else match splitCard false l with
      | [] => [[c]]
      | p :: ps => (c :: p) :: ps

/-- `" ".join(vals)`. -/
def join : List Text → Text
  | [] => []
  | [a] => a
  | a :: l => a ++ ' ' :: join l

/-- Lines 103-104. -/
def ended (l : Text) : Text := if l.getLast? = some '\n' then l else l ++ ['\n']

/-- Lines 96-104; `freq` is the text of the frequency. -/
def changeLine (freq : Text) (l : Text) : Except Err Text :=
  if l.take 2 = ['F', 'R'] then
    if 5 < (splitCard false l).length then .ok (ended (join ((splitCard false l).set 5 freq))) else .error .index
  else .ok l

def changeFreq (freq : Text) (ls : List Text) : Except Err (List Text) := ls.mapM (changeLine freq)

/-! ## Patterns, lines 205-361 -/

/-- `close_to`, lines 35-42. -/
def closeTo (x y eps : Rat) : Bool := decide (2 * (x - y).abs / (x + y) < eps)

/-- What the constructor does first, lines 236-275; `found` is the frequency of the output file. -/
inductive Act
  | use | run | fail (e : Err)
  deriving DecidableEq
def action (found : Option Rat) (freq : Rat) (rerun : Bool) : Act :=
  match found with
  | none => if rerun then .run else .fail .name
  | some f => if closeTo f freq (5 / 1000) then .use else if rerun then .run else .fail .value

/-- The pattern: decibels and phase in degrees at azimuth and altitude. -/
abbrev Pattern := Int → Int → Option (Rat × Rat)
def setAt (phi theta : Int) (v : Rat × Rat) (p : Pattern) : Pattern := fun a b => if a = phi ∧ b = theta then some v else p a b

/-- `int(cols[0].split('.')[0])`. -/
def wholePart (whole : Text → Option Int) (l : Text) : Option Int := whole (l.takeWhile (· ≠ '.'))

/-- A line of the table, lines 312-326: `none` ends the table. -/
def radLine (num : Text → Option Rat) (whole : Text → Option Int) (l : Text) (p : Pattern) : Except Err (Option Pattern) :=
  match words l with
  | a :: b :: c =>
    if c.length < 2 then .ok none
    else
      match wholePart whole a, wholePart whole b with
      | some t, some phi =>
        if 90 - t < 0 ∨ 90 < 90 - t ∨ 359 < phi then .ok (some p)
        else
          match c[2]?, c[4]? with
          | some g, some h =>
            match num g, num h with
            | some x, some y => if phi < -360 then .error .index else .ok (some (setAt (if phi < 0 then phi + 360 else phi) (90 - t) (x, y) p))
            | _, _ => .error .value
          | _, _ => .error .index
      | _, _ => .error .value
  | _ => .ok none

def radLines (num : Text → Option Rat) (whole : Text → Option Int) : List Text → Pattern → Except Err Pattern
  | [], p => .ok p
  | l :: ls, p =>
    match radLine num whole l p with
    | .error e => .error e
    | .ok none => .ok p
    | .ok (some q) => radLines num whole ls q

/-- `_read_radiation`, lines 297-326. -/
def readRadiation (num : Text → Option Rat) (whole : Text → Option Int) (ls : List Text) : Except Err Pattern :=
  radLines num whole (left sDb ls) fun _ _ => none

/-- `int(float(text))`. -/
def trunc (x : Rat) : Int := if x < 0 then -(-x).floor else x.floor

/-- The two lines of a record that are used, lines 346-361: direction, current and phase, as numbers. -/
def record (num : Text → Option Rat) (ls : List Text) : Except Err (Int × Int × Rat × Rat) :=
  match ls[1]?, ls[11]? with
  | some a, some c =>
    match (words a)[3]?, (words a)[6]?, (words c)[8]?, (words c)[9]? with
    | some t, some p, some i, some h =>
      match num t, num p, num i, num h with
      | some t, some p, some i, some h => .ok (90 - trunc t, trunc p, i, h)
      | _, _, _, _ => .error .value
    | _, _, _, _ => .error .index
  | _, _ => .error .index

/-- `_read_excitation`, lines 328-361: the records of 16 lines each; what is left at the end is not one. -/
def records (num : Text → Option Rat) (ls : List Text) : Except Err (List (Int × Int × Rat × Rat)) :=
  if ls.length < 16 then .ok []
  else
    match record num (ls.take 16) with
    | .error e => .error e
    | .ok x => (records num (ls.drop 16)).map (x :: ·)
termination_by ls.length
decreasing_by simp; omega

end Verif.Nec
