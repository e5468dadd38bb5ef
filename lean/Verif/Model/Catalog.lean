import Verif.Model.Ionex
import Verif.Model.Astro
/-!
# Catalogs: /repo/lsl/catalog.py

Simplifications: texts are lists of characters; numbers are exact; `float` takes an optional sign, digits, and perhaps a point with
or without digits after it.  An entry is its name, its aliases, the angles and the epoch it is made with; entries are never changed
after they were made.  A name `None` is the empty text.  Files of FITS are their rows.
-/
namespace Verif.Catalog
open Verif.Dec Verif.Astro
open Verif.Parser (isBlank strip)
open Verif.Ionex (Text words cols int?)

inductive Err
  | runtimeError
  | valueError
  | indexError
  | unboundLocal
  deriving DecidableEq

/-- `CatalogEntry`, lines 30-59, and the epoch that is given to `CelestialPosition`. -/
structure Row where
  name : Text
  aliases : List Text
  ra : Hms
  dec : Dms
  b1950 : Bool
  deriving DecidableEq

/-! ## Maps -/

/-- `d[k] = v`. -/
def put {V : Type} (k : Text) (v : V) : List (Text × V) → List (Text × V)
  | [] => [(k, v)]
  | (k', v') :: d => if k' = k then (k', v) :: d else (k', v') :: put k v d

/-- `d[k]`; `none` is `KeyError`. -/
def get {V : Type} (k : Text) : List (Text × V) → Option V
  | [] => none
  | (k', v) :: d => if k' = k then some v else get k d

/-- `source_map` and `alias_map`. -/
structure Cat where
  sources : List (Text × Row)
  aliases : List (Text × Row)
  deriving DecidableEq

def empty : Cat := ⟨[], []⟩

/-- An entry goes in the maps, e.g. lines 209-216. -/
def add (c : Cat) (r : Row) : Cat := ⟨put r.name r c.sources, r.aliases.foldl (fun d a => put a r d) c.aliases⟩

/-- `lookup`, `__getitem__`, `__len__`, `__iter__`, lines 114-157, and `in` of `Mapping`. -/
def lookup (c : Cat) (k : Text) : Option Row :=
  match get k c.sources with
  | some r => some r
  | none => get k c.aliases
def len (c : Cat) : Nat := c.sources.length
def iter (c : Cat) : List Text := c.sources.map (·.1)
def contains (c : Cat) (k : Text) : Bool := (lookup c k).isSome

/-! ## Lines -/

def want {α : Type} (e : Err) : Option α → Except Err α
  | some x => .ok x
  | none => .error e

/-- `float(text)`. -/
def dec? (l : Text) : Option Rat :=
  match splitOn '.' l with
  | [a, []] => (parseNat? a).map (fun n : Nat => (n : Rat))
  | _ => parseDec? l
def real? (l : Text) : Option Rat :=
  match strip l with
  | '-' :: r => (dec? r).map (fun x => -x)
  | '+' :: r => dec? r
  | r => dec? r

/-- `text.rstrip()`, and `text.rstrip('*')`. -/
def rstripOf (p : Char → Bool) (l : Text) : Text := (l.reverse.dropWhile p).reverse

/-- The angles, with the checks of `astro.hms`, `astro.dms` and `astro.equ_posn`. -/
def place (name : Text) (aliases : List Text) (b1950 : Bool) (h m : Int) (s : Rat) (neg : Bool) (d dm : Int) (ds : Rat) : Except Err Row :=
  match mkHms h m s with
  | none => .error .valueError
  | some ra =>
    match mkDms neg d dm ds with
    | none => .error .valueError
    | some dec => if -90 ≤ dmsToDeg dec ∧ dmsToDeg dec ≤ 90 then .ok ⟨name, aliases, ra, dec, b1950⟩ else .error .valueError

/-- `LWA_Catalog`, lines 188-216. -/
def lwaRow (l : Text) : Except Err Row := do
  let h ← want .runtimeError (int? (cols 9 11 l))
  let m ← want .runtimeError (int? (cols 12 14 l))
  let s ← want .runtimeError (real? (cols 15 20 l))
  let sg ← want .indexError l[21]?
  let d ← want .runtimeError (int? (cols 22 24 l))
  let dm ← want .runtimeError (int? (cols 25 27 l))
  let ds ← want .runtimeError (real? (cols 28 32 l))
  place (rstripOf isBlank (cols 0 8 l)) (words (l.drop 34)) false h m s (sg == '-') d dm ds

/-- `PKS_Catalog`, lines 366-394. -/
def pksRow (l : Text) : Except Err Row := do
  let h ← want .runtimeError (int? (cols 22 24 l))
  let m ← want .runtimeError (int? (cols 25 27 l))
  let s ← want .runtimeError (real? (cols 28 32 l))
  let sg ← want .indexError l[33]?
  let d ← want .runtimeError (int? (cols 34 36 l))
  let dm ← want .runtimeError (int? (cols 37 39 l))
  let ds ← want .runtimeError (int? (cols 40 42 l))
  let al := cols 12 19 l
  place (cols 0 8 l) (if strip al = [] then [] else [rstripOf isBlank al]) true h m s (sg == '-') d dm ds

/-- `PKS90_Catalog`, lines 430-462. -/
def pks90Row (l : Text) : Except Err Row := do
  let h ← want .runtimeError (int? (cols 10 12 l))
  let m ← want .runtimeError (int? (cols 13 15 l))
  let s ← want .runtimeError (real? (cols 16 20 l))
  let sg ← want .indexError l[23]?
  let d ← want .runtimeError (int? (cols 24 26 l))
  let dm ← want .runtimeError (int? (cols 27 29 l))
  let ds ← want .runtimeError (real? (cols 30 34 l))
  let a0 := cols 139 148 l
  let a1 := cols 168 175 l
  place (cols 0 10 l) ((if strip a0 = [] then [] else [rstripOf isBlank a0]) ++ (if strip a1 = [] then [] else [rstripOf isBlank a1])) false
    h m s (sg == '-') d dm ds

/-- `math.modf(decMinutes)`, then minutes and seconds, lines 507-512 and 567-572. -/
def minutesOf (x : Rat) : Int := pyInt x
def secondsOf (x : Rat) : Rat := 60 * (x - pyInt x)

/-- `C3C_Catalog`, lines 493-517. -/
def c3cRow (l : Text) : Except Err Row := do
  let h ← want .runtimeError (int? (cols 12 14 l))
  let m ← want .runtimeError (int? (cols 15 17 l))
  let s ← want .runtimeError (real? (cols 18 22 l))
  let sg ← want .indexError l[27]?
  let d ← want .runtimeError (int? (cols 28 30 l))
  let dm ← want .runtimeError (real? (cols 31 35 l))
  place ('3' :: 'C' :: strip (cols 0 3 l)) [] true h m s (sg == '-') d (minutesOf dm) (secondsOf dm)

/-- `line[64:-1]`, stripped of blanks and then of asterisks and blanks, lines 556-582. -/
def c4cAlias (l : Text) : Text := rstripOf (· == '*') (strip (l.dropLast.drop 64))

/-- `C4C_Catalog`, lines 548-582. -/
def c4cRow (l : Text) : Except Err Row := do
  let h ← want .runtimeError (int? (cols 10 12 l))
  let m ← want .runtimeError (int? (cols 13 15 l))
  let s ← want .runtimeError (real? (cols 16 20 l))
  let sg ← want .indexError l[22]?
  let d ← want .runtimeError (int? (cols 23 25 l))
  let dm ← want .runtimeError (real? (cols 26 30 l))
  let al := c4cAlias l
  place ('4' :: 'C' :: strip (cols 0 8 l)) (if strip al = [] then [] else [rstripOf isBlank al]) true h m s (sg == '-') d (minutesOf dm) (secondsOf dm)

/-- Lines that are left out: lines 185, 361 and 425; 3C and 4C leave out none. -/
def lwaSkip (l : Text) : Bool := l.head? == some '#' || (l.all isBlank && l ≠ [])
def pksSkip (l : Text) : Bool := l == ['\n']
def noSkip (_ : Text) : Bool := false

/-- The loop over the lines. -/
def parseFile (skip : Text → Bool) (row : Text → Except Err Row) : List Text → Cat → Except Err Cat
  | [], c => .ok c
  | l :: ls, c =>
    if skip l then parseFile skip row ls c
    else
      match row l with
      | .error e => .error e
      | .ok r => parseFile skip row ls (add c r)

/-- Lines of a file, with their ends. -/
def linesOf : Text → List Text
  | [] => []
  | c :: t =>
    if c = '\n' then [c] :: linesOf t
    else
      match linesOf t with
      | [] => [[c]]
      | l :: ls => (c :: l) :: ls

/-! ## Pulsars, lines 234-333 -/

/-- The variables of the loop.  `last` has `raHours`, `raMinutes` and `raSeconds`, which stay from line to line. -/
structure St where
  psrb : Option Text
  psrj : Option Text
  ra : Option Hms
  dec : Option Dms
  bad : Bool
  last : Option (Int × Int × Rat)
  cat : Cat

def fresh (last : Option (Int × Int × Rat)) (c : Cat) : St := ⟨none, none, none, none, false, last, c⟩

/-- The second word, `line.split()[1]`. -/
def second (l : Text) : Except Err Text := want .indexError (words l)[1]?

def setRa (s : St) (t : Int × Int × Rat) : St :=
  match mkHms t.1 t.2.1 t.2.2 with
  | some ra => { s with ra := some ra, last := some t }
  | none => { s with bad := true, last := some t }

/-- `int`, `int` and `float` of the three texts. -/
def numbers (h m : Text) (s : Option Text) : Except Err (Int × Int × Rat) :=
  match int? h, int? m, (s.elim (some 0) real?) with
  | some h, some m, some s => .ok (h, m, s)
  | _, _, _ => .error .valueError

/-- Lines 253-271. -/
def raLine (s : St) (w : Text) : Except Err St :=
  match splitOn ':' w with
  | [h, m, x] => (numbers h m (some x)).map (setRa s)
  | [h, m] => (numbers h m none).map (setRa s)
  | _ =>
    match s.last with
    | none => .error .unboundLocal
    | some t => .ok (setRa { s with bad := true } t)

/-- Lines 284-296: the sign is taken off the degrees. -/
def unsigned (d : Text) : Bool × Text :=
  match d with
  | '-' :: r => (true, r)
  | _ => (false, d)
def setDec (s : St) (neg : Bool) (t : Int × Int × Rat) : St :=
  match mkDms neg t.1 t.2.1 t.2.2 with
  | some dec => { s with dec := some dec }
  | none => { s with bad := true }
def decLine (s : St) (w : Text) : Except Err St :=
  match splitOn ':' w with
  | [d, m, x] => (numbers (unsigned d).2 m (some x)).map (setDec s (unsigned d).1)
  | [d, m] => (numbers (unsigned d).2 m none).map (setDec s (unsigned d).1)
  | _ => .ok { s with bad := true }

/-- Lines 300-313: the name, the alias. -/
def nameOf (s : St) : Text × List Text :=
  match s.psrb with
  | some b => (b, s.psrj.toList)
  | none => (s.psrj.getD [], [])

/-- Lines 298-333. -/
def endLine (s : St) : Except Err St :=
  match s.ra, s.dec, s.bad with
  | some ra, some dec, false =>
    if -90 ≤ dmsToDeg dec ∧ dmsToDeg dec ≤ 90 then
      .ok (fresh s.last (add s.cat ⟨(nameOf s).1, (nameOf s).2, ra, dec, false⟩))
    else .error .valueError
  | _, _, _ => .ok (fresh s.last s.cat)

/-- Beginnings of lines. -/
def kPsrb : Text := ['P', 'S', 'R', 'B']
def kPsrj : Text := ['P', 'S', 'R', 'J']
def kRaj : Text := ['R', 'A', 'J']
def kDecj : Text := ['D', 'E', 'C', 'J']
def kEnd : Text := ['@', '-']

/-- Lines 248-333; no line has two of the beginnings. -/
def psrStep (s : St) (l : Text) : Except Err St :=
  if kPsrb.isPrefixOf l then (second l).map fun w => { s with psrb := some w }
  else if kPsrj.isPrefixOf l then (second l).map fun w => { s with psrj := some w }
  else if kRaj.isPrefixOf l then (second l).bind (raLine s)
  else if kDecj.isPrefixOf l then (second l).bind (decLine s)
  else if kEnd.isPrefixOf l then endLine s
  else .ok s

def psrLoop : List Text → St → Except Err St
  | [], s => .ok s
  | l :: ls, s =>
    match psrStep s l with
    | .error e => .error e
    | .ok s' => psrLoop ls s'

def psrFile (ls : List Text) : Except Err Cat := (psrLoop ls (fresh none empty)).map St.cat

/-! ## Fermi, lines 601-634 -/

/-- `.replace(' ', '_')`. -/
def underscore (t : Text) : Text := t.map fun c => if c = ' ' then '_' else c

/-- A row: the name, and the aliases of the columns that are there. -/
def fermiNames (name : Text) (fields : List (Option Text)) : Text × List Text :=
  (underscore name, (fields.filterMap id).filterMap fun a => if a = [] then none else some (underscore a))

/-! ## The factory, lines 677-728 -/

def known : List String := ["LWA", "PSR", "PKS", "PKS90", "3C", "4C", "2FGL", "3FGL", "4FGL", "4FGL-DR4"]

/-- `get_catalog`: `make n` makes the catalog, at the `n`-th time of making one.  The state is the instances and the count. -/
structure Factory (C : Type) where
  made : List (String × C)
  count : Nat

def getCatalog {C : Type} (make : String → Nat → Except Err C) (f : Factory C) (name : String) : Except Err C × Factory C :=
  if name ∉ known then (.error .valueError, f)
  else
    match f.made.lookup name with
    | some c => (.ok c, f)
    | none =>
      match make name f.count with
      | .error e => (.error e, { f with count := f.count + 1 })
      | .ok c => (.ok c, ⟨(name, c) :: f.made, f.count + 1⟩)

end Verif.Catalog
