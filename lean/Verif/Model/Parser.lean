import Verif.Model.Dec
import Verif.Model.Float64
/-!
# Command line values: /repo/lsl/misc/parser.py

Texts are lists of characters; blanks and digits are the ASCII ones.  `none` is `ArgumentTypeError` unless said
otherwise.
-/
namespace Verif.Parser
open Dec

abbrev Str := List Char

/-- Blanks removed by `str.strip` and skipped by `int`. -/
def isBlank (c : Char) : Bool :=
  c == ' ' || c == '\t' || c == '\n' || c == '\r' || c == Char.ofNat 11 || c == Char.ofNat 12 ||
  (28 ≤ c.toNat && c.toNat ≤ 31)

/-- `text.strip()`. -/
def strip (s : Str) : Str := ((s.dropWhile isBlank).reverse.dropWhile isBlank).reverse

/-- Digits with single underscores between them, as `int` takes them. -/
def natText? (s : Str) : Option Nat :=
  let ps := splitOn '_' s
  if ps.all (fun p => p ≠ [] && p.all Char.isDigit) then parseNat? ps.flatten else none

/-- `int(text, 10)`; `none` is `ValueError`. -/
def intText? (s : Str) : Option Int :=
  match strip s with
  | '-' :: l => (natText? l).map (fun n : Nat => -(n : Int))
  | '+' :: l => (natText? l).map (fun n : Nat => (n : Int))
  | l => (natText? l).map (fun n : Nat => (n : Int))

/-- `text.split(c, 1)`: the text before and after the first `c`. -/
def cut (c : Char) : Str → Option (Str × Str)
  | [] => none
  | x :: l => if x = c then some ([], l) else (cut c l).map (fun p => (x :: p.1, p.2))

/-- `range(a, b+1)`. -/
def span (a b : Int) : List Int := (List.range (b + 1 - a).toNat).map (fun i : Nat => a + i)

/-- `_int_item_or_range`, lines 451-458. -/
def itemOrRange (s : Str) : Option (List Int) :=
  match cut '~' s with
  | some (a, b) =>
    match intText? a, intText? b with
    | some x, some y => some (span x y)
    | _, _ => none
  | none => (intText? s).map (fun n => [n])

/-- What a list argument selects. -/
inductive Sel (α : Type) where
  | all
  | none
  | list (l : List α)
  deriving DecidableEq

/-- The loop over the items, lines 474-484, 501-518: blank items are left out, the others added in order. -/
def items {α : Type} (f : Str → Option (List α)) : List Str → Option (List α)
  | [] => some []
  | p :: ps =>
    if strip p = [] then items f ps
    else
      match f (strip p) with
      | none => none
      | some l => (items f ps).map (l ++ ·)

/-- The special words and the items, lines 468-484, 494-518. -/
def csv {α : Type} (f : Str → Option (List α)) (s : Str) : Option (Sel α) :=
  if s = ['a', 'l', 'l'] ∨ s = ['*'] then some .all
  else if s = ['n', 'o', 'n', 'e'] ∨ s = [] then some .none
  else (items f (splitOn ',' s)).map .list

/-- `csv_int_list`, lines 461-484. -/
def csvInt (s : Str) : Option (Sel Int) := csv itemOrRange s

/-- One item of `csv_baseline_list`, lines 505-517. -/
def baselineItem (s : Str) : Option (List (Int × Int)) :=
  match cut '-' s with
  | none => none
  | some (a, b) =>
    match itemOrRange a, itemOrRange b with
    | some x, some y => some (x.flatMap (fun i => y.map (fun j => (i, j))))
    | _, _ => none

/-- `csv_baseline_list`, lines 487-518. -/
def csvBaseline (s : Str) : Option (Sel (Int × Int)) := csv baselineItem s

/-! ## Host names -/

/-- `\d{1,3}`. -/
def byteText? (s : Str) : Option Nat := if s.length ≤ 3 then parseNat? s else none

/-- One field of `_IPV4_RANGE_RE`, line 521, and lines 544-558: the first and last value. -/
def byteRange? (s : Str) : Option (Nat × Nat) :=
  match cut '~' s with
  | none => (byteText? s).map (fun n => (n, n))
  | some (a, b) =>
    match byteText? a, byteText? b with
    | some x, some y => some (x, y)
    | _, _ => none

/-- `range(a, b+1)` of the fields. -/
def natSpan (a b : Nat) : List Nat := (List.range (b + 1 - a)).map (fun i => a + i)

/-- `_IPV4_RANGE_RE` and lines 560-565. -/
def ipItem (s : Str) : Option (List Str) :=
  match splitOn '.' s with
  | [p1, p2, p3, p4] =>
    match byteRange? p1, byteRange? p2, byteRange? p3, byteRange? p4 with
    | some r1, some r2, some r3, some r4 =>
      some ((natSpan r1.1 r1.2).flatMap (fun b1 => (natSpan r2.1 r2.2).flatMap (fun b2 =>
        (natSpan r3.1 r3.2).flatMap (fun b3 => (natSpan r4.1 r4.2).map (fun b4 =>
          showNat b1 ++ '.' :: showNat b2 ++ '.' :: showNat b3 ++ '.' :: showNat b4)))))
    | _, _, _, _ => none
  | _ => none

/-- `[a-zA-Z-]`. -/
def isBaseChar (c : Char) : Bool := c.isAlpha || c == '-'

/-- `_HOSTNAME_RANGE_RE`, line 524: base, start and stop. -/
def hostRange? (s : Str) : Option (Str × Nat × Nat) :=
  let base := s.takeWhile isBaseChar
  match cut '~' (s.dropWhile isBaseChar) with
  | none => none
  | some (a, b) =>
    match parseNat? a, parseNat? b with
    | some x, some y => some (base, x, y)
    | _, _ => none

/-- `_HOSTNAME_RE`, line 523. -/
def isHost (s : Str) : Bool := s.all (fun c => isBaseChar c || c.isDigit)

/-- One item of `csv_hostname_list`, lines 540-586. -/
def hostItem (s : Str) : Option (List Str) :=
  match ipItem s with
  | some l => some l
  | none =>
    match hostRange? s with
    | some r => some ((natSpan r.2.1 r.2.2).map (fun i => r.1 ++ showNat i))
    | none => if isHost s then some [s] else none

/-- `csv_hostname_list`, lines 527-588. -/
def csvHost (s : Str) : Option (List Str) := items hostItem (splitOn ',' s)

/-! ## Times -/

/-- One or two digits of at most `top`, a field of `strptime`. -/
def field? (top : Nat) (s : Str) : Option Nat :=
  if s.length ≤ 2 then (parseNat? s).bind (fun n => if n ≤ top then some n else none) else none

/-- Seconds and microseconds: `%S.%f` or `%S`; the fraction has one to six digits. -/
def seconds? (s : Str) : Option (Nat × Nat) :=
  match cut '.' s with
  | none => (field? 59 s).map (fun n => (n, 0))
  | some (a, b) =>
    if b.length ≤ 6 then
      match field? 59 a, parseNat? b with
      | some n, some f => some (n, f * 10 ^ (6 - b.length))
      | _, _ => none
    else none

/-- `datetime.strptime("2000/1/1 %s" % string, ...)` with the two formats, lines 358-364: hour, minute, second,
microsecond.  Blanks before the time are skipped. -/
def clock? (s : Str) : Option (Nat × Nat × Nat × Nat) :=
  match splitOn ':' (s.dropWhile isBlank) with
  | [h, m, x] =>
    match field? 23 h, field? 59 m, seconds? x with
    | some h, some m, some p => some (h, m, p.1, p.2)
    | _, _, _ => none
  | _ => none

/-- `"%i:%02i:%02i.%06i"`. -/
def clockText (h m s f : Nat) : Str :=
  showNat h ++ ':' :: showPad 2 m ++ ':' :: showPad 2 s ++ '.' :: showPad 6 f

/-- `x % 60` of a float that is not negative: exact. -/
def mod60 (x : Rat) : Rat := x - 60 * (x / 60).floor

/-- `time`, lines 341-367, with `/` as rounded division. -/
def time (str : Str) : Option Str :=
  match intText? str with
  | some n =>
    if n < 0 ∨ 86400 * 1000 + 999 < n then none
    else
      let s := fl64 ((n : Rat) / 1000)
      let f := n % 1000
      let h := fl64 (s / 3600)
      let m := mod60 (fl64 (s / 60))
      let s := mod60 s
      some (clockText (pyInt h).toNat (pyInt m).toNat (pyInt s).toNat (f * 1000).toNat)
  | none => (clock? str).map (fun c => clockText c.1 c.2.1 c.2.2.1 c.2.2.2)

/-- The milliseconds of `datetime_to_mjdmpm`, mcs.py:614-617, 631. -/
def clockMpm (h m s us : Nat) : Int :=
  (fl64 ((((h * 3600 + m * 60 + s) * 1000 : Nat) : Rat) + fl64 ((us : Rat) / 1000))).floor

/-- `mpm`, lines 370-390. -/
def mpm (str : Str) : Option Int :=
  match intText? str with
  | some n => if n < 0 ∨ 86400 * 1000 + 999 < n then none else some n
  | none => (clock? str).map (fun c => clockMpm c.1 c.2.1 c.2.2.1 c.2.2.2)

/-! ## Frequencies -/

/-- `_get_units`, lines 85-100: the rest after the longest start that is a number. -/
def getUnits (flt : Str → Option Rat) (s : Str) : Option Str :=
  let go := (List.range s.length).reverse.map (· + 1)
  match go.find? (fun i => (flt (s.take i)).isSome) with
  | none => none
  | some i => if s.drop i = [] then none else some (s.drop i)

/-- `_quantitiy_to_hz`, `_quantitiy_to_m`, lines 103-137: a number is scaled, other texts go to `astropy`. -/
def quantity (flt qty : Str → Option Rat) (scale : Rat) (s : Str) : Option Rat :=
  match flt s with
  | some x => some (x * scale)
  | none => qty s

/-- A single value or a range. -/
inductive Val where
  | one (x : Rat)
  | two (x y : Rat)
  deriving DecidableEq

/-- The start of a range takes the units of the stop, lines 167-168, 247-248. -/
def startText (u1 u2 : Option Str) (a : Str) : Str :=
  match u1, u2 with
  | none, some u => a ++ u
  | _, _ => a

/-- `_frequency_conversion_base`, `_wavelength_conversion_base`, lines 140-176, 220-256: `scale` is 1e6 or 1. -/
def base (flt qty : Str → Option Rat) (scale : Rat) (s : Str) : Option Val :=
  match flt s with
  | some x => some (.one (x * scale))
  | none =>
    match cut '~' s with
    | none => (quantity flt qty scale s).map .one
    | some (a, b) =>
      let u1 := getUnits flt a
      let u2 := getUnits flt b
      if u1.isSome ∧ u2 = none then none
      else
        match quantity flt qty scale (startText u1 u2 a), quantity flt qty scale b with
        | some x, some y => some (if y < x then .two y x else .two x y)
        | _, _ => none

/-- `frequency_range`, `wavelength_range`, lines 199-217, 279-297. -/
def range (flt qty : Str → Option Rat) (scale : Rat) (s : Str) : Option (Rat × Rat) :=
  match base flt qty scale s with
  | some (.two x y) => some (x, y)
  | _ => none

/-- `frequency`, `wavelength`, lines 179-196, 259-276. -/
def single (flt qty : Str → Option Rat) (scale : Rat) (s : Str) : Option Rat :=
  match base flt qty scale s with
  | some (.one x) => some x
  | _ => none

end Verif.Parser
