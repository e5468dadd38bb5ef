/-!
# ASP configuration: /repo/lsl/common/_metabundle_utils.py:184-314
-/
namespace Verif.AspMode

/-- Counting the values in a dictionary, which keeps the order of first insertion, lines 291-299. -/
def bump : List (Int × Nat) → Int → List (Int × Nat)
  | [], v => [(v, 1)]
  | (w, n) :: l, v => if w = v then (w, n + 1) :: l else (w, n) :: bump l v

def countAll (l : List Int) : List (Int × Nat) := l.foldl bump []

/-- The choice of the most frequent value, lines 304-311: state is (best, mode). -/
def pickStep (s : Nat × Int) (e : Int × Nat) : Nat × Int := if s.1 < e.2 then (e.2, e.1) else s

/-- `get_asp_configuration_summary` for one parameter. -/
def mode (l : List Int) : Int := ((countAll l).foldl pickStep (0, 0)).2

/-- Python `lst[i] = v` with negative indices from the end; `none` is `IndexError`. -/
def pySet (l : List Int) (i v : Int) : Option (List Int) :=
  let j := if i < 0 then i + l.length else i
  if 0 ≤ j ∧ j < l.length then some (l.set j.toNat v) else none

/-- The four lists of settings. -/
structure Asp where
  flt : List Int
  at1 : List Int
  at2 : List Int
  at3 : List Int
  deriving DecidableEq

/-- The stub, lines 199-202. -/
def stub : Asp := ⟨List.replicate 256 (-1), List.replicate 256 (-1), List.replicate 256 (-1), List.replicate 256 (-1)⟩

/-- One entry of the MIB, lines 239-275: the numbers of its index, and its value.  `none` is an `IndexError` that
is not caught (the index "4" alone). -/
def applyEntry (a : Asp) (idx : List Int) (v : Int) : Option Asp :=
  match idx with
  | 3 :: r =>
    match r with
    | i :: _ => some (match pySet a.flt (i - 1) v with | some l => { a with flt := l } | none => a)
    | [] => some a
  | 4 :: r =>
    match r with
    | [] => none
    | 1 :: i :: _ => some (match pySet a.at1 (i - 1) v with | some l => { a with at1 := l } | none => a)
    | 2 :: i :: _ => some (match pySet a.at2 (i - 1) v with | some l => { a with at2 := l } | none => a)
    | 3 :: i :: _ => some (match pySet a.at3 (i - 1) v with | some l => { a with at3 := l } | none => a)
    | _ => some a
  | _ => some a

/-- All entries of the MIB. -/
def applyAll : Asp → List (List Int × Int) → Option Asp
  | a, [] => some a
  | a, e :: l => match applyEntry a e.1 e.2 with | none => none | some a' => applyAll a' l

end Verif.AspMode
