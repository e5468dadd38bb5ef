/-!
# `flat_to_multi`: /repo/lsl/common/mcs.py:779-796
-/
namespace Verif.FlatMulti

/-- A python value that is either an element or a list of such values. -/
inductive Nest (α : Type) where
  | elem : α → Nest α
  | list : List (Nest α) → Nest α
  deriving Repr

/-- mcs.py:793 `[out[i:i+n] for i in range(0, len(out), n)]`; `none` is the ValueError of a zero
step. -/
def chunks {β : Type} (n : Nat) (out : List β) : Option (List (List β)) :=
  if n = 0 then none
  else some ((List.range ((out.length + n - 1) / n)).map fun k => (out.drop (k * n)).take n)

/-- mcs.py:792-794, the `while len(shape) > 1` loop; the shape is kept reversed, so `shape[-1]` is
its head. -/
def loop {α : Type} (out : List (Nest α)) : List Nat → Option (List (Nest α))
  | d :: e :: rest =>
    match chunks d out with
    | none => none
    | some cs => loop (cs.map .list) (e :: rest)
  | _ => some out

/-- `flat_to_multi(inputList, *shape)`, mcs.py:779-796; `none` is ValueError.  Dimensions are
natural numbers here (negative dimensions are not modelled). -/
def flatToMulti {α : Type} (input : List α) (shape : List Nat) : Option (List (Nest α)) :=
  if shape.foldl (fun x y => x * y) 1 ≠ input.length then none
  else loop (input.map .elem) shape.reverse

end Verif.FlatMulti
