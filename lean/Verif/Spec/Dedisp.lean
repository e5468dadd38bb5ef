import Verif.Model.CMem
/-!
# What dedispersion should be
-/
namespace Verif.Dedisp.Spec
open Verif.CMem
open Lean.Grind (CommRing)

/-- A stream around an array: the samples before, the array, the samples after; `z` where there are none. -/
def sig {α : Type} (z : α) (x : List α) (prev next : Option (List α)) (n : Int) : α :=
  if n < 0 then (match prev with
    | none => z
    | some p => if (p.length : Int) + n < 0 then z else p.getD ((p.length : Int) + n).toNat z)
  else if n < x.length then x.getD n.toNat z
  else (match next with
    | none => z
    | some q => q.getD (n - x.length).toNat z)

variable {C : Type} [CommRing C]

/-- The impulse response of a chirp. -/
def kernel (e : Rat → C) (inv : C) (chirp : List C) (d : Int) : C :=
  inv * sumN chirp.length fun k => chirp.getD k 0 * e ((k * d : Int) / chirp.length)

/-- The impulse response is confined to a quarter of the window on both sides. -/
def Short (N : Nat) (h : Int → C) : Prop := ∀ d : Int, (N / 4 : Nat) < d → d < N - (N / 4 : Nat) → h d = 0

/-- The stream filtered with the impulse response. -/
def lin (N : Nat) (h : Int → C) (s : Int → C) (n : Int) : C :=
  sumN (N / 2 + 1) fun j => h (j - (N / 4 : Nat)) * s (n - (j - (N / 4 : Nat)))

/-- `e` is `exp(2 pi i x)`. -/
structure Exp (e : Rat → C) : Prop where
  add : ∀ x y, e (x + y) = e x * e y
  one : e 1 = 1

/-- A column in step with a delay: the value `d` later. -/
def late {α : Type} (col : List α) (d : Int) (t : Nat) : Option α :=
  if 0 ≤ (t : Int) + d then col[((t : Int) + d).toNat]? else none

end Verif.Dedisp.Spec
