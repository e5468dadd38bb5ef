import Verif.Model.Dedisp
/-!
# Filter bank: /repo/lsl/correlator/filterbank.py

Numbers are idealised to a commutative ring `C`; `e x` stands for `exp(2 pi i x)` and `sinc` for `np.sinc`.  `none` is an exception.
-/
namespace Verif.FilterBank
open Verif.CMem
open Lean.Grind (CommRing)

variable {C : Type} [CommRing C]

/-- `__filterCoeff(N, P)`, lines 18-25. -/
def coeff (sinc : Rat → C) (N P : Nat) : List C :=
  (List.range (N * P)).map fun t : Nat => sinc (((t : Rat) - ((N * P : Nat) : Rat) / 2 + 1 / 2) / N)

/-- `a * b` of numpy arrays of one axis: of one length, or one of them with one element. -/
def times (a b : List C) : Option (List C) :=
  if a.length = b.length then some (List.zipWith (· * ·) a b)
  else match a, b with
    | [x], b => some (b.map (x * ·))
    | a, [y] => some (a.map (· * y))
    | _, _ => none

/-- `np.fft.fft`, which refuses no samples. -/
def fft? (e : Rat → C) (x : List C) : Option (List C) := if x = [] then none else some (Dedisp.fft e x)

/-- `fbOutput += fbTemp`. -/
def plus (o b : List C) : Option (List C) := if o.length = b.length then some (List.zipWith (· + ·) o b) else none

/-- Lines 38-43, one block; `none` within is `fbOutput` before it has a value. -/
def tap (e : Rat → C) (filtered : List C) (N : Nat) (out : Option (List C)) (i : Nat) : Option (Option (List C)) :=
  (fft? e ((filtered.drop (i * N)).take N)).bind fun b => match out with
    | none => some (some (b.map (· * 1)))
    | some o => (plus o b).map some

/-- `fft(signal, N, P, window)`, lines 28-45; `window` gives the values for a length. -/
def fft (e sinc : Rat → C) (window : Nat → List C) (signal : List C) (N P : Nat) : Option (List C) :=
  (times (signal.take (N * P)) (window (N * P))).bind fun a =>
  (times a (coeff sinc N P)).bind fun filtered =>
  ((List.range P).foldlM (tap e filtered N) none).join

end Verif.FilterBank
