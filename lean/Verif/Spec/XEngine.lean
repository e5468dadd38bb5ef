import Verif.Model.XEngine
/-!
# What an X engine should give

A visibility of stands `s1` and `s2` is the mean, over the windows valid for both, of the spectrum of the first times the conjugate
of the spectrum of the second.
-/
namespace Verif.XEngine.Spec
open Verif.CMem
open Lean.Grind (CommRing)

variable {C : Type}

/-- Whether window `f` of stand `s` is valid. -/
def good (nFFT : Nat) (x : Sig C) (s f : Nat) : Bool := x.valid.getD (s * nFFT + f) 0 == 1

/-- The windows valid for both. -/
def common (nFFT : Nat) (x : Sig C) (s1 : Nat) (y : Sig C) (s2 : Nat) : List Nat :=
  (List.range nFFT).filter fun f => good nFFT x s1 f && good nFFT y s2 f

variable [CommRing C]

/-- Channel `c` of window `f` of stand `s`. -/
def spectrum (nChan nFFT : Nat) (x : Sig C) (s c f : Nat) : C := x.data.getD (s * nChan * nFFT + c * nFFT + f) 0

/-- The mean: sum and number. -/
def vis (conj : C → C) (nChan nFFT : Nat) (x : Sig C) (s1 : Nat) (y : Sig C) (s2 c : Nat) : C × Nat :=
  (((common nFFT x s1 y s2).map fun f => spectrum nChan nFFT x s1 c f * conj (spectrum nChan nFFT y s2 c f)).foldl (· + ·) 0,
    (common nFFT x s1 y s2).length)

/-- Numerators of the Stokes parameters of a baseline: `XX + YY`, `XX - YY`, `XY + YX` and `(XY - YX)/i`. -/
def stokes (conj : C → C) (mi : C) (nChan nFFT : Nat) (x y : Sig C) (pol s1 s2 c : Nat) : C :=
  let v := fun (a b : Sig C) => (vis conj nChan nFFT a s1 b s2 c).1
  match pol with
  | 0 => v x x + v y y
  | 1 => v x x - v y y
  | 2 => v x y + v y x
  | _ => (v x y - v y x) * mi

end Verif.XEngine.Spec
