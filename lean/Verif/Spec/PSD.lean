import Verif.Model.PSD
import Verif.Spec.FEngine
/-!
# What a power spectrum should be

The mean over the windows that are not clipped of a quantity of the spectrum of the window, channels in order of frequency.
-/
namespace Verif.PSD.Spec
open Verif.CMem Verif.FEngine
open Lean.Grind (CommRing)

variable {C : Type} [CommRing C]

/-- Whether window `j` of stand `i` counts for signals `a` and `b`. -/
def Good (a b : Args C) (step i j : Nat) : Prop :=
  ¬FEngine.Spec.clipped (still a) step i j ∧ ¬FEngine.Spec.clipped (still b) step i j

/-- Spectrum of a window at channel `k`. -/
def at' (a : Args C) (step i j k : Nat) : C := FEngine.Spec.spectrum (still a) step i j (FEngine.Spec.bin a k)

open Classical in
/-- The windows that count. -/
noncomputable def good (a b : Args C) (step i : Nat) : List Nat :=
  (List.range (FEngine.Spec.windows (still a) step)).filter fun j => decide (Good a b step i j)

/-- Sum over the windows that count. -/
noncomputable def total {R : Type} [CommRing R] (q : C → C → R) (a b : Args C) (step i k : Nat) : R :=
  ((good a b step i).map fun j => q (at' a step i j k) (at' b step i j k)).foldl (· + ·) 0

end Verif.PSD.Spec
