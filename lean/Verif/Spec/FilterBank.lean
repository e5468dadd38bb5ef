import Verif.Model.CMem
/-!
# What a filter bank should be
-/
namespace Verif.FilterBank.Spec
open Verif.CMem
open Lean.Grind (CommRing)

/-- Channel `k` of a filter with the coefficients `c`, of `N` channels. -/
def channel {C : Type} [CommRing C] (e : Rat → C) (c s : Nat → C) (N P k : Nat) : C :=
  sumN (N * P) fun t => s t * c t * e (-((k * t : Nat) : Rat) / N)

end Verif.FilterBank.Spec
