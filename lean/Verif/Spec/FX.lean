import Verif.Model.FX
/-!
# What the correlator front ends are for

A row for every pair of stands, in the order of the baseline list returned with it, that is the product of what the two
antennas of the baseline received, each brought to a common time by its own delay.
-/
namespace Verif.FX.Spec

/-- Antenna `a` is at place `p` of the list and is the `i`th one of its polarization. -/
def Place (as : List Ant) (pol i p : Nat) (a : Ant) : Prop :=
  as[p]? = some a ∧ a.pol = pol ∧ (as.take p).countP (·.pol == pol) = i

/-- The pairs of stand numbers, the later one second. -/
def pairs (n : Nat) (auto : Bool) : List (Nat × Nat) :=
  (List.range n).flatMap fun i => (List.range n).filterMap fun j =>
    if i < j ∨ (auto = true ∧ i = j) then some (i, j) else none

/-- Both polarizations have the same stands in the same order, and no stand twice. -/
def Match (as1 as2 : List Ant) : Prop :=
  as2.length = as1.length ∧ ∀ (i j : Nat) (a b : Ant), as1[i]? = some a → as2[j]? = some b → (a.id = b.id ↔ i = j)

/-- The letters of a polarization product. -/
def Letter (ch : Char) (p : Nat) : Prop :=
  (p = 0 ∧ ch ∈ ['X', 'x', 'R', 'r']) ∨ (p = 1 ∧ ch ∈ ['Y', 'y', 'L', 'l'])

/-- How far a position is along a direction. -/
def along : Rat × Rat × Rat → Rat × Rat × Rat → Rat
  | (a, b, c), (x, y, z) => a * x + (b * y + c * z)

/-- Smallest of all. -/
def Least (P : Rat → Prop) (m : Rat) : Prop := P m ∧ ∀ x, P x → m ≤ x

open Lean.Grind (CommRing) in
/-- The windows of one antenna in one channel, brought to the common time: each is multiplied by `r`. -/
def turned {C : Type} [CommRing C] (r : C) (x : List C) : List C := x.map (r * ·)

end Verif.FX.Spec
