import Verif.Model.Beam
/-!
# What a beam is

The mean over the chosen antennas of coefficient times signal.
-/
namespace Verif.Beam.Spec
open Verif.CMem
open Lean.Grind (CommRing)

variable {C : Type}

/-- The sample of a stand, channel and time; complex numbers are pairs of neighbours. -/
def sample (mk : Rat → Rat → C) (cplx : Bool) (data : List Rat) (nchan ntime i c t : Nat) : C :=
  let q := (i * nchan + c) * ntime + t
  if cplx then mk (data.getD (2 * q) 0) (data.getD (2 * q + 1) 0) else mk (data.getD q 0) 0

/-- How many antennas are chosen. -/
def chosen (v : List Nat) : Nat := v.countP (· ≠ 0)

/-- The mean over the chosen antennas; zero if there is none. -/
def beam [CommRing C] (mk : Rat → Rat → C) (n nchan : Nat) (coeffs : List C) (x : Nat → Nat → Nat → C) (v : List Nat) (c t : Nat) : C :=
  (sumN n fun i => if v.getD i 0 = 0 then 0 else coeffs.getD (i * nchan + c) 0 * x i c t) *
    mk (if chosen v = 0 then 0 else 1 / (chosen v : Rat)) 0

/-- The parts of all numbers are there, and pairs of bytes are pairs. -/
def Whole (s : Signals) : Prop :=
  (s.shape.length = 3 ∨ (s.kind = .int8 ∧ s.shape.length = 4 ∧ s.shape.getD 3 0 = 2)) ∧
  s.parts.length = (if s.kind = .complex ∨ s.shape.length = 4 then 2 else 1) *
    (s.shape.getD 0 0 * s.shape.getD 1 0 * s.shape.getD 2 0)

/-- Whether the numbers are complex. -/
def pairs (s : Signals) : Bool := decide (s.kind = .complex ∨ (s.kind = .int8 ∧ s.shape.length = 4))

/-- The laws of `exp(2 pi i x)` that are used. -/
structure Exp [CommRing C] (e : Rat → C) : Prop where
  zero : e 0 = 1
  add : ∀ x y, e (x + y) = e x * e y

/-- `1 / n` times `n` ones is one. -/
def Mean [CommRing C] (mk : Rat → Rat → C) : Prop :=
  ∀ n : Nat, 0 < n → (sumN n fun _ => (1 : C)) * mk (1 / (n : Rat)) 0 = 1

/-- How long after a plane wave from `src` passes the origin its signal comes out of the cable of antenna `a`. -/
def arrival (src : Rat × Rat × Rat) (light : Rat) (a : Ant) (f : Nat) : Rat :=
  a.cable f - (src.1 * a.xyz.1 + src.2.1 * a.xyz.2.1 + src.2.2 * a.xyz.2.2) / light

end Verif.Beam.Spec
