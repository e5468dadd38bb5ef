import Verif.Model.FEngine
/-!
# What the F engine should give

Stand `i` has its own row of samples, zero before the first one.  Window `j` of stand `i` begins `j` steps of
`len/overlap` samples after sample `fifo i`; with a filter bank of several taps it also takes the windows before.
-/
namespace Verif.FEngine.Spec
open Verif.CMem Lean.Grind

variable {C : Type} [CommRing C]

/-- Sample `t` of stand `i`. -/
def row (a : Args C) (i : Nat) (t : Int) : C := if t < 0 then 0 else a.data.getD (a.nSamps * i + t.toNat) 0

/-- First sample of window `j` of stand `i`, with `step` samples from window to window. -/
def start (a : Args C) (step : Nat) (i j : Nat) : Int := a.fifo i + (step * j : Nat) - (a.len * (a.nTap - 1) : Nat)

/-- The weight of sample `u`. -/
def weight (a : Args C) (u : Nat) : C := match a.window with | none => 1 | some w => w.getD u 0

/-- Whether window `j` of stand `i` has a sample at the clip level. -/
def clipped (a : Args C) (step : Nat) (i j : Nat) : Prop :=
  ∃ u, u < a.len * a.nTap ∧ a.over (row a i (start a step i j + u)) = true

/-- The transform of window `j` of stand `i` at frequency number `b`: the taps are added. -/
def spectrum (a : Args C) (step : Nat) (i j b : Nat) : C :=
  sumN a.nTap fun l => sumN a.len fun t =>
    row a i (start a step i j + ((l * a.len + t : Nat) : Int)) * weight a (l * a.len + t) *
      a.e (-((b : Rat) * (t : Rat) / (a.len : Rat)))

/-- Channels are in order of frequency: the negative half comes first for complex data. -/
def bin (a : Args C) (k : Nat) : Nat := if a.real then k else (k + (a.nChan - a.nChan / 2)) % a.nChan

/-- The number of windows that fit. -/
def windows (a : Args C) (step : Nat) : Nat :=
  if (a.nSamps : Int) - a.fifoMax < a.len then 0 else (((a.nSamps : Int) - a.fifoMax - a.len) / step).toNat + 1

end Verif.FEngine.Spec
