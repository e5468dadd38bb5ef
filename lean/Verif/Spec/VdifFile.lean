/-!
# Files of VDIF frames

Every thread gives `rate` frames in a second, counted from zero; the frames of all threads at one time come one after another.
-/
namespace Verif.Vdif

/-- What is looked at of a frame: thread, second, number in the second. -/
structure Fr where
  thread : Nat
  sec : Nat
  num : Nat
  deriving DecidableEq

/-- The frames of all threads at time `g`, counted in frames. -/
def rowAt (rate : Nat) (ts : List Nat) (g : Nat) : List Fr := ts.map fun t => ⟨t, g / rate, g % rate⟩

/-- `m` times from `g` on. -/
def fileFrom (rate : Nat) (ts : List Nat) : Nat → Nat → List Fr
  | _, 0 => []
  | g, m + 1 => rowAt rate ts g ++ fileFrom rate ts (g + 1) m

/-- A number of binary coded decimal digits, the most significant first. -/
def bcd : List Nat → Nat
  | [] => 0
  | d :: l => d * 10 ^ l.length + bcd l

/-- Digits packed into a word, four bits each. -/
def packDigits : List Nat → Nat
  | [] => 0
  | d :: l => d * 16 ^ l.length + packDigits l

end Verif.Vdif
