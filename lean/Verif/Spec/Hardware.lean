import Verif.Model.Hardware
/-!
# What cables in a row do, and which column of a board's file is for which filters
-/
namespace Verif.Hardware.Spec

/-- A cable of the same kind with another length. -/
def ofLength (c : Cable) (l : ℝ) : Cable := { c with length := l }

/-- The high pass filter in MHz and the low pass filter in MHz of the filters of a board of revision I, as documented for
`ARX.response`, stations.py:947-955. -/
def passes : Nat → Nat × Nat
  | 0 => (30, 83)
  | 1 => (10, 83)
  | 2 => (30, 73)
  | 3 => (3, 73)
  | 4 => (20, 83)
  | 5 => (3, 83)
  | 6 => (10, 73)
  | _ => (20, 73)

/-- The columns of a file of such a board: first the ones with the wider low pass filter, each with the high pass filters from low
to high. -/
def columns : List (Nat × Nat) := [(3, 83), (10, 83), (20, 83), (30, 83), (3, 73), (10, 73), (20, 73), (30, 73)]

end Verif.Hardware.Spec
