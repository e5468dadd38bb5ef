/-!
# What a mode and a run should be
-/
namespace Verif.Stats.Spec

/-- Increasing. -/
def Sorted (l : List Rat) : Prop := ∀ i j (_ : i < j) (_ : j < l.length), l.getD i 0 ≤ l.getD j 0

/-- The width of the `N` values from `i`. -/
def width (l : List Rat) (N i : Nat) : Rat := l.getD (i + N - 1) 0 - l.getD i 0

/-- Data cut into its maximal runs: each is some number of one value, and neighbours differ. -/
inductive Runs : List (Nat × Bool) → List Bool → Prop
  | nil : Runs [] []
  | one (n : Nat) (b : Bool) : Runs [(n + 1, b)] (List.replicate (n + 1) b)
  | cons (n : Nat) (b : Bool) (m : Nat) (t : List (Nat × Bool)) (l : List Bool) :
      Runs ((m, !b) :: t) l → Runs ((n + 1, b) :: (m, !b) :: t) (List.replicate (n + 1) b ++ l)

/-- All arrangements of `p` of one value and `q` of the other. -/
def arrangements : Nat → Nat → List (List Bool)
  | 0, 0 => [[]]
  | p + 1, 0 => (arrangements p 0).map (true :: ·)
  | 0, q + 1 => (arrangements 0 q).map (false :: ·)
  | p + 1, q + 1 => (arrangements p (q + 1)).map (true :: ·) ++ (arrangements (p + 1) q).map (false :: ·)

end Verif.Stats.Spec
