import Mathlib.Analysis.SpecialFunctions.Sqrt
/-!
# What fits should be
-/
namespace Verif.Robust.Spec

/-- The sum of the squares of the residuals of a line, each with its weight. -/
def lineResidual : List ℝ → List ℝ → List ℝ → ℝ → ℝ → ℝ
  | w :: ws, x :: xs, y :: ys, slope, icpt => w * (y - (icpt + slope * x)) ^ 2 + lineResidual ws xs ys slope icpt
  | _, _, _, _, _ => 0

/-- A polynomial as `np.polyval` has it, highest coefficient first. -/
def eval (c : List ℝ) (x : ℝ) : ℝ := c.foldl (fun r a => r * x + a) 0

/-- A polynomial, lowest coefficient first. -/
def evalLow : List ℝ → ℝ → ℝ
  | [], _ => 0
  | a :: c, x => a + x * evalLow c x

/-- The sum of the squares of the residuals of a polynomial. -/
noncomputable def polyResidual (c u v : List ℝ) : ℝ := (List.zipWith (fun a b => (b - evalLow c a) ^ 2) u v).sum

/-- A fit by least squares of a degree. -/
def LeastSquares (fit : List ℝ → List ℝ → ℕ → List ℝ) : Prop :=
  ∀ u v n, u.length = v.length → (fit u v n).length = n + 1 ∧
    ∀ c : List ℝ, c.length = n + 1 → polyResidual (fit u v n) u v ≤ polyResidual c u v

/-- A fit that goes through the points whenever a polynomial of its degree does. -/
def Exact (fit : List ℝ → List ℝ → ℕ → List ℝ) : Prop :=
  ∀ u v n, u.length = v.length → (fit u v n).length = n + 1 ∧
    ((∃ c : List ℝ, c.length = n + 1 ∧ polyResidual c u v = 0) → polyResidual (fit u v n) u v = 0)

end Verif.Robust.Spec
