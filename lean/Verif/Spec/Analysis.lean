import Mathlib.Data.Real.Basic
/-!
# What a peak of an image is
-/
namespace Verif.Analysis.Spec

/-- A pixel with no larger one within a radius and a box around it, that reaches a threshold. -/
structure IsPeak (r : ℝ) (h nx ny : ℕ) (threshold : ℝ) (c : ℕ → ℕ → ℝ) (p : ℕ × ℕ) : Prop where
  row : p.1 < nx
  column : p.2 < ny
  reaches : threshold ≤ c p.1 p.2
  largest : ∀ x y, x < nx → y < ny → x ≤ p.1 + h → p.1 ≤ x + h → y ≤ p.2 + h → p.2 ≤ y + h →
    ((x : ℝ) - p.1) ^ 2 + ((y : ℝ) - p.2) ^ 2 ≤ r ^ 2 → c x y ≤ c p.1 p.2

end Verif.Analysis.Spec
