/-! Lines and moments of data. -/

namespace Verif.MathFns

/-- `(x, y)` is on the line through `(x₀, y₀)` and `(x₁, y₁)`. -/
def OnLine (x₀ y₀ x₁ y₁ x y : Rat) : Prop := (y - y₀) * (x₁ - x₀) = (y₁ - y₀) * (x - x₀)

/-- The sum of the first `n` values of `f`. -/
def sumTo : Nat → (Nat → Rat) → Rat
  | 0, _ => 0
  | n + 1, f => sumTo n f + f n

end Verif.MathFns
