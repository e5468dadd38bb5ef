/-! What arithmetic with frames should give: numbers of a frame are combined one
by one with those of another frame or with a number. -/

namespace Verif.FrameMath

/-- A complex number, as its real and imaginary parts. -/
abbrev Num := Rat × Rat

/-- `r` is `x + y`. -/
def IsSum (x y r : Num) : Prop := r.1 = x.1 + y.1 ∧ r.2 = x.2 + y.2

/-- `r` is `x y`. -/
def IsProduct (x y r : Num) : Prop :=
  r.1 = x.1 * y.1 - x.2 * y.2 ∧ r.2 = x.1 * y.2 + x.2 * y.1

/-- The numbers of `r` are in the relation `R` to those of `x` and `y`, one by one. -/
def Each (R : Num → Num → Num → Prop) (x y r : List Num) : Prop :=
  r.length = x.length ∧
    ∀ k (h : k < r.length) (hx : k < x.length) (hy : k < y.length), R x[k] y[k] r[k]

/-- `r` is a signed byte that is `n` up to a multiple of 256. -/
def IsByteOf (n r : Int) : Prop := -128 ≤ r ∧ r ≤ 127 ∧ ∃ m, n = r + 256 * m

end Verif.FrameMath
