import Verif.Model.PyNum
/-!
# Binary64 rounding

The value of a floating point operation is the exact value rounded to 53 significant bits, ties to even.
Overflow, subnormal numbers and the sign of zero are left out.
-/
namespace Verif

/-- `2^e` for an integer exponent. -/
def pow2 (e : Int) : Rat := if 0 ≤ e then ((2 ^ e.toNat : Nat) : Rat) else 1 / ((2 ^ (-e).toNat : Nat) : Rat)

/-- The exponent `e` with `2^e ≤ |x| < 2^(e+1)`, for `x ≠ 0`. -/
def expo (x : Rat) : Int :=
  let e : Int := (Nat.log2 x.num.natAbs : Int) - (Nat.log2 x.den : Int)
  if pow2 e ≤ x.abs then e else e - 1

/-- Rounding to binary64. -/
def fl64 (x : Rat) : Rat :=
  if x = 0 then 0 else roundHalfEven (x / pow2 (expo x - 52)) * pow2 (expo x - 52)

end Verif
