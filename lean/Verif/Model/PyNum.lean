/-!
# Python / numpy number helpers

Floats are idealised to exact rationals.
-/
namespace Verif

/-- python `round(x)` and numpy `x.round()`: round half to even. -/
def roundHalfEven (x : Rat) : Int :=
  let f := x.floor
  let d := x - f
  if d < 1/2 then f
  else if 1/2 < d then f + 1
  else if f % 2 = 0 then f else f + 1

/-- python `int(x)` on a float: truncation towards zero. -/
def pyInt (x : Rat) : Int := if 0 ≤ x then x.floor else -((-x).floor)

/-- numpy `x.clip(lo, hi)` on integers. -/
def clip (lo hi x : Int) : Int := min hi (max lo x)

end Verif
