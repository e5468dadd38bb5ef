import Verif.Spec.MathFns

/-! Regridding and the parameters of Gaussian data (lsl/misc/mathutils.py:28-60,
300-346).

Simplifications: numbers are exact; the width is given by its square; splines are not
modelled; arrays of data are functions of the indices with their sizes. -/

namespace Verif.MathFns

/-- `x.min()` of an array with first element `a`. -/
def minOf (a : Rat) : List Rat → Rat
  | [] => a
  | b :: bs => minOf (if b < a then b else a) bs

/-- `x.max()` of an array with first element `a`. -/
def maxOf (a : Rat) : List Rat → Rat
  | [] => a
  | b :: bs => maxOf (if a < b then b else a) bs

/-- The interval of a key, for `numpy.interp`: the last place before the first that is
above the key. -/
def locate (xs : List Rat) (k : Rat) : Nat :=
  (xs.tail.takeWhile fun x => decide (x ≤ k)).length

/-- `numpy.interp` at one key (mathutils.py:60): keys above the last abscissa and below
the first are compared before the search. -/
def interp (xs ys : List Rat) (k : Rat) : Rat :=
  let n := xs.length
  if xs.getD (n - 1) 0 < k then ys.getD (n - 1) 0
  else if k < xs.getD 0 0 then ys.getD 0 0
  else
    let j := locate xs k
    if j = n - 1 then ys.getD (n - 1) 0
    else if xs.getD j 0 = k then ys.getD j 0
    else (ys.getD (j + 1) 0 - ys.getD j 0) / (xs.getD (j + 1) 0 - xs.getD j 0)
      * (k - xs.getD j 0) + ys.getD j 0

/-- `_regrid_linear` (mathutils.py:46-60): `none` for the `ValueError`s. -/
def regrid (xs ys new : List Rat) : Option (List Rat) :=
  match xs, new with
  | x :: xr, k :: kr =>
    if minOf k kr < minOf x xr then none
    else if maxOf x xr < maxOf k kr then none
    else some (new.map (interp xs ys))
  | _, _ => none

/-- `data.max()` of `n + 1` values. -/
def maxTo : Nat → (Nat → Rat) → Rat
  | 0, f => f 0
  | n + 1, f => if maxTo n f < f (n + 1) then f (n + 1) else maxTo n f

/-- The absolute value. -/
def absR (a : Rat) : Rat := if a < 0 then -a else a

/-- Height, center and square of the width. -/
structure Params where
  height : Rat
  center : Rat
  width2 : Rat
  deriving DecidableEq, Repr

/-- `gaussparams` for one axis (mathutils.py:319-328), for `n + 1` values. -/
def gauss1 (n : Nat) (data x : Nat → Rat) : Params :=
  let total := sumTo (n + 1) data
  let center := sumTo (n + 1) (fun i => x i * data i) / total
  ⟨maxTo n data, center,
    absR (sumTo (n + 1) (fun i => (x i - center) * (x i - center) * data i) / total)⟩

/-- The greatest of all data. -/
def maxPlane (m n : Nat) (data : Nat → Nat → Rat) : Rat :=
  maxTo m fun i => maxTo n (data i)

/-- The profile along the first axis, with the height of the data
(mathutils.py:336-337). -/
def profileX (m n : Nat) (data : Nat → Nat → Rat) (i : Nat) : Rat :=
  let p := fun i => sumTo (n + 1) (data i)
  p i * (maxPlane m n data / maxTo m p)

/-- The profile along the second axis (mathutils.py:338-339). -/
def profileY (m n : Nat) (data : Nat → Nat → Rat) (j : Nat) : Rat :=
  let p := fun j => sumTo (m + 1) fun i => data i j
  p j * (maxPlane m n data / maxTo n p)

/-- `gaussparams` for two axes (mathutils.py:330-343): `none` for the error that numpy
raises when the data are integers, for the profiles are multiplied in place.  The axes
are those given if both are, and otherwise the indices. -/
def gauss2 (integers : Bool) (m n : Nat) (data : Nat → Nat → Rat)
    (x y : Option (Nat → Rat)) : Option (Params × Params) :=
  if integers then none
  else
    let axes : (Nat → Rat) × (Nat → Rat) :=
      match x, y with
      | some x, some y => (x, y)
      | _, _ => (fun i => (i : Rat), fun j => (j : Rat))
    some (gauss1 m (profileX m n data) axes.1, gauss1 n (profileY m n data) axes.2)

end Verif.MathFns
