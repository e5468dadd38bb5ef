import Verif.Model.PyNum
/-!
# /repo/lsl/misc/mathutils.py: downsample, smooth, sphfit, sphval

Samples are exact rationals.
-/
namespace Verif.MathUtils

/-- Sum of a list. -/
def total (l : List Rat) : Rat := l.foldr (· + ·) 0

/-- Rows of `np.reshape(vector, (rows, factor))`. -/
def reshape (rows factor : Nat) (v : List Rat) : List (List Rat) :=
  (List.range rows).map (fun r => (v.drop (r * factor)).take factor)

/-- `downsample`, mathutils.py:81-99.  `none` is the `ZeroDivisionError` of a zero factor. -/
def downsample (v : List Rat) (factor : Nat) (rescale : Bool) : Option (List Rat) :=
  if factor = 0 then none
  else
    let v := if v.length % factor ≠ 0 then v.take (v.length / factor * factor) else v
    let m := reshape (v.length / factor) factor v
    let m := if rescale then m.map (fun r => r.map (· / factor)) else m
    some (m.map total)

/-- `x[start:1:-1]` of a list: the elements with index from `min start (len-1)` down to 2. -/
def sliceDown (x : List Rat) (start : Nat) : List Rat := ((x.take (start + 1)).drop 2).reverse

/-- The extended signal `s`, mathutils.py:147: `x[-1:-w:-1]` is the last `w-1` values backwards. -/
def extended (x : List Rat) (w : Nat) : List Rat :=
  (sliceDown x w).map (fun v => 2 * x.headD 0 - v) ++ x ++
    ((x.reverse.take (w - 1)).map (fun v => 2 * x.getLastD 0 - v))

/-- `np.convolve(k, s, mode='same')` for `len(k) <= len(s)`: value `i` of the full convolution, starting at
`(len(k)-1)//2`. -/
def convolveSame (k s : List Rat) : List Rat :=
  (List.range s.length).map (fun i =>
    total ((List.range k.length).map (fun j =>
      if j ≤ i + (k.length - 1) / 2 then k.getD j 0 * s.getD (i + (k.length - 1) / 2 - j) 0 else 0)))

/-- `smooth`, mathutils.py:102-155, for the values `win` of the chosen window (of length `w`).  `none` is the
`ValueError` of a signal shorter than the window. -/
def smooth (x : List Rat) (win : List Rat) : Option (List Rat) :=
  let w := win.length
  if x.length < w then none
  else if w < 3 then some x
  else
    let s := extended x w
    let y := convolveSame (win.map (· / total win)) s
    some ((y.take (y.length - (w - 1))).drop (w - 1))

/-! ## Spherical harmonics -/

/-- Number of coefficients, mathutils.py:395, 406. -/
def nTerms (realOnly : Bool) (lmax : Nat) : Nat :=
  if realOnly then (lmax * (lmax + 3) + 2) / 2 else (lmax + 1) ^ 2

/-- `range(lo, hi)` of integers. -/
def irange (lo : Int) (n : Nat) : List Int := (List.range n).map (fun k : Nat => lo + (k : Int))

/-- Order in which `sphfit` stores the terms, mathutils.py:399-403, 410-414. -/
def fitOrder (realOnly : Bool) (lmax : Nat) : List (Nat × Int) :=
  (List.range (lmax + 1)).flatMap (fun l =>
    if realOnly then (irange 0 (l + 1)).map (fun m => (l, m))
    else (irange (-l) (2 * l + 1)).map (fun m => (l, m)))

/-- `int(np.sqrt(n))`; the square root of numbers below `2^52` is rounded correctly. -/
def isqrt : Nat → Nat
  | 0 => 0
  | n + 1 => if (isqrt n + 1) * (isqrt n + 1) ≤ n + 1 then isqrt n + 1 else isqrt n

/-- Number of degrees (`lmax + 1`) that `sphval` finds from the number of terms, mathutils.py:458, 473. -/
def degreesOf (realOnly : Bool) (n : Nat) : Nat :=
  if realOnly then (isqrt (1 + 8 * n) - 1) / 2 else isqrt n

/-- Order in which `sphval` uses the terms, mathutils.py:462-470, 477-481. -/
def valOrder (realOnly : Bool) (n : Nat) : List (Nat × Int) :=
  (List.range (degreesOf realOnly n)).flatMap (fun l =>
    if realOnly then (l, 0) :: (irange 1 l).map (fun m => (l, m))
    else (irange (-l) (2 * l + 1)).map (fun m => (l, m)))

/-- A complex number with rational parts. -/
structure C where
  re : Rat
  im : Rat
  deriving DecidableEq

def C.mul (a b : C) : C := ⟨a.re * b.re - a.im * b.im, a.re * b.im + a.im * b.re⟩
def C.conj (a : C) : C := ⟨a.re, -a.im⟩
def C.smul (r : Rat) (a : C) : C := ⟨r * a.re, r * a.im⟩
def C.add (a b : C) : C := ⟨a.re + b.re, a.im + b.im⟩

/-- `(-1)^m`. -/
def sgn (m : Nat) : Rat := if m % 2 = 0 then 1 else -1

/-- The sum over the grid that gives a term, mathutils.py:402, 413: the values `data*sinAlt` with the values of
`Y_lm`; only the real-only fit multiplies by the size `dA` of a cell of the grid. -/
def fitTerm (realOnly : Bool) (dA : Rat) (grid : List (Rat × C)) : C :=
  let s := grid.foldr (fun g acc => (C.smul g.1 g.2.conj).add acc) ⟨0, 0⟩
  if realOnly then C.smul dA s else s

/-- What the full evaluation adds for the modes `m` and `-m`, mathutils.py:478-481. -/
def fullPair (t y t' y' : C) : C := (t.mul y).add (t'.mul y')

/-- What the real-only evaluation adds for a degree and a mode `m >= 1` with term `t` and `Y = Y_lm`,
mathutils.py:467-469. -/
def realPair (m : Nat) (t y : C) : Rat := (t.mul y).re + (C.smul (1 / sgn m) (t.mul y.conj)).re

end Verif.MathUtils
