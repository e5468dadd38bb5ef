import Verif.Model.Robust
/-!
# Robust fits of lines and polynomials

/repo/lsl/statistics/robust.py.  Floats are idealised to real numbers; `none` is an exception.  The order that `np.argsort` puts
equal values in is left open, and so is how `numpy.polynomial.polynomial.polyfit` works.  `linefit` is for `bisector=False`.
-/
namespace Verif.Robust

/-- `__delta`, robust.py line 32. -/
noncomputable def delta : ℝ := 5 / 10 ^ 7

/-- What `checkfit` returns, without the scaled residuals. -/
structure Check where
  status : Bool
  sigma : ℝ
  fracDev : ℝ
  nGood : ℕ
  weights : List ℝ

/-- The fractional deviation, robust.py lines 288-292. -/
noncomputable def fracDev (data fit : List ℝ) : ℝ :=
  let toUse := (data.zip fit).filter fun p => eps < |p.2|
  if toUse.length < 3 then 0 else median (toUse.map fun p => |(p.1 - p.2) / p.2|)

/-- The scaled residual of one point, robust.py lines 297-300. -/
noncomputable def scaled (limit sigma dev : ℝ) : ℝ :=
  if 1 < |dev| / (limit * sigma) then 1 else |dev| / (limit * sigma)

/-- The weight of one point before the division by the sum, robust.py line 303. -/
noncomputable def rawWeight (limit sigma dev : ℝ) : ℝ := 1 - scaled limit sigma dev ^ 2

/-- The weights of all, robust.py lines 303-304. -/
noncomputable def biweights (limit sigma : ℝ) (devs : List ℝ) : List ℝ :=
  (devs.map (rawWeight limit sigma)).map (· / (devs.map (rawWeight limit sigma)).sum)

/-- `checkfit(inputData, inputFit, epsilon, delta, bisquare_limit)`, robust.py lines 259-306. -/
noncomputable def checkfit (data fit : List ℝ) (limit : ℝ) : Option Check :=
  let devs := List.zipWith (· - ·) data fit
  (std true devs).map fun sigma =>
  if sigma < eps then ⟨false, sigma, 0, 0, []⟩
  else if fracDev data fit < delta then ⟨false, sigma, fracDev data fit, 0, []⟩
  else ⟨true, sigma, fracDev data fit,
    data.length - (devs.filter fun d => 1 < |d| / (limit * sigma)).length, biweights limit sigma devs⟩

/-- The sum of products with weights. -/
noncomputable def wsum (w : List ℝ) (z : List ℝ) : ℝ := (List.zipWith (· * ·) w z).sum

/-- Slope and intercept from sums, robust.py lines 359-363 and 426-430; `none` when it is held to be undetermined. -/
noncomputable def solve (sx sy sxy sxx : ℝ) : Option (ℝ × ℝ) :=
  let d := sxx - sx * sx
  if |d| < eps then none else some ((sxy - sx * sy) / d, (sxx * sy - sx * sxy) / d)

/-- The products of two lists. -/
noncomputable def prods (x y : List ℝ) : List ℝ := List.zipWith (· * ·) x y

/-- The line of least squares, robust.py lines 355-363. -/
noncomputable def lsq (x y : List ℝ) : Option (ℝ × ℝ) := solve x.sum y.sum (prods x y).sum (prods x x).sum

/-- The line with weights, robust.py lines 422-430. -/
noncomputable def wlsq (w x y : List ℝ) : Option (ℝ × ℝ) :=
  solve (wsum w x) (wsum w y) (wsum w (prods x y)) (wsum w (prods x x))

/-- The line at the data, slope and intercept given. -/
noncomputable def lineAt (cc : ℝ × ℝ) (x : List ℝ) : List ℝ := x.map fun v => cc.2 + cc.1 * v

/-- The result moved back, robust.py lines 409-410 and 483-484. -/
noncomputable def uncentre (x0 y0 : ℝ) (cc : ℝ × ℝ) : ℝ × ℝ := (cc.1, cc.2 + y0 - cc.1 * x0)

/-- The loop of robust.py lines 418-481 with the passes left, ending with the result. -/
noncomputable def lineLoop (x y : List ℝ) (x0 y0 limit close : ℝ) : ℕ → ℝ → ℝ → List ℝ → ℝ × ℝ → Option (ℝ × ℝ)
  | 0, _, _, _, cc => some (uncentre x0 y0 cc)
  | k + 1, sigma, sigma1, w, _ =>
    match wlsq w x y with
    | none => some (0, 0)
    | some cc =>
      (checkfit y (lineAt cc x) limit).bind fun c =>
      if c.status = false ∨ c.nGood < 2 then some (uncentre x0 y0 cc)
      else if min (|sigma - c.sigma| / c.sigma) (|sigma1 - c.sigma| / c.sigma) > close then
        lineLoop x y x0 y0 limit close k c.sigma sigma c.weights cc
      else some (uncentre x0 y0 cc)

/-- The line through the medians of the halves, robust.py lines 336-348, from points in order. -/
noncomputable def halves (u v : List ℝ) : ℝ × ℝ :=
  let h := u.length / 2
  let x1 := median (u.take h)
  let x2 := median (u.drop h)
  let y1 := median (v.take h)
  let y2 := median (v.drop h)
  let p : (ℝ × ℝ) × (ℝ × ℝ) :=
    if |x2 - x1| < eps then ((u.getD 0 0, u.getD (u.length - 1) 0), (v.getD 0 0, v.getD (u.length - 1) 0))
    else ((x1, x2), (y1, y2))
  let slope := (p.2.2 - p.2.1) / (p.1.2 - p.1.1)
  (slope, p.2.1 - slope * p.1.1)

/-- After a line by least squares, robust.py lines 406-484. -/
noncomputable def finish (x y : List ℝ) (x0 y0 limit close : ℝ) (maxIter : ℕ) (cc : ℝ × ℝ) (c : Check) : Option (ℝ × ℝ) :=
  if c.nGood < 2 then some (uncentre x0 y0 cc)
  else lineLoop x y x0 y0 limit close maxIter c.sigma (min (100 * c.sigma) (10 ^ 20)) c.weights cc

/-- The branch of robust.py lines 354-410. -/
noncomputable def byLsq (x y : List ℝ) (x0 y0 limit close : ℝ) (maxIter : ℕ) : Option (ℝ × ℝ) :=
  match lsq x y with
  | none => some (0, 0)
  | some cc => (checkfit y (lineAt cc x) 6).bind fun c => finish x y x0 y0 limit close maxIter cc c

/-- `linefit(inputX, inputY, …)`, robust.py lines 309-484; `order` puts the points in order. -/
noncomputable def linefit (order : List (ℝ × ℝ) → List (ℝ × ℝ)) (xIn yIn : List ℝ) (maxIter : ℕ) (limit close : ℝ) :
    Option (ℝ × ℝ) :=
  let x0 := avg xIn
  let y0 := avg yIn
  let x := xIn.map (· - x0)
  let y := yIn.map (· - y0)
  let close := max (close * Real.sqrt (0.5 / (xIn.length - 1))) delta
  if 5 < xIn.length then
    let s := order (x.zip y)
    let cc := halves (s.map (·.1)) (s.map (·.2))
    (checkfit y (lineAt cc x) 6).bind fun c =>
    if c.nGood < 2 then byLsq x y x0 y0 limit close maxIter
    else finish x y x0 y0 limit close maxIter cc c
  else byLsq x y x0 y0 limit close maxIter

/-- `__polyfit_rescale`, robust.py lines 487-510: lowest coefficient first in, highest first out. -/
noncomputable def rescale (c : List ℝ) (x0 y0 : ℝ) : List ℝ :=
  (match c with
    | [c0, c1] => [c0 - c1 * x0 + y0, c1]
    | [c0, c1, c2] => [c0 - c1 * x0 + c2 * x0 ^ 2 + y0, c1 - 2 * c2 * x0, c2]
    | [c0, c1, c2, c3] =>
      [c0 - c1 * x0 + c2 * x0 ^ 2 - c3 * x0 ^ 3 + y0, c1 - 2 * c2 * x0 + 3 * c3 * x0 ^ 2, c2 - 3 * c3 * x0, c3]
    | [c0, c1, c2, c3, c4] =>
      [c0 - c1 * x0 + c2 * x0 ^ 2 - c3 * x0 ^ 3 + c4 * x0 ^ 4 + y0,
        c1 - 2 * c2 * x0 + 3 * c3 * x0 ^ 2 - 4 * c4 * x0 ^ 3, c2 - 3 * c3 * x0 + 6 * c4 * x0 ^ 2, c3 - 4 * c4 * x0, c4]
    | [c0, c1, c2, c3, c4, c5] =>
      [c0 - c1 * x0 + c2 * x0 ^ 2 - c3 * x0 ^ 3 + c4 * x0 ^ 4 - c5 * x0 ^ 5 + y0,
        c1 - 2 * c2 * x0 + 3 * c3 * x0 ^ 2 - 4 * c4 * x0 ^ 3 + 5 * c5 * x0 ^ 4,
        c2 - 3 * c3 * x0 + 6 * c4 * x0 ^ 2 - 10 * c5 * x0 ^ 3, c3 - 4 * c4 * x0 + 10 * c5 * x0 ^ 2, c4 - 5 * c5 * x0, c5]
    | c => c).reverse

/-- `npp_polyval`, lowest coefficient first. -/
noncomputable def polyval (c : List ℝ) (x : ℝ) : ℝ := c.foldr (fun a r => a + x * r) 0

/-- The start of `polyfit` for fewer than 10000 points up to the first return, robust.py lines 521-547 and 569-571; `fit` is
`npp_polyfit`, and `go` is what follows. -/
noncomputable def polyfit (fit : List ℝ → List ℝ → ℕ → List ℝ) (go : List ℝ → Check → Option (List ℝ))
    (x y : List ℝ) (order : ℕ) : Option (List ℝ) :=
  let x0 := if order < 6 then avg x else 0
  let y0 := if order < 6 then avg y else 0
  let u := if order < 6 then x.map (· - x0) else x
  let v := if order < 6 then y.map (· - y0) else y
  let cc := fit u v order
  (checkfit v (u.map (polyval cc)) 6).bind fun c =>
  if c.nGood = 0 then some (rescale cc x0 y0) else go cc c

/-- How many points each of the segments has, robust.py lines 540-542 and 553-555. -/
def nPerSeg (n order : ℕ) : List ℕ :=
  let nSeg := if (order + 2) / 2 * 2 = order + 2 then order + 3 else order + 2
  (List.replicate nSeg (n / nSeg)).modify (nSeg / 2) (· + (n - n / nSeg * nSeg))

/-- The bounds of the segments, robust.py lines 558-565. -/
def segments (sizes : List ℕ) : List (ℕ × ℕ) :=
  match sizes with
  | [] => []
  | k :: rest => (0, k) :: (rest.foldl (fun (s : ℕ × List (ℕ × ℕ)) m => (s.1 + m, s.2 ++ [(s.1, s.1 + m)])) (k - 1, [])).2

end Verif.Robust
