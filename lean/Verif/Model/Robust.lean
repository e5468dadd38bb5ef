import Mathlib.Analysis.SpecialFunctions.Sqrt
import Mathlib.Data.List.Sort
/-!
# Robust estimates of the mean and the standard deviation

/repo/lsl/statistics/robust.py.  Floats are idealised to real numbers, arrays have one axis, and `none` is an exception (or a result
that is not a finite number).
-/
namespace Verif.Robust

/-- `__epsilon`, robust.py line 33. -/
noncomputable def eps : ℝ := 1 / 10 ^ 20

/-- `np.sort`. -/
noncomputable def sort (l : List ℝ) : List ℝ := l.insertionSort (· ≤ ·)

/-- `np.median`: the middle value, or the average of the middle two. -/
noncomputable def median (l : List ℝ) : ℝ :=
  ((sort l).getD ((l.length - 1) / 2) 0 + (sort l).getD (l.length / 2) 0) / 2

/-- `x.mean()`. -/
noncomputable def avg (l : List ℝ) : ℝ := l.sum / l.length

/-- The absolute deviations from a value. -/
noncomputable def devs (data : List ℝ) (d0 : ℝ) : List ℝ := data.map fun x => |x - d0|

/-- `maxAbsDev`, robust.py lines 118-120 and 233-235. -/
noncomputable def spread (data : List ℝ) (d0 : ℝ) : ℝ :=
  if median (devs data d0) / 0.6745 < eps then avg (devs data d0) / 0.8 else median (devs data d0) / 0.6745

/-- The values within a cut-off, robust.py lines 123 and 136. -/
noncomputable def within (data : List ℝ) (d0 c : ℝ) : List ℝ := data.filter fun x => |x - d0| ≤ c

/-- The correction of a standard deviation for the cut, robust.py lines 128-133. -/
noncomputable def correct (cut sigma : ℝ) : ℝ :=
  let sc := if 1 < cut then cut else 1
  if sc ≤ 4.5 then sigma / (-0.15405 + 0.90723 * sc - 0.23584 * sc ^ 2 + 0.020142 * sc ^ 3) else sigma

/-- The standard deviation about the mean, robust.py lines 125-126. -/
noncomputable def sd (l : List ℝ) : ℝ := Real.sqrt ((l.map fun x => (x - avg l) ^ 2).sum / l.length)

/-- `mean(inputData, cut)`, robust.py lines 94-151; with no value within the first cut-off (not a number afterwards) the second
has none either. -/
noncomputable def mean (cut : ℝ) (data : List ℝ) : Option ℝ :=
  let d0 := median data
  let good := within data d0 (cut * spread data d0)
  if good = [] then none
  else
    let good2 := within data d0 (cut * correct cut (sd good))
    if 3 < good2.length then some (avg good2) else none

/-- The square of the scaled deviation, robust.py lines 240-241. -/
noncomputable def usq (d0 m x : ℝ) : ℝ := ((x - d0) / 6 / m) ^ 2

/-- The standard deviation from the values near enough, robust.py lines 247-254. -/
noncomputable def biweight (n : ℕ) (d0 m : ℝ) (good : List ℝ) : Option ℝ :=
  let num := (good.map fun x => (x - d0) ^ 2 * (1 - usq d0 m x) ^ 4).sum
  let den := (good.map fun x => (1 - usq d0 m x) * (1 - 5 * usq d0 m x)).sum
  if den * (den - 1) = 0 then none
  else if 0 < n * num / (den * (den - 1)) then some (Real.sqrt (n * num / (den * (den - 1)))) else some 0

/-- `std(inputData, zero)` about a given value, robust.py lines 233-256. -/
noncomputable def stdAt (d0 : ℝ) (data : List ℝ) : Option ℝ :=
  let m := spread data d0
  if m < eps then some 0
  else
    let good := data.filter fun x => usq d0 m x ≤ 1
    if good.length < 3 then none else biweight data.length d0 m good

/-- `std(inputData, zero)`, robust.py lines 205-256. -/
noncomputable def std (zero : Bool) (data : List ℝ) : Option ℝ :=
  stdAt (if zero then 0 else median data) data

/-- The weight of a value, robust.py lines 78-80. -/
noncomputable def weight (y0 sigma y : ℝ) : ℝ :=
  (1 - (if 1 < ((y - y0) / (6 * sigma)) ^ 2 then 1 else ((y - y0) / (6 * sigma)) ^ 2)) ^ 2

/-- The weighted mean, robust.py lines 81-82; without any weight it is not a number, and the next `std` raises. -/
noncomputable def weighted (y0 sigma : ℝ) (y : List ℝ) : Option ℝ :=
  let w := (y.map (weight y0 sigma)).sum
  if w = 0 then none else some ((y.map fun v => weight y0 sigma v / w * v).sum)

/-- The loop of robust.py lines 74-89 with the passes left. -/
noncomputable def refine (y : List ℝ) : ℕ → ℝ → ℝ → Option ℝ
  | 0, y0, _ => some y0
  | k + 1, y0, sigma =>
    (weighted y0 sigma y).bind fun y1 =>
    (std true (y.map (· - y1))).bind fun s1 =>
    if (if eps < s1 then |sigma - s1| / sigma else 0) > 0.03 * Real.sqrt (0.5 / (y.length - 1)) then refine y k y1 s1
    else some y1

/-- `biweight_mean(inputData)`, robust.py lines 40-91; a single value divides by zero (line 63). -/
noncomputable def biweightMean (y : List ℝ) : Option ℝ :=
  if y.length = 1 then none
  else
    (std false (y.map (· - median y))).bind fun sigma =>
    if sigma < eps then some (median y) else refine y 25 (median y) sigma

end Verif.Robust
