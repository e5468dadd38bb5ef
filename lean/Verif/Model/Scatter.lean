import Mathlib.Analysis.SpecialFunctions.Pow.Real
import Mathlib.Analysis.SpecialFunctions.Sqrt
import Mathlib.Analysis.SpecialFunctions.Trigonometric.Basic
/-!
# Removing scattering from pulse profiles

/repo/lsl/misc/scattering.py.  Floats are idealised to real numbers.  A profile is its values at `0 … n-1`.  `none` is an exception,
or numbers that are not numbers from a division by zero.  The robust deviation of the profile is given as `sigma`.
-/
namespace Verif.Scatter

open Finset

/-- `g /= g.sum()`. -/
noncomputable def normalise (n : ℕ) (g : ℕ → ℝ) : Option (ℕ → ℝ) :=
  if ∑ i ∈ range n, g i = 0 then none else some fun i => g i / ∑ i ∈ range n, g i

/-- A thin screen before the division by the sum, scattering.py lines 33-34. -/
noncomputable def thinRaw (tau : ℝ) (t : ℕ → ℝ) (i : ℕ) : ℝ := if 0 ≤ t i then 1 / tau * Real.exp (-t i / tau) else 0

/-- A thick screen before the division by the sum, scattering.py lines 49-53. -/
noncomputable def thickRaw (tau : ℝ) (t : ℕ → ℝ) (i : ℕ) : ℝ :=
  if 0 < t i then
    Real.sqrt (Real.pi * tau / 4 / (t i + 1 / 10 ^ 15) ^ 3) * Real.exp (-Real.pi ^ 2 * tau / 16 / (t i + 1 / 10 ^ 15))
  else 0

/-- A uniform medium before the division by the sum, scattering.py lines 68-72. -/
noncomputable def uniformRaw (tau : ℝ) (t : ℕ → ℝ) (i : ℕ) : ℝ :=
  if 0 < t i then
    Real.sqrt (Real.pi ^ 5 * tau ^ 3 / 8 / (t i + 1 / 10 ^ 15) ^ 5) * Real.exp (-Real.pi ^ 2 * tau / 4 / (t i + 1 / 10 ^ 15))
  else 0

/-- `thin`, `thick` and `uniform`, scattering.py lines 27-75, from what they are before the division by the sum. -/
noncomputable def screen (raw : ℝ → (ℕ → ℝ) → ℕ → ℝ) (n : ℕ) (t : ℕ → ℝ) (tau : ℝ) : Option (ℕ → ℝ) :=
  normalise n (raw tau t)

/-- `np.where(working == working.max())[0][0]`: the first of the largest among the first `n`. -/
noncomputable def peak (w : ℕ → ℝ) : ℕ → ℕ
  | 0 => 0
  | n + 1 => if w (peak w n) < w n then n else peak w n

/-- What is removed for a peak at `p` without the factor, scattering.py lines 197-200. -/
noncomputable def response (scr : ℕ → (ℕ → ℝ) → ℝ → Option (ℕ → ℝ)) (n : ℕ) (t : ℕ → ℝ) (tau : ℝ) (p : ℕ) :
    Option (ℕ → ℝ) :=
  (scr n (fun i => t i - t p) tau).bind (normalise n)

/-- The loop of scattering.py lines 189-206 with the passes left: residuals, components and the number of passes. -/
noncomputable def clean (scr : ℕ → (ℕ → ℝ) → ℝ → Option (ℕ → ℝ)) (n : ℕ) (t : ℕ → ℝ) (tau gain sigma : ℝ) :
    ℕ → (ℕ → ℝ) → (ℕ → ℝ) → ℕ → Option ((ℕ → ℝ) × (ℕ → ℝ) × ℕ)
  | 0, working, cc, i => some (working, cc, i)
  | k + 1, working, cc, i =>
    let p := peak working n
    if working p < 3 / 2 * sigma then some (working, cc, i)
    else
      (response scr n t tau p).bind fun g =>
      let r := fun j => g j * (gain * working p)
      clean scr n t tau gain sigma k (fun j => working j - r j) (Function.update cc p (cc p + ∑ j ∈ range n, r j)) (i + 1)

/-- `_positivity`, scattering.py lines 78-98. -/
noncomputable def positivity (n : ℕ) (sigma : ℝ) (resids : ℕ → ℝ) : ℝ :=
  (∑ i ∈ range n, resids i ^ 2 * if 0 ≤ -resids i - 3 / 2 * sigma then 1 else 0) / n * (1 / sigma ^ 2)

/-- `_skewness`, scattering.py lines 100-111. -/
noncomputable def skewness (n : ℕ) (t cc : ℕ → ℝ) : ℝ :=
  let tM := (∑ i ∈ range n, t i * cc i) / ∑ i ∈ range n, cc i
  let t2 := ∑ i ∈ range n, (t i - tM) ^ 2 * cc i
  let t3 := ∑ i ∈ range n, (t i - tM) ^ 3 * cc i
  t3 / (t2 + 1 / 10 ^ 15) ^ (3 / 2 : ℝ)

/-- The search of scattering.py lines 183-218, over pairs of scattering time and figure of merit: the best until now and the next. -/
noncomputable def search : Option (ℝ × ℝ) → List (ℝ × ℝ) → Option (ℝ × ℝ)
  | best, [] => best
  | none, p :: l => search (some p) l
  | some b, p :: l => search (if p.2 < b.2 then some p else some b) l

/-- `np.convolve(cc, r, 'same')` for two arrays of `n`: the middle `n` of `2 n - 1`. -/
noncomputable def convolveSame (n : ℕ) (a r : ℕ → ℝ) (i : ℕ) : ℝ :=
  ∑ j ∈ range n, if j ≤ i + (n - 1) / 2 ∧ i + (n - 1) / 2 - j < n then a j * r (i + (n - 1) / 2 - j) else 0

/-- The Gaussian of scattering.py lines 236-237 before the division by the sum. -/
noncomputable def gaussian (t : ℕ → ℝ) (i : ℕ) : ℝ := Real.exp (-t i ^ 2 / (2 * (5 * (t 1 - t 0)) ^ 2))

/-- The restored profile, scattering.py lines 235-242. -/
noncomputable def restore (n : ℕ) (t cc resids : ℕ → ℝ) (i : ℕ) : ℝ :=
  convolveSame n cc (fun i => gaussian t i / ∑ i ∈ range n, gaussian t i) i + resids i

end Verif.Scatter
