import Mathlib.Analysis.SpecialFunctions.Sqrt
/-!
# Spectral kurtosis

/repo/lsl/statistics/kurtosis.py.  Floats are idealised to real numbers, so that a division by zero, as for one measurement, is
zero here and not an exception; the claims are for two measurements or more.
-/
namespace Verif.Kurtosis

/-- `var(M, N)`, kurtosis.py lines 40-46. -/
noncomputable def var (M N : ℕ) : ℝ := 2 * N * (N + 1) * M ^ 2 / ((M - 1) * (M * N + 3) * (M * N + 2))

/-- `skew(M, N)`, kurtosis.py lines 49-57. -/
noncomputable def skew (M N : ℕ) : ℝ :=
  4 * var M N * M / ((M - 1) * (M * N + 5) * (M * N + 4)) * ((N + 4) * M * N - 5 * N - 2)

/-- The square root of kurtosis.py lines 72 and 87. -/
noncomputable def root (m2 m3 : ℝ) : ℝ := Real.sqrt (16 * m2 ^ 4 + 4 * m3 ^ 2 * m2 + m3 ^ 2)

/-- `_alpha`, kurtosis.py lines 60-72. -/
noncomputable def alpha (m2 m3 : ℝ) : ℝ :=
  1 / m3 ^ 3 * (32 * m2 ^ 5 - 4 * m3 * m2 ^ 3 + 8 * m3 ^ 2 * m2 ^ 2 + m3 ^ 2 * m2 - m3 ^ 3 +
    (8 * m2 ^ 3 - m3 * m2 + m3 ^ 2) * root m2 m3)

/-- `_beta`, kurtosis.py lines 75-87. -/
noncomputable def beta (m2 m3 : ℝ) : ℝ := 3 + 2 * m2 / m3 ^ 2 * (4 * m2 ^ 2 + root m2 m3)

/-- `_delta`, kurtosis.py lines 90-99. -/
noncomputable def delta (a b : ℝ) : ℝ := (b - a - 1) / (b - 1)

/-- `spectral_power` of the values `x` summed over, with `M` the length of the first axis, kurtosis.py lines 163-168. -/
noncomputable def power (M N : ℕ) (x : List ℝ) : ℝ :=
  (M * (x.map (· ^ 2)).sum / x.sum ^ 2 - 1) * ((M * N + 1) / (M - 1))

/-- `spectral_power(x, N)` on one axis. -/
noncomputable def power1 (N : ℕ) (x : List ℝ) : ℝ := power x.length N x

/-- `spectral_power(x, N, axis=1)` on a list of rows: one value for each row. -/
noncomputable def powerRows (N : ℕ) (x : List (List ℝ)) : List ℝ := x.map (power x.length N)

/-- The error levels of NumPy that matter. -/
inductive Levels
  | asFound
  | raise
  deriving DecidableEq

/-- How a piece of the work ends. -/
inductive Outcome
  | done
  | floatingPoint
  | other
  deriving DecidableEq

/-- The error levels after `get_limits`, and whether it returned, given how the clip level and the distribution (lines 117-124)
and each of the limits end, kurtosis.py lines 112-141; an error of the distribution is not caught. -/
def limitsLevels (s : Levels) (params lower upper : Outcome) : Levels × Bool :=
  if params = .done then
    if lower = .other ∨ upper = .other then (.raise, false)
    else (s, true)
  else (.raise, false)

end Verif.Kurtosis
