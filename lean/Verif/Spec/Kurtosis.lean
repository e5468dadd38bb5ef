import Mathlib.Analysis.SpecialFunctions.Sqrt
/-!
# The moments that the spectral kurtosis should have

The powers of Gaussian noise, averaged over `N` spectra and divided by their sum over `M`, follow a Dirichlet distribution whose
`M` parameters are all `N`.
-/
namespace Verif.Kurtosis.Spec

/-- `x (x + 1) … (x + k - 1)`. -/
def rising (x : ℝ) : ℕ → ℝ
  | 0 => 1
  | k + 1 => rising x k * (x + k)

/-- The average of the product of the powers `ks` of different shares. -/
noncomputable def moment (M N : ℝ) (ks : List ℕ) : ℝ := (ks.map (rising N)).prod / rising (M * N) ks.sum

/-- The average of the sum of the squares of the shares, and of its square and cube. -/
noncomputable def s1 (M N : ℝ) : ℝ := M * moment M N [2]
noncomputable def s2 (M N : ℝ) : ℝ := M * moment M N [4] + M * (M - 1) * moment M N [2, 2]
noncomputable def s3 (M N : ℝ) : ℝ :=
  M * moment M N [6] + 3 * (M * (M - 1)) * moment M N [4, 2] + M * (M - 1) * (M - 2) * moment M N [2, 2, 2]

/-- The mean, variance and third central moment of a Pearson distribution of type VI. -/
noncomputable def pMean (a b d : ℝ) : ℝ := d + a / (b - 1)
noncomputable def pVar (a b : ℝ) : ℝ := a * (a + b - 1) / ((b - 2) * (b - 1) ^ 2)
noncomputable def pThird (a b : ℝ) : ℝ := 2 * a * (2 * a + b - 1) * (a + b - 1) / ((b - 3) * (b - 2) * (b - 1) ^ 3)

end Verif.Kurtosis.Spec
