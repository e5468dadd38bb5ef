import Mathlib.Analysis.SpecialFunctions.Trigonometric.Basic

/-! The Fourier transform of data at any times. -/

namespace Verif.Ndft

open Finset

/-- The transform of the `N` data `x` at the times `t`, at the frequency `f`. -/
noncomputable def transform (N : ℕ) (t : ℕ → ℝ) (x : ℕ → ℂ) (f : ℝ) : ℂ :=
  ∑ n ∈ range N, x n * Complex.exp (-2 * Real.pi * Complex.I * (f * t n : ℝ))

end Verif.Ndft
