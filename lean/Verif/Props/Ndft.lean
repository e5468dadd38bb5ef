import Verif.Model.Ndft
import Mathlib.RingTheory.RootsOfUnity.Complex
import Mathlib.Tactic.Ring
import Mathlib.Tactic.FieldSimp
import Mathlib.Tactic.Linarith
import Mathlib.Tactic.NormNum
import Mathlib.Tactic.Positivity

/-! C114: polar numbers and the transform of data at any times. -/

namespace Verif.Ndft

open Finset

/-- Polar numbers are made the same number again. -/
theorem C114_rect_polar (z : ℂ) : crect (cpolar z) = z := by
  apply Complex.ext
  · simp [crect, cpolar, Complex.norm_mul_cos_arg]
  · simp [crect, cpolar, Complex.norm_mul_sin_arg]

theorem crect_eq (r a : ℝ) : crect (r, a) = r * (Complex.cos a + Complex.sin a * Complex.I) := by
  apply Complex.ext
  · simp [crect, Complex.cos_ofReal_re, Complex.sin_ofReal_im, Complex.cos_ofReal_im]
  · simp [crect, Complex.cos_ofReal_im, Complex.sin_ofReal_re]

/-- Numbers given by a positive size and a phase within half a turn have these. -/
theorem C114_polar_rect (r a : ℝ) (hr : 0 < r) (ha : a ∈ Set.Ioc (-Real.pi) Real.pi) :
    cpolar (crect (r, a)) = (r, a) := by
  have h1 : (crect (r, a)).arg = a := by
    rw [crect_eq]
    exact Complex.arg_mul_cos_add_sin_mul_I hr ha
  have h2 : ‖crect (r, a)‖ = r := by
    rw [crect_eq, norm_mul]
    have : Complex.cos a + Complex.sin a * Complex.I = Complex.exp (a * Complex.I) := by
      rw [Complex.exp_mul_I]
    rw [this, Complex.norm_exp_ofReal_mul_I]
    simp [abs_of_pos hr]
  simp [cpolar, h1, h2]

/-- Negative sizes are a half turn. -/
theorem C114_polar_negative (r : ℝ) (hr : 0 < r) : cpolar (crect (-r, 0)) = (r, Real.pi) := by
  have : crect (-r, 0) = crect (r, Real.pi) := by simp [crect]
  rw [this]
  exact C114_polar_rect r Real.pi hr ⟨by linarith [Real.pi_pos], le_refl _⟩

/-- The output is the transform at the frequencies that are returned. -/
theorem C114_ndft_partial (N : ℕ) (t : ℕ → ℝ) (x : ℕ → ℂ) (m : ℕ) :
    out N t x m = transform N t x (freq N t m) := by
  unfold out transform freq
  apply Finset.sum_congr rfl
  intro n _
  congr 2
  push_cast
  ring

/-- The frequency zero is at the place `N // 2`, and has the sum of the data. -/
theorem C114_zero (N : ℕ) (t : ℕ → ℝ) (x : ℕ → ℂ) :
    freq N t (N / 2) = 0 ∧ out N t x (N / 2) = ∑ n ∈ range N, x n := by
  have h : mPrime N (N / 2) = 0 := by simp [mPrime]
  constructor
  · simp [freq, h]
  · simp [out, h]

/-- Frequencies go down in steps of one over the span of the times. -/
theorem C114_steps (N : ℕ) (t : ℕ → ℝ) (m : ℕ) :
    freq N t m - freq N t (m + 1) = 1 / span N t := by
  simp only [freq, mPrime]
  push_cast
  ring

/-- Sums of data have the sum of the transforms. -/
theorem C114_linear (N : ℕ) (t : ℕ → ℝ) (x y : ℕ → ℂ) (a b : ℂ) (m : ℕ) :
    out N t (fun n => a * x n + b * y n) m = a * out N t x m + b * out N t y m := by
  unfold out
  rw [Finset.mul_sum, Finset.mul_sum, ← Finset.sum_add_distrib]
  apply Finset.sum_congr rfl
  intro n _
  ring

theorem span_shift (N : ℕ) (t : ℕ → ℝ) (s : ℝ) : span N (fun n => t n + s) = span N t := by
  have h1 : ∀ k, tmax (fun n => t n + s) k = tmax t k + s := by
    intro k
    induction k with
    | zero => rfl
    | succ k ih => simp only [tmax, ih]; rw [max_add_add_right]
  have h2 : ∀ k, tmin (fun n => t n + s) k = tmin t k + s := by
    intro k
    induction k with
    | zero => rfl
    | succ k ih => simp only [tmin, ih]; rw [min_add_add_right]
  simp only [span, h1, h2]
  ring

/-- Later data have the same frequencies, and a transform turned by these. -/
theorem C114_later (N : ℕ) (t : ℕ → ℝ) (x : ℕ → ℂ) (s : ℝ) (m : ℕ) :
    freq N (fun n => t n + s) m = freq N t m ∧
      out N (fun n => t n + s) x m =
        Complex.exp (-2 * Real.pi * Complex.I * (freq N t m * s : ℝ)) * out N t x m := by
  have hf : freq N (fun n => t n + s) m = freq N t m := by
    simp only [freq, span_shift]
  refine ⟨hf, ?_⟩
  rw [C114_ndft_partial, C114_ndft_partial, hf]
  unfold transform
  rw [Finset.mul_sum]
  apply Finset.sum_congr rfl
  intro n _
  rw [mul_left_comm, ← Complex.exp_add]
  congr 2
  push_cast
  ring

/-- Real data have conjugate values at opposite frequencies. -/
theorem C114_conjugate (N : ℕ) (t : ℕ → ℝ) (x : ℕ → ℝ) (m k : ℕ) (h : m + k = 2 * (N / 2)) :
    freq N t k = -freq N t m ∧
      out N t (fun n => (x n : ℂ)) k =
        (starRingEnd ℂ) (out N t (fun n => (x n : ℂ)) m) := by
  have hm : mPrime N k = -mPrime N m := by simp only [mPrime]; omega
  have hf : freq N t k = -freq N t m := by
    simp only [freq, hm]
    push_cast
    ring
  refine ⟨hf, ?_⟩
  rw [C114_ndft_partial, C114_ndft_partial, hf]
  unfold transform
  rw [map_sum]
  apply Finset.sum_congr rfl
  intro n _
  rw [map_mul, ← Complex.exp_conj]
  congr 1
  · simp
  · congr 1
    simp
    exact Or.inl (map_ofNat (starRingEnd ℂ) 2).symm

/-- The span is that from the first to the last of times in order. -/
theorem C114_span (N : ℕ) (t : ℕ → ℝ) (h : ∀ n, t n ≤ t (n + 1)) :
    span N t = t (N - 1) - t 0 := by
  have h1 : ∀ k, tmax t k = t k := by
    intro k
    induction k with
    | zero => rfl
    | succ k ih => simp only [tmax, ih]; exact max_eq_right (h k)
  have h0 : ∀ k, t 0 ≤ t k := by
    intro k
    induction k with
    | zero => exact le_refl _
    | succ k ih => exact le_trans ih (h k)
  have h2 : ∀ k, tmin t k = t 0 := by
    intro k
    induction k with
    | zero => rfl
    | succ k ih => simp only [tmin, ih]; exact min_eq_left (h0 (k + 1))
  simp only [span, h1, h2]

/-- For regular times this is not the discrete Fourier transform: frequencies are one over
the time from the first to the last sample, one sample too short, so that constant data
have a value at the other frequencies too. -/
theorem C114_not_dft (N : ℕ) (hN : 3 ≤ N) (dt : ℝ) (hd : 0 < dt) (m : ℕ)
    (hm : m + 1 = N / 2) :
    freq N (fun n => n * dt) m = 1 / ((N - 1 : ℕ) * dt) ∧
      out N (fun n => n * dt) (fun _ => 1) m = 1 := by
  have hs : span N (fun n => n * dt) = (N - 1 : ℕ) * dt := by
    rw [C114_span N _]
    · simp
    · intro n
      push_cast
      nlinarith
  have hp : mPrime N m = 1 := by simp only [mPrime]; omega
  have hf : freq N (fun n => n * dt) m = 1 / ((N - 1 : ℕ) * dt) := by
    simp only [freq, hs, hp]
    push_cast
    ring
  refine ⟨hf, ?_⟩
  rw [C114_ndft_partial, hf]
  unfold transform
  obtain ⟨M, rfl⟩ : ∃ M, N = M + 1 := ⟨N - 1, by omega⟩
  have hM : M ≠ 0 := by omega
  have hM' : (M : ℂ) ≠ 0 := by exact_mod_cast hM
  have hdt : (dt : ℂ) ≠ 0 := by exact_mod_cast hd.ne'
  have hprim := (Complex.isPrimitiveRoot_exp M hM).inv
  set ζ := (Complex.exp (2 * Real.pi * Complex.I / M))⁻¹ with hζ
  have hterm : ∀ n : ℕ, (1 : ℂ) * Complex.exp (-2 * Real.pi * Complex.I *
      ((1 / ((M + 1 - 1 : ℕ) * dt) * (n * dt) : ℝ) : ℂ)) = ζ ^ n := by
    intro n
    rw [hζ, ← Complex.exp_neg, ← Complex.exp_nat_mul, one_mul]
    congr 1
    push_cast
    field_simp
  rw [Finset.sum_congr rfl (fun n _ => hterm n), Finset.sum_range_succ,
    hprim.geom_sum_eq_zero (by omega), hprim.pow_eq_one]
  ring

/-- With integer times `0, 1, …, N - 1` all frequencies are zero. -/
theorem C114_not_frequencies (N m : ℕ) (hN : 3 ≤ N) (hm : m < N) :
    freqInt N (N - 1 : ℕ) m = 0 := by
  unfold freqInt
  have h1 : mPrime N m < ((N - 1 : ℕ) : ℤ) := by simp only [mPrime]; omega
  have h2 : -((N - 1 : ℕ) : ℤ) < mPrime N m := by simp only [mPrime]; omega
  rcases le_or_gt 0 (mPrime N m) with h | h
  · exact Int.tdiv_eq_zero_of_lt h h1
  · have : Int.tdiv (-mPrime N m) ((N - 1 : ℕ) : ℤ) = 0 :=
      Int.tdiv_eq_zero_of_lt (by omega) (by omega)
    rw [Int.neg_tdiv] at this
    omega

example : freqInt 4 1 0 = 2 := by decide

end Verif.Ndft
