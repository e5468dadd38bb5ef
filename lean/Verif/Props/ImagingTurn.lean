import Verif.Props.Imaging
import Verif.Props.Turn
import Mathlib.Analysis.SpecialFunctions.Trigonometric.Inverse
/-!
# C79 for real and complex numbers
-/
namespace Verif.Turn
open Verif.CMem

theorem C79_conj : Imaging.Spec.Conj (starRingEnd ℂ) where
  add a b := map_add _ a b
  mul a b := map_mul _ a b
  zero := map_zero _
  twice a := Complex.conj_conj a

/-- The image of a Hermitian plane is real. -/
theorem C79_turn (n : Nat) (hn : 0 < n) (uv : Nat → Nat → ℂ)
    (huv : ∀ i j, i < n → j < n → (starRingEnd ℂ) (uv i j) = uv ((n - i) % n) ((n - j) % n)) (i j : Nat) :
    (Gridder.dft2 turn 1 n uv i j).im = 0 := by
  have := Imaging.C79_real n turn (starRingEnd ℂ) C79_conj conj_turn turn_add (fun m => (turn_one _).mpr ⟨m, rfl⟩) hn uv huv i j
  exact Complex.conj_eq_iff_im.mp this

/-- `res` for the keywords `im_size` and `im_res`, utils.py:1642. -/
noncomputable def resFor (imSize : Nat) (imRes : ℝ) : ℝ := (2 * imSize * Real.sin (Real.pi * imRes / 360))⁻¹

/-- `pixel_size`, utils.py:1428, in degrees. -/
noncomputable def pixelSize (size : ℝ) : ℝ := 360 / Real.pi * Real.arcsin (1 / size / 2)

/-- With these the image has as many pixels as were asked for, of the size that was asked for. -/
theorem C79_pixel (imSize : Nat) (hn : 0 < imSize) (imRes : ℝ) (h0 : 0 < imRes) (h1 : imRes ≤ 180) :
    imSize * resFor imSize imRes / resFor imSize imRes = imSize ∧ pixelSize (imSize * resFor imSize imRes) = imRes := by
  have hpi := Real.pi_pos
  have hx0 : 0 < Real.pi * imRes / 360 := by positivity
  have hx1 : Real.pi * imRes / 360 ≤ Real.pi / 2 := by nlinarith
  have hs : 0 < Real.sin (Real.pi * imRes / 360) := Real.sin_pos_of_pos_of_lt_pi hx0 (by linarith)
  have hN : (0 : ℝ) < imSize := by exact_mod_cast hn
  refine ⟨?_, ?_⟩
  · unfold resFor
    field_simp
  · unfold pixelSize resFor
    have : 1 / (imSize * (2 * imSize * Real.sin (Real.pi * imRes / 360))⁻¹) / 2 = Real.sin (Real.pi * imRes / 360) := by
      field_simp
    rw [this, Real.arcsin_sin (by linarith) hx1]
    field_simp

end Verif.Turn
