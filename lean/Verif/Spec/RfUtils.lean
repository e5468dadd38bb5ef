import Mathlib.Analysis.SpecialFunctions.Log.Base
import Mathlib.Analysis.SpecialFunctions.Pow.Real
import Mathlib.Analysis.SpecialFunctions.Trigonometric.Basic
/-!
# Antennas in SI units
-/
namespace Verif.RfUtils.Spec

/-- The area of an isotropic antenna at a wavelength. -/
noncomputable def isotropicArea (wavelength : ℝ) : ℝ := wavelength ^ 2 / (4 * Real.pi)

/-- Half of the power in an area is received: the temperature for a flux density. -/
noncomputable def temperature (k area flux : ℝ) : ℝ := flux * area / (2 * k)

/-- Decibels of a ratio. -/
noncomputable def decibel (ratio : ℝ) : ℝ := 10 * Real.logb 10 ratio

/-- The functions that are for use. -/
def functions : List String :=
  ["dBd_to_dBi", "dBi_to_dBd", "dBi_to_gain", "dBd_to_gain", "gain_to_dBi", "gain_to_dBd", "calculate_sefd",
    "calculate_effective_area", "Jy_to_dBm", "dBm_to_Jy"]

end Verif.RfUtils.Spec
