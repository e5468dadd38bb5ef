import Mathlib.Analysis.Complex.Trigonometric
import Mathlib.Analysis.SpecialFunctions.Log.Base
import Mathlib.Analysis.SpecialFunctions.Pow.Real
/-!
# Complex patterns: /repo/lsl/sim/necutils.py
-/
namespace Verif.Nec
open Complex

/-- `np.exp(1j*phs*np.pi/180)`, line 360. -/
noncomputable def phaseCurrent (d : ℝ) : ℂ := exp (I * d * Real.pi / 180)
/-- `np.exp(1j*phs*180/np.pi)`, line 325. -/
noncomputable def phaseGain (d : ℝ) : ℂ := exp (I * d * 180 / Real.pi)
/-- Lines 357 and 360, `10**(10*log10(x)/10)`. -/
noncomputable def amplitude (x : ℝ) : ℝ := (10 : ℝ) ^ (10 * Real.logb 10 x / 10)

end Verif.Nec
