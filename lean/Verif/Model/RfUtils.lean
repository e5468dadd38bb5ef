import Mathlib.Analysis.SpecialFunctions.Log.Base
import Mathlib.Analysis.SpecialFunctions.Pow.Real
import Mathlib.Analysis.SpecialFunctions.Trigonometric.Basic
/-!
# Antenna gains and flux densities

/repo/lsl/misc/rfutils.py.  Floats are idealised to real numbers; `none` is an exception.  A quantity is its value in SI units, so
that a jansky is `10^-26`; the constants are any positive numbers.
-/
namespace Verif.RfUtils

/-- The constants that astropy has: the speed of light and that of Boltzmann. -/
structure Consts where
  c : ℝ
  k : ℝ

/-- A jansky in W/m²/Hz. -/
noncomputable def jy : ℝ := 1 / 10 ^ 26

/-- A kelvin per jansky in K m² Hz / W. -/
noncomputable def kPerJy : ℝ := 1 / jy

/-- An argument: nothing, a bare number, or a number with the size of its unit. -/
inductive Arg
  | none
  | bare (v : ℝ)
  | quantity (v unit : ℝ)

/-- `_make_quantity(value, default_units)`, rfutils.py lines 24-34, in SI units.  A string is read as a quantity. -/
noncomputable def makeQuantity (unit : ℝ) : Arg → Option ℝ
  | .none => .none
  | .bare v => some (v * unit)
  | .quantity v u => some (v * u)

/-- `dBd_to_dBi(dBd)`, rfutils.py lines 37-44. -/
noncomputable def dBdToDBi (dBd : ℝ) : ℝ := dBd + 2.14844

/-- `dBi_to_dBd(dBi)`, rfutils.py lines 47-54. -/
noncomputable def dBiToDBd (dBi : ℝ) : ℝ := dBi - 2.14844

/-- `math.log10`, which raises for what is not positive. -/
noncomputable def log10 (x : ℝ) : Option ℝ := if 0 < x then some (Real.logb 10 x) else none

/-- `dBi_to_gain(dBi, frequency)`, rfutils.py lines 57-72, in K/Jy. -/
noncomputable def dBiToGain (q : Consts) (dBi : ℝ) (frequency : Arg) : Option ℝ :=
  (makeQuantity 1 frequency).map fun f => q.c ^ 2 / (8 * Real.pi * q.k * f ^ 2) * (10 : ℝ) ^ (dBi / 10) / kPerJy

/-- `dBd_to_gain(dBd, frequency)`, rfutils.py lines 75-82. -/
noncomputable def dBdToGain (q : Consts) (dBd : ℝ) (frequency : Arg) : Option ℝ := dBiToGain q (dBdToDBi dBd) frequency

/-- `gain_to_dBi(gain, frequency)`, rfutils.py lines 85-99. -/
noncomputable def gainToDBi (q : Consts) (gain frequency : Arg) : Option ℝ :=
  (makeQuantity kPerJy gain).bind fun g =>
  (makeQuantity 1 frequency).bind fun f =>
  (log10 (8 * Real.pi * q.k * f ^ 2 / q.c ^ 2 * g)).map (10 * ·)

/-- `gain_to_dBd(gain, frequency)`, rfutils.py lines 102-109. -/
noncomputable def gainToDBd (q : Consts) (gain frequency : Arg) : Option ℝ := (gainToDBi q gain frequency).map dBiToDBd

/-- `calculate_sefd(Tsys, gain, area, efficiency)`, rfutils.py lines 112-146, in Jy. -/
noncomputable def sefd (q : Consts) (tsys gain area : Arg) (efficiency : Option ℝ) : Option ℝ :=
  (makeQuantity 1 tsys).bind fun t =>
  match makeQuantity kPerJy gain with
  | some g => some (t / g / jy)
  | none =>
    match makeQuantity 1 area, efficiency with
    | some a, some e => some (t / (e * a / 2 / q.k) / jy)
    | _, _ => none

/-- `calculate_effective_area(gain)`, rfutils.py lines 149-162, in m². -/
noncomputable def effectiveArea (q : Consts) (gain : Arg) : Option ℝ :=
  (makeQuantity kPerJy gain).map fun g => 2 * q.k * g

/-- `Jy_to_dBm(flux, bandwidth, gain)`, rfutils.py lines 165-187; the gain has become a quantity before the area is taken. -/
noncomputable def jyToDBm (q : Consts) (flux bandwidth gain : Arg) : Option ℝ :=
  (makeQuantity jy flux).bind fun s =>
  (makeQuantity 1 bandwidth).bind fun b =>
  (makeQuantity kPerJy gain).bind fun g =>
  (effectiveArea q (.quantity g 1)).bind fun a =>
  (makeQuantity 1 (.bare a)).bind fun a =>
  (log10 (s * b * a / (1 / 1000))).map (10 * ·)

/-- `dBm_to_Jy(dBm, bandwidth, gain)`, rfutils.py lines 190-209. -/
noncomputable def dBmToJy (q : Consts) (dBm : ℝ) (bandwidth gain : Arg) : Option ℝ :=
  (makeQuantity 1 bandwidth).bind fun b =>
  (makeQuantity kPerJy gain).bind fun g =>
  (effectiveArea q (.quantity g 1)).bind fun a =>
  (makeQuantity 1 (.bare a)).map fun a =>
  (10 : ℝ) ^ (dBm / 10) * (1 / 1000) / (b * a) / jy

/-- The names that `from lsl.misc.rfutils import *` gives, rfutils.py lines 19-20. -/
def exported : List String :=
  ["dBd_to_dBi", "dBd_to_dBi", "dBi_to_gain", "dBd_to_gain", "gain_to_dBi", "gain_to_dBd", "calculate_sefd",
    "calculate_effective_area", "Jy_to_dBm", "dBm_to_Jy"]

end Verif.RfUtils
