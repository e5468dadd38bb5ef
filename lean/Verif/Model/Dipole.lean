import Mathlib.Analysis.SpecialFunctions.Pow.Real
import Mathlib.Analysis.SpecialFunctions.Trigonometric.Basic
import Mathlib.Data.Complex.Basic
import Mathlib.Algebra.Star.BigOperators
/-!
# The response of a dipole: /repo/lsl/sim/beam.py

Simplifications: real and complex numbers; the contents of the data files are given; `none` is not a number.
-/
namespace Verif.Dipole
open Complex ComplexConjugate

/-! ## Products of the feeds -/

/-- A Jones matrix, lines 185-186: the E and H plane of the X and of the Y dipole. -/
structure Jones where
  xe : ℂ
  xh : ℂ
  ye : ℂ
  yh : ℂ

/-- `J[a][b]`. -/
def Jones.at (j : Jones) : Nat → Nat → ℂ
  | 0, 0 => j.xe
  | 0, _ => j.xh
  | _, 0 => j.ye
  | _, _ => j.yh

/-- Lines 198-201. -/
noncomputable def A : Nat → Nat → ℂ
  | 0, 0 => 1 | 0, 3 => 1
  | 1, 0 => 1 | 1, 3 => -1
  | 2, 1 => 1 | 2, 2 => 1
  | 3, 1 => I | 3, 2 => -I
  | _, _ => 0

/-- `np.linalg.inv(A)`. -/
noncomputable def Ainv : Nat → Nat → ℂ
  | 0, 0 => 1 / 2 | 0, 1 => 1 / 2
  | 1, 2 => 1 / 2 | 1, 3 => -I / 2
  | 2, 2 => 1 / 2 | 2, 3 => I / 2
  | 3, 0 => 1 / 2 | 3, 1 => -(1 / 2)
  | _, _ => 0

/-- The product of the Jones matrix with its conjugate, lines 204-208: block `(a, b)` is `J[a,b]*J.conj()`. -/
noncomputable def kron (j : Jones) (r c : Nat) : ℂ := j.at (r / 2) (c / 2) * conj (j.at (r % 2) (c % 2))

/-- A sum over four. -/
def sum4 (f : Nat → ℂ) : ℂ := f 0 + f 1 + f 2 + f 3

/-- Line 214. -/
noncomputable def mueller (j : Jones) (r c : Nat) : ℂ := sum4 fun k => A r k * sum4 fun l => kron j k l * Ainv l c

/-- `_compute_from_feeds(pol, XE, XH, YE, YH)`, lines 278-307. -/
noncomputable def feeds (pol : String) (j : Jones) : Option ℂ :=
  let xx : ℂ := ((normSq j.xe + normSq j.xh : ℝ) : ℂ)
  let yy : ℂ := ((normSq j.ye + normSq j.yh : ℝ) : ℂ)
  let xy := j.xe * conj j.ye + j.xh * conj j.yh
  let yx := j.ye * conj j.xe + j.yh * conj j.xh
  if pol = "XX" then some xx
  else if pol = "YY" then some yy
  else if pol = "XY" then some xy
  else if pol = "YX" then some yx
  else if pol = "I" then some (xx + yy)
  else if pol = "Q" then some (xx - yy)
  else if pol = "U" then some (xy + yx)
  else if pol = "V" then some (xy - yx)
  else none

/-- What the interpolation is of: `P.real`, lines 332 and 335. -/
noncomputable def response (pol : String) (j : Jones) : Option ℝ := (feeds pol j).map Complex.re

/-! ## The fitted model -/

/-- The coefficients of one plane at the frequency, lines 56-63. -/
structure Plane where
  alpha : ℝ
  beta : ℝ
  gamma : ℝ
  delta : ℝ

/-- Lines 96 and 97. -/
noncomputable def plane (p : Plane) (za : ℝ) : ℝ :=
  (1 - (2 * za / Real.pi) ^ p.alpha) * Real.cos za ^ p.beta + p.gamma * (2 * za / Real.pi) * Real.cos za ^ p.delta

/-- `compute_beam_pattern(az, alt)`, lines 87-99, for angles in degrees; `corr` the correction as it is after line 94. -/
noncomputable def pattern (e h : Plane) (corr : ℝ → ℝ) (az alt : ℝ) : ℝ :=
  corr (alt * Real.pi / 180) * Real.sqrt ((plane e (Real.pi / 2 - alt * Real.pi / 180) * Real.cos (az * Real.pi / 180)) ^ 2
    + (plane h (Real.pi / 2 - alt * Real.pi / 180) * Real.sin (az * Real.pi / 180)) ^ 2)

/-- Both planes of a dipole, line 105. -/
noncomputable def fitted (e h : Plane) (corr : ℝ → ℝ) (az alt : ℝ) : ℝ := Real.sqrt (pattern e h corr az alt / 2)

/-- The Jones matrix of the fitted model, lines 106-113. -/
noncomputable def fittedJones (xe xh ye yh : Plane) (corr : ℝ → ℝ) (az alt : ℝ) : Jones :=
  ⟨(fitted xe xh corr az alt : ℝ), (fitted xe xh corr az alt : ℝ), (fitted ye yh corr az alt : ℝ), (fitted ye yh corr az alt : ℝ)⟩

/-! ## The full model -/

/-- numpy's order of complex numbers: first by the real parts, then by the imaginary. -/
def lexLt (a b : ℂ) : Prop := a.re < b.re ∨ (a.re = b.re ∧ a.im < b.im)

noncomputable instance (a b : ℂ) : Decidable (lexLt a b) := by unfold lexLt; infer_instance

/-- `.max()` and `max` of complex numbers, line 148. -/
noncomputable def cmax : List ℂ → Option ℂ
  | [] => none
  | a :: l => some (l.foldl (fun m x => if lexLt m x then x else m) a)

/-- Lines 148-150. -/
noncomputable def normalised (es hs : List ℂ) : Option (List ℂ × List ℂ) :=
  (cmax (es ++ hs)).map fun s => (es.map (· / s), hs.map (· / s))

/-! ## Interpolation -/

/-- One axis of `RegularGridInterpolator`: grid points in order, up or down, and the values at them by index. -/
noncomputable def lin : List ℝ → (Nat → Option ℝ) → ℝ → Option ℝ
  | a :: b :: l, f, x =>
    if (a ≤ x ∧ x ≤ b) ∨ (b ≤ x ∧ x ≤ a) then
      (f 0).bind fun p => (f 1).map fun q => p + (x - a) / (b - a) * (q - p)
    else lin (b :: l) (fun i => f (i + 1)) x
  | _, _, _ => none

/-- `pfunc((freq, alt, az))`, lines 330-335 and 370-373: without the frequency if there is only one. -/
noncomputable def interpolate (freqs alts azs : List ℝ) (p : Nat → Nat → Nat → Option ℝ) (f alt az : ℝ) : Option ℝ :=
  if 1 < freqs.length then lin freqs (fun i => lin alts (fun j => lin azs (fun k => p i j k) az) alt) f
  else lin alts (fun j => lin azs (fun k => p 0 j k) az) alt

/-- Lines 152-156: the azimuths and a row of values closed at 360 degrees, if they are not. -/
noncomputable def closeAz (azs : List ℝ) (row : List ℂ) : List ℝ × List ℂ :=
  if azs.all (· < 360) then (azs ++ [360], row ++ row.take 1) else (azs, row)

/-! ## Angles -/

/-- An angle as it may be given. -/
inductive Angle
  /-- an `Angle` of astropy, with its degrees -/
  | astro (deg : ℝ)
  /-- an `Angle` of ephem, a float in radians -/
  | ephem (rad : ℝ)
  /-- a number -/
  | num (v : ℝ)

def Angle.isEphem : Angle → Bool
  | .ephem _ => true
  | _ => false

/-- The float that an angle of ephem is, and the degrees of one of astropy. -/
def Angle.value : Angle → ℝ
  | .astro d => d
  | .ephem r => r
  | .num v => v

/-- Lines 244-247 and 348-351.  What comes out is a number: the product of an angle of ephem with a number is a float. -/
noncomputable def azOf (degrees : Bool) (az : Angle) : Angle :=
  match az with
  | .astro d => .num d
  | a => if a.isEphem || !degrees then .num (a.value * 180 / Real.pi) else a

/-- Lines 249-252 and 353-356: it is asked what the azimuth is. -/
noncomputable def altOf (degrees : Bool) (az alt : Angle) : Angle :=
  match alt with
  | .astro d => .num d
  | a => if (azOf degrees az).isEphem || !degrees then .num (a.value * 180 / Real.pi) else a

end Verif.Dipole
