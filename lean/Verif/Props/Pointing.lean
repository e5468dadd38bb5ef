import Verif.Lemmas.Pointing
import Mathlib.Analysis.SpecialFunctions.Trigonometric.Deriv
import Mathlib.Tactic.Positivity
import Mathlib.Tactic.NormNum
/-! # C102: pointing corrections are rotations, and offsets between places are those of their axes -/
namespace Verif.Pointing
open Spec

/-! ## The rotation -/

/-- The matrix turns by the angle about the axis that has the given angle from the vertical and the given angle from the east
towards the north, and is the only one that does. -/
theorem C102_rotation_turns (degrees : Bool) (theta phi psi : ℝ) :
    Turns (axis (rad degrees theta) (rad degrees phi)) (rad degrees psi) (rotation degrees theta phi psi).app := by
  constructor
  · exact app_add _
  · exact app_scale _
  · have h := axis_unit (rad degrees theta) (rad degrees phi)
    unfold rotation
    rw [turn_app, h]
    ext <;> simp only [V.add, V.scale, cross] <;> ring
  · intro v hv
    unfold rotation
    rw [turn_app, hv]
    ext <;> simp only [V.add, V.scale, mul_zero, zero_mul, add_zero]

/-- What a rotation is says what it does to every vector. -/
theorem C102_turns_unique (u : V) (hu : dot u u = 1) (psi : ℝ) (f g : V → V) (hf : Turns u psi f) (hg : Turns u psi g) (v : V) : f v = g v := by
  have hv : v = (V.scale (dot u v) u).add (v.sub (V.scale (dot u v) u)) := by
    ext <;> simp only [V.add, V.sub, V.scale] <;> ring
  have hp : dot u (v.sub (V.scale (dot u v) u)) = 0 := by
    have h : u.x * u.x + u.y * u.y + u.z * u.z = 1 := hu
    simp only [dot, V.sub, V.scale]
    linear_combination (-(u.x * v.x + u.y * v.y + u.z * v.z)) * h
  rw [hv, hf.add, hg.add, hf.scale, hg.scale, hf.fixed, hg.fixed, hf.turned _ hp, hg.turned _ hp]

/-- Angles and lengths stay as they are, and right handed stays right handed. -/
theorem C102_rotation_rigid (degrees : Bool) (theta phi psi : ℝ) :
    (∀ v w, dot ((rotation degrees theta phi psi).app v) ((rotation degrees theta phi psi).app w) = dot v w) ∧
    det (rotation degrees theta phi psi) = 1 := by
  refine ⟨fun v w => turn_dot _ v w (axis_unit _ _) _, ?_⟩
  have h : (axis (rad degrees theta) (rad degrees phi)).x * (axis (rad degrees theta) (rad degrees phi)).x
    + (axis (rad degrees theta) (rad degrees phi)).y * (axis (rad degrees theta) (rad degrees phi)).y
    + (axis (rad degrees theta) (rad degrees phi)).z * (axis (rad degrees theta) (rad degrees phi)).z = 1 := axis_unit _ _
  have c := cs (rad degrees psi)
  unfold rotation
  generalize axis (rad degrees theta) (rad degrees phi) = u at h ⊢
  simp only [det, turn, cross, M.add, M.scale, V.add, V.scale, eye, crossM, outer, dot]
  generalize Real.cos (rad degrees psi) = p at c ⊢
  generalize Real.sin (rad degrees psi) = q at c ⊢
  obtain ⟨x, y, z⟩ := u
  simp only at h ⊢
  linear_combination (p * p * (1 - p) + q * q * p + q * q * (1 - p) * (x * x + y * y + z * z + 1)) * h + c

/-! ## The correction -/

/-- The returned direction, as the components to the east, the north and up, is the rotated one. -/
theorem C102_correction_rotates (degrees : Bool) (az el theta phi psi : ℝ) :
    enu (rad degrees (correct degrees az el theta phi psi).1) (rad degrees (correct degrees az el theta phi psi).2) =
      (rotation degrees theta phi psi).app (enu (rad degrees az) (rad degrees el)) := by
  have un (a : ℝ) : rad degrees (unrad degrees a) = a := by
    unfold rad unrad
    have := Real.pi_ne_zero
    split
    · field_simp
    · rfl
  have hswap (a b : ℝ) : enu a b = (direction a b).swap := by
    ext <;> simp only [enu, direction, V.swap] <;> ring
  have hu : dot (corrected degrees az el theta phi psi) (corrected degrees az el theta phi psi) = 1 := by
    unfold corrected
    rw [dot_swap]
    unfold rotation
    rw [turn_dot _ _ _ (axis_unit _ _), dot_swap, direction_unit]
  unfold correct
  rw [un, un, hswap, hswap, direction_angles_unit _ hu]
  rfl

/-- Azimuths from 0 to 360 degrees, elevations from -90 to 90. -/
theorem C102_correction_range (az el theta phi psi : ℝ) :
    0 ≤ (correct true az el theta phi psi).1 ∧ (correct true az el theta phi psi).1 < 360 ∧
    -90 ≤ (correct true az el theta phi psi).2 ∧ (correct true az el theta phi psi).2 ≤ 90 := by
  have h1 := lon_range (corrected true az el theta phi psi)
  have h2 := lat_range (corrected true az el theta phi psi)
  have hp := Real.pi_pos
  have e : 0 < 180 / Real.pi := by positivity
  simp only [correct, unrad, if_true]
  generalize lon (corrected true az el theta phi psi) = a at *
  generalize lat (corrected true az el theta phi psi) = b at *
  have k : Real.pi * (180 / Real.pi) = 180 := by field_simp
  refine ⟨mul_nonneg h1.1 e.le, ?_, ?_, ?_⟩ <;> nlinarith [h1.2, h2.1, h2.2]

/-- Degrees and radians say the same. -/
theorem C102_correction_units (az el theta phi psi : ℝ) :
    correct true az el theta phi psi =
      ((correct false (rad true az) (rad true el) (rad true theta) (rad true phi) (rad true psi)).1 * (180 / Real.pi),
       (correct false (rad true az) (rad true el) (rad true theta) (rad true phi) (rad true psi)).2 * (180 / Real.pi)) := by
  simp [correct, corrected, rotation, rad, unrad]

theorem back (a b : ℝ) (az el : ℝ) (ha : 0 ≤ az) (hb : az < 360) (h1 : -90 < el) (h2 : el < 90)
    (h : enu a b = enu (rad true az) (rad true el)) (ra : 0 ≤ a) (rb : a < 2 * Real.pi) (r1 : -(Real.pi / 2) ≤ b) (r2 : b ≤ Real.pi / 2) :
    unrad true a = az ∧ unrad true b = el := by
  have hp := Real.pi_pos
  have ec : (0:ℝ) < Real.pi / 180 := by positivity
  have e1 : rad true az = az * (Real.pi / 180) := by simp only [rad, if_true]; ring
  have e2 : rad true el = el * (Real.pi / 180) := by simp only [rad, if_true]; ring
  have hs : Real.sin b = Real.sin (rad true el) := congrArg V.z h
  have k : 180 * (Real.pi / 180) = Real.pi := by ring
  have q1 : -(Real.pi / 2) < rad true el := by rw [e2]; nlinarith
  have q2 : rad true el < Real.pi / 2 := by rw [e2]; nlinarith
  have hb' : b = rad true el := Real.injOn_sin ⟨r1, r2⟩ ⟨q1.le, q2.le⟩ hs
  subst hb'
  have s1 := (angles_direction a (rad true el) ra rb q1 q2).1
  have s2 := (angles_direction (rad true az) (rad true el) (by rw [e1]; positivity) (by rw [e1]; nlinarith) q1 q2).1
  have hd : direction a (rad true el) = direction (rad true az) (rad true el) := by
    have hx := congrArg V.x h
    have hy := congrArg V.y h
    simp only [enu] at hx hy
    ext
    · simp only [direction]; rw [mul_comm, hy, mul_comm]
    · simp only [direction]; rw [mul_comm, hx, mul_comm]
    · rfl
  rw [hd, s2] at s1
  subst s1
  constructor <;> simp only [unrad, rad, if_true] <;> field_simp

/-- Rotating back by the same angle about the same axis gives back the direction.  Off the vertical. -/
theorem C102_correction_undo (az el theta phi psi : ℝ) (ha : 0 ≤ az) (hb : az < 360) (h1 : -90 < el) (h2 : el < 90) :
    correct true (correct true az el theta phi psi).1 (correct true az el theta phi psi).2 theta phi (-psi) = (az, el) := by
  have c1 := C102_correction_rotates true az el theta phi psi
  have c2 := C102_correction_rotates true (correct true az el theta phi psi).1 (correct true az el theta phi psi).2 theta phi (-psi)
  rw [c1] at c2
  have hn : rad true (-psi) = -rad true psi := by simp only [rad, if_true]; ring
  have e : enu (rad true az) (rad true el) = (rotation true theta phi (-psi)).app ((rotation true theta phi psi).app (enu (rad true az) (rad true el))) := by
    unfold rotation
    rw [turn_turn _ _ (axis_unit _ _), hn, neg_add_cancel, turn_zero]
  rw [← e] at c2
  generalize (correct true az el theta phi psi).1 = a at *
  generalize (correct true az el theta phi psi).2 = b at *
  have un (a : ℝ) : rad true (unrad true a) = a := by
    have := Real.pi_ne_zero
    simp only [rad, unrad, if_true]; field_simp
  have l1 := lon_range (corrected true a b theta phi (-psi))
  have l2 := lat_range (corrected true a b theta phi (-psi))
  simp only [correct] at c2
  rw [un, un] at c2
  obtain ⟨x, y⟩ := back _ _ az el ha hb h1 h2 c2 l1.1 l1.2 l2.1 l2.2
  exact Prod.ext x y

/-- No rotation, no change.  Off the vertical. -/
theorem C102_correction_none (az el theta phi : ℝ) (ha : 0 ≤ az) (hb : az < 360) (h1 : -90 < el) (h2 : el < 90) :
    correct true az el theta phi 0 = (az, el) := by
  have c := C102_correction_rotates true az el theta phi 0
  have e : (rotation true theta phi 0).app (enu (rad true az) (rad true el)) = enu (rad true az) (rad true el) := by
    unfold rotation
    rw [show rad true 0 = 0 by simp [rad], turn_zero]
  rw [e] at c
  have un (a : ℝ) : rad true (unrad true a) = a := by
    have := Real.pi_ne_zero
    simp only [rad, unrad, if_true]; field_simp
  have l1 := lon_range (corrected true az el theta phi 0)
  have l2 := lat_range (corrected true az el theta phi 0)
  simp only [correct] at c
  rw [un, un] at c
  obtain ⟨x, y⟩ := back _ _ az el ha hb h1 h2 c l1.1 l1.2 l2.1 l2.2
  exact Prod.ext x y

/-- A rotation about the vertical lowers the azimuth by the angle. -/
theorem C102_correction_vertical (az el phi psi : ℝ) (ha : 0 ≤ az - psi) (hb : az - psi < 360) (h1 : -90 < el) (h2 : el < 90) :
    correct true az el 0 phi psi = (az - psi, el) := by
  have c := C102_correction_rotates true az el 0 phi psi
  have e : (rotation true 0 phi psi).app (enu (rad true az) (rad true el)) = enu (rad true (az - psi)) (rad true el) := by
    have hs : rad true (az - psi) = rad true az - rad true psi := by simp only [rad, if_true]; ring
    unfold rotation
    rw [turn_app, hs]
    ext <;> simp only [V.add, V.scale, cross, dot, enu, axis, show rad true 0 = 0 by simp [rad], Real.sin_zero, Real.cos_zero, Real.sin_sub, Real.cos_sub] <;> ring
  rw [e] at c
  have un (a : ℝ) : rad true (unrad true a) = a := by
    have := Real.pi_ne_zero
    simp only [rad, unrad, if_true]; field_simp
  have l1 := lon_range (corrected true az el 0 phi psi)
  have l2 := lat_range (corrected true az el 0 phi psi)
  simp only [correct] at c
  rw [un, un] at c
  obtain ⟨x, y⟩ := back _ _ (az - psi) el ha hb h1 h2 c l1.1 l1.2 l2.1 l2.2
  exact Prod.ext x y

/-- A rotation about the axis to the east raises what is in the north by the angle. -/
theorem C102_correction_tilt (el psi : ℝ) (h1 : -90 < el + psi) (h2 : el + psi < 90) :
    correct true 0 el 90 0 psi = (0, el + psi) := by
  have c := C102_correction_rotates true 0 el 90 0 psi
  have h90 : rad true 90 = Real.pi / 2 := by simp only [rad, if_true]; ring
  have e : (rotation true 90 0 psi).app (enu (rad true 0) (rad true el)) = enu (rad true 0) (rad true (el + psi)) := by
    have hs : rad true (el + psi) = rad true el + rad true psi := by simp only [rad, if_true]; ring
    unfold rotation
    rw [turn_app, hs, h90]
    ext <;> simp only [V.add, V.scale, cross, dot, enu, axis, show rad true 0 = 0 by simp [rad], Real.sin_zero, Real.cos_zero, Real.sin_add, Real.cos_add,
      Real.sin_pi_div_two, Real.cos_pi_div_two] <;> ring
  rw [e] at c
  have un (a : ℝ) : rad true (unrad true a) = a := by
    have := Real.pi_ne_zero
    simp only [rad, unrad, if_true]; field_simp
  have l1 := lon_range (corrected true 0 el 90 0 psi)
  have l2 := lat_range (corrected true 0 el 90 0 psi)
  simp only [correct] at c
  rw [un, un] at c
  obtain ⟨x, y⟩ := back _ _ 0 (el + psi) le_rfl (by norm_num) h1 h2 c l1.1 l1.2 l2.1 l2.2
  exact Prod.ext x y

/-- At the zenith the azimuth does not come back. -/
theorem C102_not_zenith : correct true 10 90 0 0 0 ≠ (10, 90) := by
  intro h
  have h90 : rad true 90 = Real.pi / 2 := by simp only [rad, if_true]; ring
  have e : corrected true 10 90 0 0 0 = ⟨0, 0, 1⟩ := by
    unfold corrected rotation
    rw [show rad true 0 = 0 by simp [rad], turn_zero, h90]
    ext <;> simp [V.swap, direction]
  have : lon ⟨0, 0, 1⟩ = 0 := by
    have : atan2 0 0 = 0 := Complex.arg_zero
    simp [lon, wrap, this]
  have h := congrArg Prod.fst h
  simp only [correct, unrad, if_true, e, this] at h
  norm_num at h

/-! ## Places -/

/-- The two matrices of a station undo each other, keep lengths and angles, and keep right handed what is. -/
theorem C102_eci_inverse (lt : ℝ) (v w : V) :
    (eciInv lt).app ((eci lt).app v) = v ∧ (eci lt).app ((eciInv lt).app v) = v ∧ dot ((eci lt).app v) ((eci lt).app w) = dot v w ∧ det (eci lt) = 1 := by
  have c := cs lt
  refine ⟨?_, ?_, ?_, ?_⟩
  · ext <;> simp only [M.app, eci, eciInv, dot]
    · ring
    · linear_combination v.y * c
    · linear_combination v.z * c
  · ext <;> simp only [M.app, eci, eciInv, dot]
    · linear_combination v.x * c
    · ring
    · linear_combination v.z * c
  · simp only [M.app, eci, dot]
    linear_combination (v.y * w.y + v.z * w.z) * c
  · simp only [det, cross, eci, dot]
    linear_combination c

/-- The matrix takes up to the normal of the Earth at the latitude, north to where that moves with the latitude, and east to
where it moves with the longitude, all at the meridian of zero longitude. -/
theorem C102_eci_axes (lt : ℝ) :
    (eci lt).app ⟨0, 0, 1⟩ = up lt 0 ∧
    (HasDerivAt (fun t => (up t 0).x) ((eci lt).app ⟨0, 1, 0⟩).x lt ∧ HasDerivAt (fun t => (up t 0).y) ((eci lt).app ⟨0, 1, 0⟩).y lt ∧
      HasDerivAt (fun t => (up t 0).z) ((eci lt).app ⟨0, 1, 0⟩).z lt) ∧
    (HasDerivAt (fun l => (up lt l).x) (Real.cos lt * ((eci lt).app ⟨1, 0, 0⟩).x) 0 ∧ HasDerivAt (fun l => (up lt l).y) (Real.cos lt * ((eci lt).app ⟨1, 0, 0⟩).y) 0 ∧
      HasDerivAt (fun l => (up lt l).z) (Real.cos lt * ((eci lt).app ⟨1, 0, 0⟩).z) 0) := by
  refine ⟨?_, ⟨?_, ?_, ?_⟩, ?_, ?_, ?_⟩
  · ext <;> simp [M.app, eci, dot, up]
  · simpa [M.app, eci, dot, up] using Real.hasDerivAt_cos lt
  · simpa [M.app, eci, dot, up] using hasDerivAt_const lt (0 : ℝ)
  · simpa [M.app, eci, dot, up] using Real.hasDerivAt_sin lt
  · simpa [M.app, eci, dot, up] using (Real.hasDerivAt_cos 0).const_mul (Real.cos lt)
  · simpa [M.app, eci, dot, up] using (Real.hasDerivAt_sin 0).const_mul (Real.cos lt)
  · simpa [M.app, eci, dot, up] using hasDerivAt_const (0 : ℝ) (Real.sin lt)

/-- The offset to a place has its components along the east, the north and up at the station. -/
theorem C102_offset (s : Place) (p : V) :
    (enzOffset s p).z = dot (up s.lat s.long) (p.sub s.loc) ∧
    (enzOffset s p).x = dot ⟨-Real.sin s.long, Real.cos s.long, 0⟩ (p.sub s.loc) ∧
    (enzOffset s p).y = dot (cross (up s.lat s.long) ⟨-Real.sin s.long, Real.cos s.long, 0⟩) (p.sub s.loc) := by
  have h := direction_angles ((altaz s).app (p.sub s.loc))
  have hx := congrArg V.x h
  have hy := congrArg V.y h
  have hz := congrArg V.z h
  simp only [V.scale, direction] at hx hy hz
  refine ⟨?_, ?_, ?_⟩
  · exact hz
  · refine Eq.trans ?_ hy
    simp only [enzOffset, pointing, V.scale]; ring
  · refine Eq.trans ((show _ = _ by simp only [enzOffset, pointing, V.scale]; ring) : (enzOffset s p).y = _) (hx.trans ?_)
    have c := cs s.long
    simp only [M.app, altaz, dot, cross, up]
    linear_combination (-Real.cos s.lat * (p.sub s.loc).z) * c

/-- The distance is that of the two places, and the offset has it as its length. -/
theorem C102_distance (s : Place) (p : V) :
    (pointing s p).2.2 = Real.sqrt (dot (p.sub s.loc) (p.sub s.loc)) ∧
    dot (enzOffset s p) (enzOffset s p) = (pointing s p).2.2 ^ 2 := by
  constructor
  · simp only [pointing, altaz_dot]
  · have c1 := cs (pointing s p).1
    have c2 := cs (pointing s p).2.1
    simp only [enzOffset, V.scale, dot]
    generalize (pointing s p).2.2 = d
    linear_combination (d ^ 2 * Real.cos (pointing s p).2.1 ^ 2) * c1 + d ^ 2 * c2

/-- The offset to where a stand is is the position of the stand. -/
theorem C102_stand (s : Place) (stand : V) : enzOffset s (standLocation s stand) = stand := by
  have e : (standLocation s stand).sub s.loc = (altazInv s).app ⟨stand.y, stand.x, stand.z⟩ := by
    ext <;> simp [standLocation, V.sub, V.add]
  have h := direction_angles ((altaz s).app ((standLocation s stand).sub s.loc))
  have hv : (altaz s).app ((standLocation s stand).sub s.loc) = ⟨stand.y, stand.x, stand.z⟩ := by rw [e, altaz_inv]
  have hx := congrArg V.x (h.trans hv)
  have hy := congrArg V.y (h.trans hv)
  have hz := congrArg V.z (h.trans hv)
  simp only [V.scale, direction] at hx hy hz
  ext
  · refine Eq.trans ?_ hy
    simp only [enzOffset, pointing, V.scale]; ring
  · refine Eq.trans ?_ hx
    simp only [enzOffset, pointing, V.scale]; ring
  · exact hz

/-- Stations at other latitudes and longitudes have other axes: a stand stays at its place on the Earth when it is given for
another station by its offset from there. -/
theorem C102_stand_moves (s t : Place) (p : V) : standLocation s (enzOffset s p) = p ∧ standLocation t (enzOffset t (standLocation s (enzOffset s p))) = p := by
  have key (s : Place) (p : V) : standLocation s (enzOffset s p) = p := by
    have h := direction_angles ((altaz s).app (p.sub s.loc))
    have e : (⟨(enzOffset s p).y, (enzOffset s p).x, (enzOffset s p).z⟩ : V) = (altaz s).app (p.sub s.loc) := by
      rw [← h]
      ext <;> simp only [enzOffset, pointing, V.scale, direction] <;> ring
    unfold standLocation
    rw [e, inv_altaz]
    ext <;> simp [V.sub, V.add]
  exact ⟨key s p, by rw [key s p, key t p]⟩

/-- The local axes turned by the longitude are those of the matrix of the station. -/
theorem C102_eci_offset (s : Place) (p : V) :
    (eci s.lat).app (enzOffset s p) =
      ⟨Real.cos s.long * (p.sub s.loc).x + Real.sin s.long * (p.sub s.loc).y,
       -Real.sin s.long * (p.sub s.loc).x + Real.cos s.long * (p.sub s.loc).y, (p.sub s.loc).z⟩ := by
  obtain ⟨hz, hx, hy⟩ := C102_offset s p
  have c := cs s.long
  have c1 := cs s.lat
  generalize p.sub s.loc = d at *
  ext <;> simp only [M.app, eci, dot, hx, hy, hz, up, cross]
  · linear_combination (Real.cos s.long * d.x + Real.sin s.long * d.y) * c1 - Real.sin s.lat * Real.cos s.lat * d.z * c
  · ring
  · linear_combination (Real.cos s.lat ^ 2 * d.z) * c + d.z * c1

/-- The rotation is not always none: a source in the east, turned by 90 degrees about the vertical, is in the north. -/
example : correct true 90 0 0 0 90 = (0, 0) := by
  have := C102_correction_vertical 90 0 0 90 (by norm_num) (by norm_num) (by norm_num) (by norm_num)
  simpa using this

end Verif.Pointing
