import Verif.Spec.Pointing
import Mathlib.Tactic.Ring
import Mathlib.Tactic.LinearCombination
import Mathlib.Tactic.Linarith
import Mathlib.Tactic.FieldSimp
/-! # Lemmas on rotations and directions -/
namespace Verif.Pointing
open Spec

theorem cs (a : ℝ) : Real.cos a ^ 2 + Real.sin a ^ 2 = 1 := by rw [add_comm]; exact Real.sin_sq_add_cos_sq a

/-- The rotation written with the axis. -/
theorem turn_app (u v : V) (psi : ℝ) :
    (turn u psi).app v = ((V.scale (Real.cos psi) v).add (V.scale (Real.sin psi) (cross u v))).add (V.scale ((1 - Real.cos psi) * dot u v) u) := by
  ext <;> simp only [turn, M.app, M.add, M.scale, V.add, V.scale, eye, crossM, outer, dot, cross] <;> ring

theorem axis_unit (theta phi : ℝ) : dot (axis theta phi) (axis theta phi) = 1 := by
  simp only [dot, axis]
  linear_combination (Real.sin theta ^ 2) * cs phi + cs theta

theorem app_add (m : M) (v w : V) : m.app (v.add w) = (m.app v).add (m.app w) := by
  ext <;> simp only [M.app, V.add, dot] <;> ring

theorem app_scale (m : M) (c : ℝ) (v : V) : m.app (V.scale c v) = V.scale c (m.app v) := by
  ext <;> simp only [M.app, V.scale, dot] <;> ring

theorem dot_swap (v w : V) : dot v.swap w.swap = dot v w := by simp only [dot, V.swap]; ring

theorem swap_swap (v : V) : v.swap.swap = v := rfl

theorem direction_unit (az el : ℝ) : dot (direction az el) (direction az el) = 1 := by
  simp only [dot, direction]
  linear_combination (Real.cos el ^ 2) * cs az + cs el

/-- Two rotations about the same axis. -/
theorem turn_turn (u v : V) (hu : dot u u = 1) (a b : ℝ) : (turn u a).app ((turn u b).app v) = (turn u (a + b)).app v := by
  simp only [turn_app]
  have h : u.x * u.x + u.y * u.y + u.z * u.z = 1 := hu
  rw [Real.cos_add, Real.sin_add]
  ext <;> simp only [V.add, V.scale, dot, cross]
  · linear_combination ((1 - Real.cos a) * (1 - Real.cos b) * u.x * (u.x * v.x + u.y * v.y + u.z * v.z) - Real.sin a * Real.sin b * v.x) * h
  · linear_combination ((1 - Real.cos a) * (1 - Real.cos b) * u.y * (u.x * v.x + u.y * v.y + u.z * v.z) - Real.sin a * Real.sin b * v.y) * h
  · linear_combination ((1 - Real.cos a) * (1 - Real.cos b) * u.z * (u.x * v.x + u.y * v.y + u.z * v.z) - Real.sin a * Real.sin b * v.z) * h

theorem turn_zero (u v : V) : (turn u 0).app v = v := by
  rw [turn_app, Real.cos_zero, Real.sin_zero]
  ext <;> simp [V.add, V.scale]

/-- Products of vectors stay as they are. -/
theorem turn_dot (u v w : V) (hu : dot u u = 1) (a : ℝ) : dot ((turn u a).app v) ((turn u a).app w) = dot v w := by
  rw [turn_app, turn_app]
  have h : u.x * u.x + u.y * u.y + u.z * u.z = 1 := hu
  have c := cs a
  simp only [V.add, V.scale, dot, cross]
  generalize Real.cos a = p at *
  generalize Real.sin a = q at *
  linear_combination ((1 - p) ^ 2 * (u.x * v.x + u.y * v.y + u.z * v.z) * (u.x * w.x + u.y * w.y + u.z * w.z)
    + q ^ 2 * (v.x * w.x + v.y * w.y + v.z * w.z)) * h
    + ((v.x * w.x + v.y * w.y + v.z * w.z) - (u.x * v.x + u.y * v.y + u.z * v.z) * (u.x * w.x + u.y * w.y + u.z * w.z)) * c

/-! ## Angles of a vector -/

theorem hypot_sq (x y : ℝ) : hypot x y ^ 2 = x * x + y * y := Real.sq_sqrt (by nlinarith [mul_self_nonneg x, mul_self_nonneg y])

theorem hypot_nonneg (x y : ℝ) : 0 ≤ hypot x y := Real.sqrt_nonneg _

theorem norm_eq (x y : ℝ) : ‖(⟨x, y⟩ : ℂ)‖ = hypot x y := by
  rw [Complex.norm_def, Complex.normSq_mk]
  rfl

theorem hypot_cos (x y : ℝ) : hypot x y * Real.cos (atan2 y x) = x := by
  rw [← norm_eq]; exact Complex.norm_mul_cos_arg _

theorem hypot_sin (x y : ℝ) : hypot x y * Real.sin (atan2 y x) = y := by
  rw [← norm_eq]; exact Complex.norm_mul_sin_arg _

theorem cos_lon (v : V) : Real.cos (lon v) = Real.cos (atan2 v.y v.x) := by
  unfold lon wrap; split <;> simp

theorem sin_lon (v : V) : Real.sin (lon v) = Real.sin (atan2 v.y v.x) := by
  unfold lon wrap; split <;> simp

theorem len_eq (v : V) : hypot (hypot v.x v.y) v.z = Real.sqrt (dot v v) := by
  show Real.sqrt _ = _
  congr 1
  have := hypot_sq v.x v.y
  simp only [dot]
  linarith

/-- The angles of a vector are those of its direction. -/
theorem direction_angles (v : V) : V.scale (Real.sqrt (dot v v)) (direction (lon v) (lat v)) = v := by
  have h1 := hypot_cos (hypot v.x v.y) v.z
  have h2 := hypot_sin (hypot v.x v.y) v.z
  have h3 := hypot_cos v.x v.y
  have h4 := hypot_sin v.x v.y
  rw [len_eq] at h1 h2
  ext
  · simp only [V.scale, direction, cos_lon, lat, ← mul_assoc, h1, h3]
  · simp only [V.scale, direction, sin_lon, lat, ← mul_assoc, h1, h4]
  · simp only [V.scale, direction, lat, h2]

theorem direction_angles_unit (v : V) (h : dot v v = 1) : direction (lon v) (lat v) = v := by
  have := direction_angles v
  have one (w : V) : V.scale 1 w = w := by ext <;> simp only [V.scale, one_mul]
  rwa [h, Real.sqrt_one, one] at this

theorem lon_range (v : V) : 0 ≤ lon v ∧ lon v < 2 * Real.pi := by
  have h1 := Complex.neg_pi_lt_arg ⟨v.x, v.y⟩
  have h2 := Complex.arg_le_pi ⟨v.x, v.y⟩
  have hp := Real.pi_pos
  unfold lon wrap atan2
  split
  · constructor <;> linarith
  · constructor <;> linarith

theorem lat_range (v : V) : -(Real.pi / 2) ≤ lat v ∧ lat v ≤ Real.pi / 2 := by
  have h : |Complex.arg ⟨hypot v.x v.y, v.z⟩| ≤ Real.pi / 2 := Complex.abs_arg_le_pi_div_two_iff.2 (hypot_nonneg _ _)
  exact abs_le.1 h

theorem atan2_polar (r a : ℝ) (hr : 0 < r) (h1 : -Real.pi < a) (h2 : a ≤ Real.pi) : atan2 (r * Real.sin a) (r * Real.cos a) = a := by
  unfold atan2
  have : (⟨r * Real.cos a, r * Real.sin a⟩ : ℂ) = (r : ℂ) * (Complex.cos a + Complex.sin a * Complex.I) := by
    apply Complex.ext <;> simp [Complex.cos_ofReal_re, Complex.sin_ofReal_re, Complex.cos_ofReal_im, Complex.sin_ofReal_im]
  rw [this]
  exact Complex.arg_mul_cos_add_sin_mul_I hr ⟨h1, h2⟩

/-- The angles of a direction off the vertical. -/
theorem angles_direction (az el : ℝ) (ha : 0 ≤ az) (hb : az < 2 * Real.pi) (h1 : -(Real.pi / 2) < el) (h2 : el < Real.pi / 2) :
    lon (direction az el) = az ∧ lat (direction az el) = el := by
  have hc : 0 < Real.cos el := Real.cos_pos_of_mem_Ioo ⟨h1, h2⟩
  have hp := Real.pi_pos
  constructor
  · show wrap (atan2 (Real.cos el * Real.sin az) (Real.cos el * Real.cos az)) = az
    unfold wrap
    by_cases h : az ≤ Real.pi
    · rw [atan2_polar _ _ hc (by linarith) h, if_neg (by linarith)]
    · have : atan2 (Real.cos el * Real.sin az) (Real.cos el * Real.cos az) = az - 2 * Real.pi := by
        rw [← Real.sin_sub_two_pi, ← Real.cos_sub_two_pi az]
        exact atan2_polar _ _ hc (by linarith) (by linarith)
      rw [this, if_pos (by linarith)]
      ring
  · have hh : hypot (Real.cos el * Real.cos az) (Real.cos el * Real.sin az) = Real.cos el := by
      unfold hypot
      rw [show Real.cos el * Real.cos az * (Real.cos el * Real.cos az) + Real.cos el * Real.sin az * (Real.cos el * Real.sin az) = Real.cos el ^ 2 by
        linear_combination (Real.cos el ^ 2) * cs az]
      exact Real.sqrt_sq hc.le
    have := atan2_polar 1 el one_pos (by linarith) (by linarith)
    simpa [lat, direction, hh] using this

/-! ## Axes at a place -/

theorem altaz_inv (s : Place) (v : V) : (altaz s).app ((altazInv s).app v) = v := by
  have c1 := cs s.lat
  have c2 := cs s.long
  ext <;> simp only [M.app, altaz, altazInv, dot]
  · linear_combination (Real.sin s.lat ^ 2 * v.x - Real.sin s.lat * Real.cos s.lat * v.z) * c2 + v.x * c1
  · linear_combination v.y * c2
  · linear_combination (Real.cos s.lat ^ 2 * v.z - Real.sin s.lat * Real.cos s.lat * v.x) * c2 + v.z * c1

theorem inv_altaz (s : Place) (v : V) : (altazInv s).app ((altaz s).app v) = v := by
  have c1 := cs s.lat
  have c2 := cs s.long
  ext <;> simp only [M.app, altaz, altazInv, dot]
  · linear_combination (Real.cos s.long ^ 2 * v.x + Real.sin s.long * Real.cos s.long * v.y) * c1 + v.x * c2
  · linear_combination (Real.sin s.long ^ 2 * v.y + Real.sin s.long * Real.cos s.long * v.x) * c1 + v.y * c2
  · linear_combination v.z * c1

theorem altaz_dot (s : Place) (v w : V) : dot ((altaz s).app v) ((altaz s).app w) = dot v w := by
  have c1 := cs s.lat
  have c2 := cs s.long
  simp only [M.app, altaz, dot]
  linear_combination ((Real.cos s.long * v.x + Real.sin s.long * v.y) * (Real.cos s.long * w.x + Real.sin s.long * w.y) + v.z * w.z) * c1
    + (v.x * w.x + v.y * w.y) * c2

end Verif.Pointing
