import Verif.Model.Uvw
import Mathlib.Analysis.SpecialFunctions.Trigonometric.Inverse
import Mathlib.Tactic.Ring
import Mathlib.Tactic.LinearCombination
import Mathlib.Tactic.FieldSimp
import Mathlib.Tactic.Linarith
import Mathlib.Tactic.Positivity
/-!
# C34: uvw coordinates, C58: uv tracks
-/
namespace Verif.Uvw

open Real

/-! ### specification -/

/-- Length of a vector, squared. -/
def norm2 (v : Vec) : ℝ := v.x ^ 2 + v.y ^ 2 + v.z ^ 2

/-- Direction (east, north, up) of a source at hour angle `ha` and declination `dec` seen from latitude
`lat`. -/
noncomputable def sourceDir (ha dec lat : ℝ) : Vec :=
  ⟨-cos dec * sin ha, sin dec * cos lat - cos dec * cos ha * sin lat,
    sin dec * sin lat + cos dec * cos ha * cos lat⟩

/-- Direction of increasing right ascension (decreasing hour angle) at the source. -/
noncomputable def eastDir (ha lat : ℝ) : Vec := ⟨cos ha, -sin ha * sin lat, sin ha * cos lat⟩

/-- Direction of increasing declination at the source. -/
noncomputable def northDir (ha dec lat : ℝ) : Vec :=
  ⟨sin dec * sin ha, cos dec * cos lat + sin dec * cos ha * sin lat,
    cos dec * sin lat - sin dec * cos ha * cos lat⟩

/-- Volume spanned by three vectors, with sign. -/
def triple (a b c : Vec) : ℝ :=
  a.x * (b.y * c.z - b.z * c.y) - a.y * (b.x * c.z - b.z * c.x) + a.z * (b.x * c.y - b.y * c.x)

theorem uvw_eq (ha dec lat freq : ℝ) (a1 a2 : Vec) : uvw ha dec lat freq a1 a2 =
    ⟨freq / c * dot (eastDir ha lat) (a1.sub a2), freq / c * dot (northDir ha dec lat) (a1.sub a2),
      freq / c * dot (sourceDir ha dec lat) (a1.sub a2)⟩ := by
  ext <;> simp only [uvw, Mat.mul, Mat.apply, trans1, trans2, dot, eastDir, northDir, sourceDir] <;> ring

/-! ### C34 -/

/-- `u`, `v` and `w` are the components of the baseline in wavelengths to the east and north on the sky
and towards the source. -/
theorem C34_components (ha dec lat freq : ℝ) (a1 a2 : Vec) :
    (uvw ha dec lat freq a1 a2).x = freq / c * dot (eastDir ha lat) (a1.sub a2) ∧
    (uvw ha dec lat freq a1 a2).y = freq / c * dot (northDir ha dec lat) (a1.sub a2) ∧
    (uvw ha dec lat freq a1 a2).z = freq / c * dot (sourceDir ha dec lat) (a1.sub a2) := by
  rw [uvw_eq]
  exact ⟨rfl, rfl, rfl⟩

/-- The length is that of the baseline in wavelengths. -/
theorem C34_length (ha dec lat freq : ℝ) (a1 a2 : Vec) :
    norm2 (uvw ha dec lat freq a1 a2) = (freq / c) ^ 2 * norm2 (a1.sub a2) := by
  rw [uvw_eq]
  simp only [norm2, dot, eastDir, northDir, sourceDir]
  generalize (a1.sub a2).x = x
  generalize (a1.sub a2).y = y
  generalize (a1.sub a2).z = z
  have h1 := sin_sq_add_cos_sq ha
  have h2 := sin_sq_add_cos_sq dec
  have h3 := sin_sq_add_cos_sq lat
  generalize sin ha = s1 at *
  generalize cos ha = c1 at *
  generalize sin dec = s2 at *
  generalize cos dec = c2 at *
  generalize sin lat = s3 at *
  generalize cos lat = c3 at *
  have k1 : s1 ^ 2 = 1 - c1 ^ 2 := by linarith
  have k2 : s2 ^ 2 = 1 - c2 ^ 2 := by linarith
  have k3 : s3 ^ 2 = 1 - c3 ^ 2 := by linarith
  -- rotate in two steps: latitude, then hour angle and declination
  have e1 : (c1 * x + -s1 * s3 * y + s1 * c3 * z) ^ 2 +
      (s2 * s1 * x + (c2 * c3 + s2 * c1 * s3) * y + (c2 * s3 - s2 * c1 * c3) * z) ^ 2 +
      (-c2 * s1 * x + (s2 * c3 - c2 * c1 * s3) * y + (s2 * s3 + c2 * c1 * c3) * z) ^ 2 =
      x ^ 2 + y ^ 2 + z ^ 2 := by
    have step2 : ∀ X Y Z : ℝ, (s1 * X + c1 * Y) ^ 2 + (-s2 * c1 * X + s2 * s1 * Y + c2 * Z) ^ 2 +
        (c2 * c1 * X + -c2 * s1 * Y + s2 * Z) ^ 2 = X ^ 2 + Y ^ 2 + Z ^ 2 := by
      intro X Y Z
      linear_combination (X ^ 2 + Y ^ 2) * h1 + ((c1 * X - s1 * Y) ^ 2 + Z ^ 2) * h2
    have := step2 (-s3 * y + c3 * z) x (c3 * y + s3 * z)
    have e : (-s3 * y + c3 * z) ^ 2 + x ^ 2 + (c3 * y + s3 * z) ^ 2 = x ^ 2 + y ^ 2 + z ^ 2 := by
      linear_combination (y ^ 2 + z ^ 2) * h3
    rw [← e, ← this]
    ring
  linear_combination (freq / c) ^ 2 * e1

theorem C34_antisymmetric (ha dec lat freq : ℝ) (a1 a2 : Vec) :
    uvw ha dec lat freq a2 a1 = ⟨-(uvw ha dec lat freq a1 a2).x, -(uvw ha dec lat freq a1 a2).y,
      -(uvw ha dec lat freq a1 a2).z⟩ := by
  rw [uvw_eq, uvw_eq]
  ext <;> simp only [dot, Vec.sub] <;> ring

/-- Around a triangle the coordinates add up to zero. -/
theorem C34_closure (ha dec lat freq : ℝ) (a1 a2 a3 : Vec) :
    (uvw ha dec lat freq a1 a2).x + (uvw ha dec lat freq a2 a3).x + (uvw ha dec lat freq a3 a1).x = 0 ∧
    (uvw ha dec lat freq a1 a2).y + (uvw ha dec lat freq a2 a3).y + (uvw ha dec lat freq a3 a1).y = 0 ∧
    (uvw ha dec lat freq a1 a2).z + (uvw ha dec lat freq a2 a3).z + (uvw ha dec lat freq a3 a1).z = 0 := by
  rw [uvw_eq, uvw_eq, uvw_eq]
  refine ⟨?_, ?_, ?_⟩ <;> simp only [dot, Vec.sub] <;> ring

/-- It is a rotation, not a reflection: volumes keep their sign. -/
theorem C34_right_handed (ha dec lat freq : ℝ) (a b d o : Vec) :
    triple (uvw ha dec lat freq a o) (uvw ha dec lat freq b o) (uvw ha dec lat freq d o) =
      (freq / c) ^ 3 * triple (a.sub o) (b.sub o) (d.sub o) := by
  rw [uvw_eq, uvw_eq, uvw_eq]
  have h1 := sin_sq_add_cos_sq ha
  have h2 := sin_sq_add_cos_sq dec
  have h3 := sin_sq_add_cos_sq lat
  have hdet : triple (eastDir ha lat) (northDir ha dec lat) (sourceDir ha dec lat) = 1 := by
    simp only [triple, eastDir, northDir, sourceDir]
    generalize sin ha = s1 at *
    generalize cos ha = c1 at *
    generalize sin dec = s2 at *
    generalize cos dec = c2 at *
    generalize sin lat = s3 at *
    generalize cos lat = c3 at *
    linear_combination (s2 ^ 2 + c2 ^ 2) * (s3 ^ 2 + c3 ^ 2) * h1 + (s3 ^ 2 + c3 ^ 2) * h2 + h3
  have : triple ⟨freq / c * dot (eastDir ha lat) (a.sub o), freq / c * dot (northDir ha dec lat) (a.sub o),
      freq / c * dot (sourceDir ha dec lat) (a.sub o)⟩ ⟨freq / c * dot (eastDir ha lat) (b.sub o),
      freq / c * dot (northDir ha dec lat) (b.sub o), freq / c * dot (sourceDir ha dec lat) (b.sub o)⟩
      ⟨freq / c * dot (eastDir ha lat) (d.sub o), freq / c * dot (northDir ha dec lat) (d.sub o),
      freq / c * dot (sourceDir ha dec lat) (d.sub o)⟩ =
      (freq / c) ^ 3 * (triple (eastDir ha lat) (northDir ha dec lat) (sourceDir ha dec lat) *
        triple (a.sub o) (b.sub o) (d.sub o)) := by
    generalize eastDir ha lat = e1
    generalize northDir ha dec lat = e2
    generalize sourceDir ha dec lat = e3
    generalize a.sub o = p
    generalize b.sub o = q
    generalize d.sub o = r
    simp only [triple, dot]
    ring
  rw [this, hdet, one_mul]

/-- At the zenith the coordinates are the east, north and up components. -/
theorem C34_zenith (lat freq : ℝ) (a1 a2 : Vec) :
    uvw 0 lat lat freq a1 a2 = ⟨freq / c * (a1.x - a2.x), freq / c * (a1.y - a2.y), freq / c * (a1.z - a2.z)⟩ := by
  rw [uvw_eq]
  have h3 := sin_sq_add_cos_sq lat
  ext
  · simp [dot, eastDir, Vec.sub]
  · simp only [dot, northDir, Vec.sub, sin_zero, cos_zero]
    linear_combination freq / c * (a1.y - a2.y) * h3
  · simp only [dot, sourceDir, Vec.sub, sin_zero, cos_zero]
    linear_combination freq / c * (a1.z - a2.z) * h3

/-- 24 hours later the source is at the same place. -/
theorem C34_period (b : List (Vec × Vec)) (ha dec lat : ℝ) (f : List ℝ) :
    computeUvw b (ha + 24) dec lat f = computeUvw b ha dec lat f := by
  have e : haRad (ha + 24) = haRad ha + 2 * π := by unfold haRad; ring
  unfold computeUvw
  simp only [e]
  have : ∀ f a1 a2, uvw (haRad ha + 2 * π) (degRad dec) lat f a1 a2 = uvw (haRad ha) (degRad dec) lat f a1 a2 := by
    intro f a1 a2
    simp only [uvw, trans2, sin_add_two_pi, cos_add_two_pi]
  simp only [this]

/-- Rows and columns of the result belong to the baselines and the frequencies, in order; hour angles are
in hours, declinations in degrees; coordinates scale with the frequency. -/
theorem C34_rows (b : List (Vec × Vec)) (ha dec lat : ℝ) (f : List ℝ) (k m : ℕ) (p : Vec × Vec) (g : ℝ)
    (hk : b[k]? = some p) (hm : f[m]? = some g) :
    ((computeUvw b ha dec lat f)[k]?.bind (fun r => r[m]?)) =
      some ⟨g / c * dot (eastDir (ha * (2 * π / 24)) lat) (p.1.sub p.2),
        g / c * dot (northDir (ha * (2 * π / 24)) (dec * (2 * π / 360)) lat) (p.1.sub p.2),
        g / c * dot (sourceDir (ha * (2 * π / 24)) (dec * (2 * π / 360)) lat) (p.1.sub p.2)⟩ := by
  rw [show ha * (2 * π / 24) = haRad ha by unfold haRad; ring,
    show dec * (2 * π / 360) = degRad dec by unfold degRad; ring]
  simp only [computeUvw, List.getElem?_map, hk, hm, Option.map_some, Option.bind_some, uvw_eq]

/-! ### C58 -/

/-- Points of the unit circle are angles. -/
theorem exists_angle (s co : ℝ) (h : s ^ 2 + co ^ 2 = 1) : ∃ t, sin t = s ∧ cos t = co := by
  have h1 : -1 ≤ co := by nlinarith [sq_nonneg s]
  have h2 : co ≤ 1 := by nlinarith [sq_nonneg s]
  rcases le_or_gt 0 s with hs | hs
  · refine ⟨arccos co, ?_, cos_arccos h1 h2⟩
    rw [sin_arccos, show 1 - co ^ 2 = s ^ 2 by linarith, sqrt_sq hs]
  · refine ⟨-arccos co, ?_, ?_⟩
    · rw [sin_neg, sin_arccos, show 1 - co ^ 2 = (-s) ^ 2 by nlinarith, sqrt_sq (by linarith)]
      ring
    · rw [cos_neg]; exact cos_arccos h1 h2

theorem linspace_bounds (r : ℝ) (hr : 0 ≤ r) (i : ℕ) (hi : i < 256) :
    -r ≤ linspace (-r) r 256 i ∧ linspace (-r) r 256 i ≤ r := by
  unfold linspace
  have h1 : (i : ℝ) ≤ 255 := by exact_mod_cast (by omega : i ≤ 255)
  have h0 : (0 : ℝ) ≤ i := Nat.cast_nonneg i
  have e : ((256 : ℕ) : ℝ) - 1 = 255 := by norm_num
  rw [e]
  constructor
  · have : 0 ≤ (i : ℝ) * ((r - -r) / 255) := by
      rw [sub_neg_eq_add]; positivity
    linarith
  · have : (i : ℝ) * ((r - -r) / 255) ≤ 255 * ((r - -r) / 255) :=
      mul_le_mul_of_nonneg_right h1 (by rw [sub_neg_eq_add]; positivity)
    have e2 : (255 : ℝ) * ((r - -r) / 255) = 2 * r := by ring
    linarith

/-- Solving for the hour angle. -/
theorem solve_ha (X Y u q : ℝ) (h : u ^ 2 + q ^ 2 = X ^ 2 + Y ^ 2) :
    ∃ t, sin t * X + cos t * Y = u ∧ sin t * Y - cos t * X = q := by
  by_cases h0 : X ^ 2 + Y ^ 2 = 0
  · have hx : X = 0 := by nlinarith [sq_nonneg X, sq_nonneg Y]
    have hy : Y = 0 := by nlinarith [sq_nonneg X, sq_nonneg Y]
    have hu : u = 0 := by nlinarith [sq_nonneg u, sq_nonneg q]
    have hq : q = 0 := by nlinarith [sq_nonneg u, sq_nonneg q]
    exact ⟨0, by simp [hx, hy, hu], by simp [hx, hy, hq]⟩
  · obtain ⟨t, hs, hc⟩ := exists_angle ((X * u + Y * q) / (X ^ 2 + Y ^ 2)) ((Y * u - X * q) / (X ^ 2 + Y ^ 2)) (by
      field_simp
      linear_combination (X ^ 2 + Y ^ 2) * h)
    refine ⟨t, ?_, ?_⟩
    · rw [hs, hc]; field_simp; ring
    · rw [hs, hc]; field_simp; ring

/-- Every point of the track is the uv position of the baseline at some hour angle. -/
theorem C58_on_track (dec lat freq : ℝ) (a1 a2 : Vec) (k : ℕ) (hk : k < 512) :
    ∃ ha, uvTrack dec lat freq a1 a2 k = ((uvw ha dec lat freq a1 a2).x, (uvw ha dec lat freq a1 a2).y) := by
  have key : ∀ ha, uvw ha dec lat freq a1 a2 =
      ⟨(sin ha * ((trans1 lat).apply (a1.sub a2)).x + cos ha * ((trans1 lat).apply (a1.sub a2)).y) * freq / c,
        ((sin ha * ((trans1 lat).apply (a1.sub a2)).y - cos ha * ((trans1 lat).apply (a1.sub a2)).x) * sin dec +
          ((trans1 lat).apply (a1.sub a2)).z * cos dec) * freq / c,
        (uvw ha dec lat freq a1 a2).z⟩ := by
    intro ha
    ext
    · simp only [uvw, Mat.mul, Mat.apply, trans1, trans2, dot]; ring
    · simp only [uvw, Mat.mul, Mat.apply, trans1, trans2, dot]; ring
    · rfl
  unfold uvTrack
  simp only
  generalize (trans1 lat).apply (a1.sub a2) = p at key
  have hr : 0 ≤ p.x ^ 2 + p.y ^ 2 := by positivity
  have hsq : sqrt (p.x ^ 2 + p.y ^ 2) ^ 2 = p.x ^ 2 + p.y ^ 2 := sq_sqrt hr
  have main : ∀ i, i < 256 → ∀ sgn : ℝ, sgn ^ 2 = 1 → ∃ ha,
      sin ha * p.x + cos ha * p.y = linspace (-sqrt (p.x ^ 2 + p.y ^ 2)) (sqrt (p.x ^ 2 + p.y ^ 2)) 256 i ∧
      sin ha * p.y - cos ha * p.x = sgn * sqrt (p.x ^ 2 + p.y ^ 2 -
        linspace (-sqrt (p.x ^ 2 + p.y ^ 2)) (sqrt (p.x ^ 2 + p.y ^ 2)) 256 i ^ 2) := by
    intro i hi sgn hsgn
    obtain ⟨b1, b2⟩ := linspace_bounds (sqrt (p.x ^ 2 + p.y ^ 2)) (sqrt_nonneg _) i hi
    generalize linspace (-sqrt (p.x ^ 2 + p.y ^ 2)) (sqrt (p.x ^ 2 + p.y ^ 2)) 256 i = u at b1 b2
    apply solve_ha
    have h0 : 0 ≤ p.x ^ 2 + p.y ^ 2 - u ^ 2 := by
      rw [← hsq]; nlinarith [sqrt_nonneg (p.x ^ 2 + p.y ^ 2)]
    rw [mul_pow, hsgn, sq_sqrt h0]
    ring
  by_cases h : k < 256
  · rw [if_pos h]
    obtain ⟨ha, e1, e2⟩ := main k h 1 (by norm_num)
    refine ⟨ha, ?_⟩
    rw [key ha, e1, e2, one_mul]
  · rw [if_neg h]
    obtain ⟨ha, e1, e2⟩ := main (511 - k) (by omega) (-1) (by norm_num)
    refine ⟨ha, ?_⟩
    rw [key ha, e1, e2]
    simp only [neg_mul, one_mul]

/-- The uv positions at all hour angles are on one ellipse, whose ends in `u` are the ends of the track. -/
theorem C58_ellipse (ha dec lat freq : ℝ) (a1 a2 : Vec) :
    let p := (trans1 lat).apply (a1.sub a2)
    let q := uvw ha dec lat freq a1 a2
    (q.x * sin dec) ^ 2 + (q.y - freq / c * p.z * cos dec) ^ 2 = (freq / c * sin dec) ^ 2 * (p.x ^ 2 + p.y ^ 2) := by
  simp only [uvw, Mat.mul, Mat.apply, trans1, trans2, dot]
  have h1 := sin_sq_add_cos_sq ha
  linear_combination (freq / c * sin dec) ^ 2 *
    ((-sin lat * (a1.sub a2).y + cos lat * (a1.sub a2).z) ^ 2 + (a1.sub a2).x ^ 2) * h1

/-- First and last point of the upper branch, and where the lower branch starts. -/
theorem C58_ends (dec lat freq : ℝ) (a1 a2 : Vec) :
    let p := (trans1 lat).apply (a1.sub a2)
    uvTrack dec lat freq a1 a2 0 = (-sqrt (p.x ^ 2 + p.y ^ 2) * freq / c, p.z * cos dec * freq / c) ∧
    uvTrack dec lat freq a1 a2 255 = (sqrt (p.x ^ 2 + p.y ^ 2) * freq / c, p.z * cos dec * freq / c) ∧
    uvTrack dec lat freq a1 a2 256 = uvTrack dec lat freq a1 a2 255 ∧
    uvTrack dec lat freq a1 a2 511 = uvTrack dec lat freq a1 a2 0 := by
  intro p
  have hr : 0 ≤ p.x ^ 2 + p.y ^ 2 := by positivity
  have hsq : sqrt (p.x ^ 2 + p.y ^ 2) ^ 2 = p.x ^ 2 + p.y ^ 2 := sq_sqrt hr
  have l0 : ∀ r : ℝ, linspace (-r) r 256 0 = -r := by intro r; simp [linspace]
  have l1 : ∀ r : ℝ, linspace (-r) r 256 255 = r := by
    intro r; unfold linspace; push_cast; ring
  have z0 : sqrt (p.x ^ 2 + p.y ^ 2 - (-sqrt (p.x ^ 2 + p.y ^ 2)) ^ 2) = 0 := by
    rw [neg_sq, hsq, sub_self, sqrt_zero]
  have z1 : sqrt (p.x ^ 2 + p.y ^ 2 - sqrt (p.x ^ 2 + p.y ^ 2) ^ 2) = 0 := by
    rw [hsq, sub_self, sqrt_zero]
  refine ⟨?_, ?_, ?_, ?_⟩ <;> unfold uvTrack <;> simp only [p] at * <;> norm_num [l0, l1, z0, z1]

/-- A concrete baseline: 3 m east and 4 m north at the zenith. -/
example : norm2 (uvw 0 0.6 0.6 c ⟨3, 4, 0⟩ ⟨0, 0, 0⟩) = 25 := by
  rw [C34_length]
  have : c ≠ 0 := by unfold c; norm_num
  rw [div_self this]
  norm_num [norm2, Vec.sub]

end Verif.Uvw
