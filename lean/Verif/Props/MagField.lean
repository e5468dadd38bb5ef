import Verif.Lemmas.MagField
/-! # C100: the magnetic field is minus the gradient of the potential -/
namespace Verif.MagField
open Polynomial Spec

/-- Along any path through space the potential changes by minus the product of the field with the velocity: the field is
minus the gradient of the potential.  Off the axis of the Earth. -/
theorem C100_gradient (a : ℝ) (c : Coeffs) (hd : ∀ n ∈ c.degrees, 1 ≤ n) (r lt ln : ℝ → ℝ) (r' lt' ln' t : ℝ) (hr : HasDerivAt r r' t)
    (hl : HasDerivAt lt lt' t) (hn : HasDerivAt ln ln' t) (h0 : r t ≠ 0) (hc : 0 < Real.cos (lt t)) (v : ℝ × ℝ × ℝ)
    (hx : HasDerivAt (fun x => (place (r x) (lt x) (ln x)).1) v.1 t) (hy : HasDerivAt (fun x => (place (r x) (lt x) (ln x)).2.1) v.2.1 t)
    (hz : HasDerivAt (fun x => (place (r x) (lt x) (ln x)).2.2) v.2.2 t) :
    HasDerivAt (fun x => potential a c (r x) (lt x) (ln x)) (-dot (ecef a c (r t) (lt t) (ln t)) v) t := by
  have dcl : HasDerivAt (fun x => Real.cos (lt x)) (-Real.sin (lt t) * lt') t := (Real.hasDerivAt_cos (lt t)).comp t hl
  have dsl : HasDerivAt (fun x => Real.sin (lt x)) (Real.cos (lt t) * lt') t := (Real.hasDerivAt_sin (lt t)).comp t hl
  have dcn : HasDerivAt (fun x => Real.cos (ln x)) (-Real.sin (ln t) * ln') t := (Real.hasDerivAt_cos (ln t)).comp t hn
  have dsn : HasDerivAt (fun x => Real.sin (ln x)) (Real.cos (ln t) * ln') t := (Real.hasDerivAt_sin (ln t)).comp t hn
  have ex := hx.unique ((hr.mul dcl).mul dcn)
  have ey := hy.unique ((hr.mul dcl).mul dsn)
  have ez := hz.unique (hr.mul dsl)
  have hv : v = (r' * (Real.cos (lt t) * Real.cos (ln t)) + r t * (-Real.sin (lt t) * lt' * Real.cos (ln t) + Real.cos (lt t) * (-Real.sin (ln t) * ln')),
       r' * (Real.cos (lt t) * Real.sin (ln t)) + r t * (-Real.sin (lt t) * lt' * Real.sin (ln t) + Real.cos (lt t) * (Real.cos (ln t) * ln')),
       r' * Real.sin (lt t) + r t * (Real.cos (lt t) * lt')) := by
    refine Prod.ext ?_ (Prod.ext ?_ ?_)
    · rw [ex]; simp only [Pi.mul_apply]; ring
    · rw [ey]; simp only [Pi.mul_apply]; ring
    · rw [ez]
  rw [hv]
  unfold ecef
  rw [dot_place]
  exact potential_deriv a c hd r lt ln r' lt' ln' t hr hl hn h0 hc

/-- `cos · dP/dlat` and its derivative. -/
theorem theta_deriv (n m : ℕ) (hn : 1 ≤ n) (lt : ℝ) :
    HasDerivAt (fun x => Real.cos x * P' n m x)
      (((m : ℝ) * ((m : ℝ) * Real.cos lt ^ (m - 1)) - (n : ℝ) * ((n : ℝ) + 1) * (Real.cos lt * Real.cos lt ^ m)) * (q n m).eval (Real.sin lt)) lt := by
  obtain ⟨k, rfl⟩ : ∃ k, n = k + 1 := ⟨n - 1, by omega⟩
  have hf : (fun x => Real.cos x * P' (k + 1) m x) = fun x => (-(m : ℝ) * (Real.sin x * Real.cos x ^ m)) * (q (k + 1) m).eval (Real.sin x) + Real.cos x ^ (m + 2) * (q (k + 1) (m + 1)).eval (Real.sin x) := by
    funext x
    unfold P'
    have hp := pow_pred (Real.cos x) m
    rw [pow_add]
    linear_combination (-(Real.sin x) * (q (k + 1) m).eval (Real.sin x)) * hp
  rw [hf]
  have d1 := (((Real.hasDerivAt_sin lt).mul ((Real.hasDerivAt_cos lt).pow m)).const_mul (-(m : ℝ))).mul (eval_deriv (k + 1) m lt)
  have d2 := ((Real.hasDerivAt_cos lt).pow (m + 2)).mul (eval_deriv (k + 1) (m + 1) lt)
  refine (d1.add d2).congr_deriv ?_
  simp only [Pi.mul_apply, Pi.pow_apply]
  have hp := pow_pred (Real.cos lt) m
  have hl := legendre_eval k m (Real.sin lt)
  have hc := Real.sin_sq_add_cos_sq lt
  rw [show m + 2 - 1 = m + 1 by omega, pow_add, pow_add]
  push_cast
  generalize Real.cos lt ^ (m - 1) = w at *
  generalize Real.cos lt ^ m = z at *
  generalize (q (k + 1) m).eval (Real.sin lt) = Q at *
  generalize (q (k + 1) (m + 1)).eval (Real.sin lt) = Q1 at *
  generalize (q (k + 1) (m + 1 + 1)).eval (Real.sin lt) = Q2 at *
  generalize Real.sin lt = s at *
  generalize Real.cos lt = d at *
  linear_combination ((m : ℝ) * ((m : ℝ) * w) * Q - d * z * (d ^ 0) * Q2 * (-1)) * hc + (-(m : ℝ) * d * Q) * hp - d * z * hl

/-- The field has no sources: its divergence in spherical coordinates vanishes. -/
theorem C100_no_sources (a : ℝ) (c : Coeffs) (hd : ∀ n ∈ c.degrees, 1 ≤ n) (r lt ln : ℝ) (h0 : r ≠ 0) (hc : 0 < Real.cos lt) :
    ∃ A B D : ℝ, HasDerivAt (fun x => x ^ 2 * fieldR a c x lt ln) A r ∧ HasDerivAt (fun x => Real.cos x * fieldT a c r x ln) B lt ∧
      HasDerivAt (fun x => fieldP a c r lt x) D ln ∧ A / r ^ 2 - B / (r * Real.cos lt) + D / (r * Real.cos lt) = 0 := by
  refine ⟨total c (fun n m => -(((n : ℝ) + 1) * (n : ℝ) * (a / r) ^ (n + 2) * r) * az c n m ln * (schmidt n m * P n m lt)),
    total c (fun n m => (a / r) ^ (n + 2) * az c n m ln * (schmidt n m * (((m : ℝ) * ((m : ℝ) * Real.cos lt ^ (m - 1)) - (n : ℝ) * ((n : ℝ) + 1) * (Real.cos lt * Real.cos lt ^ m)) * (q n m).eval (Real.sin lt)))),
    total c (fun n m => -((a / r) ^ (n + 2) * (-((m : ℝ) ^ 2 * az c n m ln)) * (schmidt n m * P n m lt)) / Real.cos lt), ?_, ?_, ?_, ?_⟩
  · have hf : (fun x => x ^ 2 * fieldR a c x lt ln) = fun x => total c (fun n m => ((n : ℝ) + 1) * ((a / x) ^ (n + 2) * x ^ 2) * az c n m ln * (schmidt n m * P n m lt)) := by
      funext x
      rw [fieldR_eq a c x lt ln hc, mul_comm, total_mul]
      apply total_congr; intro n _ m; ring
    rw [hf]
    apply total_deriv
    intro n _ m
    have h1 : HasDerivAt (fun x => (a / x) ^ (n + 2)) (((n : ℝ) + 2) * (a / r) ^ (n + 1) * (-a / r ^ 2)) r := by
      have h2 : HasDerivAt (fun x => a / x) (-a / r ^ 2) r := by
        refine ((hasDerivAt_const r a).div (hasDerivAt_id r) h0).congr_deriv ?_
        simp
      refine (h2.pow (n + 2)).congr_deriv ?_
      rw [show n + 2 - 1 = n + 1 by omega]; push_cast; ring
    have h2 : HasDerivAt (fun x : ℝ => x ^ 2) (2 * r) r := by simpa using hasDerivAt_pow 2 r
    refine ((((h1.mul h2).const_mul ((n : ℝ) + 1)).mul_const (az c n m ln)).mul_const (schmidt n m * P n m lt)).congr_deriv ?_
    have e : (a / r) ^ (n + 2) = (a / r) ^ (n + 1) * (a / r) := pow_succ _ _
    rw [e]
    field_simp
    ring
  · have hev : (fun x => Real.cos x * fieldT a c r x ln) =ᶠ[nhds lt] fun x => total c (fun n m => (a / r) ^ (n + 2) * az c n m ln * (schmidt n m * (Real.cos x * P' n m x))) := by
      have hpos : ∀ᶠ x in nhds lt, 0 < Real.cos x := Real.continuous_cos.continuousAt.eventually (lt_mem_nhds hc)
      filter_upwards [hpos] with x hx
      rw [fieldT_eq a c r x ln hd hx, mul_comm, total_mul]
      apply total_congr; intro n _ m; ring
    refine HasDerivAt.congr_of_eventuallyEq ?_ hev
    apply total_deriv
    intro n hn m
    exact ((theta_deriv n m (hd n hn) lt).const_mul (schmidt n m)).const_mul _
  · have hf : (fun x => fieldP a c r lt x) = fun x => total c (fun n m => -((a / r) ^ (n + 2) * az' c n m x * (schmidt n m * P n m lt)) / Real.cos lt) := by
      funext x; exact fieldP_eq a c r lt x hc
    rw [hf]
    apply total_deriv
    intro n _ m
    have h1 : HasDerivAt (fun x : ℝ => (m : ℝ) * x) m ln := by simpa using (hasDerivAt_id ln).const_mul (m : ℝ)
    have hcos := ((Real.hasDerivAt_cos (m * ln)).comp ln h1).const_mul (c.h n m * m)
    have hsin := ((Real.hasDerivAt_sin (m * ln)).comp ln h1).const_mul (c.g n m * m)
    have haz : HasDerivAt (az' c n m) (-((m : ℝ) ^ 2 * az c n m ln)) ln := by
      refine (hsin.neg.add hcos).congr_deriv ?_
      unfold az; ring
    exact (((haz.const_mul _).mul_const _).neg).div_const _
  · have hs : ∀ (x y z : ℝ), x / r ^ 2 - y / (r * Real.cos lt) + z / (r * Real.cos lt) = x * (1 / r ^ 2) + (y * (-(1 / (r * Real.cos lt))) + z * (1 / (r * Real.cos lt))) := by
      intro x y z; ring
    rw [hs, total_mul, total_mul, total_mul, total_add, total_add]
    have hz : total c (fun _ _ => (0 : ℝ)) = 0 := by simp [total]
    rw [← hz]
    apply total_congr
    intro n _ m
    have hp := pow_pred (Real.cos lt) m
    have hP : P n m lt = Real.cos lt ^ m * (q n m).eval (Real.sin lt) := rfl
    rw [hP]
    have hc2 := hc.ne'
    have hw : (m : ℝ) * Real.cos lt ^ (m - 1) = (m : ℝ) * Real.cos lt ^ m / Real.cos lt := by
      rw [eq_div_iff hc2]; linear_combination hp
    rw [hw]
    field_simp
    ring

/-- North, east and up are the components along those directions. -/
theorem C100_components (b : ℝ × ℝ × ℝ) (lt ln : ℝ) : topo b lt ln = (dot b (north lt ln), dot b (east ln), dot b (up lt ln)) := by
  unfold topo dot north east up
  refine Prod.ext ?_ (Prod.ext ?_ ?_) <;> simp only <;> ring

/-- The three directions are at right angles and of length one, so that the strength of the field is kept. -/
theorem C100_strength (b : ℝ × ℝ × ℝ) (lt ln : ℝ) : dot (topo b lt ln) (topo b lt ln) = dot b b := by
  have h1 := Real.sin_sq_add_cos_sq lt
  have h2 := Real.sin_sq_add_cos_sq ln
  unfold topo dot
  simp only
  generalize Real.sin lt = s at *
  generalize Real.cos lt = d at *
  generalize Real.sin ln = u at *
  generalize Real.cos ln = v at *
  obtain ⟨x, y, z⟩ := b
  simp only
  linear_combination ((v * x + u * y) ^ 2 + z ^ 2) * h1 + (x ^ 2 + y ^ 2) * h2

/-- The spherical components have the same strength as the ones along the axes. -/
theorem C100_ecef_strength (br bt bp lt ln : ℝ) : dot (toEcef br bt bp lt ln) (toEcef br bt bp lt ln) = br ^ 2 + bt ^ 2 + bp ^ 2 := by
  have h1 := Real.sin_sq_add_cos_sq lt
  have h2 := Real.sin_sq_add_cos_sq ln
  unfold toEcef dot
  simp only
  generalize Real.sin lt = s at *
  generalize Real.cos lt = d at *
  generalize Real.sin ln = u at *
  generalize Real.cos ln = v at *
  linear_combination ((br * d + bt * s) ^ 2 + bp ^ 2) * h2 + (br ^ 2 + bt ^ 2) * h1

/-- Distance and angles are those of the place. -/
theorem C100_geocentric (x y z : ℝ) (h : x ≠ 0 ∨ y ≠ 0) :
    place (geocentric x y z).1 (geocentric x y z).2.1 (geocentric x y z).2.2 = (x, y, z) ∧ 0 < Real.cos (geocentric x y z).2.1 ∧ (geocentric x y z).1 ≠ 0 := by
  have hxy : 0 < x ^ 2 + y ^ 2 := by
    rcases h with h | h
    · have := sq_pos_of_ne_zero h; positivity
    · have := sq_pos_of_ne_zero h; positivity
  have hR : 0 < Real.sqrt (x ^ 2 + y ^ 2 + z ^ 2) := Real.sqrt_pos.mpr (by positivity)
  have hR2 : Real.sqrt (x ^ 2 + y ^ 2 + z ^ 2) ^ 2 = x ^ 2 + y ^ 2 + z ^ 2 := Real.sq_sqrt (by positivity)
  unfold geocentric place
  simp only
  generalize Real.sqrt (x ^ 2 + y ^ 2 + z ^ 2) = R at *
  have hzR : z ^ 2 ≤ R ^ 2 := by rw [hR2]; linarith
  have habs := abs_le_of_sq_le_sq' hzR hR.le
  have hs : Real.sin (Real.arcsin (z / R)) = z / R := by
    apply Real.sin_arcsin
    · rw [le_div_iff₀ hR]; linarith [habs.1]
    · rw [div_le_iff₀ hR]; linarith [habs.2]
  have hcos : Real.cos (Real.arcsin (z / R)) = Real.sqrt (x ^ 2 + y ^ 2) / R := by
    rw [Real.cos_arcsin]
    have : 1 - (z / R) ^ 2 = (x ^ 2 + y ^ 2) / R ^ 2 := by
      field_simp; rw [hR2]; ring
    rw [this, Real.sqrt_div (by positivity), Real.sqrt_sq hR.le]
  have hn : ‖(⟨x, y⟩ : ℂ)‖ = Real.sqrt (x ^ 2 + y ^ 2) := by
    rw [Complex.norm_def, Complex.normSq_mk]; congr 1; ring
  have e1 := Complex.norm_mul_cos_arg (⟨x, y⟩ : ℂ)
  have e2 := Complex.norm_mul_sin_arg (⟨x, y⟩ : ℂ)
  rw [hn] at e1 e2
  unfold arctan2
  rw [hs, hcos]
  refine ⟨?_, div_pos (Real.sqrt_pos.mpr hxy) hR, hR.ne'⟩
  refine Prod.ext ?_ (Prod.ext ?_ ?_)
  · simp only
    rw [mul_div_cancel₀ _ hR.ne']; exact e1
  · simp only
    rw [mul_div_cancel₀ _ hR.ne']; exact e2
  · simp only
    rw [mul_div_cancel₀ _ hR.ne']

/-- Near the poles the latitude is a thousandth of a degree off, so that the formulas apply. -/
theorem C100_off_pole (lat : ℝ) (h : -90 ≤ lat ∧ lat ≤ 90) : -90 < offPole lat ∧ offPole lat < 90 ∧ |offPole lat - lat| ≤ 0.001 := by
  unfold offPole
  split
  · refine ⟨by norm_num, by norm_num, ?_⟩
    rw [abs_le]; constructor <;> linarith [h.2]
  · split
    · refine ⟨by norm_num, by norm_num, ?_⟩
      rw [abs_le]; constructor <;> linarith [h.1]
    · refine ⟨by linarith, by linarith, ?_⟩
      simp; norm_num

/-! ## Angles -/

/-- The declination is the angle of the horizontal field, from north to east. -/
theorem C100_declination_partial (bn be : ℝ) (hs : ¬ (bn < 0 ∧ be = 0)) (h : 100 ≤ Real.sqrt (bn ^ 2 + be ^ 2)) :
    declination bn be = some (Complex.arg ⟨bn, be⟩) := by
  unfold declination
  rw [if_neg (not_lt.mpr h)]
  congr 1
  have hn : ‖(⟨bn, be⟩ : ℂ)‖ = Real.sqrt (bn ^ 2 + be ^ 2) := by
    rw [Complex.norm_def, Complex.normSq_mk]; congr 1; ring
  have hH : 0 < Real.sqrt (bn ^ 2 + be ^ 2) := by linarith
  have e1 := Complex.norm_mul_cos_arg (⟨bn, be⟩ : ℂ)
  have e2 := Complex.norm_mul_sin_arg (⟨bn, be⟩ : ℂ)
  rw [hn] at e1 e2
  simp only at e1 e2
  set θ := Complex.arg ⟨bn, be⟩ with hθ
  set H := Real.sqrt (bn ^ 2 + be ^ 2) with hHd
  have hlo := Complex.neg_pi_lt_arg (⟨bn, be⟩ : ℂ)
  have hhi : θ < Real.pi := by
    rcases lt_or_eq_of_le (Complex.arg_le_pi (⟨bn, be⟩ : ℂ)) with h1 | h1
    · exact h1
    · exact absurd (Complex.arg_eq_pi_iff.mp h1) hs
  have hcpos : 0 < Real.cos (θ / 2) := Real.cos_pos_of_mem_Ioo ⟨by linarith, by linarith⟩
  have hc2 : Real.cos θ = 2 * Real.cos (θ / 2) ^ 2 - 1 := by rw [← Real.cos_two_mul]; congr 1; ring
  have hs2 : Real.sin θ = 2 * Real.sin (θ / 2) * Real.cos (θ / 2) := by rw [← Real.sin_two_mul]; congr 1; ring
  have hz : (⟨H + bn, be⟩ : ℂ) = ((2 * H * Real.cos (θ / 2) : ℝ) : ℂ) * (Complex.cos ((θ / 2 : ℝ) : ℂ) + Complex.sin ((θ / 2 : ℝ) : ℂ) * Complex.I) := by
    rw [← Complex.ofReal_cos, ← Complex.ofReal_sin]
    rw [hc2] at e1
    rw [hs2] at e2
    generalize Real.cos (θ / 2) = k at e1 e2 ⊢
    generalize Real.sin (θ / 2) = l at e1 e2 ⊢
    apply Complex.ext
    · simp
      linear_combination -e1
    · simp
      linear_combination -e2
  unfold arctan2
  rw [hz, Complex.arg_mul_cos_add_sin_mul_I (by positivity) ⟨by linarith, by linarith⟩]
  ring

/-- A field exactly to the south has declination 180 degrees, but 0 is returned. -/
theorem C100_not_south : declination (-200) 0 = some 0 ∧ Complex.arg ⟨-200, 0⟩ = Real.pi := by
  constructor
  · unfold declination arctan2
    have h : Real.sqrt ((-200 : ℝ) ^ 2 + 0 ^ 2) = 200 := by
      rw [show ((-200 : ℝ) ^ 2 + 0 ^ 2) = 200 ^ 2 by norm_num, Real.sqrt_sq (by norm_num)]
    rw [h, if_neg (by norm_num)]
    have hz : (⟨200 + -200, 0⟩ : ℂ) = 0 := by apply Complex.ext <;> simp
    rw [hz]; simp
  · exact Complex.arg_eq_pi_iff.mpr ⟨by norm_num, rfl⟩

/-- A horizontal field of less than 100 nT has no declination. -/
theorem C100_weak (bn be : ℝ) (h : Real.sqrt (bn ^ 2 + be ^ 2) < 100) : declination bn be = none := by
  unfold declination; rw [if_pos h]

/-- The inclination is the angle below the horizon: its sine is the downward part of the field, its cosine the horizontal part. -/
theorem C100_inclination (bn be bz : ℝ) :
    Real.sqrt (bn ^ 2 + be ^ 2 + bz ^ 2) * Real.sin (inclination bn be bz) = -bz ∧
    Real.sqrt (bn ^ 2 + be ^ 2 + bz ^ 2) * Real.cos (inclination bn be bz) = Real.sqrt (bn ^ 2 + be ^ 2) ∧
    -(Real.pi / 2) ≤ inclination bn be bz ∧ inclination bn be bz ≤ Real.pi / 2 := by
  have hn : ‖(⟨Real.sqrt (bn ^ 2 + be ^ 2), -bz⟩ : ℂ)‖ = Real.sqrt (bn ^ 2 + be ^ 2 + bz ^ 2) := by
    rw [Complex.norm_def, Complex.normSq_mk, Real.mul_self_sqrt (by positivity)]; congr 1; ring
  have e1 := Complex.norm_mul_cos_arg (⟨Real.sqrt (bn ^ 2 + be ^ 2), -bz⟩ : ℂ)
  have e2 := Complex.norm_mul_sin_arg (⟨Real.sqrt (bn ^ 2 + be ^ 2), -bz⟩ : ℂ)
  rw [hn] at e1 e2
  have h3 := Complex.abs_arg_le_pi_div_two_iff.mpr (show 0 ≤ (⟨Real.sqrt (bn ^ 2 + be ^ 2), -bz⟩ : ℂ).re from Real.sqrt_nonneg _)
  rw [abs_le] at h3
  exact ⟨e2, e1, h3.1, h3.2⟩

/-! ## The premises can be met -/

example : ∃ (c : Coeffs), (∀ n ∈ c.degrees, 1 ≤ n) ∧ c.degrees.Nonempty := ⟨⟨{1}, fun _ _ => 1, fun _ _ => 0⟩, by simp, by simp⟩

/-- The field of a dipole above the equator points to the north. -/
example : topo (ecef 1 ⟨{1}, fun _ m => if m = 0 then -1 else 0, fun _ _ => 0⟩ 1 0 0) 0 0 = (1, 0, 0) := by
  unfold topo ecef toEcef fieldR fieldT fieldP total
  simp [Snm, Pnm, dPnm, lpmv, leg]

end Verif.MagField
