import Verif.Props.Rst
import Verif.Spec.Rst
import Mathlib.Algebra.Order.Floor.Defs
import Mathlib.Analysis.SpecialFunctions.Complex.Arg
import Mathlib.Analysis.SpecialFunctions.Trigonometric.Inverse
/-! # C101: which stars are found to rise and set -/
namespace Verif.Rst
open Real

/-- The direction has length 1. -/
theorem C101_direction (p d H : ℝ) : east d H ^ 2 + north p d H ^ 2 + upward p d H ^ 2 = 1 := by
  unfold east north upward
  have h1 := sin_sq_add_cos_sq p
  have h2 := sin_sq_add_cos_sq d
  have h3 := sin_sq_add_cos_sq H
  linear_combination (cos d ^ 2) * h3 + (sin d ^ 2 + cos d ^ 2 * cos H ^ 2) * h1 + h2

theorem turn (p d H s : ℝ) :
    east d H * north p d (H + 2 * s) - north p d H * east d (H + 2 * s) =
      2 * cos d * sin s * (sin d * cos p * cos (H + s) - cos d * sin p * cos s) := by
  unfold east north
  have e1 : H + 2 * s = (H + s) + s := by ring
  have e2 : H = (H + s) - s := by ring
  rw [e1]
  conv_lhs => rw [show sin H = sin ((H + s) - s) by rw [← e2], show cos H = cos ((H + s) - s) by rw [← e2]]
  rw [sin_sub, cos_sub, sin_add (H + s) s, cos_add (H + s) s]
  have h1 := sin_sq_add_cos_sq (H + s)
  linear_combination (-2 * cos d * cos d * sin p * cos s * sin s) * h1

/-- Passing hour angle 12 h within a step. -/
theorem mid_low (H s : ℝ) (hs0 : 0 < s) (hs1 : s < π / 2) (h1 : 0 < sin H) (h2 : sin (H + 2 * s) ≤ 0) : cos (H + s) ≤ -cos s := by
  have hc : 0 < cos s := cos_pos_of_mem_Ioo ⟨by linarith [pi_pos], hs1⟩
  have hsn : 0 < sin s := sin_pos_of_pos_of_lt_pi hs0 (by linarith [pi_pos])
  rw [show H = (H + s) - s by ring, sin_sub] at h1
  rw [show H + 2 * s = (H + s) + s by ring, sin_add] at h2
  have e1 := sin_sq_add_cos_sq (H + s)
  have e2 := sin_sq_add_cos_sq s
  generalize sin (H + s) = S at *
  generalize cos (H + s) = k at *
  generalize sin s = q at *
  generalize cos s = c at *
  have hk : k < 0 := by nlinarith
  by_contra hcon
  have h3 : -c < k := not_le.mp hcon
  have h4 : k ^ 2 < c ^ 2 := by nlinarith
  have h5 : (k * q) ^ 2 < (S * c) ^ 2 := by
    have : S ^ 2 = 1 - k ^ 2 := by linarith
    have hq : q ^ 2 = 1 - c ^ 2 := by linarith
    calc (k * q) ^ 2 = k ^ 2 * q ^ 2 := by ring
      _ = k ^ 2 * (1 - c ^ 2) := by rw [hq]
      _ < c ^ 2 * (1 - k ^ 2) := by nlinarith
      _ = (S * c) ^ 2 := by rw [← this]; ring
  have h6 : |S * c| ≤ -(k * q) := abs_le.mpr ⟨by linarith, by linarith⟩
  have h7 : (S * c) ^ 2 ≤ (k * q) ^ 2 := by
    rw [← sq_abs (S * c), ← neg_sq (k * q)]
    exact pow_le_pow_left₀ (abs_nonneg _) h6 2
  linarith

theorem west {a : ℝ} (h1 : 0 ≤ a) (h : sin a < 0) : π < a := by
  by_contra hc
  have := sin_nonneg_of_nonneg_of_le_pi h1 (not_lt.mp hc)
  linarith

theorem not_west {a : ℝ} (h2 : a < 2 * π) (h : 0 ≤ sin a) : a ≤ π := by
  by_contra hc
  have : sin (a - 2 * π) < 0 := sin_neg_of_neg_of_neg_pi_lt (by linarith) (by linarith [not_le.mp hc])
  rw [sin_sub_two_pi] at this
  linarith

theorem sin_low {a : ℝ} (h1 : π < a) (h2 : a < 2 * π) : sin a < 0 := by
  have : sin (a - 2 * π) < 0 := sin_neg_of_neg_of_neg_pi_lt (by linarith) (by linarith)
  rwa [sin_sub_two_pi] at this

theorem cross_az (p d H H' a a' : ℝ) (h : IsAz p d H a) (h' : IsAz p d H' a') :
    ∃ r, 0 < r ∧ east d H * north p d H' - north p d H * east d H' = r * sin (a - a') := by
  obtain ⟨_, _, r, hr, h1, h2⟩ := h
  obtain ⟨_, _, r', hr', h3, h4⟩ := h'
  refine ⟨r * r', mul_pos hr hr', ?_⟩
  rw [h1, h2, h3, h4, sin_sub]; ring

/-- The azimuth does not fall by half a circle from one sample to the next for a star no further north than the equator and no further
north than the latitude is south: its lower culmination is in the south. -/
theorem C101_southern (p d H s a a' : ℝ) (hp : -(π / 2) < p) (hp2 : p < π / 2) (hd : -(π / 2) < d) (hd0 : d ≤ 0) (hpd : p + d ≤ 0)
    (hs0 : 0 < s) (hs1 : s < π / 2) (ha : IsAz p d H a) (ha' : IsAz p d (H + 2 * s) a') : ¬ a' - a < -π := by
  intro hlt
  have hcd : 0 < cos d := cos_pos_of_mem_Ioo ⟨hd, by linarith [pi_pos]⟩
  have hcp : 0 < cos p := cos_pos_of_mem_Ioo ⟨hp, hp2⟩
  have hc : 0 < cos s := cos_pos_of_mem_Ioo ⟨by linarith [pi_pos], hs1⟩
  have hsn : 0 < sin s := sin_pos_of_pos_of_lt_pi hs0 (by linarith [pi_pos])
  obtain ⟨r0, hr0, hcr⟩ := cross_az p d H _ a a' ha ha'
  obtain ⟨b1, b2, r, hr, h1, h2⟩ := ha
  obtain ⟨b3, b4, r', hr', h3, h4⟩ := ha'
  have hsa : sin a < 0 := sin_low (by linarith) b2
  have hsa' : 0 ≤ sin a' := sin_nonneg_of_nonneg_of_le_pi b3 (by linarith)
  have hH : 0 < sin H := by
    unfold east at h1
    have : r * sin a < 0 := mul_neg_of_pos_of_neg hr hsa
    rw [← h1] at this
    by_contra hcon
    have := mul_nonneg hcd.le (neg_nonneg.mpr (not_lt.mp hcon))
    linarith
  have hH' : sin (H + 2 * s) ≤ 0 := by
    unfold east at h3
    have : 0 ≤ r' * sin a' := mul_nonneg hr'.le hsa'
    rw [← h3] at this
    by_contra hcon
    have := mul_pos hcd (not_le.mp hcon)
    linarith
  have hmid := mid_low H s hs0 hs1 hH hH'
  have hneg : sin (a - a') < 0 := sin_low (by linarith) (by linarith)
  rw [turn] at hcr
  have hsd : sin d ≤ 0 := sin_nonpos_of_nonpos_of_neg_pi_le hd0 (by linarith [pi_pos])
  have hsum : sin (d + p) ≤ 0 := sin_nonpos_of_nonpos_of_neg_pi_le (by linarith) (by linarith)
  rw [sin_add] at hsum
  have hb : 0 ≤ sin d * cos p * cos (H + s) - cos d * sin p * cos s := by
    have : sin d * cos p ≤ 0 := mul_nonpos_of_nonpos_of_nonneg hsd hcp.le
    nlinarith
  have h5 : 0 ≤ 2 * cos d * sin s * (sin d * cos p * cos (H + s) - cos d * sin p * cos s) := by positivity
  rw [hcr] at h5
  have := mul_neg_of_pos_of_neg hr0 hneg
  linarith

/-- It does at the lower culmination of a star north of the equator with its lower culmination in the north. -/
theorem C101_northern (p d H s a a' : ℝ) (hp : -(π / 2) < p) (hp2 : p < π / 2) (hd : d < π / 2) (hd0 : 0 ≤ d) (hpd : 0 < p + d)
    (hs0 : 0 < s) (hs1 : s < π / 2) (hH : 0 < sin H) (hH' : sin (H + 2 * s) ≤ 0) (ha : IsAz p d H a) (ha' : IsAz p d (H + 2 * s) a') : a' - a < -π := by
  have hcd : 0 < cos d := cos_pos_of_mem_Ioo ⟨by linarith [pi_pos], hd⟩
  have hcp : 0 < cos p := cos_pos_of_mem_Ioo ⟨hp, hp2⟩
  have hc : 0 < cos s := cos_pos_of_mem_Ioo ⟨by linarith [pi_pos], hs1⟩
  have hsn : 0 < sin s := sin_pos_of_pos_of_lt_pi hs0 (by linarith [pi_pos])
  obtain ⟨r0, hr0, hcr⟩ := cross_az p d H _ a a' ha ha'
  obtain ⟨b1, b2, r, hr, h1, h2⟩ := ha
  obtain ⟨b3, b4, r', hr', h3, h4⟩ := ha'
  have hmid := mid_low H s hs0 hs1 hH hH'
  have hsa : sin a < 0 := by
    unfold east at h1
    by_contra hcon
    have := mul_nonneg hr.le (not_lt.mp hcon)
    have := mul_pos hcd hH
    linarith
  have hsa' : 0 ≤ sin a' := by
    unfold east at h3
    by_contra hcon
    have := mul_neg_of_pos_of_neg hr' (not_le.mp hcon)
    have := mul_nonneg hcd.le (neg_nonneg.mpr hH')
    linarith
  have ha1 := west b1 hsa
  have ha2 := not_west b4 hsa'
  rw [turn] at hcr
  have hsd : 0 ≤ sin d := sin_nonneg_of_nonneg_of_le_pi hd0 (by linarith [pi_pos])
  have hsum : 0 < sin (d + p) := sin_pos_of_pos_of_lt_pi (by linarith) (by linarith)
  rw [sin_add] at hsum
  have hb : sin d * cos p * cos (H + s) - cos d * sin p * cos s < 0 := by
    have : 0 ≤ sin d * cos p := mul_nonneg hsd hcp.le
    nlinarith
  have h5 : 2 * cos d * sin s * (sin d * cos p * cos (H + s) - cos d * sin p * cos s) < 0 := mul_neg_of_pos_of_neg (by positivity) hb
  rw [hcr] at h5
  have hneg : sin (a - a') < 0 := by
    by_contra hcon
    have := mul_nonneg hr0.le (not_lt.mp hcon)
    linarith
  have := west (a := a - a') (by linarith) hneg
  linarith

theorem hour_step (H0 w jD : ℝ) (k : ℕ) : hour H0 w (gridTime jD (k + 1)) = hour H0 w (gridTime jD k) + 2 * (w / 191) := by
  have := (C101_step jD k).1
  unfold hour
  rw [show gridTime jD (k + 1) = gridTime jD k + 2 / 191 by linarith]
  ring

/-- A star in the south of the sky is said never to rise or never to set, whether it does or not. -/
theorem C101_not_southern (sqrt : ℝ → ℝ) (fit : List (ℝ × ℝ) → ℝ × ℝ × ℝ × ℝ) (body : Bool) (scale : ℕ) (p d H0 w jD : ℝ) (alt az : ℝ → ℝ)
    (hstar : Star p d H0 w alt az) (hp : -(π / 2) < p) (hp2 : p < π / 2) (hd : -(π / 2) < d) (hd0 : d ≤ 0) (hpd : p + d ≤ 0)
    (hw0 : 0 < w) (hw : w < 3 * π) : rst sqrt fit body scale π alt az jD = .ok none := by
  unfold rst
  rw [C101_no_jump]
  intro k _
  rw [decide_eq_false_iff_not]
  have h1 := hstar.az (gridTime jD k)
  have h2 := hstar.az (gridTime jD (k + 1))
  rw [hour_step] at h2
  exact C101_southern p d _ (w / 191) _ _ hp hp2 hd hd0 hpd (by positivity) (by linarith [pi_pos]) h1 h2

/-- It does both when its distance to the zenith at the upper culmination is below, and that to the nadir at the lower culmination is
below 90 degrees. -/
theorem C101_visible (p d : ℝ) (h1 : -(π / 2) < d - p) (h2 : d - p < π / 2) (h3 : -(π / 2) < d + p) (h4 : d + p < π / 2) :
    0 < upward p d 0 ∧ upward p d π < 0 := by
  have e1 := cos_pos_of_mem_Ioo ⟨h1, h2⟩
  have e2 := cos_pos_of_mem_Ioo ⟨h3, h4⟩
  rw [cos_sub] at e1
  rw [cos_add] at e2
  unfold upward
  rw [cos_zero, cos_pi]
  constructor <;> nlinarith

/-- So it is for 36 degrees north and a declination of 45 degrees south. -/
theorem C101_not_southern_visible : -(π / 2) < -(π / 4) ∧ -(π / 4) ≤ 0 ∧ π / 5 + -(π / 4) ≤ 0 ∧
    0 < upward (π / 5) (-(π / 4)) 0 ∧ upward (π / 5) (-(π / 4)) π < 0 := by
  have := pi_pos
  refine ⟨by linarith, by linarith, by linarith, ?_⟩
  exact C101_visible _ _ (by linarith) (by linarith) (by linarith) (by linarith)

theorem step_before (H0 e T : ℝ) (h0 : H0 < T) (h1 : T ≤ H0 + 191 * e) :
    ∃ k : ℕ, k + 1 ≤ 191 ∧ H0 + k * e < T ∧ T ≤ H0 + (k + 1) * e := by
  have hex : ∃ k : ℕ, T ≤ H0 + (k + 1) * e := ⟨190, by push_cast; linarith⟩
  classical
  refine ⟨Nat.find hex, ?_, ?_, Nat.find_spec hex⟩
  · have : Nat.find hex ≤ 190 := Nat.find_min' hex (by push_cast; linarith)
    omega
  · by_contra hc
    have hc := not_lt.mp hc
    cases hk : Nat.find hex with
    | zero => rw [hk] at hc; push_cast at hc; linarith
    | succ m =>
      have hlt : m < Nat.find hex := by omega
      have hmin := Nat.find_min hex hlt
      apply hmin
      rw [hk] at hc; push_cast at hc; exact hc

theorem sin_around (m : ℤ) (H e : ℝ) (he1 : e < π) (h1 : H < (2 * m + 1) * π) (h2 : (2 * m + 1) * π ≤ H + e) : 0 < sin H ∧ sin (H + e) ≤ 0 := by
  constructor
  · have : sin (H - m * (2 * π)) = sin H := sin_sub_int_mul_two_pi H m
    rw [← this]
    apply sin_pos_of_pos_of_lt_pi <;> nlinarith
  · have : sin (H + e - (m + 1 : ℤ) * (2 * π)) = sin (H + e) := sin_sub_int_mul_two_pi (H + e) (m + 1)
    rw [← this]
    push_cast
    apply sin_nonpos_of_nonpos_of_neg_pi_le <;> nlinarith

/-- A star north of the equator with its lower culmination in the north has two of them within the day before and the day after, so that
the rough search ends with times or, if the star is never seen up, an error. -/
theorem C101_two_culminations (p d H0 w jD : ℝ) (alt az : ℝ → ℝ) (hstar : Star p d H0 w alt az) (hp : -(π / 2) < p) (hp2 : p < π / 2)
    (hd : d < π / 2) (hd0 : 0 ≤ d) (hpd : 0 < p + d) (hw0 : 2 * π ≤ w) (hw : w < 3 * π) :
    ∃ a b l, drops (fun k => decide (az (gridTime jD (k + 1)) - az (gridTime jD k) < -π)) 192 = a :: b :: l := by
  set f : ℕ → Bool := fun k => decide (az (gridTime jD (k + 1)) - az (gridTime jD k) < -π) with hf
  set e := 2 * (w / 191) with he
  set A := hour H0 w (gridTime jD 0) with hA
  have he0 : 0 < e := by rw [he]; have := pi_pos; linarith
  have hH : ∀ k : ℕ, hour H0 w (gridTime jD k) = A + k * e := by
    intro k
    induction k with
    | zero => simp [hA]
    | succ k ih => rw [hour_step, ih, ← he]; push_cast; ring
  have hfound : ∀ m : ℤ, A < (2 * m + 1) * π → (2 * m + 1) * π ≤ A + 191 * e →
      ∃ k : ℕ, k + 1 ≤ 191 ∧ A + k * e < (2 * m + 1) * π ∧ (2 * m + 1) * π ≤ A + (k + 1) * e ∧ f k = true := by
    intro m h1 h2
    obtain ⟨k, k1, k2, k3⟩ := step_before A e _ h1 h2
    refine ⟨k, k1, k2, k3, ?_⟩
    have hpi := pi_pos
    obtain ⟨s1, s2⟩ := sin_around m (A + k * e) e (by rw [he]; linarith) k2 (by linarith)
    rw [hf]
    simp only [decide_eq_true_eq]
    have a1 := hstar.az (gridTime jD k)
    have a2 := hstar.az (gridTime jD (k + 1))
    rw [hour_step, hH] at a2
    rw [hH] at a1
    exact C101_northern p d (A + k * e) (w / 191) _ _ hp hp2 hd hd0 hpd (by rw [he] at he0; linarith) (by linarith) s1 (by rw [← he]; exact s2) a1 a2
  have hpi := pi_pos
  set m : ℤ := ⌊(A / π - 1) / 2⌋ + 1 with hm
  have hm1 : A < (2 * m + 1) * π := by
    have := Int.lt_floor_add_one ((A / π - 1) / 2)
    have h3 : (A / π - 1) / 2 < m := by rw [hm]; push_cast; exact this
    have : A / π < 2 * m + 1 := by linarith
    rwa [div_lt_iff₀ hpi] at this
  have hm2 : (2 * m + 1) * π ≤ A + 2 * π := by
    have := Int.floor_le ((A / π - 1) / 2)
    have h3 : (m : ℝ) - 1 ≤ (A / π - 1) / 2 := by rw [hm]; push_cast; linarith
    have h4 : 2 * (m : ℝ) - 1 ≤ A / π := by linarith
    rw [le_div_iff₀ hpi] at h4
    linarith
  have hspan : 4 * π ≤ 191 * e := by rw [he]; linarith
  obtain ⟨k1, a1, a2, a3, a4⟩ := hfound m hm1 (by linarith)
  obtain ⟨k2, b1, b2, b3, b4⟩ := hfound (m + 1) (by push_cast; linarith) (by push_cast; linarith)
  have hk : k1 < k2 := by
    by_contra hc
    have hle : ((k2 : ℕ) : ℝ) ≤ k1 := Nat.cast_le.mpr (by omega)
    push_cast at b3
    have : (k2 : ℝ) * e ≤ k1 * e := mul_le_mul_of_nonneg_right hle he0.le
    have he2 : e < 2 * π := by rw [he]; linarith
    linarith
  have hsub : [k1, k2].Sublist (drops f 192) := by
    unfold drops
    have : [k1, k2] = ([k1, k2] : List ℕ).filter f := by simp [a4, b4]
    rw [this]
    apply List.Sublist.filter
    have e1 : ([k1, k2] : List ℕ).Pairwise (· < ·) := by simp [hk]
    exact List.sublist_of_subperm_of_pairwise (r := (· < ·)) (List.subperm_of_subset (e1.imp ne_of_lt) (by
      intro x hx
      simp at hx
      rw [List.mem_range]; omega)) e1 (List.pairwise_lt_range)
  match hd' : drops f 192 with
  | [] => rw [hd'] at hsub; have := hsub.length_le; simp at this
  | [x] => rw [hd'] at hsub; have := hsub.length_le; simp at this
  | a :: b :: l => exact ⟨a, b, l, rfl⟩

/-! ## The premises can be met -/

theorem exists_az (p d H : ℝ) (h : upward p d H ^ 2 < 1) : ∃ a, IsAz p d H a := by
  have hd := C101_direction p d H
  have hne : (⟨north p d H, east d H⟩ : ℂ) ≠ 0 := by
    intro h0
    have h1 := congrArg Complex.re h0
    have h2 := congrArg Complex.im h0
    simp only [Complex.zero_re, Complex.zero_im] at h1 h2
    rw [h1, h2] at hd; linarith
  have hr := norm_pos_iff.mpr hne
  have h1 := Complex.norm_mul_cos_arg (⟨north p d H, east d H⟩ : ℂ)
  have h2 := Complex.norm_mul_sin_arg (⟨north p d H, east d H⟩ : ℂ)
  simp only at h1 h2
  have b1 := Complex.neg_pi_lt_arg (⟨north p d H, east d H⟩ : ℂ)
  have b2 := Complex.arg_le_pi (⟨north p d H, east d H⟩ : ℂ)
  have := pi_pos
  by_cases h3 : 0 ≤ Complex.arg (⟨north p d H, east d H⟩ : ℂ)
  · exact ⟨_, h3, by linarith, _, hr, h2.symm, h1.symm⟩
  · refine ⟨Complex.arg (⟨north p d H, east d H⟩ : ℂ) + 2 * π, by linarith, by linarith [not_le.mp h3], _, hr, ?_, ?_⟩
    · rw [sin_add_two_pi]; exact h2.symm
    · rw [cos_add_two_pi]; exact h1.symm

/-- Stars that never pass the zenith or the nadir have an altitude and an azimuth at all times. -/
theorem star_exists (p d H0 w : ℝ) (h1 : sin (d - p) ≠ 0) (h2 : sin (d + p) ≠ 0) (hc : 0 ≤ cos d * cos p) : ∃ alt az, Star p d H0 w alt az := by
  have hup : ∀ H, upward p d H ^ 2 < 1 := by
    intro H
    have e1 : cos (d - p) ^ 2 < 1 := by have := sin_sq_add_cos_sq (d - p); have : 0 < sin (d - p) ^ 2 := by positivity
                                        linarith
    have e2 : cos (d + p) ^ 2 < 1 := by have := sin_sq_add_cos_sq (d + p); have : 0 < sin (d + p) ^ 2 := by positivity
                                        linarith
    have l1 : upward p d H ≤ cos (d - p) := by
      unfold upward; rw [cos_sub]; nlinarith [cos_le_one H]
    have l2 : -cos (d + p) ≤ upward p d H := by
      unfold upward; rw [cos_add]; nlinarith [neg_one_le_cos H]
    have a1 := abs_lt_of_sq_lt_sq (by linarith : cos (d - p) ^ 2 < 1 ^ 2) zero_le_one
    have a2 := abs_lt_of_sq_lt_sq (by linarith : cos (d + p) ^ 2 < 1 ^ 2) zero_le_one
    rw [sq_lt_one_iff_abs_lt_one, abs_lt]
    exact ⟨by linarith [(abs_lt.mp a2).2], by linarith [(abs_lt.mp a1).2]⟩
  choose az haz using fun t => exists_az p d (hour H0 w t) (hup _)
  refine ⟨fun t => arcsin (upward p d (hour H0 w t)), az, ⟨fun t => ⟨neg_pi_div_two_le_arcsin _, arcsin_le_pi_div_two _, ?_⟩, haz⟩⟩
  have := abs_lt.mp ((sq_lt_one_iff_abs_lt_one _).mp (hup (hour H0 w t)))
  exact sin_arcsin this.1.le this.2.le

/-- The star of `C101_not_southern_visible`. -/
example (H0 w : ℝ) : ∃ alt az, Star (π / 5) (-(π / 4)) H0 w alt az := by
  have := pi_pos
  refine star_exists _ _ _ _ (ne_of_lt ?_) (ne_of_lt ?_) (mul_nonneg ?_ ?_)
  · exact sin_neg_of_neg_of_neg_pi_lt (by linarith) (by linarith)
  · exact sin_neg_of_neg_of_neg_pi_lt (by linarith) (by linarith)
  · exact cos_nonneg_of_mem_Icc ⟨by linarith, by linarith⟩
  · exact cos_nonneg_of_mem_Icc ⟨by linarith, by linarith⟩

example : ∃ r, crossing (fun t : ℚ => t + 1 / 400) 0 (gridTime 0 96) 20 = some r ∧ r < 0 :=
  C101_not_next _ 0 (-1 / 400) (by norm_num) (by norm_num) (fun x y _ h _ => by simpa using h)

example : stationary (fun x : ℚ => x) (1, -3, 2, 0) = 1 := by unfold stationary; norm_num

end Verif.Rst
