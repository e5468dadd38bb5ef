import Verif.Model.RfUtils
import Verif.Spec.RfUtils
/-!
# C88: antenna gains and flux densities
-/
namespace Verif.RfUtils
open Spec

theorem jy_pos : 0 < jy := by unfold jy; positivity

theorem kPerJy_pos : 0 < kPerJy := by have := jy_pos; unfold kPerJy; positivity

theorem kPerJy_mul : kPerJy * jy = 1 := by unfold kPerJy; exact one_div_mul_cancel jy_pos.ne'

theorem logb_rpow (x : ℝ) : Real.logb 10 ((10 : ℝ) ^ x) = x := Real.logb_rpow (by norm_num) (by norm_num)

theorem rpow_logb (x : ℝ) (hx : 0 < x) : (10 : ℝ) ^ Real.logb 10 x = x := Real.rpow_logb (by norm_num) (by norm_num) hx

/-- A bare number is one in the unit that is meant, and the unit of a quantity does not matter. -/
theorem C88_units (unit v u : ℝ) : makeQuantity unit (.bare v) = makeQuantity unit (.quantity v unit) ∧
    ∀ s : ℝ, s ≠ 0 → makeQuantity unit (.quantity (v * s) (u / s)) = makeQuantity unit (.quantity v u) := by
  refine ⟨rfl, fun s hs => ?_⟩
  simp only [makeQuantity, Option.some.injEq]
  field_simp

/-- The two gains are inverse to one another. -/
theorem C88_dipole (x : ℝ) : dBiToDBd (dBdToDBi x) = x ∧ dBdToDBi (dBiToDBd x) = x := by
  unfold dBiToDBd dBdToDBi
  constructor <;> ring

/-- A gain is the temperature for one jansky in an area so many decibels above the isotropic one. -/
theorem C88_gain (q : Consts) (hk : 0 < q.k) (dBi f : ℝ) (hf : 0 < f) :
    dBiToGain q dBi (.bare f) = some (temperature q.k ((10 : ℝ) ^ (dBi / 10) * isotropicArea (q.c / f)) jy) := by
  have hp := Real.pi_pos
  have hj := jy_pos
  simp only [dBiToGain, makeQuantity, Option.map_some, Option.some.injEq, temperature, isotropicArea, kPerJy, mul_one]
  field_simp
  ring

/-- The gain in decibels is that of the effective area to the isotropic one. -/
theorem C88_decibel (q : Consts) (hc : 0 < q.c) (hk : 0 < q.k) (g f : ℝ) (hg : 0 < g) (hf : 0 < f) :
    ∃ a, effectiveArea q (.bare g) = some a ∧ 0 < a ∧ temperature q.k a jy = g ∧
      gainToDBi q (.bare g) (.bare f) = some (decibel (a / isotropicArea (q.c / f))) := by
  have hp := Real.pi_pos
  have hj := kPerJy_pos
  refine ⟨2 * q.k * (g * kPerJy), rfl, by positivity, ?_, ?_⟩
  · have := kPerJy_mul
    unfold temperature
    rw [show jy * (2 * q.k * (g * kPerJy)) = 2 * q.k * (g * (kPerJy * jy)) by ring, this]
    field_simp
  · have e : 8 * Real.pi * q.k * (f * 1) ^ 2 / q.c ^ 2 * (g * kPerJy) =
        2 * q.k * (g * kPerJy) / isotropicArea (q.c / f) := by
      unfold isotropicArea; field_simp; norm_num
    have hpos : 0 < 8 * Real.pi * q.k * (f * 1) ^ 2 / q.c ^ 2 * (g * kPerJy) := by positivity
    simp only [gainToDBi, makeQuantity, Option.bind_some, log10]
    rw [if_pos hpos, Option.map_some, e]
    rfl

/-- From decibels to a gain and back. -/
theorem C88_round (q : Consts) (hc : 0 < q.c) (hk : 0 < q.k) (dBi f : ℝ) (hf : 0 < f) :
    (dBiToGain q dBi (.bare f)).bind (fun g => gainToDBi q (.bare g) (.bare f)) = some dBi := by
  have hp := Real.pi_pos
  have hj := kPerJy_pos
  have ht : (0 : ℝ) < (10 : ℝ) ^ (dBi / 10) := Real.rpow_pos_of_pos (by norm_num) _
  simp only [dBiToGain, gainToDBi, makeQuantity, Option.map_some, Option.bind_some, mul_one]
  have e : 8 * Real.pi * q.k * f ^ 2 / q.c ^ 2 *
      (q.c ^ 2 / (8 * Real.pi * q.k * f ^ 2) * (10 : ℝ) ^ (dBi / 10) / kPerJy * kPerJy) = (10 : ℝ) ^ (dBi / 10) := by
    field_simp
  rw [e, log10, if_pos ht, Option.map_some, logb_rpow]
  congr 1; ring

/-- From a gain to decibels and back; what is not positive raises. -/
theorem C88_back (q : Consts) (hc : 0 < q.c) (hk : 0 < q.k) (g f : ℝ) (hf : 0 < f) :
    (gainToDBi q (.bare g) (.bare f)).bind (fun d => dBiToGain q d (.bare f)) = if 0 < g then some g else none := by
  have hp := Real.pi_pos
  have hj := kPerJy_pos
  simp only [gainToDBi, makeQuantity, Option.bind_some, mul_one, log10]
  have hr : 0 < 8 * Real.pi * q.k * f ^ 2 / q.c ^ 2 := by positivity
  by_cases hg : 0 < g
  · have hpos : 0 < 8 * Real.pi * q.k * f ^ 2 / q.c ^ 2 * (g * kPerJy) := by positivity
    rw [if_pos hpos, if_pos hg]
    simp only [Option.map_some, Option.bind_some, dBiToGain, makeQuantity, mul_one, Option.some.injEq]
    rw [mul_div_cancel_left₀ _ (by norm_num : (10 : ℝ) ≠ 0), rpow_logb _ hpos]
    field_simp
  · have hneg : ¬ 0 < 8 * Real.pi * q.k * f ^ 2 / q.c ^ 2 * (g * kPerJy) := by
      rw [not_lt]
      exact mul_nonpos_of_nonneg_of_nonpos hr.le (mul_nonpos_of_nonpos_of_nonneg (not_lt.1 hg) hj.le)
    rw [if_neg hneg, if_neg hg]
    rfl

/-- The same relative to a dipole. -/
theorem C88_round_dipole (q : Consts) (hc : 0 < q.c) (hk : 0 < q.k) (dBd f : ℝ) (hf : 0 < f) :
    (dBdToGain q dBd (.bare f)).bind (fun g => gainToDBd q (.bare g) (.bare f)) = some dBd := by
  have h := C88_round q hc hk (dBdToDBi dBd) f hf
  unfold dBdToGain gainToDBd
  cases h1 : dBiToGain q (dBdToDBi dBd) (.bare f) with
  | none => rw [h1] at h; simp at h
  | some g =>
    rw [h1, Option.bind_some] at h
    rw [Option.bind_some, h, Option.map_some, (C88_dipole dBd).1]

/-- The SEFD is the flux density that doubles the temperature, for a gain as for an area. -/
theorem C88_sefd (q : Consts) (hk : 0 < q.k) (t g : ℝ) (hg : 0 < g) (a e : ℝ) (ha : 0 < a) (he : 0 < e) :
    (∃ s A, sefd q (.bare t) (.bare g) .none none = some s ∧ effectiveArea q (.bare g) = some A ∧
      temperature q.k A (s * jy) = t) ∧
    ∃ s, sefd q (.bare t) .none (.bare a) (some e) = some s ∧ temperature q.k (e * a) (s * jy) = t := by
  have hj := jy_pos
  have hK := kPerJy_pos
  constructor
  · refine ⟨_, _, rfl, rfl, ?_⟩
    unfold temperature
    field_simp
  · refine ⟨_, rfl, ?_⟩
    unfold temperature
    field_simp

/-- A gain and an area that belong together give the same, and with a gain the area is not looked at. -/
theorem C88_sefd_same (q : Consts) (hk : 0 < q.k) (t g e : ℝ) (he : e ≠ 0) (A : ℝ)
    (hA : effectiveArea q (.bare g) = some A) (area : Arg) (eff : Option ℝ) :
    sefd q (.bare t) (.bare g) area eff = sefd q (.bare t) .none (.bare (A / e)) (some e) := by
  simp only [effectiveArea, makeQuantity, Option.map_some, Option.some.injEq] at hA
  subst hA
  simp only [sefd, makeQuantity, Option.bind_some, Option.some.injEq, mul_one]
  congr 2
  field_simp

/-- Without a gain both the area and the efficiency are needed. -/
theorem C88_sefd_few (q : Consts) (t area : Arg) (eff : Option ℝ) (h : area = .none ∨ eff = none) :
    sefd q t .none area eff = none := by
  unfold sefd
  cases makeQuantity 1 t with
  | none => rfl
  | some t =>
    rcases h with rfl | rfl
    · rfl
    · simp only [Option.bind_some, makeQuantity]
      cases area <;> rfl

/-- The received strength is that of flux density, bandwidth and effective area, in milliwatts. -/
theorem C88_strength (q : Consts) (hk : 0 < q.k) (s b g : ℝ) (hs : 0 < s) (hb : 0 < b) (hg : 0 < g) (A : ℝ)
    (hA : effectiveArea q (.bare g) = some A) :
    jyToDBm q (.bare s) (.bare b) (.bare g) = some (decibel (s * jy * b * A / (1 / 1000))) := by
  have hj := jy_pos
  have hK := kPerJy_pos
  simp only [effectiveArea, makeQuantity, Option.map_some, Option.some.injEq] at hA
  subst hA
  simp only [jyToDBm, effectiveArea, makeQuantity, Option.bind_some, Option.map_some, mul_one, log10]
  have : 0 < s * jy * b * (2 * q.k * (g * kPerJy)) / (1 / 1000) := by positivity
  rw [if_pos this]
  rfl

/-- From a strength to a flux density and back. -/
theorem C88_strength_round (q : Consts) (hk : 0 < q.k) (d b g : ℝ) (hb : 0 < b) (hg : 0 < g) :
    (dBmToJy q d (.bare b) (.bare g)).bind (fun s => jyToDBm q (.bare s) (.bare b) (.bare g)) = some d := by
  have hj := jy_pos
  have hK := kPerJy_pos
  have ht : (0 : ℝ) < (10 : ℝ) ^ (d / 10) := Real.rpow_pos_of_pos (by norm_num) _
  simp only [dBmToJy, jyToDBm, effectiveArea, makeQuantity, Option.bind_some, Option.map_some, mul_one, log10]
  have e : (10 : ℝ) ^ (d / 10) * (1 / 1000) / (b * (2 * q.k * (g * kPerJy))) / jy * jy * b * (2 * q.k * (g * kPerJy)) /
      (1 / 1000) = (10 : ℝ) ^ (d / 10) := by field_simp
  rw [e, if_pos ht, Option.map_some, logb_rpow]
  congr 1; ring

/-- From a flux density to a strength and back. -/
theorem C88_strength_back (q : Consts) (hk : 0 < q.k) (s b g : ℝ) (hs : 0 < s) (hb : 0 < b) (hg : 0 < g) :
    (jyToDBm q (.bare s) (.bare b) (.bare g)).bind (fun d => dBmToJy q d (.bare b) (.bare g)) = some s := by
  have hj := jy_pos
  have hK := kPerJy_pos
  rw [C88_strength q hk s b g hs hb hg _ rfl]
  simp only [Option.bind_some, dBmToJy, effectiveArea, makeQuantity, Option.map_some, Option.some.injEq, mul_one, decibel]
  rw [mul_div_cancel_left₀ _ (by norm_num : (10 : ℝ) ≠ 0), rpow_logb _ (by positivity)]
  field_simp

/-- Ten times the flux density are ten decibels more. -/
theorem C88_tenfold (q : Consts) (hk : 0 < q.k) (s b g d : ℝ) (hs : 0 < s) (hb : 0 < b) (hg : 0 < g)
    (h : jyToDBm q (.bare s) (.bare b) (.bare g) = some d) :
    jyToDBm q (.bare (10 * s)) (.bare b) (.bare g) = some (d + 10) := by
  have hj := jy_pos
  have hK := kPerJy_pos
  rw [C88_strength q hk s b g hs hb hg _ rfl, Option.some.injEq] at h
  rw [C88_strength q hk (10 * s) b g (by linarith) hb hg _ rfl, ← h]
  congr 1
  unfold decibel
  have e : 10 * s * jy * b * (2 * q.k * (g * kPerJy)) / (1 / 1000) =
      10 * (s * jy * b * (2 * q.k * (g * kPerJy)) / (1 / 1000)) := by ring
  rw [e, Real.logb_mul (by norm_num) (by positivity), Real.logb_self_eq_one (by norm_num)]
  ring

/-- No flux has no strength. -/
theorem C88_nothing (q : Consts) (b g : ℝ) : jyToDBm q (.bare 0) (.bare b) (.bare g) = none := by
  simp [jyToDBm, effectiveArea, makeQuantity, log10]

/-- One of the functions is not exported, and another one twice. -/
theorem C88_not_exported : "dBi_to_dBd" ∈ functions ∧ "dBi_to_dBd" ∉ exported ∧ ¬ exported.Nodup := by decide +kernel

example : 0 < (⟨299792458, 1380649 / 10 ^ 29⟩ : Consts).k := by norm_num

end Verif.RfUtils
