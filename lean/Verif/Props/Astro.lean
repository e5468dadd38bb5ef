import Verif.Model.Astro
import Verif.Lemmas.Float64
import Verif.Props.McsTime
/-!
# C41: sexagesimal angles, C42: day of week, C61: local calendar times
-/
namespace Verif.Astro

theorem pyInt_nonneg {x : Rat} (h : 0 ≤ x) : pyInt x = x.floor := by
  unfold pyInt; rw [if_pos h]

theorem pyInt_near (x : Rat) : (pyInt x : Rat) - x < 1 ∧ x - pyInt x < 1 := by
  obtain ⟨h1, h2⟩ := pyInt_bounds x
  by_cases h : 0 ≤ x
  · have := h1 h; constructor <;> grind
  · have := h2 (by grind); constructor <;> grind

/-- The python remainder is in range and differs by a multiple. -/
theorem pyMod_spec (x m : Rat) (hm : 0 < m) : 0 ≤ pyMod id x m ∧ pyMod id x m < m ∧ ∃ k : Int, x = k * m + pyMod id x m := by
  obtain ⟨h1, h2⟩ := pyInt_near (x / m)
  have hx : x = (x / m) * m := by rw [Rat.div_mul_cancel]; grind
  have h3 := Rat.mul_lt_mul_of_pos_right h1 hm
  have h4 := Rat.mul_lt_mul_of_pos_right h2 hm
  unfold pyMod
  simp only [id_eq]
  split
  · refine ⟨by grind, by grind, pyInt (x / m) - 1, ?_⟩
    push_cast
    grind
  · exact ⟨by grind, by grind, pyInt (x / m), by grind⟩

/-- For numbers that are not negative it is the quotient by `floor`. -/
theorem pyMod_floor (x m : Rat) (hm : 0 < m) (h : 0 ≤ x) (fl : Rat → Rat) : pyMod fl x m = x - (x / m).floor * m := by
  have hq : 0 ≤ x / m := by rw [Rat.div_def]; exact Rat.mul_nonneg h (Rat.le_of_lt (Rat.inv_pos.mpr hm))
  have hx : x = (x / m) * m := by rw [Rat.div_mul_cancel]; grind
  unfold pyMod
  rw [pyInt_nonneg hq]
  obtain ⟨h1, h2⟩ := floor_bounds (x / m)
  have h3 := Rat.mul_le_mul_of_nonneg_right h1 (Rat.le_of_lt hm)
  simp only
  rw [if_neg (by grind)]

/-- Fields of a number that is not negative. -/
theorem sexa_parts (v : Rat) :
    (v * 60).floor / 60 = v.floor ∧ (v * 3600 / 60).floor = (v * 60).floor := by
  constructor
  · obtain ⟨a1, a2⟩ := floor_bounds v
    obtain ⟨b1, b2⟩ := floor_bounds (v * 60)
    have c1 : v.floor * 60 ≤ (v * 60).floor := by
      apply intCast_le_of; push_cast; grind
    have c2 : (v * 60).floor < v.floor * 60 + 60 := by
      have : (v * 60).floor ≤ v.floor * 60 + 60 - 1 := by apply intCast_le_of; push_cast; grind
      omega
    omega
  · congr 1; grind

theorem floatToSexa_exact (x : Rat) :
    let r := floatToSexa id x
    r.1 = decide (x < 0) ∧ 0 ≤ r.2.1 ∧ (0 ≤ r.2.2.1 ∧ r.2.2.1 < 60) ∧ (0 ≤ r.2.2.2 ∧ r.2.2.2 < 60) ∧
    (r.2.1 : Rat) + (r.2.2.1 : Rat) / 60 + r.2.2.2 / 3600 = if x < 0 then -x else x := by
  have key : ∀ v : Rat, 0 ≤ v → 0 ≤ pyInt v ∧ (0 ≤ pyInt (v * 60) % 60 ∧ pyInt (v * 60) % 60 < 60) ∧
      (0 ≤ pyMod id (v * 3600) 60 ∧ pyMod id (v * 3600) 60 < 60) ∧
      (pyInt v : Rat) + ((pyInt (v * 60) % 60 : Int) : Rat) / 60 + pyMod id (v * 3600) 60 / 3600 = v := by
    intro v h
    have h60 : 0 ≤ v * 60 := by grind
    have h3600 : 0 ≤ v * 3600 := by grind
    obtain ⟨s1, s2⟩ := sexa_parts v
    have h0 : 0 ≤ v.floor := by
      apply intCast_le_of
      have := (floor_bounds v).2
      grind
    rw [pyInt_nonneg h, pyInt_nonneg h60]
    refine ⟨h0, ⟨by omega, by omega⟩, ⟨(pyMod_spec _ 60 (by decide)).1, (pyMod_spec _ 60 (by decide)).2.1⟩, ?_⟩
    rw [pyMod_floor _ 60 (by decide) h3600, s2]
    have e : (v * 60).floor = v.floor * 60 + (v * 60).floor % 60 := by omega
    have e' : ((v * 60).floor : Rat) = (v.floor : Rat) * 60 + (((v * 60).floor % 60 : Int) : Rat) := by
      exact_mod_cast congrArg (fun n : Int => (n : Rat)) e
    grind
  intro r
  by_cases hx : x < 0
  · have := key (-x) (by grind)
    simp only [r, floatToSexa, if_pos hx, id_eq]
    exact ⟨trivial, this⟩
  · have := key x (by grind)
    simp only [r, floatToSexa, if_neg hx, id_eq]
    exact ⟨trivial, this⟩

/-- Degrees to degrees, minutes, seconds and back, in exact arithmetic: the angle and its sign are kept and the
fields are in range. -/
theorem C41_dms_roundtrip (x : Rat) :
    dmsToDeg (degToDms id x) = x ∧ (degToDms id x).neg = decide (x < 0) ∧ 0 ≤ (degToDms id x).degrees ∧
    (0 ≤ (degToDms id x).minutes ∧ (degToDms id x).minutes < 60) ∧
    (0 ≤ (degToDms id x).seconds ∧ (degToDms id x).seconds < 60) := by
  obtain ⟨h1, h2, h3, h4, h5⟩ := floatToSexa_exact x
  refine ⟨?_, h1, h2, h3, h4⟩
  unfold dmsToDeg degToDms
  simp only [h1]
  by_cases hx : x < 0
  · rw [if_pos hx] at h5
    simp only [hx, decide_true, if_true]
    rw [h5]; grind
  · rw [if_neg hx] at h5
    simp only [hx, decide_false]
    rw [h5]; grind

theorem floatToSexa_fields (d m : Int) (s : Rat) (hd : 0 ≤ d) (hm : 0 ≤ m ∧ m < 60) (hs : 0 ≤ s ∧ s < 60) (v : Rat)
    (hv : v = (d : Rat) + (m : Rat) / 60 + s / 3600) :
    0 ≤ v ∧ pyInt v = d ∧ pyInt (v * 60) % 60 = m ∧ pyMod id (v * 3600) 60 = s := by
  have hd' : (0 : Rat) ≤ d := by exact_mod_cast hd
  have hm0 : (0 : Rat) ≤ m := by exact_mod_cast hm.1
  have hm1 : (m : Rat) ≤ 59 := by
    have : m ≤ 59 := by omega
    exact_mod_cast this
  have h0 : 0 ≤ v := by grind
  have f1 : v.floor = d := floor_unique (by grind) (by grind)
  have f2 : (v * 60).floor = d * 60 + m := floor_unique (by push_cast; grind) (by push_cast; grind)
  refine ⟨h0, by rw [pyInt_nonneg h0, f1], ?_, ?_⟩
  · rw [pyInt_nonneg (by grind), f2]; omega
  · rw [pyMod_floor _ 60 (by decide) (by grind), (sexa_parts v).2, f2]
    push_cast
    grind

/-- Conversely the fields of every valid object come back (a negative zero comes back positive). -/
theorem C41_dms_fields (d m : Int) (s : Rat) (neg : Bool) (o : Dms) (h : mkDms neg d m s = some o)
    (hz : dmsToDeg o ≠ 0 ∨ neg = false) : degToDms id (dmsToDeg o) = o := by
  unfold mkDms at h
  split at h
  · cases h
  · split at h
    · cases h
    · split at h
      · cases h
      · rename_i a1 a2 a3
        simp only [Option.some.injEq] at h
        subst h
        obtain ⟨f0, f1, f2, f3⟩ := floatToSexa_fields d m s (by omega) (by omega) (by grind) _ rfl
        simp only [dmsToDeg] at hz ⊢
        cases neg with
        | false =>
          simp only [Bool.false_eq_true, if_false, degToDms, floatToSexa, id_eq]
          rw [if_neg (by grind), f1, f2, f3]
          simp only [Dms.mk.injEq, decide_eq_false_iff_not, and_true]
          grind
        | true =>
          simp only [if_true, degToDms, floatToSexa, id_eq]
          simp only [if_true, Bool.true_eq_false, or_false] at hz
          rw [if_pos (by grind), Rat.neg_neg, f1, f2, f3]
          simp only [Dms.mk.injEq, decide_eq_true_eq, and_true]
          grind

/-- Hours: for angles from 0 up to 360 degrees the conversion succeeds and keeps the angle. -/
theorem C41_hms_roundtrip_partial (x : Rat) (h0 : 0 ≤ x) (h1 : x < 360) :
    ∃ h, degToHms id x = some h ∧ hmsToDeg h = x ∧ (0 ≤ h.hours ∧ h.hours < 24) ∧
      (0 ≤ h.minutes ∧ h.minutes < 60) ∧ (0 ≤ h.seconds ∧ h.seconds < 60) := by
  obtain ⟨_, h2, h3, h4, h5⟩ := floatToSexa_exact (x / 15)
  have hn : ¬ x / 15 < 0 := by grind
  have h24 : (floatToSexa id (x / 15)).2.1 ≤ 23 := by
    simp only [floatToSexa, if_neg hn]
    rw [pyInt_nonneg (by grind)]
    apply intCast_le_of
    have := (floor_bounds (x / 15)).1
    push_cast
    grind
  rw [if_neg hn] at h5
  unfold degToHms mkHms
  simp only [id_eq]
  rw [if_neg (by omega), if_neg (by omega), if_neg (by grind)]
  refine ⟨_, rfl, ?_, by simp only; omega, h3, h4⟩
  simp only [hmsToDeg]
  grind

/-- The sign is lost: a negative angle gives the hours of its absolute value. -/
theorem C41_hms_negative (x : Rat) (h0 : x < 0) : degToHms id x = degToHms id (-x) := by
  have e : floatToSexa id (x / 15) = (true, (floatToSexa id (-x / 15)).2) := by
    have h1 : x / 15 < 0 := by grind
    have h2 : ¬ -x / 15 < 0 := by grind
    have h3 : -(x / 15) = -x / 15 := by grind
    simp only [floatToSexa, if_pos h1, if_neg h2, id_eq, h3, decide_eq_true h1]
  unfold degToHms
  simp only [id_eq, e]

/-- -15 degrees is 23 hours, but comes out as 1 hour. -/
theorem C41_hms_negative_witness : degToHms id (-15) = some ⟨1, 0, 0⟩ ∧ hmsToDeg ⟨1, 0, 0⟩ = 15 := by decide +kernel

/-- Angles of 360 degrees or more raise. -/
theorem C41_hms_large (x : Rat) (h : 360 ≤ x) : degToHms id x = none := by
  have hn : ¬ x / 15 < 0 := by grind
  have h24 : 23 < (floatToSexa id (x / 15)).2.1 := by
    simp only [floatToSexa, if_neg hn]
    rw [pyInt_nonneg (by grind)]
    have : 24 ≤ (x / 15).floor := by
      apply intCast_le_of
      have := (floor_bounds (x / 15)).2
      push_cast
      grind
    omega
  unfold degToHms mkHms
  simp only [id_eq]
  rw [if_pos (by omega)]

/-- Degrees of 360 or more give an object that the constructor would refuse. -/
theorem C41_dms_large (x : Rat) (h : 360 ≤ x) : 360 ≤ (degToDms id x).degrees ∧
    mkDms (degToDms id x).neg (degToDms id x).degrees (degToDms id x).minutes (degToDms id x).seconds = none := by
  have hn : ¬ x < 0 := by grind
  have h1 : 360 ≤ (degToDms id x).degrees := by
    simp only [degToDms, floatToSexa, if_neg hn]
    rw [pyInt_nonneg (by grind)]
    apply intCast_le_of
    have := (floor_bounds x).2
    push_cast
    grind
  refine ⟨h1, ?_⟩
  unfold mkDms
  rw [if_pos (by omega)]

/-- With floats the minutes and the seconds are computed apart and need not fit together: 4.35 degrees comes out
as 4 degrees 21 minutes 59.999999999998 seconds, a minute too much. -/
theorem C41_dms_float_minute_off :
    let d := degToDms fl64 (fl64 (435 / 100))
    d.degrees = 4 ∧ d.minutes = 21 ∧ 59999 / 1000 < d.seconds ∧
    999 / 60000 < dmsToDeg d - fl64 (435 / 100) := by decide +kernel

/-- The same in hours: 65.25 degrees is 4h 21m 0s and comes out as 4h 21m 59.999999999998s. -/
theorem C41_hms_float_minute_off :
    (degToHms fl64 (261 / 4)).map (fun h => (h.hours, h.minutes, decide (59999 / 1000 < h.seconds))) =
      some (4, 21, true) := by decide +kernel

/-- Whatever the rounding (as long as it does not make numbers negative), minutes and seconds are in range. -/
theorem C41_dms_ranges (fl : Rat → Rat) (hfl : ∀ x, 0 ≤ x → 0 ≤ fl x) (x : Rat) :
    (0 ≤ (degToDms fl x).minutes ∧ (degToDms fl x).minutes < 60) ∧
    (0 ≤ (degToDms fl x).seconds ∧ (degToDms fl x).seconds < 60) := by
  have hs : ∀ v : Rat, 0 ≤ v → 0 ≤ pyMod fl (fl (v * 3600)) 60 ∧ pyMod fl (fl (v * 3600)) 60 < 60 := by
    intro v hv
    have h0 := hfl (v * 3600) (by grind)
    have e : pyMod fl (fl (v * 3600)) 60 = pyMod id (fl (v * 3600)) 60 := by
      rw [pyMod_floor _ 60 (by decide) h0, pyMod_floor _ 60 (by decide) h0]
    rw [e]
    exact ⟨(pyMod_spec _ 60 (by decide)).1, (pyMod_spec _ 60 (by decide)).2.1⟩
  refine ⟨⟨?_, ?_⟩, ?_⟩
  · simp only [degToDms, floatToSexa]; omega
  · simp only [degToDms, floatToSexa]; omega
  · simp only [degToDms, floatToSexa]
    apply hs
    split <;> grind

/-! ## Normalising -/

/-- Degrees end up in [0, 360), by a multiple of 360. -/
theorem C41_range_degrees (d : Rat) : 0 ≤ rangeDegrees id d ∧ rangeDegrees id d < 360 ∧
    ∃ k : Int, d = k * 360 + rangeDegrees id d := pyMod_spec d 360 (by decide)

/-- With floats a tiny negative angle gives exactly 360. -/
theorem C41_range_degrees_float : rangeDegrees fl64 (fl64 (-1 / 10 ^ 20)) = 360 := by decide +kernel

/-- Hours end up in [0, 24) by a multiple of 24, except that negative multiples of 24 give 24. -/
theorem C41_range_hours (h : Rat) : (∃ k : Int, h = k * 24 + rangeHours h) ∧ 0 ≤ rangeHours h ∧
    ((rangeHours h < 24 ∧ ¬ ∃ n : Int, n < 0 ∧ h = n * 24) ∨ (rangeHours h = 24 ∧ ∃ n : Int, n < 0 ∧ h = n * 24)) := by
  unfold rangeHours
  by_cases hr : 0 ≤ h ∧ h < 24
  · rw [if_pos hr]
    refine ⟨⟨0, by push_cast; grind⟩, hr.1, .inl ⟨hr.2, ?_⟩⟩
    rintro ⟨n, hn, e⟩
    have : (n : Rat) < 0 := by exact_mod_cast hn
    grind
  · rw [if_neg hr]
    simp only
    obtain ⟨b1, b2⟩ := pyInt_bounds (h / 24)
    by_cases hneg : h < 0
    · rw [if_pos hneg]
      obtain ⟨c1, c2⟩ := b2 (by grind)
      refine ⟨⟨pyInt (h / 24) - 1, by push_cast; grind⟩, by push_cast; grind, ?_⟩
      by_cases he : h = pyInt (h / 24) * 24
      · refine .inr ⟨by push_cast; grind, pyInt (h / 24), ?_, he⟩
        have : (pyInt (h / 24) : Rat) < 0 := by grind
        exact_mod_cast this
      · refine .inl ⟨by push_cast; grind, ?_⟩
        rintro ⟨n, _, e⟩
        apply he
        have : h / 24 = n := by grind
        rw [this, pyInt_int, e]
    · rw [if_neg hneg]
      obtain ⟨c1, c2⟩ := b1 (by grind)
      refine ⟨⟨pyInt (h / 24), by push_cast; grind⟩, by push_cast; grind, .inl ⟨by push_cast; grind, ?_⟩⟩
      rintro ⟨n, hn, e⟩
      have : (n : Rat) < 0 := by exact_mod_cast hn
      grind

/-- 24 is not below 24. -/
theorem C41_range_hours_witness : rangeHours (-24) = 24 ∧ rangeHours (-48) = 24 := by decide +kernel

/-! ## Sums -/

/-- Adding seconds is exact as long as the result is an hour of the day. -/
theorem C41_add_secs_partial (h : Hms) (s : Rat) (h0 : 0 ≤ hmsToSec h + s) (h1 : hmsToSec h + s < 86400) :
    ∃ r, addSecsHms h s = some r ∧ hmsToSec r = hmsToSec h + s := by
  have e : hmsToDeg h + s / 3600 * 15 = (hmsToSec h + s) / 240 := by
    simp only [hmsToDeg, hmsToSec]; grind
  obtain ⟨r, e1, e2, _⟩ := C41_hms_roundtrip_partial ((hmsToSec h + s) / 240) (by grind) (by grind)
  refine ⟨r, by unfold addSecsHms; rw [e, e1], ?_⟩
  simp only [hmsToDeg] at e2
  simp only [hmsToSec] at e2 ⊢
  grind

/-- `add_hms` keeps the hours of its second argument: the result is the sum only if those are the hours of
the sum. -/
theorem C41_add_hms_hours (a b r : Hms) (h : addHms a b = some r) : r.hours = b.hours := by
  unfold addHms at h
  split at h
  · cases h
  · simp only [Option.some.injEq] at h; subst h; rfl

/-- 1 hour and 2 hours make 2 hours. -/
theorem C41_add_hms_witness : addHms ⟨1, 0, 0⟩ ⟨2, 0, 0⟩ = some ⟨2, 0, 0⟩ := by decide +kernel

/-- The sum, as far as it is below 24 hours, is missing the whole hours it has beyond those of the second
argument. -/
theorem C41_add_hms_partial (a b : Hms) (h0 : 0 ≤ hmsToDeg a + hmsToDeg b) (h1 : hmsToDeg a + hmsToDeg b < 360) :
    ∃ r k, addHms a b = some r ∧ hmsToDeg r = hmsToDeg a + hmsToDeg b - ((k - b.hours : Int) : Rat) * 15 ∧
      k = ((hmsToDeg a + hmsToDeg b) / 15).floor := by
  obtain ⟨r, e1, e2, e3, e4, e5⟩ := C41_hms_roundtrip_partial _ h0 h1
  refine ⟨_, _, by unfold addHms; rw [e1], ?_, rfl⟩
  have : ((hmsToDeg a + hmsToDeg b) / 15).floor = r.hours := by
    have f := floatToSexa_fields r.hours r.minutes r.seconds e3.1 e4 e5 _ rfl
    rw [pyInt_nonneg f.1] at f
    rw [← f.2.1, ← e2]
    congr 1
    simp only [hmsToDeg]; grind
  rw [this, ← e2]
  simp only [hmsToDeg]
  push_cast
  grind

/-- Degrees, minutes, seconds of every angle, for example. -/
example : degToDms id (-(5 + 1 / 60)) = ⟨true, 5, 1, 0⟩ ∧ degToHms id 187 = some ⟨12, 28, 0⟩ := by decide +kernel

example : rangeDegrees id (-30) = 330 ∧ rangeHours (-1) = 23 ∧ rangeHours 49 = 1 := by decide +kernel

/-! ## Directions -/

/-- The cardinal direction is the nearest one. -/
theorem C41_nswe (az : Rat) : ∃ k : Int,
    (hrzToNswe az = .N ∧ -45 ≤ az - k * 360 ∧ az - k * 360 < 45) ∨
    (hrzToNswe az = .E ∧ 45 ≤ az - k * 360 ∧ az - k * 360 < 135) ∨
    (hrzToNswe az = .S ∧ 135 ≤ az - k * 360 ∧ az - k * 360 < 225) ∨
    (hrzToNswe az = .W ∧ 225 ≤ az - k * 360 ∧ az - k * 360 < 315) := by
  obtain ⟨h1, h2, k, h3⟩ := pyMod_spec az 360 (by decide)
  unfold hrzToNswe
  simp only
  generalize pyMod id az 360 = r at *
  by_cases c1 : r < 45
  · exact ⟨k, .inl ⟨by rw [if_pos (.inl c1)], by grind, by grind⟩⟩
  by_cases c2 : 315 ≤ r
  · exact ⟨k + 1, .inl ⟨by rw [if_pos (.inr c2)], by push_cast; grind, by push_cast; grind⟩⟩
  rw [if_neg (by grind)]
  by_cases c3 : r < 135
  · exact ⟨k, .inr (.inl ⟨by rw [if_pos ⟨by grind, c3⟩], by grind, by grind⟩)⟩
  rw [if_neg (by grind)]
  by_cases c4 : r < 225
  · exact ⟨k, .inr (.inr (.inl ⟨by rw [if_pos ⟨by grind, c4⟩], by grind, by grind⟩))⟩
  rw [if_neg (by grind)]
  exact ⟨k, .inr (.inr (.inr ⟨rfl, by grind, by grind⟩))⟩

/-! ## C42 -/

/-- The weekday of a date, 0 = Sunday: 0001-01-01 (ordinal 1) is a Monday of the proleptic calendar. -/
def weekday (dt : McsTime.DateTime) : Int := (McsTime.ordinal dt : Int) % 7

/-- Sanity of the specification: 1 January 2000 was a Saturday and the weekday goes up by one each day. -/
theorem weekday_anchor (h mi s us : Nat) : weekday ⟨2000, 1, 1, h, mi, s, us⟩ = 6 := by
  simp only [weekday, McsTime.ordinal]
  have := McsTime.daysBeforeYear_closed 2000 (by decide)
  have : (McsTime.daysBeforeMonth 2000 1) = 0 := rfl
  omega

theorem weekday_next (dt : McsTime.DateTime) (h : McsTime.Valid dt) :
    weekday (McsTime.nextDay dt) = (weekday dt + 1) % 7 := by
  have h1 := McsTime.C23_next_day dt h
  rw [McsTime.C23_mjd_is_day_count dt h, McsTime.C23_mjd_is_day_count _ (McsTime.nextDay_valid dt h)] at h1
  simp only [weekday]
  omega

/-- The Julian date: MJD + 2400000.5 and the part of the day that has gone. -/
def julian (dt : McsTime.DateTime) (part : Rat) : Rat := (McsTime.toMjd dt : Rat) + 4800001 / 2 + part

/-- After midnight the day of the week is right for every date and every instant of the day. -/
theorem C42_weekday_partial (dt : McsTime.DateTime) (h : McsTime.Valid dt) (part : Rat) (h0 : 0 < part) (h1 : part < 1) :
    getDayOfWeek (julian dt part) = weekday dt := by
  unfold getDayOfWeek julian weekday
  have : roundHalfEven ((McsTime.toMjd dt : Rat) + 4800001 / 2 + part) = McsTime.toMjd dt + 2400001 := by
    apply round_near <;> push_cast <;> grind
  rw [this, McsTime.C23_mjd_is_day_count dt h]
  omega

/-- At midnight it is right only for every second day; for the others it is the day before. -/
theorem C42_weekday_midnight (dt : McsTime.DateTime) (h : McsTime.Valid dt) :
    getDayOfWeek (julian dt 0) =
      if McsTime.ordinal dt % 2 = 1 then weekday dt else (weekday dt + 6) % 7 := by
  unfold getDayOfWeek julian weekday
  rw [McsTime.C23_mjd_is_day_count dt h]
  have e : (((McsTime.ordinal dt : Int) - 678576 : Int) : Rat) + 4800001 / 2 + 0 =
      (((McsTime.ordinal dt : Int) + 1721424 : Int) : Rat) + 1 / 2 := by push_cast; grind
  have f : ((((McsTime.ordinal dt : Int) + 1721424 : Int) : Rat) + 1 / 2).floor = (McsTime.ordinal dt : Int) + 1721424 :=
    floor_unique (by grind) (by grind)
  rw [e]
  unfold roundHalfEven
  rw [f]
  simp only
  rw [if_neg (by grind), if_neg (by grind)]
  by_cases hp : McsTime.ordinal dt % 2 = 1
  · rw [if_pos hp, if_neg (by omega)]; omega
  · rw [if_neg hp, if_pos (by omega)]; omega

/-- Midnight at the start of Saturday 1 January 2000 is reported as Friday; that of the next day is right. -/
theorem C42_weekday_witness : getDayOfWeek (julian ⟨2000, 1, 1, 0, 0, 0, 0⟩ 0) = 5 ∧
    getDayOfWeek (julian ⟨2000, 1, 2, 0, 0, 0, 0⟩ 0) = 0 ∧ getDayOfWeek (julian ⟨2000, 1, 1, 12, 0, 0, 0⟩ (1 / 2)) = 6 := by
  decide +kernel

/-! ## C61 -/

/-- Local time is UTC plus the offset, when the seconds do not round up in print. -/
theorem C61_to_zone_partial (c : Cal) (g : Int) (h0 : 0 ≤ c.frac) (h1 : c.frac < 1999 / 2000) :
    dateToZone c g = ⟨c.whole + g, c.frac⟩ ∧ zoneToDate c g = ⟨c.whole - g, c.frac⟩ := by
  have : roundHalfEven (c.frac * 1000) / 1000 = 0 := by
    obtain ⟨r1, r2⟩ := round_half (c.frac * 1000)
    have a : roundHalfEven (c.frac * 1000) ≤ 999 := by apply intCast_le_of; push_cast; grind
    have b : 0 ≤ roundHalfEven (c.frac * 1000) := by apply intCast_le_of; push_cast; grind
    omega
  unfold dateToZone zoneToDate printedSecond
  rw [this, Int.add_zero]
  exact ⟨rfl, rfl⟩

/-- In the last half millisecond of every second the result is one second too late, both ways. -/
theorem C61_to_zone_late (c : Cal) (g : Int) (h0 : 1999 / 2000 ≤ c.frac) (h1 : c.frac < 1) :
    dateToZone c g = ⟨c.whole + g + 1, c.frac⟩ ∧ zoneToDate c g = ⟨c.whole - g + 1, c.frac⟩ := by
  have : roundHalfEven (c.frac * 1000) = 1000 := by
    by_cases he : c.frac = 1999 / 2000
    · rw [he]; decide +kernel
    · apply round_near <;> push_cast <;> grind
  unfold dateToZone zoneToDate printedSecond
  rw [this]
  simp only [Cal.mk.injEq, and_true]
  omega

/-- So a time and its local time, converted back, differ by two seconds there and are equal everywhere else. -/
theorem C61_roundtrip (c : Cal) (g : Int) (h0 : 0 ≤ c.frac) (h1 : c.frac < 1) :
    zoneToDate (dateToZone c g) g = if c.frac < 1999 / 2000 then c else ⟨c.whole + 2, c.frac⟩ := by
  by_cases h : c.frac < 1999 / 2000
  · rw [if_pos h, (C61_to_zone_partial c g h0 h).1, (C61_to_zone_partial ⟨c.whole + g, c.frac⟩ g h0 h).2]
    obtain ⟨w, f⟩ := c
    simp only [Cal.mk.injEq, and_true]
    omega
  · rw [if_neg h, (C61_to_zone_late c g (by grind) h1).1,
      (C61_to_zone_late ⟨c.whole + g + 1, c.frac⟩ g (by grind) h1).2]
    simp only [Cal.mk.injEq, and_true]
    omega

example : dateToZone ⟨100, 1 / 4⟩ (-3600) = ⟨-3500, 1 / 4⟩ ∧ dateToZone ⟨100, 9996 / 10000⟩ 0 = ⟨101, 9996 / 10000⟩ := by
  decide +kernel

/-- C41: Julian days and modified Julian days are converted into each other without loss, where both are defined. -/
theorem C41_mjd_roundtrip (mjd : Rat) (h : 0 ≤ mjd) :
    ∃ jd, mjdToJd mjd = some jd ∧ jd - mjd = 2400000 + 1 / 2 ∧ jdToMjd jd = some mjd := by
  refine ⟨mjd + 4800001 / 2, ?_, ?_, ?_⟩
  · simp only [mjdToJd, show ¬ mjd < 0 by grind, if_false]
  · grind
  · simp only [jdToMjd, show ¬ mjd + 4800001 / 2 < 4800001 / 2 by grind, if_false]
    congr 1; grind

/-- C41: negative modified Julian days, and Julian days before their start, are refused. -/
theorem C41_mjd_refused (x : Rat) : (mjdToJd x = none ↔ x < 0) ∧ (jdToMjd x = none ↔ x < 2400000 + 1 / 2) := by
  simp only [mjdToJd, jdToMjd]
  constructor <;> split <;> simp <;> grind

/-- C41: an angle of time in seconds is the same through its degrees. -/
theorem C41_seconds (h : Hms) : degToSec (hmsToDeg h) = hmsToSec h := by
  simp only [degToSec, hmsToDeg, hmsToSec]; grind

example : mjdToJd 60000 = some (2460000 + 1 / 2) ∧ degToSec 15 = 3600 := by constructor <;> decide +kernel

end Verif.Astro
