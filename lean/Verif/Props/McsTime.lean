import Verif.Model.McsTime
/-!
# C23: MJD/MPM and calendar dates

The specification is the proleptic Gregorian calendar itself: leap years, month lengths, "next day",
and the day count of python's `date.toordinal` built from them.
-/
namespace Verif.McsTime

/-! ## Calendar specification -/

def leap (y : Nat) : Bool := y % 4 == 0 && (y % 100 != 0 || y % 400 == 0)

def monthLen (y m : Nat) : Nat :=
  match m with
  | 2 => if leap y then 29 else 28
  | 4 | 6 | 9 | 11 => 30
  | _ => 31

/-- A date that exists, with a time of day that exists. -/
structure Valid (dt : DateTime) : Prop where
  year : 1 ≤ dt.year
  month : 1 ≤ dt.month ∧ dt.month ≤ 12
  day : 1 ≤ dt.day ∧ dt.day ≤ monthLen dt.year dt.month
  hour : dt.hour < 24
  minute : dt.minute < 60
  second : dt.second < 60
  us : dt.microsecond < 1000000

/-- The day after, same time of day. -/
def nextDay (dt : DateTime) : DateTime :=
  if dt.day < monthLen dt.year dt.month then { dt with day := dt.day + 1 }
  else if dt.month < 12 then { dt with month := dt.month + 1, day := 1 }
  else { dt with year := dt.year + 1, month := 1, day := 1 }

/-- Days before January 1st of a year, counting from year 1. -/
def daysBeforeYear : Nat → Nat
  | 0 => 0
  | 1 => 0
  | y + 2 => daysBeforeYear (y + 1) + (if leap (y + 1) then 366 else 365)

/-- Days before the first of a month within the year. -/
def daysBeforeMonth (y : Nat) : Nat → Nat
  | 0 => 0
  | 1 => 0
  | m + 2 => daysBeforeMonth y (m + 1) + monthLen y (m + 1)

/-- `date.toordinal()`: 0001-01-01 is 1. -/
def ordinal (dt : DateTime) : Nat :=
  daysBeforeYear dt.year + daysBeforeMonth dt.year dt.month + dt.day

/-- Milliseconds since 1970-01-01 (ordinal 719163), ignoring the sub-millisecond part. -/
def instantMs (dt : DateTime) : Int :=
  ((ordinal dt : Int) - 719163) * 86400000 +
    (dt.hour * 3600000 + dt.minute * 60000 + dt.second * 1000 + dt.microsecond / 1000 : Nat)

theorem daysBeforeYear_closed (y : Nat) (h : 1 ≤ y) :
    (daysBeforeYear y : Int) =
      365 * ((y : Int) - 1) + ((y : Int) - 1) / 4 - ((y : Int) - 1) / 100 + ((y : Int) - 1) / 400 := by
  induction y with
  | zero => omega
  | succ y ih =>
    cases y with
    | zero => decide
    | succ y =>
      have := ih (by omega)
      simp only [daysBeforeYear]
      unfold leap
      by_cases h4 : (y + 1) % 4 = 0 <;> by_cases h100 : (y + 1) % 100 = 0 <;>
        by_cases h400 : (y + 1) % 400 = 0 <;> simp [h4, h100, h400] <;> omega

theorem month_cases {m : Nat} (h : 1 ≤ m ∧ m ≤ 12) : m = 1 ∨ m = 2 ∨ m = 3 ∨ m = 4 ∨ m = 5 ∨ m = 6 ∨
    m = 7 ∨ m = 8 ∨ m = 9 ∨ m = 10 ∨ m = 11 ∨ m = 12 := by omega

theorem leap_int (y : Nat) : leap y = true ↔ ((y % 4 = 0 ∧ y % 100 ≠ 0) ∨ y % 400 = 0) := by
  unfold leap
  simp only [Bool.and_eq_true, Bool.or_eq_true, beq_iff_eq, bne_iff_ne]
  omega

theorem quot_step (y : Nat) (_h : 1 ≤ y) :
    (y : Int) / 4 - (y : Int) / 100 + (y : Int) / 400 =
      ((y : Int) - 1) / 4 - ((y : Int) - 1) / 100 + ((y : Int) - 1) / 400 +
        (if leap y then 1 else 0) := by
  have h4 : (y : Int) / 4 = ((y : Int) - 1) / 4 + (if y % 4 = 0 then 1 else 0) := by
    split <;> omega
  have h100 : (y : Int) / 100 = ((y : Int) - 1) / 100 + (if y % 100 = 0 then 1 else 0) := by
    split <;> omega
  have h400 : (y : Int) / 400 = ((y : Int) - 1) / 400 + (if y % 400 = 0 then 1 else 0) := by
    split <;> omega
  have hl : (if leap y then (1 : Int) else 0) = (if y % 4 = 0 then 1 else 0) -
      (if y % 100 = 0 then 1 else 0) + (if y % 400 = 0 then 1 else 0) := by
    have hl := leap_int y
    by_cases g : leap y = true
    · rw [if_pos g]; have := hl.mp g; clear h4 h100 h400
      rcases this with ⟨g1, g2⟩ | g1
      · rw [if_pos g1, if_neg g2, if_neg (by omega)]; rfl
      · rw [if_pos (by omega), if_pos (by omega), if_pos g1]; rfl
    · rw [if_neg g]
      have : ¬ ((y % 4 = 0 ∧ y % 100 ≠ 0) ∨ y % 400 = 0) := fun c => g (hl.mpr c)
      clear h4 h100 h400
      rw [if_neg (show ¬ y % 400 = 0 by omega)]
      by_cases g1 : y % 4 = 0
      · rw [if_pos g1, if_pos (by omega)]; rfl
      · rw [if_neg g1, if_neg (by omega)]; rfl
  rw [hl, h4, h100, h400]
  generalize (if y % 4 = 0 then (1 : Int) else 0) = i
  generalize (if y % 100 = 0 then (1 : Int) else 0) = j
  generalize (if y % 400 = 0 then (1 : Int) else 0) = k
  generalize ((y : Int) - 1) / 4 = a
  generalize ((y : Int) - 1) / 100 = b
  generalize ((y : Int) - 1) / 400 = c
  omega

theorem quot_shift (x : Int) : (x + 4800) / 4 = x / 4 + 1200 ∧ (x + 4800) / 100 = x / 100 + 48 ∧
    (x + 4800) / 400 = x / 400 + 12 := by omega

theorem month_early (y m : Nat) (h : m = 1 ∨ m = 2) :
    ((14 : Int) - m) / 12 = 1 ∧
    (153 * ((m : Int) + 12 * 1 - 3) + 2) / 5 = (daysBeforeMonth y m : Int) + 306 := by
  rcases h with rfl | rfl <;> simp [daysBeforeMonth, monthLen]

theorem month_late (y m : Nat) (h : 3 ≤ m ∧ m ≤ 12) :
    ((14 : Int) - m) / 12 = 0 ∧
    (153 * ((m : Int) + 12 * 0 - 3) + 2) / 5 + 59 + (if leap y then 1 else 0) =
      (daysBeforeMonth y m : Int) := by
  have : m = 3 ∨ m = 4 ∨ m = 5 ∨ m = 6 ∨ m = 7 ∨ m = 8 ∨ m = 9 ∨ m = 10 ∨ m = 11 ∨ m = 12 := by
    omega
  rcases this with hm | hm | hm | hm | hm | hm | hm | hm | hm | hm <;> subst hm <;>
    cases hl : leap y <;> simp [daysBeforeMonth, monthLen, hl]

/-- The day formula is the calendar day count, for every date. -/
theorem C23_mjd_is_day_count (dt : DateTime) (h : Valid dt) :
    toMjd dt = (ordinal dt : Int) - 678576 := by
  have hy := daysBeforeYear_closed dt.year h.year
  have hq := quot_step dt.year h.year
  have s1 := quot_shift (dt.year : Int)
  have s2 := quot_shift ((dt.year : Int) - 1)
  have e1 : (dt.year : Int) + 4800 - 1 = (dt.year : Int) - 1 + 4800 := by omega
  have e0 : (dt.year : Int) + 4800 - 0 = (dt.year : Int) + 4800 := by omega
  have hm := h.month
  have hcast : (ordinal dt : Int) = (daysBeforeYear dt.year : Int) +
    (daysBeforeMonth dt.year dt.month : Int) + (dt.day : Int) := by unfold ordinal; omega
  rw [hcast, hy]
  unfold toMjd
  simp only
  by_cases hm2 : dt.month ≤ 2
  · obtain ⟨ea, ek⟩ := month_early dt.year dt.month (by omega)
    rw [ea, ek, e1, s2.1, s2.2.1, s2.2.2]
    generalize ((dt.year : Int) - 1) / 4 = b4
    generalize ((dt.year : Int) - 1) / 100 = b100
    generalize ((dt.year : Int) - 1) / 400 = b400
    clear hq s1 s2 hy hcast
    omega
  · obtain ⟨ea, ek⟩ := month_late dt.year dt.month (by omega)
    rw [ea, e0, s1.1, s1.2.1, s1.2.2, ← ek]
    revert hq
    clear hcast s1 s2 hy ek
    generalize (153 * ((dt.month : Int) + 12 * 0 - 3) + 2) / 5 = K
    generalize (dt.year : Int) / 4 = a4
    generalize (dt.year : Int) / 100 = a100
    generalize (dt.year : Int) / 400 = a400
    generalize ((dt.year : Int) - 1) / 4 = b4
    generalize ((dt.year : Int) - 1) / 100 = b100
    generalize ((dt.year : Int) - 1) / 400 = b400
    generalize (if leap dt.year then (1 : Int) else 0) = l
    intro hq
    omega

/-- MJD 0 is 1858-11-17. -/
theorem C23_epoch (h mi s us : Nat) : toMjd ⟨1858, 11, 17, h, mi, s, us⟩ = 0 := by
  simp [toMjd]

theorem nextDay_valid (dt : DateTime) (h : Valid dt) : Valid (nextDay dt) := by
  unfold nextDay
  split
  · exact ⟨h.year, h.month, ⟨by simp, by simpa using by assumption⟩, h.hour, h.minute, h.second, h.us⟩
  · split
    · refine ⟨h.year, ⟨by simp, by simp only; omega⟩, ⟨by simp, ?_⟩, h.hour, h.minute,
        h.second, h.us⟩
      simp only [monthLen]; split <;> (try split) <;> omega
    · exact ⟨by simp, ⟨by simp, by simp⟩, ⟨by simp, by simp [monthLen]⟩, h.hour, h.minute, h.second,
        h.us⟩

/-- MJD advances by exactly one from any date to the next calendar day. -/
theorem C23_next_day (dt : DateTime) (h : Valid dt) : toMjd (nextDay dt) = toMjd dt + 1 := by
  rw [C23_mjd_is_day_count dt h, C23_mjd_is_day_count _ (nextDay_valid dt h)]
  suffices hs : ordinal (nextDay dt) = ordinal dt + 1 by omega
  have h1 := h.day
  have h2 := h.month
  have h3 := h.year
  obtain ⟨m, hm⟩ : ∃ m, dt.month = m + 1 := ⟨dt.month - 1, by omega⟩
  obtain ⟨y, hy⟩ : ∃ y, dt.year = y + 1 := ⟨dt.year - 1, by omega⟩
  unfold nextDay ordinal
  split
  · simp only; omega
  · split
    · simp only
      rw [hm]
      simp only [daysBeforeMonth]
      rw [hm] at h1
      rename_i h4 _
      rw [hm] at h4
      omega
    · rename_i h4 h5
      have hm12 : dt.month = 12 := by omega
      simp only [hy, hm12, daysBeforeYear, daysBeforeMonth, monthLen] at *
      cases leap (y + 1) <;> simp at * <;> omega

/-- Milliseconds past midnight are always in range. -/
theorem C23_mpm_range (dt : DateTime) (h : Valid dt) : 0 ≤ toMpm dt ∧ toMpm dt ≤ 86399999 := by
  have := h.hour; have := h.minute; have := h.second; have := h.us
  unfold toMpm
  omega

/-- Converting to MJD/MPM and back hands `datetime.fromtimestamp` exactly the instant started
from. -/
theorem C23_instant (dt : DateTime) (h : Valid dt) : toUnixMs (toMjd dt) (toMpm dt) = instantMs dt := by
  rw [C23_mjd_is_day_count dt h]
  unfold toUnixMs toMpm instantMs
  omega

theorem year_bounds (dt : DateTime) (h : Valid dt) :
    daysBeforeYear dt.year < ordinal dt ∧ ordinal dt ≤ daysBeforeYear (dt.year + 1) := by
  have h1 := h.day
  have h2 := h.month
  have h3 := h.year
  obtain ⟨y, hy⟩ : ∃ y, dt.year = y + 1 := ⟨dt.year - 1, by omega⟩
  unfold ordinal
  refine ⟨by omega, ?_⟩
  rw [hy] at h1 ⊢
  simp only [daysBeforeYear]
  rcases month_cases h2 with hm | hm | hm | hm | hm | hm | hm | hm | hm | hm | hm | hm <;>
    rw [hm] at h1 ⊢ <;> simp only [daysBeforeMonth, monthLen] at h1 ⊢ <;>
    cases hlp : leap (y + 1) <;> simp [hlp] at h1 ⊢ <;> omega

theorem daysBeforeYear_mono {a b : Nat} (h : a ≤ b) (ha : 1 ≤ a) :
    daysBeforeYear a ≤ daysBeforeYear b := by
  induction b with
  | zero => omega
  | succ b ih =>
    rcases Nat.lt_or_ge b a with hb | hb
    · rw [show a = b + 1 by omega]; exact Nat.le_refl _
    · obtain ⟨c, rfl⟩ : ∃ c, b = c + 1 := ⟨b - 1, by omega⟩
      have := ih hb
      simp only [daysBeforeYear]
      omega

/-- Different dates have different day counts. -/
theorem ordinal_inj (a b : DateTime) (ha : Valid a) (hb : Valid b) (h : ordinal a = ordinal b) :
    a.year = b.year ∧ a.month = b.month ∧ a.day = b.day := by
  have ha1 := year_bounds a ha
  have hb1 := year_bounds b hb
  have hy : a.year = b.year := by
    rcases Nat.lt_trichotomy a.year b.year with hlt | heq | hgt
    · have := daysBeforeYear_mono (a := a.year + 1) (b := b.year) (by omega) (by omega); omega
    · exact heq
    · have := daysBeforeYear_mono (a := b.year + 1) (b := a.year) (by omega) (by omega); omega
  refine ⟨hy, ?_⟩
  have had := ha.day
  have hbd := hb.day
  unfold ordinal at h
  rw [hy] at h had
  have hstep : ∀ (y k m : Nat), 1 ≤ m →
      daysBeforeMonth y m + monthLen y m ≤ daysBeforeMonth y (m + k + 1) := by
    intro y k
    induction k with
    | zero =>
      intro m hm
      obtain ⟨n, rfl⟩ : ∃ n, m = n + 1 := ⟨m - 1, by omega⟩
      simp [daysBeforeMonth]
    | succ k ih =>
      intro m hm
      have := ih m hm
      obtain ⟨n, rfl⟩ : ∃ n, m = n + 1 := ⟨m - 1, by omega⟩
      rw [show n + 1 + (k + 1) + 1 = (n + k + 1) + 2 by omega]
      simp only [daysBeforeMonth]
      rw [show n + 1 + k + 1 = n + k + 1 + 1 by omega] at this
      simp only [daysBeforeMonth] at this
      omega
  have hm : a.month = b.month := by
    have hma := ha.month
    have hmb := hb.month
    rcases Nat.lt_trichotomy a.month b.month with hlt | heq | hgt
    · have := hstep b.year (b.month - a.month - 1) a.month (by omega)
      rw [show a.month + (b.month - a.month - 1) + 1 = b.month by omega] at this
      omega
    · exact heq
    · have := hstep b.year (a.month - b.month - 1) b.month (by omega)
      rw [show b.month + (a.month - b.month - 1) + 1 = a.month by omega] at this
      omega
  refine ⟨hm, ?_⟩
  rw [hm] at h
  omega

/-- The round trip: the only date and time (to the millisecond) at the instant computed back from
the MJD and MPM of `dt` is `dt` itself. -/
theorem C23_roundtrip (dt dt' : DateTime) (h : Valid dt) (h' : Valid dt')
    (hms : dt.microsecond % 1000 = 0) (hms' : dt'.microsecond % 1000 = 0)
    (hi : instantMs dt' = toUnixMs (toMjd dt) (toMpm dt)) : dt' = dt := by
  rw [C23_instant dt h] at hi
  have a1 := h.hour; have a2 := h.minute; have a3 := h.second; have a4 := h.us
  have b1 := h'.hour; have b2 := h'.minute; have b3 := h'.second; have b4 := h'.us
  unfold instantMs at hi
  have ho : ordinal dt' = ordinal dt := by omega
  obtain ⟨e1, e2, e3⟩ := ordinal_inj dt' dt h' h ho
  rw [ho] at hi
  have e4 : dt'.hour = dt.hour := by omega
  have e5 : dt'.minute = dt.minute := by omega
  have e6 : dt'.second = dt.second := by omega
  have e7 : dt'.microsecond = dt.microsecond := by omega
  cases dt; cases dt'
  simp_all

example : Valid ⟨2000, 2, 29, 23, 59, 59, 999000⟩ ∧
    toMjd ⟨2000, 2, 29, 23, 59, 59, 999000⟩ = 51603 ∧
    toMpm ⟨2000, 2, 29, 23, 59, 59, 999000⟩ = 86399999 :=
  ⟨⟨by decide, by decide, by decide, by decide, by decide, by decide, by decide⟩, rfl, rfl⟩

end Verif.McsTime
