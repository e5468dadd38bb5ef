import Verif.Model.Igrf
import Verif.Props.McsTime
import Verif.Lemmas.IonexTime
/-! # C100: years and coefficients of the magnetic field -/
namespace Verif.Igrf
open Verif.McsTime

/-! ## The table -/

theorem put_get (years : Nat) (d d' : Dict) (n m : Nat) (c : List Rat) (h : put years d n m c = .ok d') (k i : Nat) :
    ((d' k).bind (·[i]?) = if k = n ∧ i = m then some c
      else if k = n ∧ d n = none then (if i ≤ n then some (List.replicate (years + 1) 0) else none) else (d k).bind (·[i]?)) := by
  simp only [put] at h
  split at h
  · rename_i hm
    simp only [Except.ok.injEq] at h
    subst h
    simp only
    by_cases hk : k = n
    · subst hk
      simp only [if_true, true_and, Option.bind_some]
      by_cases hi : i = m
      · subst hi
        rw [if_pos rfl, List.getElem?_set_self hm]
      · rw [if_neg hi, List.getElem?_set_ne (fun h => hi h.symm)]
        cases hd : d k with
        | none =>
          simp only [if_true, Option.getD_none, List.getElem?_replicate]
          by_cases h2 : i ≤ k
          · rw [if_pos h2, if_pos (by omega)]
          · rw [if_neg h2, if_neg (by omega)]
        | some l => simp
    · simp [hk]
  · cases h

/-- Whatever the table has last for a degree and order is the value there. -/
theorem C100_table_last (years : Nat) (d d' : Dict × Dict) (rs : List Row) (r : Row) (h : load years d (rs ++ [r]) = .ok d') :
    (if r.cosine then d'.1 else d'.2) r.n = some (((if r.cosine then d'.1 else d'.2) r.n).getD []) ∧
    ((if r.cosine then d'.1 else d'.2) r.n).bind (·[r.m]?) = some r.c := by
  induction rs generalizing d with
  | nil =>
    simp only [List.nil_append, load] at h
    cases hc : r.cosine with
    | true =>
      simp only [hc, if_true] at h ⊢
      cases hp : put years d.1 r.n r.m r.c with
      | error e => rw [hp] at h; cases h
      | ok g =>
        rw [hp] at h; simp only [Except.ok.injEq] at h; subst h
        have := put_get years d.1 g r.n r.m r.c hp r.n r.m
        rw [if_pos ⟨rfl, rfl⟩] at this
        refine ⟨?_, this⟩
        simp only
        cases hg : g r.n with
        | none => rw [hg] at this; cases this
        | some l => rfl
    | false =>
      simp only [hc, Bool.false_eq_true, if_false] at h ⊢
      cases hp : put years d.2 r.n r.m r.c with
      | error e => rw [hp] at h; cases h
      | ok g =>
        rw [hp] at h; simp only [Except.ok.injEq] at h; subst h
        have := put_get years d.2 g r.n r.m r.c hp r.n r.m
        rw [if_pos ⟨rfl, rfl⟩] at this
        refine ⟨?_, this⟩
        simp only
        cases hg : g r.n with
        | none => rw [hg] at this; cases this
        | some l => rfl
  | cons r0 rs ih =>
    simp only [List.cons_append, load] at h
    cases hc : r0.cosine with
    | true =>
      simp only [hc, if_true] at h
      cases hp : put years d.1 r0.n r0.m r0.c with
      | error e => rw [hp] at h; cases h
      | ok g => rw [hp] at h; exact ih _ h
    | false =>
      simp only [hc, Bool.false_eq_true, if_false] at h
      cases hp : put years d.2 r0.n r0.m r0.c with
      | error e => rw [hp] at h; cases h
      | ok g => rw [hp] at h; exact ih _ h

/-- A row changes nothing but its own place and the zeros of a new degree, and nothing of the other kind. -/
theorem C100_table_other (years : Nat) (d d' : Dict × Dict) (r : Row) (h : load years d [r] = .ok d') (k i : Nat) (hki : ¬ (k = r.n ∧ i = r.m)) :
    ((if r.cosine then d'.1 else d'.2) k).bind (·[i]?) =
      (if k = r.n ∧ (if r.cosine then d.1 else d.2) r.n = none then (if i ≤ r.n then some (List.replicate (years + 1) 0) else none)
       else ((if r.cosine then d.1 else d.2) k).bind (·[i]?)) ∧
    (if r.cosine then d'.2 else d'.1) = (if r.cosine then d.2 else d.1) := by
  simp only [load] at h
  cases hc : r.cosine with
  | true =>
    simp only [hc, if_true] at h ⊢
    cases hp : put years d.1 r.n r.m r.c with
    | error e => rw [hp] at h; cases h
    | ok g =>
      rw [hp] at h; simp only [Except.ok.injEq] at h; subst h
      have := put_get years d.1 g r.n r.m r.c hp k i
      rw [if_neg hki] at this
      exact ⟨this, rfl⟩
  | false =>
    simp only [hc, Bool.false_eq_true, if_false] at h ⊢
    cases hp : put years d.2 r.n r.m r.c with
    | error e => rw [hp] at h; cases h
    | ok g =>
      rw [hp] at h; simp only [Except.ok.injEq] at h; subst h
      have := put_get years d.2 g r.n r.m r.c hp k i
      rw [if_neg hki] at this
      exact ⟨this, rfl⟩

/-! ## Coefficients -/

theorem best_eq (years : List Rat) (year : Rat) : best years year = Ionex.best id years 5 year := by
  unfold best Ionex.best
  congr 1
  funext i
  rw [decide_eq_decide]
  simp only [id]
  rw [Ionex.abs_lt_iff, Ionex.abs_lt_iff]
  constructor <;> intro ⟨h1, h2⟩ <;> constructor <;> grind

theorem foldl_max (l : List Rat) (a b : Rat) (h : ∀ x ∈ l, x ≤ b) (ha : a ≤ b) : l.foldl max a ≤ b := by
  induction l generalizing a with
  | nil => exact ha
  | cons x l ih =>
    rw [List.foldl_cons]
    apply ih _ (fun y hy => h y (by simp [hy]))
    have := h x (by simp)
    rw [Rat.max_def]; split <;> assumption

theorem le_foldl_max (l : List Rat) (a x : Rat) (h : x ∈ l ∨ x ≤ a) : x ≤ l.foldl max a := by
  induction l generalizing a with
  | nil => simpa using h
  | cons y l ih =>
    rw [List.foldl_cons]
    apply ih
    rcases h with h | h
    · rcases List.mem_cons.mp h with h | h
      · right; subst h; rw [Rat.max_def]; split <;> grind
      · left; exact h
    · right; rw [Rat.max_def]; split <;> grind

theorem le_foldl_min (l : List Rat) (a b : Rat) (h : ∀ x ∈ l, b ≤ x) (ha : b ≤ a) : b ≤ l.foldl min a := by
  induction l generalizing a with
  | nil => exact ha
  | cons x l ih =>
    rw [List.foldl_cons]
    apply ih _ (fun y hy => h y (by simp [hy]))
    have := h x (by simp)
    rw [Rat.min_def]; split <;> assumption

theorem foldl_min_le (l : List Rat) (a x : Rat) (h : x ∈ l ∨ a ≤ x) : l.foldl min a ≤ x := by
  induction l generalizing a with
  | nil => simpa using h
  | cons y l ih =>
    rw [List.foldl_cons]
    apply ih
    rcases h with h | h
    · rcases List.mem_cons.mp h with h | h
      · right; subst h; rw [Rat.min_def]; split <;> grind
      · left; exact h
    · right; rw [Rat.min_def]; split <;> grind

theorem evenly_mem (y0 : Rat) (n : Nat) (x : Rat) (h : x ∈ Ionex.evenly y0 5 n) : ∃ k, k < n ∧ x = y0 + (k : Rat) * 5 := by
  simp only [Ionex.evenly, List.mem_map, List.mem_range] at h
  obtain ⟨k, hk, rfl⟩ := h
  exact ⟨k, hk, rfl⟩

theorem head_evenly (y0 : Rat) (n : Nat) : (Ionex.evenly y0 5 (n + 1)).headD 0 = y0 := by
  simp only [Ionex.evenly, List.range_succ_eq_map, List.map_cons, List.headD_cons]
  rw [show ((0 : Nat) : Rat) = 0 from rfl]; grind

theorem last_evenly (y0 : Rat) (n : Nat) : last (Ionex.evenly y0 5 (n + 1)) = y0 + (n : Rat) * 5 := by
  have hle : last (Ionex.evenly y0 5 (n + 1)) ≤ y0 + (n : Rat) * 5 := by
    apply foldl_max
    · intro x hx
      obtain ⟨k, hk, rfl⟩ := evenly_mem y0 _ x hx
      have := (Ionex.cast_le k n).mpr (by omega); grind
    · rw [head_evenly]
      have : (0 : Rat) ≤ (n : Rat) := (Ionex.cast_le 0 n).mpr (by omega)
      grind
  have hge : y0 + (n : Rat) * 5 ≤ last (Ionex.evenly y0 5 (n + 1)) := by
    apply le_foldl_max
    left
    simp only [Ionex.evenly, List.mem_map, List.mem_range]
    exact ⟨n, by omega, rfl⟩
  grind

theorem first_evenly (y0 : Rat) (n : Nat) : first (Ionex.evenly y0 5 (n + 1)) = y0 := by
  have hge : y0 ≤ first (Ionex.evenly y0 5 (n + 1)) := by
    apply le_foldl_min
    · intro x hx
      obtain ⟨k, hk, rfl⟩ := evenly_mem y0 _ x hx
      have : (0 : Rat) ≤ (k : Rat) := (Ionex.cast_le 0 k).mpr (by omega)
      grind
    · rw [head_evenly]; exact Rat.le_refl
  have hle : first (Ionex.evenly y0 5 (n + 1)) ≤ y0 := by
    apply foldl_min_le
    right; rw [head_evenly]; exact Rat.le_refl
  grind

theorem coefficient_of (y0 f : Rat) (n i a b : Nat) (vals : List Rat) (hf : 0 ≤ (i : Rat) + f)
    (ha : (best (Ionex.evenly y0 5 (n + 1)) (y0 + ((i : Rat) + f) * 5)).head? = some a)
    (hb : (best (Ionex.evenly y0 5 (n + 1)) (y0 + ((i : Rat) + f) * 5)).getLast? = some b) (ha2 : a < n + 1) (hb2 : b < n + 1) :
    coefficient (Ionex.evenly y0 5 (n + 1)) vals (y0 + ((i : Rat) + f) * 5) =
      .ok ((if (n : Rat) < (i : Rat) + f then vals.getLastD 0 else if b = a then 0 else (vals.getD b 0 - vals.getD a 0) / (((b : Rat) - (a : Rat)) * 5))
        * (((i : Rat) + f - (a : Rat)) * 5) + vals.getD a 0) := by
  unfold coefficient
  rw [first_evenly, last_evenly, ha, hb, if_neg (by grind)]
  simp only [Ionex.evenly_get y0 5 (n + 1) _ ha2, Ionex.evenly_get y0 5 (n + 1) _ hb2]
  congr 1
  have e1 : y0 + ((i : Rat) + f) * 5 - (y0 + (a : Rat) * 5) = ((i : Rat) + f - (a : Rat)) * 5 := by grind
  have e2 : y0 + (b : Rat) * 5 - (y0 + (a : Rat) * 5) = ((b : Rat) - (a : Rat)) * 5 := by grind
  rw [e1, e2]
  by_cases h : (n : Rat) < (i : Rat) + f
  · rw [if_pos h, if_pos (by grind)]
  · rw [if_neg h, if_neg (by grind)]

/-- In a year of the table, every five years, the coefficient is that of the table. -/
theorem C100_model_year (y0 : Rat) (n i : Nat) (vals : List Rat) (hi : i ≤ n) :
    coefficient (Ionex.evenly y0 5 (n + 1)) vals (y0 + (i : Rat) * 5) = .ok (vals.getD i 0) := by
  obtain ⟨ha, hb⟩ := Ionex.best_ends y0 5 0 (n + 1) 1 i i i (by decide +kernel) (by omega) (by omega) (by
    intro j hj
    rw [Ionex.near_at i 1 j]; omega) (by omega)
  rw [show ((1 : Nat) : Rat) * 5 = 5 from by decide +kernel, ← best_eq] at ha hb
  have h0 : (0 : Rat) ≤ (i : Rat) := (Ionex.cast_le 0 i).mpr (by omega)
  have h := coefficient_of y0 0 n i i i vals (by grind) ha hb (by omega) (by omega)
  have hn : (i : Rat) ≤ (n : Rat) := (Ionex.cast_le i n).mpr hi
  rw [if_neg (by grind), if_pos rfl, show y0 + ((i : Rat) + 0) * 5 = y0 + (i : Rat) * 5 by grind] at h
  rw [h]; congr 1; grind

/-- Between two years of the table it is interpolated linearly. -/
theorem C100_interpolated (y0 f : Rat) (n i : Nat) (vals : List Rat) (hi : i < n) (hf : 0 < f) (hf1 : f < 1) :
    coefficient (Ionex.evenly y0 5 (n + 1)) vals (y0 + ((i : Rat) + f) * 5) = .ok (vals.getD i 0 + (vals.getD (i + 1) 0 - vals.getD i 0) * f) := by
  obtain ⟨ha, hb⟩ := Ionex.best_ends y0 5 f (n + 1) 1 i i (i + 1) (by decide +kernel) (by omega) (by omega) (by
    intro j hj
    rw [Ionex.near_between f i 1 j hf hf1]; omega) (by omega)
  rw [show ((1 : Nat) : Rat) * 5 = 5 from by decide +kernel, ← best_eq] at ha hb
  have h0 : (0 : Rat) ≤ (i : Rat) := (Ionex.cast_le 0 i).mpr (by omega)
  have h := coefficient_of y0 f n i i (i + 1) vals (by grind) ha hb (by omega) (by omega)
  have hn : ((i + 1 : Nat) : Rat) ≤ (n : Rat) := (Ionex.cast_le (i + 1) n).mpr (by omega)
  have e : ((i + 1 : Nat) : Rat) = (i : Rat) + 1 := Rat.natCast_add i 1
  rw [e] at hn
  rw [if_neg (by grind), if_neg (by omega), e] at h
  rw [h]; congr 1; grind

/-- In the five years after the last one of the table it changes by what the table says. -/
theorem C100_secular (y0 f : Rat) (n : Nat) (vals : List Rat) (hf : 0 < f) (hf1 : f < 1) :
    coefficient (Ionex.evenly y0 5 (n + 1)) vals (y0 + ((n : Rat) + f) * 5) = .ok (vals.getD n 0 + vals.getLastD 0 * (f * 5)) := by
  obtain ⟨ha, hb⟩ := Ionex.best_ends y0 5 f (n + 1) 1 n n n (by decide +kernel) (by omega) (by omega) (by
    intro j hj
    rw [Ionex.near_between f n 1 j hf hf1]; omega) (by omega)
  rw [show ((1 : Nat) : Rat) * 5 = 5 from by decide +kernel, ← best_eq] at ha hb
  have h0 : (0 : Rat) ≤ (n : Rat) := (Ionex.cast_le 0 n).mpr (by omega)
  have h := coefficient_of y0 f n n n n vals (by grind) ha hb (by omega) (by omega)
  rw [if_pos (by grind)] at h
  rw [h]; congr 1; grind

/-- Later than that there is an error. -/
theorem C100_too_late (y0 year : Rat) (n : Nat) (vals : List Rat) (h : y0 + (n : Rat) * 5 + 5 ≤ year) :
    coefficient (Ionex.evenly y0 5 (n + 1)) vals year = .error .index := by
  have hn : (0 : Rat) ≤ (n : Rat) := (Ionex.cast_le 0 n).mpr (by omega)
  have hb : best (Ionex.evenly y0 5 (n + 1)) year = [] := by
    unfold best
    rw [List.filter_eq_nil_iff]
    intro j hj
    have hj2 : j < n + 1 := by simpa [Ionex.evenly] using hj
    rw [decide_eq_true_eq, Ionex.evenly_get y0 5 (n + 1) j hj2, Ionex.abs_lt_iff]
    have := (Ionex.cast_le j n).mpr (by omega)
    grind
  unfold coefficient
  rw [first_evenly, if_neg (by grind), hb]; rfl

/-- Before the first year there is an error. -/
theorem C100_too_early (y0 year : Rat) (n : Nat) (vals : List Rat) (h : year < y0) :
    coefficient (Ionex.evenly y0 5 (n + 1)) vals year = .error .runtime := by
  unfold coefficient
  rw [first_evenly, if_pos h]

/-! ## The year -/

/-- The day of the year, from 0. -/
def dayOfYear (dt : DateTime) : Int := daysBeforeMonth dt.year dt.month + (dt.day : Int) - 1

def yearLength (y : Nat) : Int := if leap y then 366 else 365

/-- The year with its fraction, to the moment. -/
def trueYear (dt : DateTime) (mjd : Rat) : Rat := (dt.year : Rat) + ((dayOfYear dt : Rat) + (mjd - mjd.floor)) / (yearLength dt.year : Rat)

theorem newYear_valid (dt : DateTime) (h : Valid dt) : Valid (newYear dt) :=
  ⟨h.year, ⟨by simp [newYear], by simp [newYear]⟩, ⟨by simp [newYear], by simp [newYear, monthLen]⟩, by simp [newYear], h.minute, by simp [newYear], by simp [newYear]⟩

theorem nextYear_valid (dt : DateTime) (h : Valid dt) : Valid (nextYear dt) :=
  ⟨by simp [nextYear, newYear], ⟨by simp [nextYear, newYear], by simp [nextYear, newYear]⟩, ⟨by simp [nextYear, newYear], by simp [nextYear, newYear, monthLen]⟩, by simp [nextYear, newYear], h.minute, by simp [nextYear, newYear], by simp [nextYear, newYear]⟩

theorem since_newYear (dt : DateTime) (h : Valid dt) : toMjd dt - toMjd (newYear dt) = dayOfYear dt := by
  rw [C23_mjd_is_day_count dt h, C23_mjd_is_day_count _ (newYear_valid dt h)]
  unfold ordinal newYear dayOfYear
  simp only [daysBeforeMonth]; omega

theorem year_length (dt : DateTime) (h : Valid dt) : toMjd (nextYear dt) - toMjd (newYear dt) = yearLength dt.year := by
  rw [C23_mjd_is_day_count _ (nextYear_valid dt h), C23_mjd_is_day_count _ (newYear_valid dt h)]
  have h1 := h.year
  obtain ⟨y, hy⟩ : ∃ y, dt.year = y + 1 := ⟨dt.year - 1, by omega⟩
  unfold ordinal nextYear newYear yearLength
  simp only [hy, daysBeforeMonth, daysBeforeYear]
  split <;> omega

theorem between_year (dt : DateTime) (h : Valid dt) : between (newYear dt) (nextYear dt) = (yearLength dt.year : Rat) := by
  unfold between
  rw [year_length dt h]
  have : (((nextYear dt).hour * 3600 + (nextYear dt).minute * 60 + (nextYear dt).second : Nat) : Rat) =
    (((newYear dt).hour * 3600 + (newYear dt).minute * 60 + (newYear dt).second : Nat) : Rat) := rfl
  rw [this]; grind

/-- What is computed: the milliseconds of the day are taken off again, only the day of the year counts. -/
theorem C100_decimal_year (dt : DateTime) (mjd : Rat) (h : Valid dt) (hd : toMjd dt = mjd.floor) :
    decimalYear dt mjd = (dt.year : Rat) + ((dayOfYear dt : Rat) + ((mjd - mjd.floor) - (mpmOf mjd : Rat) / 86400000)) / (yearLength dt.year : Rat) := by
  unfold decimalYear
  simp only
  rw [between_year dt h]
  have hs := since_newYear dt h
  rw [hd] at hs
  have hs2 : (toMjd (newYear dt) : Rat) = (mjd.floor : Rat) - (dayOfYear dt : Rat) := by
    have e : toMjd (newYear dt) = mjd.floor - dayOfYear dt := by omega
    rw [e, Rat.intCast_sub]
  rw [hs2]
  have hy : ((nextYear dt).year : Rat) = (dt.year : Rat) + 1 := Rat.natCast_add dt.year 1
  rw [hy]
  have e1 : mjd - ((mjd.floor : Rat) - (dayOfYear dt : Rat) + (mpmOf mjd : Rat) / 86400000) =
      (dayOfYear dt : Rat) + ((mjd - mjd.floor) - (mpmOf mjd : Rat) / 86400000) := by grind
  have e2 : (dt.year : Rat) + 1 - 1 = (dt.year : Rat) := by grind
  rw [e1, e2]

theorem mpm_bounds (mjd : Rat) : 0 ≤ (mjd - mjd.floor) - (mpmOf mjd : Rat) / 86400000 ∧ (mjd - mjd.floor) - (mpmOf mjd : Rat) / 86400000 < 1 / 86400000 ∧
    0 ≤ (mpmOf mjd : Rat) / 86400000 ∧ (mpmOf mjd : Rat) / 86400000 < 1 := by
  have h1 : (mpmOf mjd : Rat) ≤ (mjd - mjd.floor) * 86400000 := (floor_bounds _).1
  have h2 : (mjd - mjd.floor) * 86400000 < (mpmOf mjd : Rat) + 1 := (floor_bounds _).2
  have h3 : ((mjd.floor : Int) : Rat) ≤ mjd := (floor_bounds _).1
  have h4 : mjd < (mjd.floor : Rat) + 1 := (floor_bounds _).2
  have h5 : (0 : Rat) ≤ (mpmOf mjd : Rat) := by
    have : (0 : Int) ≤ mpmOf mjd := by
      unfold mpmOf
      rw [Rat.le_floor_iff]
      exact Rat.mul_nonneg (by grind) (by decide +kernel)
    exact Rat.intCast_le_intCast.mpr this
  refine ⟨by grind, by grind, by grind, by grind⟩

/-- The year is right to the day: never ahead, and less than a day behind. -/
theorem C100_year_partial (dt : DateTime) (mjd : Rat) (h : Valid dt) (hd : toMjd dt = mjd.floor) :
    decimalYear dt mjd ≤ trueYear dt mjd ∧ trueYear dt mjd < decimalYear dt mjd + 1 / (yearLength dt.year : Rat) := by
  rw [C100_decimal_year dt mjd h hd]
  obtain ⟨h1, h2, h3, h4⟩ := mpm_bounds mjd
  unfold trueYear
  have hL : (0 : Rat) < (yearLength dt.year : Rat) := by
    have : (0 : Int) < yearLength dt.year := by unfold yearLength; split <;> decide
    exact Rat.intCast_lt_intCast.mpr this
  have hi : (0 : Rat) < (yearLength dt.year : Rat)⁻¹ := Rat.inv_pos.mpr hL
  generalize (yearLength dt.year : Rat) = L at *
  generalize (mpmOf mjd : Rat) / 86400000 = p at *
  generalize mjd - (mjd.floor : Rat) = x at *
  rw [Rat.div_def, Rat.div_def, Rat.div_def, Rat.one_mul]
  generalize L⁻¹ = k at *
  have a1 : ((dayOfYear dt : Rat) + (x - p)) * k ≤ ((dayOfYear dt : Rat) + x) * k := Rat.mul_le_mul_of_nonneg_right (by grind) (by grind)
  have a2 : ((dayOfYear dt : Rat) + x) * k < ((dayOfYear dt : Rat) + (x - p) + 1) * k := Rat.mul_lt_mul_of_pos_right (by grind) hi
  constructor
  · grind
  · grind

/-- The time of the day makes no difference: for whole milliseconds the result is the same all day. -/
theorem C100_not_time_of_day (dt : DateTime) (d ms : Int) (h : Valid dt) (hd : toMjd dt = d) (h0 : 0 ≤ ms) (h1 : ms < 86400000) :
    decimalYear dt ((d : Rat) + (ms : Rat) / 86400000) = (dt.year : Rat) + (dayOfYear dt : Rat) / (yearLength dt.year : Rat) := by
  have h0' : (0 : Rat) ≤ (ms : Rat) := Rat.intCast_le_intCast.mpr h0
  have h1' : (ms : Rat) < 86400000 := Rat.intCast_lt_intCast (b := 86400000) |>.mpr h1
  have hf : ((d : Rat) + (ms : Rat) / 86400000).floor = d := by
    have hlo : d ≤ ((d : Rat) + (ms : Rat) / 86400000).floor := Rat.le_floor_iff.mpr (by grind)
    have hhi : ((d : Rat) + (ms : Rat) / 86400000).floor < d + 1 := Rat.floor_lt_iff.mpr (by rw [Rat.intCast_add]; grind)
    omega
  rw [C100_decimal_year dt _ h (by rw [hf, hd]), hf]
  have hm : mpmOf ((d : Rat) + (ms : Rat) / 86400000) = ms := by
    unfold mpmOf
    rw [hf, show ((d : Rat) + (ms : Rat) / 86400000 - (d : Rat)) * 86400000 = (ms : Rat) by grind, Rat.floor_intCast]
  rw [hm]
  congr 2; grind

/-- Noon of the first of January 2011 is taken for its midnight. -/
theorem C100_not_noon : decimalYear ⟨2011, 1, 1, 12, 0, 0, 0⟩ (55562 + 1 / 2) = 2011 ∧ trueYear ⟨2011, 1, 1, 12, 0, 0, 0⟩ (55562 + 1 / 2) = 2011 + 1 / 730 := by
  constructor <;> decide +kernel

/-! ## The premises can be met -/

def shown (e : Except Err Rat) : Option Rat ⊕ Err :=
  match e with
  | .ok a => .inl (some a)
  | .error e => .inr e

example : Valid ⟨2011, 1, 1, 12, 0, 0, 0⟩ ∧ toMjd ⟨2011, 1, 1, 12, 0, 0, 0⟩ = (55562 + 1 / 2 : Rat).floor := by
  refine ⟨⟨?_, ?_, ?_, ?_, ?_, ?_, ?_⟩, ?_⟩ <;> decide +kernel

example : shown (coefficient (Ionex.evenly 1900 5 26) ((List.range 26).map (fun (k : Nat) => (k : Rat)) ++ [7]) 2026) = .inl (some 32) := by decide +kernel

example : ∃ d, load 2 (fun _ => none, fun _ => none) [⟨true, 1, 0, [1, 2, 3]⟩, ⟨true, 1, 1, [4, 5, 6]⟩, ⟨false, 1, 1, [7, 8, 9]⟩] = .ok d ∧
    d.1 1 = some [[1, 2, 3], [4, 5, 6]] ∧ d.2 1 = some [[0, 0, 0], [7, 8, 9]] := ⟨_, rfl, rfl, rfl⟩

end Verif.Igrf
