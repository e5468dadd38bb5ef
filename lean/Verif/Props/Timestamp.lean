import Verif.Model.Timestamp
import Verif.Lemmas.PyNum
/-!
# C12, C13, C55: frame timestamps
-/
namespace Verif.Timestamp

theorem fS_rat : (fS : Rat) = 196000000 := by unfold fS; rfl

/-! ## C12 -/

theorem fromDp_spec (value offset : Int) :
    fromDpTimetag value offset =
      ((value - offset) / fS, (((value - offset) % fS : Int) : Rat) / 196000000) := by
  unfold fromDpTimetag
  simp only
  have e : value - offset - (value - offset) / fS * fS = (value - offset) % fS := by
    have := Int.emod_add_mul_ediv (value - offset) fS
    rw [Int.mul_comm] at this; omega
  rw [e, fS_rat]
  generalize hr : (value - offset) % fS = r
  have h0 : 0 ≤ r := by rw [← hr]; exact Int.emod_nonneg _ (by decide)
  have h1 : r < 196000000 := by rw [← hr]; exact Int.emod_lt_of_pos _ (by decide)
  have h0' : (0 : Rat) ≤ (r : Rat) := by exact_mod_cast h0
  have h1' : (r : Rat) < 196000000 := by
    rw [← fS_rat]; exact Rat.intCast_lt_intCast.mpr h1
  unfold initInt
  rw [if_neg (by grind), if_neg (by grind)]

/-- Decoding tolerates any float error below 0.005 ticks (25 ps). -/
theorem C12_tolerant (k : Int) (e : Rat) (h1 : e < 1/200) (h2 : -(1/200) < e) :
    dpTimetag ((k : Rat) / fS) e = k := by
  unfold dpTimetag
  simp only [fS_rat]
  generalize hs : pyInt ((k : Rat) / 196000000) = sec
  have e1 : ((k : Rat) / 196000000 - sec) * 196000000 + e = ((k - sec * 196000000 : Int) : Rat) + e := by
    rw [Rat.intCast_sub, Rat.intCast_mul]; grind
  rw [e1]
  generalize hm : k - sec * 196000000 = m
  have e2 : roundHalfEven (((m : Rat) + e) * 100) = m * 100 :=
    round_near (by rw [Rat.intCast_mul]; grind) (by rw [Rat.intCast_mul]; grind)
  unfold round2
  rw [e2, Rat.intCast_mul, show (m : Rat) * ((100 : Int) : Rat) / 100 = (m : Rat) by grind, pyInt_int]
  unfold fS
  omega

/-- For every tag and offset: the fraction is in [0,1), the instant is exactly
`(value - offset) / fS` seconds and `dp_timetag` gives `value - offset` back. -/
theorem C12_timetag_roundtrip (value offset : Int) :
    0 ≤ (fromDpTimetag value offset).2 ∧ (fromDpTimetag value offset).2 < 1 ∧
    instant (fromDpTimetag value offset) = ((value - offset : Int) : Rat) / 196000000 ∧
    dpTimetag (instant (fromDpTimetag value offset)) 0 = value - offset := by
  rw [fromDp_spec]
  have hr : (value - offset) % fS = value - offset - (value - offset) / fS * fS := by
    have := Int.emod_add_mul_ediv (value - offset) fS
    rw [Int.mul_comm] at this; omega
  have h0 : (0 : Rat) ≤ (((value - offset) % fS : Int) : Rat) := by
    exact_mod_cast Int.emod_nonneg _ (by decide)
  have h1 : (((value - offset) % fS : Int) : Rat) < 196000000 := by
    rw [← fS_rat]; exact Rat.intCast_lt_intCast.mpr (Int.emod_lt_of_pos (value - offset) (by decide))
  have h3 : instant ((value - offset) / fS, (((value - offset) % fS : Int) : Rat) / 196000000)
      = ((value - offset : Int) : Rat) / 196000000 := by
    unfold instant
    simp only
    rw [hr]
    generalize (value - offset) / fS = q
    generalize value - offset = k
    rw [Rat.intCast_sub, Rat.intCast_mul, fS_rat]
    grind
  refine ⟨by simp only; grind, by simp only; grind, h3, ?_⟩
  rw [h3, ← fS_rat]
  exact C12_tolerant _ 0 (by grind) (by grind)

example : fromDpTimetag 196000001 5 = (0, 195999996 / 196000000) ∧
    dpTimetag (instant (fromDpTimetag 257355782095346056 200)) (1/1000) = 257355782095345856 := by
  refine ⟨by decide +kernel, by decide +kernel⟩

/-! ## C13 -/

/-- The sum is always exact, and the stored fraction is in [0,1) unless the fraction given was a
negative whole number. -/
theorem C13_init_partial (si : Int) (sf : Rat) :
    instant (initInt si sf) = si + sf ∧ 0 ≤ (initInt si sf).2 ∧
    ((∀ n : Int, n < 0 → sf ≠ n) → (initInt si sf).2 < 1) := by
  unfold initInt instant
  simp only
  split
  · have := (pyInt_bounds sf).1 (by grind)
    refine ⟨?_, ?_, ?_⟩
    · simp only; rw [Rat.intCast_add]; grind
    · simp only; grind
    · intro _; simp only; grind
  · split
    · rename_i h1 h2
      have := (pyInt_bounds sf).2 h2
      refine ⟨?_, ?_, ?_⟩
      · simp only; rw [Rat.intCast_add, Rat.intCast_sub]; grind
      · simp only; rw [Rat.intCast_sub]; grind
      · intro hn
        simp only
        rw [Rat.intCast_sub]
        by_cases he : sf = pyInt sf
        · have hneg : pyInt sf < 0 := by
            have : ((pyInt sf : Int) : Rat) < ((0 : Int) : Rat) := by rw [← he]; simpa using h2
            exact Rat.intCast_lt_intCast.mp this
          exact absurd he (hn _ hneg)
        · have : sf < pyInt sf := by grind
          grind
    · refine ⟨rfl, by simp only; grind, fun _ => by simp only; grind⟩

/-- The full statement is false exactly there: every negative whole number gives the fraction 1. -/
theorem C13_negative_whole (si n : Int) (h : n < 0) : (initInt si n).2 = 1 := by
  have hn : (n : Rat) < 0 := by exact_mod_cast h
  unfold initInt
  rw [if_neg (by grind), if_pos hn]
  simp only [pyInt_int, Rat.intCast_sub]
  grind

/-- Float seconds: the instant is the exact sum too. -/
theorem C13_init_float (si sf : Rat) : instant (initFloat si sf) = si + sf := by
  unfold initFloat
  simp only
  rw [(C13_init_partial _ _).1]
  grind

/-- Indexing a timestamp of a non-negative instant: whole seconds and a fraction in [0,1). -/
theorem C13_getItem (t : Rat) (h : 0 ≤ t) :
    ((getItem t).1 : Rat) + (getItem t).2 = t ∧ 0 ≤ (getItem t).2 ∧ (getItem t).2 < 1 := by
  have := (pyInt_bounds t).1 h
  simp only [getItem]
  refine ⟨by grind, by grind, by grind⟩

/-- Building from the two indexed parts gives the same instant, for every instant. -/
theorem C13_rebuild (t : Rat) : instant (initInt (getItem t).1 (getItem t).2) = t := by
  rw [(C13_init_partial _ _).1]
  simp only [getItem]
  grind

/-- `from_mjd_mpm` is exact for every day and millisecond count. -/
theorem C13_mjd_mpm (mjd mpm : Int) : fromMjdMpm mjd mpm = (mjd : Rat) * 86400 + (mpm : Rat) / 1000 := by
  unfold fromMjdMpm
  have h := Int.emod_add_mul_ediv mpm 1000
  generalize mpm / 1000 = q at *
  generalize mpm % 1000 = r at *
  subst h
  rw [Rat.intCast_add, Rat.intCast_mul]
  grind

example : initInt 10 (-1/2) = (9, 1/2) ∧ initInt 10 (-1) = (8, 1) ∧ initInt 3 (7/2) = (6, 1/2) ∧
    (∀ n : Int, n < 0 → (-1/2 : Rat) ≠ n) := by
  refine ⟨by decide +kernel, by decide +kernel, by decide +kernel, ?_⟩
  intro n hn e
  have : (n : Rat) * 2 = -1 := by rw [← e]; grind
  have h2 : ((n * 2 : Int) : Rat) = ((-1 : Int) : Rat) := by rw [Rat.intCast_mul]; simpa using this
  have := Rat.intCast_inj.mp h2
  omega

/-! ## C55 -/

/-- The three numbers always add up to the exact instant. -/
theorem C55_pulsar_exact (jd1 jd2 : Rat) :
    fromPulsarMjd (pulsarMjd jd1 jd2).1 (pulsarMjd jd1 jd2).2.1 (pulsarMjd jd1 jd2).2.2 =
      (jd1 + jd2 - 4800001 / 2) * 86400 := by
  unfold pulsarMjd fromPulsarMjd
  simp only
  split <;> simp only [Rat.intCast_add, Rat.intCast_sub] <;> grind

/-- For the parts as stored by astropy (a whole number and a fraction of at most half a day): the
second count is in 0..86400 and the fraction in [0,1); the second count is 86400 only in the first
second of a UTC day. -/
theorem C55_pulsar_range_partial (n : Int) (h : 2400001 ≤ n) (jd2 : Rat) (h1 : -(1/2) ≤ jd2)
    (h2 : jd2 ≤ 1/2) :
    0 ≤ (pulsarMjd n jd2).2.1 ∧ (pulsarMjd n jd2).2.1 ≤ 86400 ∧
    0 ≤ (pulsarMjd n jd2).2.2 ∧ (pulsarMjd n jd2).2.2 < 1 ∧
    ((1/86400 ≤ jd2 + 1/2 ∧ jd2 < 1/2) → (pulsarMjd n jd2).2.1 < 86400) := by
  have hj2 : pyInt jd2 = 0 := by
    unfold pyInt
    split
    · exact floor_unique (n := 0) (by simpa using by assumption) (by simp; grind)
    · rw [floor_unique (x := -jd2) (n := 0) (by simp; grind) (by simp; grind)]; rfl
  have hm : pyInt ((n : Rat) + ((0 : Int) : Rat) - 4800001 / 2) = n - 2400001 := by
    apply pyInt_eq_of_near (by omega)
    · rw [Rat.intCast_sub]; simp; grind
    · rw [Rat.intCast_sub]; simp; grind
  unfold pulsarMjd
  simp only [pyInt_int, hj2, hm]
  have ef1 : (n : Rat) - n + ((n : Rat) + ((0 : Int) : Rat) - 4800001 / 2 - ((n - 2400001 : Int) : Rat))
      = 1/2 := by rw [Rat.intCast_sub]; simp; grind
  rw [ef1]
  have efl : (1/2 : Rat).floor = 0 := floor_unique (by simp; grind) (by simp; grind)
  rw [efl]
  have e43 : ((1/2 : Rat) - ((0 : Int) : Rat)) * 86400 = ((43200 : Int) : Rat) := by simp; grind
  rw [e43, pyInt_int]
  have hg := floor_bounds (jd2 - ((0 : Int) : Rat))
  generalize hG : (jd2 - ((0 : Int) : Rat) - ((jd2 - ((0 : Int) : Rat)).floor : Rat)) * 86400 = d2
  have hd0 : 0 ≤ d2 := by grind
  have hd1 : d2 < 86400 := by grind
  have hb := (pyInt_bounds d2).1 hd0
  have hp0 : 0 ≤ pyInt d2 := by
    apply intCast_le_of; simp; grind
  have hp1 : pyInt d2 ≤ 86399 := by
    apply intCast_le_of; simp; grind
  split
  · rename_i hgt
    refine ⟨by simp only; omega, by simp only; omega, by simp only; grind, by simp only; grind,
      fun _ => by simp only; omega⟩
  · rename_i hgt
    refine ⟨by simp only; omega, by simp only; omega, by simp only; grind, by simp only; grind, ?_⟩
    rintro ⟨ha, hb'⟩
    simp only
    have : pyInt d2 ≠ 43200 := by
      intro e
      rw [e] at hb
      have hx : ((43200 : Int) : Rat) = 43200 := rfl
      rw [hx] at hb
      by_cases hneg : jd2 < 0
      · have hfl : (jd2 - ((0 : Int) : Rat)).floor = -1 :=
          floor_unique (by simp; grind) (by simp; grind)
        rw [hfl] at hG
        simp at hG
        grind
      · have hfl : (jd2 - ((0 : Int) : Rat)).floor = 0 :=
          floor_unique (by simp; grind) (by simp; grind)
        rw [hfl] at hG
        simp at hG
        grind
    omega

/-- The full statement (seconds below 86400) is false: at UTC midnight the result is second 86400
of the previous day. -/
theorem C55_midnight : pulsarMjd 2457755 (-1/2) = (57753, 86400, 0) ∧
    ((2457755 : Rat) + (-1/2) - 4800001/2) = 57754 := by
  refine ⟨by decide +kernel, by grind⟩

example : pulsarMjd 2457755 (1/4) = (57754, 64800, 0) := by decide +kernel

end Verif.Timestamp
