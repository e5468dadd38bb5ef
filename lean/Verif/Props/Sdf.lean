import Verif.Model.Sdf
import Verif.Lemmas.Dec
import Verif.Lemmas.PyNum
/-!
# C29, C30, C32: overlap check, durations, number of steps
-/
namespace Verif.Sdf

open Verif.Dec

/-! ### C29 -/

/-- The time interval of an observation: `t` in ms since MJD 0 is not before ms `mpm` of day `mjd`, and
less than `dur` ms after it. -/
def Occupies (o : Obs) (t : Int) : Prop :=
  0 ≤ t - 86400000 * o.mjd - o.mpm ∧ t - 86400000 * o.mjd - o.mpm < o.dur

theorem occupies_iff (o : Obs) (t : Int) : Occupies o t ↔ start o ≤ t ∧ t < start o + o.dur := by
  unfold Occupies start
  constructor <;> intro h <;> omega

/-- No instant belongs to two observations of the list (two entries are two observations even if they
are equal). -/
def Disjoint (obs : List Obs) : Prop :=
  obs.Pairwise (fun a b => ∀ t, ¬ (Occupies a t ∧ Occupies b t))

theorem filter_two {α : Type} (p : α → Bool) (l : List α) :
    (l.filter p).length ≤ 1 ↔ l.Pairwise (fun a b => ¬ (p a = true ∧ p b = true)) := by
  induction l with
  | nil => simp
  | cons a l ih =>
    rw [List.pairwise_cons]
    by_cases h : p a = true
    · rw [List.filter_cons_of_pos h, List.length_cons]
      constructor
      · intro hl
        have h0 : l.filter p = [] := List.length_eq_zero_iff.mp (by omega)
        refine ⟨fun b hb hab => ?_, ih.mp (by simp [h0])⟩
        have : b ∈ l.filter p := List.mem_filter.mpr ⟨hb, hab.2⟩
        rw [h0] at this; simp at this
      · intro ⟨h1, _⟩
        have : l.filter p = [] := by
          rw [List.filter_eq_nil_iff]
          intro b hb hpb
          exact h1 b hb ⟨h, hpb⟩
        simp [this]
    · rw [List.filter_cons_of_neg h, ih]
      constructor
      · intro hl; exact ⟨fun b _ hab => h hab.1, hl⟩
      · intro hl; exact hl.2

/-- For observations with positive durations the overlap check of a session passes exactly when the
observations are pairwise disjoint in time, for any number and order of observations. -/
theorem C29_overlap (obs : List Obs) (hpos : ∀ o ∈ obs, 0 < o.dur) :
    overlapFailures obs = 0 ↔ Disjoint obs := by
  unfold overlapFailures Disjoint
  rw [List.length_eq_zero_iff, List.filter_eq_nil_iff]
  have hiff : (∀ p ∈ obs, ¬ decide (overlaps obs p > 1) = true) ↔
      ∀ p ∈ obs, obs.Pairwise (fun a b => ¬ (Occupies a (start p) ∧ Occupies b (start p))) := by
    constructor
    · intro h p hp
      have := h p hp
      simp only [decide_eq_true_eq] at this
      have h2 : overlaps obs p ≤ 1 := by omega
      unfold overlaps at h2
      rw [filter_two] at h2
      refine h2.imp ?_
      intro a b hab hcon
      apply hab
      simp only [occupies_iff] at hcon
      simp only [decide_eq_true_eq]
      omega
    · intro h p hp
      have := h p hp
      simp only [decide_eq_true_eq]
      have h2 : overlaps obs p ≤ 1 := by
        unfold overlaps
        rw [filter_two]
        refine this.imp ?_
        intro a b hab hcon
        apply hab
        simp only [decide_eq_true_eq] at hcon
        simp only [occupies_iff]
        omega
      omega
  rw [hiff]
  constructor
  · intro h
    rw [List.pairwise_iff_getElem]
    intro i j hi hj hij t ⟨ha, hb⟩
    simp only [occupies_iff] at ha hb
    -- the later of the two starts lies in both
    by_cases hs : start obs[i] ≤ start obs[j]
    · have := List.pairwise_iff_getElem.mp (h obs[j] (List.getElem_mem hj)) i j hi hj hij
      apply this
      simp only [occupies_iff]
      have := hpos obs[j] (List.getElem_mem hj)
      omega
    · have := List.pairwise_iff_getElem.mp (h obs[i] (List.getElem_mem hi)) i j hi hj hij
      apply this
      simp only [occupies_iff]
      have := hpos obs[i] (List.getElem_mem hi)
      omega
  · intro h p _
    exact h.imp (fun hab hcon => hab (start p) hcon)

/-- The answer does not depend on the order in which the observations were added. -/
theorem C29_order (a b : List Obs) (h : a.Perm b) : overlapFailures a = overlapFailures b := by
  unfold overlapFailures
  have hov : ∀ p, overlaps a p = overlaps b p := fun p => (h.filter _).length_eq
  have : (fun p => decide (overlaps a p > 1)) = (fun p => decide (overlaps b p > 1)) := by
    funext p; rw [hov]
  rw [this]
  exact (h.filter _).length_eq

/-- Positive durations are needed: an observation of no length inside another one is not reported. -/
theorem C29_zero_length : overlapFailures [⟨60000, 0, 10000⟩, ⟨60000, 5000, 0⟩] = 0 := by decide

/-- Touching observations pass, overlapping ones and equal ones do not. -/
example : overlapFailures [⟨60000, 86390000, 20000⟩, ⟨60001, 10000, 5000⟩] = 0 ∧
    overlapFailures [⟨60000, 86390000, 20000⟩, ⟨60001, 9999, 5000⟩] = 1 ∧
    overlapFailures [⟨60000, 0, 5⟩, ⟨60000, 0, 5⟩] = 2 := by decide

/-! ### C30 -/

theorem round_ms (a : Int) (ms : Nat) :
    roundHalfEven ((((a : Int) : Rat) + ((ms : Int) : Rat) / 1000) * 1000) = a * 1000 + ms := by
  have : (((a : Int) : Rat) + ((ms : Int) : Rat) / 1000) * 1000 = ((a * 1000 + ms : Int) : Rat) := by
    push_cast
    grind
  rw [this, round_int]

theorem secMs_eq (sec ms : Nat) (h : ms < 1000) :
    secMs ((sec : Rat) + (ms : Rat) / ((10 ^ 3 : Nat) : Rat)) = ((sec : Int), (ms : Int)) := by
  have h3 : ((10 ^ 3 : Nat) : Rat) = 1000 := by decide +kernel
  have hms : (ms : Rat) < 1000 := by exact_mod_cast h
  have hms0 : (0 : Rat) ≤ ms := by exact_mod_cast Nat.zero_le _
  have e : pyInt ((sec : Rat) + (ms : Rat) / ((10 ^ 3 : Nat) : Rat)) = (sec : Int) := by
    rw [h3]
    apply pyInt_eq_of_near (by omega)
    · push_cast; grind
    · push_cast; grind
  unfold secMs
  simp only [e]
  have e2 : roundHalfEven (((sec : Rat) + (ms : Rat) / ((10 ^ 3 : Nat) : Rat) - ((sec : Int) : Rat)) * 1000) = (ms : Int) := by
    have : ((sec : Rat) + (ms : Rat) / ((10 ^ 3 : Nat) : Rat) - ((sec : Int) : Rat)) * 1000 = ((ms : Int) : Rat) := by
      rw [h3]; push_cast; grind
    rw [this, round_int]
  rw [e2]
  rw [if_neg (by omega)]

/-- Reading a three-field text. -/
theorem parse_three (ht mt : List Char) (h m : Int) (w sec ms : Nat) (hms : ms < 1000)
    (hh : parseInt? ht = some h) (hm : parseInt? mt = some m) (hc : ':' ∉ ht) (hc2 : ':' ∉ mt) :
    parseDur (ht ++ ':' :: mt ++ ':' :: showPad w sec ++ '.' :: showPad 3 ms) =
      some (((h * 3600 + m * 60 + sec : Int) : Rat) + ((ms : Int) : Rat) / 1000) := by
  have e : ht ++ ':' :: mt ++ ':' :: showPad w sec ++ '.' :: showPad 3 ms =
      ht ++ ':' :: (mt ++ ':' :: (showPad w sec ++ '.' :: showPad 3 ms)) := by simp
  have hc3 : ':' ∉ showPad w sec ++ '.' :: showPad 3 ms := by
    intro h
    rcases List.mem_append.mp h with h | h
    · exact not_mem_showPad _ _ _ (by decide) h
    · rcases List.mem_cons.mp h with h | h
      · exact absurd h (by decide)
      · exact not_mem_showPad _ _ _ (by decide) h
  unfold parseDur
  rw [e, splitOn_append _ _ _ hc, splitOn_append _ _ _ hc2, splitOn_not_mem _ _ hc3]
  simp only [List.reverse_cons, List.reverse_nil, List.nil_append, List.cons_append]
  rw [parseDec_pad w sec 3 ms (by decide) (by omega)]
  simp only [hh, hm, secMs_eq sec ms hms]

/-- Reading back the text of any duration, also a negative one, gives the same duration. -/
theorem C30_roundtrip (dur : Int) : setDur (.text (durText dur)) = some dur := by
  simp only [setDur, durText]
  rw [parse_three _ _ _ _ _ _ _ (by omega) (parseInt_showInt _) (parseInt_showPad _ _)
    (not_mem_showInt _ _ (by decide) (by decide)) (not_mem_showPad _ _ _ (by decide))]
  rw [Option.map_some]
  congr 1
  have := round_ms (dur / 1000 / 3600 * 3600 + ((dur / 1000 / 60 % 60).toNat : Int) * 60 +
    ((dur / 1000 % 60).toNat : Int)) (dur % 1000).toNat
  rw [this]
  omega

/-- So different durations have different texts. -/
theorem C30_injective (a b : Int) (h : durText a = durText b) : a = b := by
  have h1 := C30_roundtrip a
  rw [h, C30_roundtrip b] at h1
  injection h1 with h1
  exact h1.symm

theorem secMs_total (s : Rat) : ∃ r : Int, (secMs s).1 * 1000 + (secMs s).2 = r ∧
    (r : Rat) - s * 1000 ≤ 1 / 2 ∧ s * 1000 - r ≤ 1 / 2 := by
  have h := round_half ((s - pyInt s) * 1000)
  refine ⟨pyInt s * 1000 + roundHalfEven ((s - pyInt s) * 1000), ?_, ?_⟩
  · unfold secMs
    simp only
    split <;> simp only <;> omega
  · generalize roundHalfEven ((s - pyInt s) * 1000) = r at h
    generalize pyInt s = n at h
    push_cast
    grind

/-- A typed text with one, two or three fields gives the nearest millisecond of its value. -/
theorem C30_nearest (pre : List (List Char)) (t : List Char) (h m : Int) (s : Rat)
    (hp : (pre = [] ∧ m = 0 ∧ h = 0) ∨
      (∃ mt, pre = [mt] ∧ parseInt? mt = some m ∧ h = 0) ∨
      (∃ ht mt, pre = [ht, mt] ∧ parseInt? mt = some m ∧ parseInt? ht = some h))
    (hc : ∀ p ∈ pre, ':' ∉ p) (ht : ':' ∉ t) (hs : parseDec? t = some s) :
    ∃ ms, setDur (.text (pre.flatMap (fun p => p ++ [':']) ++ t)) = some ms ∧
      (ms : Rat) - (h * 3600 + m * 60 + s) * 1000 ≤ 1 / 2 ∧
      (h * 3600 + m * 60 + s) * 1000 - (ms : Rat) ≤ 1 / 2 := by
  obtain ⟨r, hr, h1, h2⟩ := secMs_total s
  have hround : ∀ a : Int, roundHalfEven ((((a + (secMs s).1 : Int) : Rat) + ((secMs s).2 : Rat) / 1000) * 1000) =
      a * 1000 + r := by
    intro a
    have : (((a + (secMs s).1 : Int) : Rat) + ((secMs s).2 : Rat) / 1000) * 1000 = ((a * 1000 + r : Int) : Rat) := by
      rw [← hr]; push_cast; grind
    rw [this, round_int]
  refine ⟨(h * 3600 + m * 60) * 1000 + r, ?_, ?_⟩
  · rcases hp with ⟨h1, h2, h3⟩ | ⟨mt, h1, h2, h3⟩ | ⟨hh, mt, h1, h2, h3⟩
    · subst h1 h2 h3
      simp only [List.flatMap_nil, List.nil_append, setDur, parseDur]
      rw [splitOn_not_mem _ _ ht]
      simp only [List.reverse_cons, List.reverse_nil, List.nil_append, hs, Option.map_some]
      rw [hround]
    · subst h1 h3
      simp only [List.flatMap_cons, List.flatMap_nil, List.append_nil, setDur, parseDur]
      rw [List.append_assoc, List.singleton_append, splitOn_append _ _ _ (hc mt (by simp)), splitOn_not_mem _ _ ht]
      simp only [List.reverse_cons, List.reverse_nil, List.nil_append, List.cons_append, hs, h2, Option.map_some]
      rw [hround]
    · subst h1
      simp only [List.flatMap_cons, List.flatMap_nil, List.append_nil, setDur, parseDur]
      simp only [List.append_assoc, List.cons_append, List.nil_append]
      rw [splitOn_append _ _ _ (hc hh (by simp)), splitOn_append _ _ _ (hc mt (by simp)), splitOn_not_mem _ _ ht]
      simp only [List.reverse_cons, List.reverse_nil, List.nil_append, List.cons_append, hs, h2, h3, Option.map_some]
      rw [hround]
  · push_cast
    grind

example : ∃ ms, setDur (.text "2:59.9996".toList) = some ms ∧ (ms : Rat) - 179999.6 ≤ 1 / 2 ∧
    179999.6 - (ms : Rat) ≤ 1 / 2 := by
  have := C30_nearest [['2']] "59.9996".toList 0 2 (599996 / 10000)
    (Or.inr (Or.inl ⟨['2'], rfl, by decide, rfl⟩)) (by decide) (by decide) (by decide +kernel)
  obtain ⟨ms, h1, h2, h3⟩ := this
  refine ⟨ms, h1, ?_, ?_⟩ <;> grind

/-- The duration written to a file in ms and read back through the text used by the parser is the
same. -/
theorem C30_file (ms : Nat) : setDur (.text (parsedText ms)) = some (ms : Int) := by
  simp only [setDur, parsedText]
  rw [parse_three _ _ _ _ _ _ _ (Nat.mod_lt _ (by decide)) (parseInt_showPad _ _) (parseInt_showPad _ _)
    (not_mem_showPad _ _ _ (by decide)) (not_mem_showPad _ _ _ (by decide))]
  rw [Option.map_some]
  congr 1
  have := round_ms (((ms / 3600000 : Nat) : Int) * 3600 + ((ms % 3600000 / 60000 : Nat) : Int) * 60 +
    ((ms % 60000 / 1000 : Nat) : Int)) (ms % 1000)
  rw [this]
  omega

/-- A `timedelta` is stored to the nearest ms. -/
theorem C30_timedelta (d s : Int) (us : Nat) : ∃ ms, setDur (.timedelta d s us) = some ms ∧
    2 * (1000 * ms - ((d * 86400 + s) * 1000000 + us)).natAbs ≤ 1000 := by
  have hr : (((d * 86400 + s : Int) : Rat) + (roundHalfEven ((us : Rat) / 1000) : Rat) / 1000) * 1000 =
      (((d * 86400 + s) * 1000 + roundHalfEven ((us : Rat) / 1000) : Int) : Rat) := by
    push_cast; grind
  refine ⟨(d * 86400 + s) * 1000 + roundHalfEven ((us : Rat) / 1000), ?_, ?_⟩
  · simp only [setDur, hr, round_int]
  · have h := round_half ((us : Rat) / 1000)
    generalize roundHalfEven ((us : Rat) / 1000) = r at h
    have h1 : ((2 * us : Int) : Rat) - ((2000 * r : Int) : Rat) ≤ ((1000 : Int) : Rat) := by
      push_cast; grind
    have h2 : ((2000 * r : Int) : Rat) - ((2 * us : Int) : Rat) ≤ ((1000 : Int) : Rat) := by
      push_cast; grind
    rw [← Rat.intCast_sub, Rat.intCast_le_intCast] at h1 h2
    omega

/-- The property fails for durations given as an astropy quantity: setting one always raises. -/
theorem C30_quantity (q : Rat) : setDur (.quantity q) = none := rfl

example : durText 3723004 = "1:02:03.004".toList ∧ setDur (.text "1:02:03.004".toList) = some 3723004 :=
  ⟨by decide, by have := C30_roundtrip 3723004; rwa [show durText 3723004 = "1:02:03.004".toList by decide] at this⟩

/-! ### C32 -/

/-- Which step counts are refused. -/
theorem C32_exact (n : Nat) : tooManySteps n = true ↔ 1024 ≤ n := by
  have h : stepCount n = n + 1 := by
    induction n with
    | zero => rfl
    | succ n ih => rw [stepCount, ih]
  simp only [tooManySteps, h, maxSteps, gt_iff_lt, decide_eq_true_eq]
  omega

/-- The documented maximum is refused, so the property is false. -/
theorem C32_maximum_refused : tooManySteps maxSteps = true := by rw [C32_exact]; decide

/-- Missing from the full property: exactly the maximum.  Every other number is judged correctly. -/
theorem C32_steps_partial (n : Nat) (h : n ≠ maxSteps) : tooManySteps n = true ↔ maxSteps < n := by
  rw [C32_exact]
  unfold maxSteps at *
  omega

example : tooManySteps 1023 = false ∧ tooManySteps 1025 = true := by
  constructor
  · have := C32_exact 1023
    cases h : tooManySteps 1023 with
    | false => rfl
    | true => exact absurd (this.mp h) (by decide)
  · rw [C32_exact]; decide

end Verif.Sdf
