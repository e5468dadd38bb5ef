import Verif.Lemmas.Stats
/-!
# C84: the half-sample mode and the count of runs
-/
namespace Verif.Stats
open Spec

/-- The half sample taken is the first of the narrowest of those that start in the first half, and it is inside the data. -/
theorem C84_narrowest (data : List Rat) (j : Nat) (h : narrowest data (halfN data.length) = some j) :
    j + halfN data.length ≤ data.length ∧
    (∀ i < halfN data.length, width data (halfN data.length) j ≤ width data (halfN data.length) i) ∧
    ∀ i < j, width data (halfN data.length) j < width data (halfN data.length) i := by
  have := nstate_spec data (halfN data.length) (halfN data.length)
  rw [← narrowest_eq, h] at this
  obtain ⟨h1, h2, h3, h4, h5⟩ := this
  exact ⟨by unfold halfN at *; omega, h4, h5⟩

/-- With an odd number of values it is the narrowest of all the half samples. -/
theorem C84_narrowest_odd (data : List Rat) (hodd : data.length % 2 = 1) (j : Nat)
    (h : narrowest data (halfN data.length) = some j) (i : Nat) (hi : i + halfN data.length ≤ data.length) :
    width data (halfN data.length) j ≤ width data (halfN data.length) i :=
  (C84_narrowest data j h).2.1 i (by unfold halfN at *; omega)

/-- With an even number the last half sample is never looked at. -/
theorem C84_not_last :
    ∃ data : List Rat, Sorted data ∧ data.length = 4 ∧ mode data = some 5 ∧
      width data 2 2 < width data 2 0 ∧ width data 2 2 < width data 2 1 := by
  refine ⟨[0, 10, 20, 21], ?_, rfl, by decide +kernel, by decide +kernel, by decide +kernel⟩
  rw [← pw_sorted]; decide +kernel

/-- There is no half sample to take exactly when all the values are equal. -/
theorem C84_stuck_iff (data : List Rat) (hs : Sorted data) (h4 : 4 ≤ data.length) :
    narrowest data (halfN data.length) = none ↔ ∀ i < data.length, data.getD i 0 = data.getD 0 0 := by
  have hN : 2 ≤ halfN data.length ∧ halfN data.length < data.length ∧ data.length ≤ 2 * halfN data.length ∧
      2 * halfN data.length ≤ data.length + 1 := by
    unfold halfN; omega
  generalize hNd : halfN data.length = N at hN
  constructor
  · intro h
    have := nstate_spec data N N
    rw [← narrowest_eq, h] at this
    have h0 := this.2 0 (by omega)
    have h1 := this.2 (N - 1) (by omega)
    unfold width at h0 h1
    have e1 : (0 : Nat) + N - 1 = N - 1 := by omega
    have a1 : data.getD (N - 1) 0 ≤ data.getD (data.length - 1) 0 := sorted_le hs (by omega) (by omega)
    have a2 : data.getD (N - 1 + N - 1) 0 ≤ data.getD (data.length - 1) 0 := sorted_le hs (by omega) (by omega)
    have a3 : data.getD 0 0 ≤ data.getD (N - 1) 0 := sorted_le hs (by omega) (by omega)
    rw [e1] at h0
    intro i hi
    have a4 : data.getD 0 0 ≤ data.getD i 0 := sorted_le hs (by omega) hi
    have a5 : data.getD i 0 ≤ data.getD (data.length - 1) 0 := sorted_le hs (by omega) (by omega)
    grind
  · intro h
    cases hn : narrowest data N with
    | none => rfl
    | some j =>
      have := nstate_spec data N N
      rw [← narrowest_eq, hn] at this
      obtain ⟨k1, _, k3, _⟩ := this
      unfold width at k3
      rw [h _ (by omega), h _ (by omega), h (data.length - 1) (by omega)] at k3
      grind

theorem window_getD (data : List Rat) (j N i : Nat) (hi : i < N) :
    ((data.drop j).take N).getD i 0 = data.getD (j + i) 0 := by
  simp [List.getD_eq_getElem?_getD, List.getElem?_take, hi, List.getElem?_drop]

theorem window_length (data : List Rat) (j N : Nat) (h : j + N ≤ data.length) :
    ((data.drop j).take N).length = N := by
  rw [List.length_take, List.length_drop]; omega

theorem window_sorted (data : List Rat) (hs : Sorted data) (j N : Nat) : Sorted ((data.drop j).take N) := by
  rw [← pw_sorted] at *
  exact (hs.sublist ((List.take_sublist _ _).trans (List.drop_sublist _ _)))

theorem between (n : Nat) : ∀ (data : List Rat), data.length ≤ n → Sorted data → ∀ m, hsm data = some m →
    data.getD 0 0 ≤ m ∧ m ≤ data.getD (data.length - 1) 0 := by
  induction n with
  | zero =>
    intro data h _ m hm
    have : data = [] := List.length_eq_zero_iff.1 (by omega)
    subst this; simp [hsm, hsmF] at hm
  | succ n ih =>
    intro data hl hs m hm
    by_cases h4 : 4 ≤ data.length
    · rw [hsm_step _ h4] at hm
      cases hn : narrowest data (halfN data.length) with
      | none => rw [hn] at hm; simp at hm
      | some j =>
        rw [hn] at hm
        simp only [Option.bind_some] at hm
        have hj := (C84_narrowest data j hn).1
        have hN : 1 ≤ halfN data.length ∧ halfN data.length < data.length := by unfold halfN; omega
        have := ih _ (by rw [window_length _ _ _ hj]; omega) (window_sorted _ hs _ _) m hm
        rw [window_length _ _ _ hj, window_getD _ _ _ _ (by omega), window_getD _ _ _ _ (by omega)] at this
        exact ⟨Rat.le_trans (sorted_le hs (by omega) (by omega)) this.1,
          Rat.le_trans this.2 (sorted_le hs (by omega) (by omega))⟩
    · match data, h4, hs, hm with
      | [], _, _, hm => simp [hsm, hsmF] at hm
      | [a], _, _, hm => simp [hsm, hsmF] at hm; subst hm; simp
      | [a, b], _, hs, hm =>
        have := hs 0 1 (by omega) (by simp)
        simp [hsm, hsmF] at hm this ⊢; grind
      | [a, b, c], _, hs, hm =>
        have h1 := hs 0 1 (by omega) (by simp)
        have h2 := hs 1 2 (by omega) (by simp)
        simp [hsm, hsmF] at hm h1 h2 ⊢; grind
      | _ :: _ :: _ :: _ :: l, h4, _, _ => simp at h4

/-- A mode is never outside of the data. -/
theorem C84_mode_between (data : List Rat) (m : Rat) (h : mode data = some m) :
    (∃ x ∈ data, x ≤ m) ∧ ∃ y ∈ data, m ≤ y := by
  have hb := between _ (sort data) (Nat.le_refl _) ((pw_sorted _).1 (sort_pw data)) m h
  have hne : 0 < (sort data).length := by
    cases hd : sort data with
    | nil => rw [mode, hd] at h; simp [hsm, hsmF] at h
    | cons a l => simp
  have hg : ∀ i < (sort data).length, (sort data).getD i 0 ∈ data := by
    intro i hi
    rw [← (sort_perm data).mem_iff]
    simp [List.getD_eq_getElem?_getD, List.getElem?_eq_getElem hi]
  exact ⟨⟨_, hg 0 hne, hb.1⟩, ⟨_, hg _ (by omega), hb.2⟩⟩

/-- The order of the data is of no importance. -/
theorem C84_mode_perm (l m : List Rat) (h : l.Perm m) : mode l = mode m := by
  unfold mode
  rw [pw_unique _ _ (sort_pw l) (sort_pw m) ((sort_perm l).trans (h.trans (sort_perm m).symm))]

theorem hsm_aff (a b : Rat) (ha : 0 < a) (n : Nat) : ∀ (data : List Rat), data.length ≤ n →
    hsm (aff a b data) = (hsm data).map fun x => a * x + b := by
  induction n with
  | zero =>
    intro data h
    have : data = [] := List.length_eq_zero_iff.1 (by omega)
    subst this; rfl
  | succ n ih =>
    intro data hl
    by_cases h4 : 4 ≤ data.length
    · have hN : 1 ≤ halfN data.length ∧ halfN data.length < data.length ∧
          2 * halfN data.length ≤ data.length + 1 := by unfold halfN; omega
      rw [hsm_step _ h4, hsm_step _ (by rw [aff_length]; exact h4), aff_length, narrowest_eq, narrowest_eq,
        nstate_aff a b ha _ _ _ (by omega) (by omega) (by omega)]
      simp only
      cases hn : (nstate data (halfN data.length) (halfN data.length)).2 with
      | none => rfl
      | some j =>
        simp only [Option.bind_some]
        rw [← narrowest_eq] at hn
        have hj := (C84_narrowest data j hn).1
        rw [← ih _ (by rw [window_length _ _ _ hj]; omega)]
        simp [aff, List.map_take, List.map_drop]
    · match data, h4 with
      | [], _ => rfl
      | [x], _ => simp [hsm, hsmF, aff]
      | [x, y], _ => simp [hsm, hsmF, aff]; grind
      | [x, y, z], _ =>
        have e1 : a * y + b - (a * x + b) = a * (y - x) := by grind
        have e2 : a * z + b - (a * y + b) = a * (z - y) := by grind
        simp only [hsm, hsmF, aff, List.map, List.length, e1, e2, GT.gt, mul_lt_iff _ _ _ ha]
        by_cases c1 : y - x < z - y
        · rw [if_pos c1, if_pos c1]; simp; grind
        · simp only [c1, if_false, Option.map]
      | _ :: _ :: _ :: _ :: l, h4 => simp at h4

/-- The mode moves with the origin and the unit of the data. -/
theorem C84_mode_affine (a b : Rat) (ha : 0 < a) (data : List Rat) :
    mode (data.map fun x => a * x + b) = (mode data).map fun x => a * x + b := by
  have := sort_aff a b ha data
  unfold aff at this
  unfold mode
  rw [this]
  exact hsm_aff a b ha _ _ (Nat.le_refl _)

/-- It does not turn over with the data. -/
theorem C84_not_mirror : ∃ data : List Rat, ∃ m, mode data = some m ∧ mode (data.map fun x => -x) ≠ some (-m) :=
  ⟨[0, 1, 10, 20], 1 / 2, by decide +kernel, by decide +kernel⟩

/-- Of three values the upper two are never taken, however near to each other they are. -/
theorem C84_not_three (a b c : Rat) (h1 : a ≤ b) (h2 : b ≤ c) (h : c - b ≤ b - a) :
    mode [a, b, c] = some b := by
  have hs : sort [a, b, c] = [a, b, c] := by
    apply pw_unique _ _ (sort_pw _) _ (sort_perm _)
    simp only [List.pairwise_cons, List.mem_cons, List.not_mem_nil, or_false]
    refine ⟨?_, ?_, ?_, List.Pairwise.nil⟩
    · rintro x (rfl | rfl)
      · exact h1
      · exact Rat.le_trans h1 h2
    · rintro x rfl; exact h2
    · rintro x ⟨⟩
  unfold mode
  rw [hs]
  have : ¬ (b - a < c - b) := by grind
  simp [hsm, hsmF, this]

/-- Four or more equal values raise. -/
theorem C84_not_constant (n : Nat) (h : 4 ≤ n) (v : Rat) : mode (List.replicate n v) = none := by
  have hs : sort (List.replicate n v) = List.replicate n v := by
    apply pw_unique _ _ (sort_pw _) _ (sort_perm _)
    rw [List.pairwise_replicate]
    exact Or.inr Rat.le_refl
  unfold mode
  rw [hs, hsm_step _ (by simpa using h)]
  rw [(C84_stuck_iff _ _ (by simpa using h)).2]
  · rfl
  · intro i hi
    simp only [List.length_replicate] at hi
    simp [List.getD_eq_getElem?_getD, hi, show 0 < n by omega]
  · rw [← pw_sorted, List.pairwise_replicate]; exact Or.inr Rat.le_refl

theorem equal_raises (l : List Rat) (h : 4 ≤ l.length) (hs : Sorted l) (he : ∀ i < l.length, l.getD i 0 = l.getD 0 0) :
    hsm l = none := by
  rw [hsm_step _ h, (C84_stuck_iff _ hs h).2 he]; rfl

theorem blocks (v : Rat) (l : List Rat) (h : l.Pairwise (· ≤ ·)) :
    ∃ A B, l = A ++ List.replicate (l.count v) v ++ B ∧ ∀ x ∈ A, x < v := by
  induction l with
  | nil => exact ⟨[], [], rfl, by simp⟩
  | cons x l ih =>
    rw [List.pairwise_cons] at h
    obtain ⟨A, B, e, hA⟩ := ih h.2
    rcases (show x < v ∨ x = v ∨ v < x by grind) with hx | hx | hx
    · refine ⟨x :: A, B, ?_, ?_⟩
      · rw [List.count_cons_of_ne (by grind)]
        simpa using e
      · intro y hy
        rcases List.mem_cons.1 hy with rfl | hy
        · exact hx
        · exact hA y hy
    · subst hx
      cases A with
      | nil =>
        refine ⟨[], B, ?_, by simp⟩
        rw [List.count_cons_self, List.replicate_succ]
        simpa using e
      | cons y A =>
        have h1 := h.1 y (by rw [e]; simp)
        have h2 := hA y (by simp)
        grind
    · refine ⟨[], x :: l, ?_, by simp⟩
      have : List.count v (x :: l) = 0 := by
        rw [List.count_eq_zero]
        intro hm
        rcases List.mem_cons.1 hm with rfl | hm
        · grind
        · have := h.1 v hm; grind
      rw [this]; rfl

/-- A value taken by more than half of seven or more values, the mode by any definition, raises. -/
theorem C84_not_majority (data : List Rat) (v : Rat) (h7 : 7 ≤ data.length)
    (hv : data.length < 2 * data.count v) : mode data = none := by
  have hs := (pw_sorted _).1 (sort_pw data)
  have hlen := sort_length data
  have hc : (sort data).count v = data.count v := (sort_perm data).count_eq v
  unfold mode
  generalize sort data = l at *
  rw [← hlen] at h7 hv
  rw [← hc] at hv
  clear hc hlen
  have hN : 4 ≤ halfN l.length ∧ halfN l.length < l.length ∧ l.length ≤ 2 * halfN l.length ∧
      2 * halfN l.length ≤ l.length + 1 := by unfold halfN; omega
  rw [hsm_step _ (by omega)]
  cases hn : narrowest l (halfN l.length) with
  | none => rfl
  | some j =>
    simp only [Option.bind_some]
    have hj := C84_narrowest l j hn
    obtain ⟨A, B, e, _⟩ := blocks v l ((pw_sorted l).2 hs)
    have hcount : (l.count v) + A.length ≤ l.length := by
      have := congrArg List.length e
      simp at this; omega
    have hw := hj.2.1 A.length (by omega)
    have hg : ∀ k < l.count v, l.getD (A.length + k) 0 = v := by
      intro k hk
      have e2 : l[A.length + k]? = some v := by
        rw [e, List.append_assoc, List.getElem?_append_right (by omega), List.getElem?_append_left (by simp; omega)]
        simp [hk]
      simp [List.getD_eq_getElem?_getD, e2]
    have h0 : width l (halfN l.length) A.length = 0 := by
      unfold width
      have a1 := hg (halfN l.length - 1) (by omega)
      have a2 := hg 0 (by omega)
      rw [show A.length + halfN l.length - 1 = A.length + (halfN l.length - 1) by omega, a1]
      rw [Nat.add_zero] at a2
      rw [a2]; grind
    rw [h0] at hw
    apply equal_raises
    · rw [window_length _ _ _ hj.1]; omega
    · exact window_sorted _ hs _ _
    · rw [window_length _ _ _ hj.1]
      intro i hi
      rw [window_getD _ _ _ _ hi, window_getD _ _ _ _ (by omega)]
      have b1 := sorted_le hs (i := j + 0) (j := j + i) (by omega) (by omega)
      have b2 := sorted_le hs (i := j + i) (j := j + halfN l.length - 1) (by omega) (by omega)
      unfold width at hw
      rw [Nat.add_zero] at *
      grind

theorem distinct_some (n : Nat) : ∀ (l : List Rat), l.length ≤ n → l ≠ [] → Sorted l → l.Nodup → (hsm l).isSome := by
  induction n with
  | zero => intro l h hne; exact absurd (List.length_eq_zero_iff.1 (by omega)) hne
  | succ n ih =>
    intro l hl hne hs hd
    by_cases h4 : 4 ≤ l.length
    · rw [hsm_step _ h4]
      cases hn : narrowest l (halfN l.length) with
      | none =>
        have := (C84_stuck_iff l hs h4).1 hn 1 (by omega)
        rw [List.getD_eq_getElem?_getD, List.getD_eq_getElem?_getD, List.getElem?_eq_getElem (by omega),
          List.getElem?_eq_getElem (by omega)] at this
        exact absurd ((List.getElem_inj hd).1 this) (by omega)
      | some j =>
        have hj := (C84_narrowest l j hn).1
        have hN : 1 ≤ halfN l.length ∧ halfN l.length < l.length := by unfold halfN; omega
        simp only [Option.bind_some]
        apply ih
        · rw [window_length _ _ _ hj]; omega
        · intro h0
          have := window_length l j (halfN l.length) hj
          rw [h0] at this; simp at this; omega
        · exact window_sorted _ hs _ _
        · exact hd.sublist ((List.take_sublist _ _).trans (List.drop_sublist _ _))
    · match l, h4, hne with
      | [], _, hne => exact absurd rfl hne
      | [_], _, _ => rfl
      | [_, _], _, _ => rfl
      | [a, b, c], _, _ => simp only [hsm, hsmF, List.length]; (repeat' split) <;> rfl
      | _ :: _ :: _ :: _ :: l, h4, _ => simp at h4

/-- Different values have a mode. -/
theorem C84_mode_distinct (data : List Rat) (hne : data ≠ []) (hd : data.Nodup) : (mode data).isSome := by
  apply distinct_some _ _ (Nat.le_refl _)
  · intro h
    have := sort_length data
    rw [h] at this
    exact hne (List.length_eq_zero_iff.1 this.symm)
  · exact (pw_sorted _).1 (sort_pw data)
  · exact (sort_perm data).nodup_iff.2 hd

/-- No data raise. -/
theorem C84_mode_empty : mode [] = none := rfl

/-! ## Runs -/

theorem changes_cons (p c : Bool) (l : List Bool) : changes (p :: c :: l) = change c p + changes (c :: l) := rfl

theorem changes_replicate (n : Nat) (b : Bool) : changes (List.replicate (n + 1) b) = 0 := by
  induction n with
  | zero => cases b <;> rfl
  | succ n ih =>
    rw [List.replicate_succ, List.replicate_succ] at *
    rw [changes_cons, ih]
    cases b <;> rfl

theorem changes_block (n : Nat) (b : Bool) (l : List Bool) :
    changes (List.replicate (n + 1) b ++ (!b) :: l) = 1 + changes ((!b) :: l) := by
  induction n with
  | zero => cases b <;> rfl
  | succ n ih =>
    rw [List.replicate_succ, List.replicate_succ] at *
    rw [List.cons_append, List.cons_append] at *
    rw [changes_cons, ih]
    cases b <;> simp [change]

theorem runs_head {b : Bool} {m : Nat} {t : List (Nat × Bool)} {l : List Bool} (h : Runs ((m, b) :: t) l) :
    ∃ r, l = b :: r := by
  cases h with
  | one n _ => exact ⟨List.replicate n b, by rw [List.replicate_succ]⟩
  | cons n _ _ _ r _ => exact ⟨List.replicate n b ++ r, by rw [List.replicate_succ, List.cons_append]⟩

/-- The number counted is the number of maximal runs, those of one value included. -/
theorem C84_runs (blocks : List (Nat × Bool)) (data : List Bool) (h : Runs blocks data) (hne : data ≠ []) :
    (countRuns data).1 = blocks.length := by
  induction h with
  | nil => exact absurd rfl hne
  | one n b => simp [countRuns, changes_replicate]
  | cons n b m t l h ih =>
    obtain ⟨r, rfl⟩ := runs_head h
    have := ih (by simp)
    simp only [countRuns] at this ⊢
    rw [changes_block]
    simp at this ⊢; omega

/-- All data can be cut so. -/
theorem C84_runs_exist (data : List Bool) : ∃ blocks, Runs blocks data := by
  induction data with
  | nil => exact ⟨[], Runs.nil⟩
  | cons a l ih =>
    obtain ⟨bl, h⟩ := ih
    cases h with
    | nil => exact ⟨[(1, a)], Runs.one 0 a⟩
    | one n b =>
      by_cases hab : a = b
      · subst hab
        exact ⟨[(n + 1 + 1, a)], Runs.one (n + 1) a⟩
      · have : b = !a := by cases a <;> cases b <;> simp_all
        subst this
        exact ⟨_, Runs.cons 0 a (n + 1) [] _ (Runs.one n (!a))⟩
    | cons n b m t l h =>
      by_cases hab : a = b
      · subst hab
        exact ⟨_, Runs.cons (n + 1) a m t l h⟩
      · have : b = !a := by cases a <;> cases b <;> simp_all
        subst this
        exact ⟨_, Runs.cons 0 a (n + 1) ((m, !!a) :: t) _ (Runs.cons n (!a) m t l h)⟩

/-- Each value is counted once. -/
theorem C84_counts (data : List Bool) :
    (countRuns data).2.1 = data.count true ∧ (countRuns data).2.2 = data.count false := by
  refine ⟨rfl, ?_⟩
  have : data.count true + data.count false = data.length := by
    induction data with
    | nil => rfl
    | cons a l ih => cases a <;> simp <;> omega
  simp only [countRuns]; omega

/-- No data have one run. -/
theorem C84_not_empty : countRuns [] = (1, 0, 0) := rfl

/-- The stated minimum of two values to a run is not asked for. -/
theorem C84_not_two : countRuns [true, false, true] = (3, 2, 1) := by decide

theorem changes_flip (l : List Bool) : changes (l.map (!·)) = changes l := by
  induction l with
  | nil => rfl
  | cons a l ih =>
    cases l with
    | nil => rfl
    | cons b l =>
      simp only [List.map_cons] at ih ⊢
      rw [changes_cons, changes_cons, ih]
      cases a <;> cases b <;> rfl

theorem count_flip (l : List Bool) (b : Bool) : (l.map (!·)).count b = l.count (!b) := by
  induction l with
  | nil => rfl
  | cons a l ih => cases a <;> cases b <;> simp_all

/-- Changing the sign of data with no zeros leaves the runs, and so the mean, the variance and the probability, the same. -/
theorem C84_flip (data : List Rat) (h : ∀ x ∈ data, x ≠ 0) :
    countRuns (toBinary (data.map fun x => -x)) =
      ((countRuns (toBinary data)).1, (countRuns (toBinary data)).2.2, (countRuns (toBinary data)).2.1) := by
  have e : toBinary (data.map fun x => -x) = (toBinary data).map (!·) := by
    unfold toBinary
    rw [List.map_map, List.map_map]
    apply List.map_congr_left
    intro x hx
    have := h x hx
    simp only [Function.comp]
    by_cases h0 : 0 < x
    · have : ¬ 0 < -x := by grind
      simp [h0, this]
    · have : 0 < -x := by grind
      simp [h0, this]
  rw [e]
  have c1 := C84_counts ((toBinary data).map (!·))
  have c2 := C84_counts (toBinary data)
  rw [count_flip, count_flip] at c1
  refine Prod.ext ?_ (Prod.ext ?_ ?_)
  · simp only [countRuns, changes_flip]
  · simp only [c1.1, c2.2]; rfl
  · simp only [c1.2, c2.1]; rfl

theorem C84_moments_flip (p n : Nat) : meanRuns p n = meanRuns n p ∧ varRuns p n = varRuns n p := by
  unfold meanRuns varRuns
  constructor
  · rw [Rat.add_comm (p : Rat), Rat.mul_assoc, Rat.mul_assoc, Rat.mul_comm (p : Rat)]
  · have e1 : (2 * (p : Rat) * n) = 2 * n * p := by grind
    have e2 : (p : Rat) + n = n + p := Rat.add_comm _ _
    rw [e1, e2, show 2 * (n : Rat) * p - p - n = 2 * n * p - n - p by grind]

theorem changes_snoc (l : List Bool) (a b : Bool) :
    changes (l ++ [a, b]) = changes (l ++ [a]) + changes [a, b] := by
  induction l with
  | nil => simp [changes]
  | cons x l ih =>
    cases l with
    | nil => simp [changes]
    | cons y l =>
      simp only [List.cons_append] at ih ⊢
      rw [changes_cons, changes_cons, ih]; omega

theorem changes_reverse (l : List Bool) : changes l.reverse = changes l := by
  induction l with
  | nil => rfl
  | cons a l ih =>
    cases l with
    | nil => rfl
    | cons b l =>
      rw [List.reverse_cons, List.reverse_cons, List.append_assoc, List.singleton_append, changes_snoc,
        ← List.reverse_cons, ih, changes_cons]
      cases a <;> cases b <;> simp [changes, change, Nat.add_comm]

/-- The runs are the same backwards. -/
theorem C84_reverse (data : List Bool) : countRuns data.reverse = countRuns data := by
  simp [countRuns, changes_reverse]

theorem changes_bound (l : List Bool) :
    (∀ r, l = true :: r → changes l ≤ 2 * l.count false ∧ changes l + 1 ≤ 2 * l.count true) ∧
    (∀ r, l = false :: r → changes l ≤ 2 * l.count true ∧ changes l + 1 ≤ 2 * l.count false) := by
  induction l with
  | nil => simp
  | cons a l ih =>
    cases l with
    | nil => cases a <;> simp [changes]
    | cons b l =>
      cases a <;> cases b <;> simp [changes_cons, change] at ih ⊢ <;> omega

/-- There are at most twice as many runs, and one, as there are values of the rarer sign. -/
theorem C84_bound (data : List Bool) :
    (countRuns data).1 ≤ 2 * data.count true + 1 ∧ (countRuns data).1 ≤ 2 * data.count false + 1 := by
  have h := changes_bound data
  simp only [countRuns]
  match data with
  | [] => simp [changes]
  | true :: r => have := h.1 r rfl; omega
  | false :: r => have := h.2 r rfl; omega

/-- Data of one sign have no variance to divide by, and a deviation of minus a half all the same. -/
theorem C84_not_one_sign (n : Nat) (h : 1 ≤ n) :
    (countRuns (List.replicate n true)).1 = 1 ∧ varRuns n 0 = 0 ∧ excess 1 (meanRuns n 0) = -1 / 2 := by
  obtain ⟨n, rfl⟩ : ∃ k, n = k + 1 := ⟨n - 1, by omega⟩
  refine ⟨by simp [countRuns, changes_replicate], ?_, ?_⟩
  · unfold varRuns; simp; grind
  · have e : meanRuns (n + 1) 0 = 1 := by unfold meanRuns; simp; grind
    rw [e]; decide +kernel

/-- For few runs the deviation is brought nearer to zero by a half, and not past it when it is at least that. -/
theorem C84_excess (N : Nat) (mean : Rat) (h : N ≤ 50) :
    ((N : Rat) + 1 / 2 ≤ mean → excess N mean = N - mean + 1 / 2 ∧ excess N mean ≤ 0) ∧
    (mean + 1 / 2 ≤ N → excess N mean = N - mean - 1 / 2 ∧ 0 ≤ excess N mean) := by
  unfold excess
  rw [if_neg (by omega)]
  constructor
  · intro h1
    rw [if_pos (by grind)]
    exact ⟨rfl, by grind⟩
  · intro h1
    rw [if_neg (by grind)]
    exact ⟨rfl, by grind⟩

/-- For many it is as it is. -/
theorem C84_excess_many (N : Nat) (mean : Rat) (h : 50 < N) : excess N mean = N - mean := by
  unfold excess
  rw [if_pos h]

/-- As many runs as expected deviate by as much as one run too many. -/
theorem C84_not_centred :
    ∃ a b : List Bool, a.count true = b.count true ∧ a.count false = b.count false ∧
      ((countRuns a).1 : Rat) = meanRuns (a.count true) (a.count false) ∧
      ((countRuns b).1 : Rat) = meanRuns (b.count true) (b.count false) + 1 ∧
      excess (countRuns a).1 (meanRuns (a.count true) (a.count false)) =
        -excess (countRuns b).1 (meanRuns (b.count true) (b.count false)) ∧
      excess (countRuns a).1 (meanRuns (a.count true) (a.count false)) ≠ 0 :=
  ⟨[true, false, false, true], [true, false, true, false], by decide +kernel⟩

example : mode [1, 2, 2, 3, 9] = some 2 := by decide +kernel
example : mode [0, 1, 5, 6, 6, 7, 20] = some 6 := by decide +kernel
example : mode [0, 2, 3] = some 2 := by decide +kernel
example : countRuns (toBinary [1, 2, -1, 0, 3]) = (3, 3, 2) := by decide +kernel

end Verif.Stats
