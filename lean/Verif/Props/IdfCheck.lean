import Verif.Spec.IdfCheck
import Verif.Props.Sdf
import Verif.Lemmas.SdfParse
/-!
# C95: checks of interferometer definitions, and the session definitions made from them
-/
namespace Verif.Idf.Check

open Dec Verif.Idf.Spec

/-! ## Visibility -/

/-- Samples above the horizon among `m` from `i` on. -/
def countUp (up : Nat → Bool) : Nat → Nat → Nat
  | _, 0 => 0
  | i, m + 1 => one (up i) + countUp up (i + 1) m

theorem countUp_le (up : Nat → Bool) (i m : Nat) : countUp up i m ≤ m := by
  induction m generalizing i with
  | zero => exact Nat.le_refl 0
  | succ m ih =>
    have := ih (i + 1)
    simp only [countUp, one]
    split <;> omega

theorem countUp_eq (up : Nat → Bool) (i m : Nat) : countUp up i m = m ↔ ∀ k, i ≤ k → k < i + m → up k = true := by
  induction m generalizing i with
  | zero =>
    constructor
    · intro _ k h1 h2; omega
    · intro _; rfl
  | succ m ih =>
    have hle := countUp_le up (i + 1) m
    simp only [countUp, one]
    constructor
    · intro h k h1 h2
      by_cases hu : up i = true
      · rw [if_pos hu] at h
        by_cases hk : k = i
        · rw [hk]; exact hu
        · exact (ih (i + 1)).mp (by omega) k (by omega) (by omega)
      · rw [if_neg hu] at h
        omega
    · intro h
      rw [if_pos (h i (by omega) (by omega)), (ih (i + 1)).mpr (fun k h1 h2 => h k (by omega) (by omega))]
      omega

theorem visLoop_eq (up : Nat → Bool) (dur : Int) (n i m : Nat) (v c : Nat) (h1 : m < n)
    (h2 : ∀ k, i ≤ k → k < i + m → (k : Int) * 300000 ≤ dur) (h3 : ¬ ((i + m : Nat) : Int) * 300000 ≤ dur) :
    visLoop up dur n i (v, c) = (v + countUp up i m, c + m) := by
  induction m generalizing n i v c with
  | zero =>
    obtain ⟨n, rfl⟩ : ∃ k, n = k + 1 := ⟨n - 1, by omega⟩
    simp only [visLoop]
    rw [if_neg (show ¬ (i : Int) * 300000 ≤ dur from h3)]
    rfl
  | succ m ih =>
    obtain ⟨n, rfl⟩ : ∃ k, n = k + 1 := ⟨n - 1, by omega⟩
    simp only [visLoop]
    rw [if_pos (h2 i (by omega) (by omega)), ih n (i + 1) _ _ (by omega) (fun k a b => h2 k (by omega) (by omega)) (by
      rw [show i + 1 + m = i + (m + 1) by omega]; exact h3)]
    simp only [countUp, one]
    split <;> (congr 1 <;> omega)

theorem visOne_eq (up : Nat → Bool) (dur : Nat) :
    visOne up dur = some ((countUp up 0 (dur / 300000 + 1) : Rat) / ((dur / 300000 + 1 : Nat) : Rat)) := by
  have h := visLoop_eq up dur (enough dur) 0 (dur / 300000 + 1) 0 0 (by unfold enough; omega) (by intro k _ h; omega) (by omega)
  unfold visOne
  simp only [h, Nat.zero_add]
  rw [if_neg (by omega)]

theorem ratio_lt (a b : Nat) (h : 0 < b) : ((a : Rat) / (b : Rat) < 1) ↔ a < b := by
  have hb : (0 : Rat) < (b : Rat) := by exact_mod_cast h
  rw [Rat.div_lt_iff hb, Rat.one_mul]
  exact_mod_cast Iff.rfl

theorem visOne_lt (up : Nat → Bool) (dur : Nat) (v : Rat) (h : visOne up dur = some v) :
    ¬ v < 1 ↔ ∀ i : Nat, (i : Int) * 300000 ≤ dur → up i = true := by
  rw [visOne_eq] at h
  injection h with h
  rw [← h, ratio_lt _ _ (by omega)]
  have hle := countUp_le up 0 (dur / 300000 + 1)
  constructor
  · intro hn i hi
    exact (countUp_eq up 0 (dur / 300000 + 1)).mp (by omega) i (by omega) (by omega)
  · intro hall
    have := (countUp_eq up 0 (dur / 300000 + 1)).mpr (fun k _ h2 => hall k (by omega))
    omega

theorem minOf_lt (l : List Rat) (v : Rat) (h : minOf l = some v) : ¬ v < 1 ↔ ∀ x ∈ l, ¬ x < 1 := by
  induction l generalizing v with
  | nil => cases h
  | cons x l ih =>
    cases l with
    | nil =>
      simp only [minOf] at h
      injection h with h
      subst h
      simp
    | cons y l =>
      simp only [minOf] at h
      rw [Option.map_eq_some_iff] at h
      obtain ⟨w, hw, rfl⟩ := h
      have := ih w hw
      simp only [List.mem_cons, forall_eq_or_imp] at this ⊢
      rw [← this]
      split <;> grind

theorem minOf_some (x : Rat) (l : List Rat) : ∃ v, minOf (x :: l) = some v := by
  induction l generalizing x with
  | nil => exact ⟨x, rfl⟩
  | cons y l ih =>
    obtain ⟨v, hv⟩ := ih y
    exact ⟨if v < x then v else x, by simp [minOf, hv]⟩

theorem mapM_map {α β : Type} (f : α → Option β) (g : α → β) (l : List α) (h : ∀ a ∈ l, f a = some (g a)) : l.mapM f = some (l.map g) := by
  induction l with
  | nil => rfl
  | cons a l ih =>
    rw [List.mapM_cons, h a (by simp), ih (fun b hb => h b (by simp [hb]))]
    rfl

/-- A target counts as visible exactly if it is above the horizon of every station at each sample. -/
theorem C95_visible (n : Nat) (hn : 0 < n) (up : Nat → Nat → Bool) (dur : Nat) :
    ∃ v, visibility n up dur = some v ∧ (¬ v < 1 ↔ Seen n up dur) := by
  have hm : (List.range n).mapM (fun k => visOne (up k) dur) =
      some ((List.range n).map fun k => (countUp (up k) 0 (dur / 300000 + 1) : Rat) / ((dur / 300000 + 1 : Nat) : Rat)) :=
    mapM_map _ _ _ fun k _ => visOne_eq (up k) dur
  obtain ⟨m, rfl⟩ : ∃ k, n = k + 1 := ⟨n - 1, by omega⟩
  unfold visibility
  rw [hm, Option.bind_some]
  cases hl : (List.range (m + 1)).map fun k => (countUp (up k) 0 (dur / 300000 + 1) : Rat) / ((dur / 300000 + 1 : Nat) : Rat) with
  | nil =>
    have := congrArg List.length hl
    simp at this
  | cons x l =>
    obtain ⟨v, hv⟩ := minOf_some x l
    refine ⟨v, hv, ?_⟩
    rw [minOf_lt _ _ hv, ← hl]
    simp only [List.mem_map, List.mem_range, forall_exists_index, and_imp, forall_apply_eq_imp_iff₂]
    unfold Seen
    exact forall_congr' fun k => forall_congr' fun _ => visOne_lt (up k) dur _ (visOne_eq (up k) dur)

/-- Whatever the length of a scan, unless it is a multiple of five minutes: a target that has set before the end is accepted. -/
theorem C95_not_sampled (dur : Nat) (h : dur % 300000 ≠ 0) :
    ∃ set : Int, set < dur ∧ ∀ n, Seen n (fun _ i => decide ((i : Int) * 300000 ≤ set)) dur := by
  refine ⟨dur / 300000 * 300000, by omega, fun n k _ i hi => ?_⟩
  simp only [decide_eq_true_eq]
  omega

/-! ## One scan -/

theorem one_zero (b : Bool) : one b = 0 ↔ b = false := by cases b <;> simp [one]

theorem total_zero {α : Type} (f : α → Option Nat) (l : List α) : total f l = some 0 ↔ ∀ a ∈ l, f a = some 0 := by
  induction l with
  | nil => simp [total]
  | cons a l ih =>
    simp only [total, List.mem_cons, forall_eq_or_imp, ← ih]
    cases f a with
    | none => simp
    | some n =>
      cases total f l with
      | none => simp
      | some m => simp

theorem altFailures_zero (site : Site) (hn : 0 < site.n) (s : Scan) (a : AltSky) (hf : maxFreq s ≠ 0) :
    altFailures site s a = some 0 ↔ Seen site.n a.up s.dur ∧ a.sep ≤ 74000000 / maxFreq s := by
  obtain ⟨v, hv, hs⟩ := C95_visible site.n hn a.up s.dur
  have e : (2 * 74000000 / maxFreq s / 2 : Rat) = 74000000 / maxFreq s := by grind
  unfold altFailures
  rw [hv, Option.bind_some, if_neg hf, Option.some_inj, Nat.add_eq_zero_iff, one_zero, one_zero, decide_eq_false_iff_not,
    decide_eq_false_iff_not, hs, e]
  exact and_congr_right fun _ => Rat.not_lt

theorem altFailures_none (site : Site) (hn : 0 < site.n) (s : Scan) (a : AltSky) (hf : maxFreq s = 0) : altFailures site s a = none := by
  obtain ⟨v, hv, -⟩ := C95_visible site.n hn a.up s.dur
  unfold altFailures
  rw [hv, Option.bind_some, if_pos hf]

/-- A scan is valid exactly if it is good; with no frequency at all, a scan with alternate phase centers is not checked. -/
theorem C95_scan_partial (site : Site) (hn : 0 < site.n) (sky : ScanSky) (s : Scan) (hf : maxFreq s ≠ 0 ∨ sky.alts = []) :
    scanValid site sky s = some true ↔ GoodScan site sky s := by
  obtain ⟨v, hv, hs⟩ := C95_visible site.n hn sky.up s.dur
  have ha : total (altFailures site s) sky.alts = some 0 ↔ ∀ a ∈ sky.alts, Seen site.n a.up s.dur ∧ a.sep ≤ 74000000 / maxFreq s := by
    rw [total_zero]
    rcases hf with hf | hf
    · exact forall_congr' fun a => forall_congr' fun _ => altFailures_zero site hn s a hf
    · simp [hf]
  unfold scanValid scanFailures
  rw [hv, Option.bind_some]
  constructor
  · intro h
    cases ht : total (altFailures site s) sky.alts with
    | none => rw [ht] at h; cases h
    | some m =>
      rw [ht] at h
      simp only [Option.map_some, Option.some_inj, beq_iff_eq, Nat.add_eq_zero_iff, one_zero] at h
      obtain ⟨⟨⟨⟨⟨⟨⟨h1, h2⟩, h3⟩, h4⟩, h5⟩, h6⟩, h7⟩, h8⟩ := h
      subst h7
      simp only [decide_eq_false_iff_not, Bool.or_eq_false_iff, Bool.and_eq_false_iff, Bool.not_eq_false', Bool.and_eq_true,
        decide_eq_true_eq, bne_eq_false_iff_eq] at h1 h2 h3 h4 h5 h6 h8
      exact ⟨by omega, ⟨by omega, by omega⟩, h3.imp (fun h => ⟨by omega, by omega⟩) id, h4, hs.mp h5, by omega, ha.mp ht, Rat.not_le.mp h8⟩
  · intro h
    rw [ha.mpr h.alts]
    simp only [Option.map_some, Option.some_inj, beq_iff_eq, Nat.add_eq_zero_iff, one_zero]
    simp only [decide_eq_false_iff_not, Bool.or_eq_false_iff, Bool.and_eq_false_iff, Bool.not_eq_false', Bool.and_eq_true,
        decide_eq_true_eq, bne_eq_false_iff_eq]
    refine ⟨⟨⟨⟨⟨⟨⟨?_, ?_⟩, ?_⟩, h.filter⟩, hs.mpr h.seen⟩, ?_⟩, trivial⟩, Rat.not_le.mpr h.bytes⟩
    · have := h.dur; omega
    · have := h.freq1; unfold Tuned at this; omega
    · rcases h.freq2 with h | h
      · unfold Tuned at h; left; omega
      · exact .inr h
    · have := h.few; omega

/-- The separation is judged at the higher of the two frequencies. -/
theorem C95_higher (s : Scan) :
    Words.wordToFreq s.freq1 ≤ maxFreq s ∧ Words.wordToFreq s.freq2 ≤ maxFreq s ∧
      (maxFreq s = Words.wordToFreq s.freq1 ∨ maxFreq s = Words.wordToFreq s.freq2) := by
  unfold maxFreq
  split
  · next h => exact ⟨Rat.le_of_lt h, Rat.le_refl, .inr rfl⟩
  · next h => exact ⟨Rat.le_refl, Rat.not_lt.mp h, .inl rfl⟩

/-- With no frequency at all, a scan with an alternate phase center raises instead of being refused. -/
theorem C95_not_refused (site : Site) (hn : 0 < site.n) (sky : ScanSky) (s : Scan) (hf : maxFreq s = 0) (ha : sky.alts ≠ []) :
    scanValid site sky s = none := by
  obtain ⟨v, hv, -⟩ := C95_visible site.n hn sky.up s.dur
  obtain ⟨a, l, hl⟩ := List.exists_cons_of_ne_nil ha
  unfold scanValid scanFailures
  rw [hv, Option.bind_some, hl, total, altFailures_none site hn s a hf]
  rfl

/-! ## A run -/

theorem repeated_zero (names : List Text) : repeated names = 0 ↔ names.Nodup := by
  unfold repeated
  rw [List.length_eq_zero_iff, List.filter_eq_nil_iff, List.nodup_iff_count]
  constructor
  · intro h a
    by_cases ha : a ∈ names
    · have := h a (List.mem_eraseDups.mpr ha)
      simp only [bne_iff_ne, ne_eq, Decidable.not_not] at this
      omega
    · rw [List.count_eq_zero.mpr ha]; omega
  · intro h a ha
    have h1 := List.count_pos_iff.mpr (List.mem_eraseDups.mp ha)
    have h2 := h a
    simp only [bne_iff_ne, ne_eq, Decidable.not_not]
    omega

theorem filterChanges_zero (l : List Scan) : filterChanges l = 0 ↔ ∀ a ∈ l, ∀ b ∈ l, a.filter = b.filter := by
  induction l with
  | nil => simp [filterChanges]
  | cons a l ih =>
    cases l with
    | nil => simp [filterChanges]
    | cons b l =>
      simp only [filterChanges, Nat.add_eq_zero_iff, one_zero, bne_eq_false_iff_eq, ih]
      constructor
      · rintro ⟨h1, h2⟩ x hx y hy
        have hb : ∀ z ∈ a :: b :: l, z.filter = b.filter := by
          intro z hz
          rcases List.mem_cons.mp hz with rfl | hz
          · exact h1.symm
          · exact h2 z hz b (by simp)
        rw [hb x hx, hb y hy]
      · intro h
        exact ⟨h b (by simp) a (by simp), fun x hx y hy => h x (List.mem_cons_of_mem _ hx) y (List.mem_cons_of_mem _ hy)⟩

theorem sum_scaled (f : Scan → Rat) (c : Rat) (l : List Scan) : (l.map fun s => f s * c).sum = (l.map f).sum * c := by
  induction l with
  | nil => simp
  | cons a l ih =>
    simp only [List.map_cons, List.sum_cons, ih]
    grind

theorem apart_iff (l : List Scan) (hd : ∀ s ∈ l, 1 ≤ s.dur) :
    Sdf.overlapFailures (l.map asObs) = 0 ↔ l.Pairwise fun a b => a.at + (a.dur : Int) ≤ b.at ∨ b.at + (b.dur : Int) ≤ a.at := by
  rw [Sdf.C29_overlap]
  · unfold Sdf.Disjoint
    rw [List.pairwise_map]
    constructor
    · intro h
      refine List.Pairwise.imp_of_mem ?_ h
      intro a b ha hb hab
      have h1 := hd a ha
      have h2 := hd b hb
      have p := hab a.at
      have q := hab b.at
      simp only [Sdf.Occupies, asObs, Scan.at] at p q ⊢
      omega
    · intro h
      refine List.Pairwise.imp ?_ h
      intro a b hab t
      simp only [Sdf.Occupies, asObs, Scan.at] at hab ⊢
      omega
  · intro o ho
    obtain ⟨s, hs, rfl⟩ := List.mem_map.mp ho
    have := hd s hs
    simp only [asObs]
    omega

/-- A run is valid exactly if it is good. -/
theorem C95_run (site : Site) (hn : 0 < site.n) (sky : List ScanSky) (r : Run) (hl : sky.length = r.scans.length)
    (hf : ∀ p ∈ sky.zip r.scans, maxFreq p.2 ≠ 0 ∨ p.1.alts = []) :
    runValid site sky r = some true ↔ GoodRun site sky r := by
  have hz : ∀ s ∈ r.scans, ∃ k, (k, s) ∈ sky.zip r.scans := by
    intro s hs
    obtain ⟨i, hi, rfl⟩ := List.mem_iff_getElem.mp hs
    refine ⟨sky[i], ?_⟩
    rw [List.mem_iff_getElem]
    exact ⟨i, by simp; omega, by simp⟩
  have hsc : (∀ p ∈ sky.zip r.scans, (scanValid site p.1 p.2).map (fun b => one (!b)) = some 0) ↔
      ∀ p ∈ sky.zip r.scans, GoodScan site p.1 p.2 := by
    refine forall_congr' fun p => forall_congr' fun hp => ?_
    rw [← C95_scan_partial site hn p.1 p.2 (hf p hp), Option.map_eq_some_iff]
    constructor
    · rintro ⟨b, hb, h0⟩
      rw [one_zero] at h0
      simp only [Bool.not_eq_false'] at h0
      rw [hb, h0]
    · intro h
      exact ⟨true, h, rfl⟩
  have hb : ((r.scans.map fun s => bytes site s * (site.n : Rat)).sum ≥ (site.n : Rat) * capacity) ↔ ¬ (r.scans.map (bytes site)).sum < capacity := by
    rw [sum_scaled]
    have hp : (0 : Rat) < (site.n : Rat) := by exact_mod_cast hn
    rw [ge_iff_le, Rat.mul_comm (site.n : Rat), Rat.not_lt]
    constructor
    · intro h
      exact Rat.not_lt.mp fun hlt => Rat.not_le.mpr (Rat.mul_lt_mul_of_pos_right hlt hp) h
    · intro h
      exact Rat.mul_le_mul_of_nonneg_right h (Rat.le_of_lt hp)
  unfold runValid runFailures
  constructor
  · intro h
    cases ht : total (fun p : ScanSky × Scan => (scanValid site p.1 p.2).map fun b => one (!b)) (sky.zip r.scans) with
    | none => rw [ht] at h; cases h
    | some m =>
      rw [ht] at h
      simp only [Option.map_some, Option.some_inj, beq_iff_eq, Nat.add_eq_zero_iff, one_zero] at h
      obtain ⟨⟨⟨⟨⟨h1, h2⟩, h3⟩, h4⟩, h5⟩, h6⟩ := h
      subst h3
      have hg := hsc.mp ((total_zero _ _).mp ht)
      simp only [decide_eq_false_iff_not, Bool.or_eq_false_iff] at h1 h6
      refine ⟨by omega, (repeated_zero _).mp h2, hg, (filterChanges_zero _).mp h4, ?_, ?_⟩
      · refine (apart_iff _ fun s hs => ?_).mp h5
        obtain ⟨k, hk⟩ := hz s hs
        exact (hg _ hk).dur
      · rw [hb] at h6
        exact Decidable.not_not.mp h6
  · intro h
    have ht := (total_zero (fun p : ScanSky × Scan => (scanValid site p.1 p.2).map fun b => one (!b)) (sky.zip r.scans)).mpr (hsc.mpr h.scans)
    rw [ht]
    simp only [Option.map_some, Option.some_inj, beq_iff_eq, Nat.add_eq_zero_iff, one_zero, decide_eq_false_iff_not, Bool.or_eq_false_iff]
    refine ⟨⟨⟨⟨⟨?_, (repeated_zero _).mpr h.stations⟩, trivial⟩, (filterChanges_zero _).mpr h.filter⟩, ?_⟩, ?_⟩
    · have := h.id; omega
    · refine (apart_iff _ fun s hs => ?_).mpr h.apart
      obtain ⟨k, hk⟩ := hz s hs
      exact (h.scans _ hk).dur
    · rw [hb]
      exact fun hc => hc h.bytes

/-- A project is valid exactly if its name is short and all runs are valid. -/
theorem C95_project (id : Text) (runs : List (Site × List ScanSky × Run)) :
    projectValid id runs = some true ↔ id.length ≤ 8 ∧ ∀ p ∈ runs, runValid p.1 p.2.1 p.2.2 = some true := by
  have hr : (∀ p ∈ runs, (runValid p.1 p.2.1 p.2.2).map (fun b => one (!b)) = some 0) ↔ ∀ p ∈ runs, runValid p.1 p.2.1 p.2.2 = some true := by
    refine forall_congr' fun p => forall_congr' fun _ => ?_
    cases runValid p.1 p.2.1 p.2.2 with
    | none => simp
    | some b => cases b <;> simp [one]
  unfold projectValid
  rw [← hr, ← total_zero (fun p : Site × List ScanSky × Run => (runValid p.1 p.2.1 p.2.2).map fun b => one (!b))]
  cases total (fun p : Site × List ScanSky × Run => (runValid p.1 p.2.1 p.2.2).map fun b => one (!b)) runs with
  | none => simp
  | some m =>
    simp only [Option.map_some, Option.some_inj, beq_iff_eq, Nat.add_eq_zero_iff, one_zero, decide_eq_false_iff_not]
    omega

/-! ## Session definitions -/

theorem altLoop_texts (cos : Rat → Rat) (s : Scan) (n p : Nat) (l : List Alt) (t : Text) (h : l.length + p = n) :
    altLoop cos s n p l t = altTexts cos s 1 l.reverse ++ t := by
  have hap : ∀ (j : Nat) (x : List Alt) (a : Alt), altTexts cos s j (x ++ [a]) = altTexts cos s j x ++ altText cos s (j + x.length) a := by
    intro j x a
    induction x generalizing j with
    | nil => simp [altTexts]
    | cons b x ih =>
      simp only [List.cons_append, altTexts, ih, List.length_cons, List.append_assoc]
      rw [show j + 1 + x.length = j + (x.length + 1) by omega]
  induction l generalizing p t with
  | nil => rfl
  | cons a l ih =>
    simp only [List.length_cons] at h
    simp only [altLoop]
    rw [ih (p + 1) _ (by omega), List.reverse_cons, hap, List.append_assoc, List.length_reverse, show n - p = 1 + l.length by omega]

/-- The texts of the alternate phase centers stand in order in front of the comments of the project office. -/
theorem C95_alternates (cos : Rat → Rat) (s : Scan) (o : Nat) (po : List (Option Text)) (x : Option Text) (h : po[o]? = some x) (ha : s.alts ≠ []) :
    officeOne cos s o po = some (po.set o (some (altTexts cos s 1 s.alts ++ x.getD []))) := by
  unfold officeOne
  rw [if_neg ha, h]
  simp only [altLoop_texts cos s s.alts.length 0 s.alts.reverse (x.getD []) (by simp), List.reverse_reverse]

theorem stationLoop_some (cos : Rat → Rat) (user : Text) (p : Project) (i : Nat) (l : List Text) (id : Int) (fs : List SdfFile)
    (h : stationLoop cos user p i l id = some fs) :
    fs.length = l.length ∧ ∀ k (hk : k < fs.length) (hl : k < l.length), stationSdf cos user p (i + k) l[k] (id + k) = some fs[k] := by
  induction l generalizing i id fs with
  | nil =>
    simp only [stationLoop] at h
    injection h with h
    subst h
    exact ⟨rfl, fun k hk => absurd hk (by simp)⟩
  | cons st l ih =>
    simp only [stationLoop] at h
    rw [Option.bind_eq_some_iff] at h
    obtain ⟨f, hf, h⟩ := h
    rw [Option.map_eq_some_iff] at h
    obtain ⟨gs, hg, rfl⟩ := h
    obtain ⟨h1, h2⟩ := ih (i + 1) (id + 1) gs hg
    refine ⟨by simp [h1], ?_⟩
    intro k hk hl
    cases k with
    | zero => simpa using hf
    | succ k =>
      have := h2 k (by simpa using hk) (by simpa using hl)
      simp only [List.getElem_cons_succ]
      rw [← this]
      congr 1
      · omega
      · omega

theorem sdf_parts (cos : Rat → Rat) (user : Text) (p : Project) (i : Nat) (st : Text) (id : Int) (f : SdfFile)
    (h : stationSdf cos user p i st id = some f) :
    ∃ pr ps, p.poRuns.head? = some pr ∧ p.poScans.head? = some ps ∧ scanLoop cos 0 p.run.scans ps = some (f.obs, f.officeObs) ∧
      f.sessionId = id ∧ f.office = officeText p.run pr ∧ f.user = user ∧ f.title = titleOf p.name st (i + 1) p.run.stations.length ∧
      f.session = titleOf (p.run.name.getD noneText) st (i + 1) p.run.stations.length := by
  unfold stationSdf at h
  split at h
  · next pr _ ps _ h1 h2 =>
    rw [Option.map_eq_some_iff] at h
    obtain ⟨q, hq, rfl⟩ := h
    exact ⟨pr, ps, by rw [h1]; rfl, by rw [h2]; rfl, hq, rfl, rfl, rfl, rfl, rfl⟩
  · cases h

/-- One definition for each station, in order, with consecutive session numbers and the same observations. -/
theorem C95_stations (cos : Rat → Rat) (user : Text) (p : Project) (id : Int) (fs : List SdfFile) (h : generate cos user p id = some fs) :
    fs.length = p.run.stations.length ∧
    (∀ k (hk : k < fs.length), fs[k].sessionId = id + k ∧ ∃ hl : k < p.run.stations.length,
      fs[k].title = titleOf p.name p.run.stations[k] (k + 1) p.run.stations.length) ∧
    ∀ j k (hj : j < fs.length) (hk : k < fs.length), fs[j].obs = fs[k].obs ∧ fs[j].officeObs = fs[k].officeObs ∧ fs[j].office = fs[k].office ∧
      fs[j].user = fs[k].user := by
  unfold generate at h
  split at h
  · cases h
  · obtain ⟨h1, h2⟩ := stationLoop_some _ _ _ _ _ _ _ h
    refine ⟨h1, ?_, ?_⟩
    · intro k hk
      obtain ⟨pr, ps, -, -, -, e, -, -, e2, -⟩ := sdf_parts _ _ _ _ _ _ _ (h2 k hk (by omega))
      refine ⟨e, by omega, ?_⟩
      rw [e2, Nat.zero_add]
      rfl
    · intro j k hj hk
      obtain ⟨pr, ps, a1, a2, a3, -, a4, a5, -⟩ := sdf_parts _ _ _ _ _ _ _ (h2 j hj (by omega))
      obtain ⟨qr, qs, b1, b2, b3, -, b4, b5, -⟩ := sdf_parts _ _ _ _ _ _ _ (h2 k hk (by omega))
      rw [a1] at b1
      rw [a2] at b2
      injection b1 with b1
      injection b2 with b2
      subst b1 b2
      rw [a3] at b3
      injection b3 with b3
      injection b3 with b3 b6
      exact ⟨b3, b6, by rw [a4, b4], by rw [a5, b5]⟩

theorem scanLoop_obs (cos : Rat → Rat) (o : Nat) (l : List Scan) (po : List (Option Text)) (q : List SdfObs × List (Option Text))
    (h : scanLoop cos o l po = some q) : l.mapM (toSdf cos) = some q.1 := by
  induction l generalizing o po q with
  | nil =>
    simp only [scanLoop] at h
    injection h with h
    subst h
    rfl
  | cons s l ih =>
    simp only [scanLoop] at h
    rw [Option.bind_eq_some_iff] at h
    obtain ⟨x, hx, h⟩ := h
    rw [Option.bind_eq_some_iff] at h
    obtain ⟨po', hp, h⟩ := h
    rw [Option.map_eq_some_iff] at h
    obtain ⟨q', hq, rfl⟩ := h
    rw [List.mapM_cons, hx, ih _ _ _ hq]
    rfl

/-- The observations of every definition are the scans in the order of their starts. -/
theorem C95_observations (cos : Rat → Rat) (user : Text) (p : Project) (id : Int) (fs : List SdfFile) (h : generate cos user p id = some fs)
    (f : SdfFile) (hf : f ∈ fs) : (p.run.scans.mergeSort fun a b => a.at ≤ b.at).mapM (toSdf cos) = some f.obs := by
  unfold generate at h
  split at h
  · cases h
  · obtain ⟨h1, h2⟩ := stationLoop_some _ _ _ _ _ _ _ h
    obtain ⟨k, hk, rfl⟩ := List.mem_iff_getElem.mp hf
    obtain ⟨pr, ps, -, -, e, -⟩ := sdf_parts _ _ _ _ _ _ _ (h2 k hk (by omega))
    exact scanLoop_obs _ _ _ _ _ e

theorem officeOne_some (cos : Rat → Rat) (s : Scan) (o : Nat) (po : List (Option Text)) (h : o < po.length) :
    ∃ q, officeOne cos s o po = some q ∧ q.length = po.length ∧ (∀ k, k ≠ o → q[k]? = po[k]?) ∧
      q[o]? = po[o]?.map fun x => if s.alts = [] then x else some (altTexts cos s 1 s.alts ++ x.getD []) := by
  by_cases ha : s.alts = []
  · refine ⟨po, by unfold officeOne; rw [if_pos ha], rfl, fun _ _ => rfl, ?_⟩
    simp [ha]
  · obtain ⟨x, hx⟩ : ∃ x, po[o]? = some x := ⟨po[o], List.getElem?_eq_getElem h⟩
    refine ⟨_, C95_alternates cos s o po x hx ha, by simp, ?_, ?_⟩
    · intro k hk
      rw [List.getElem?_set_ne (by omega)]
    · rw [List.getElem?_set_self h, hx]
      simp [ha]

theorem scanLoop_some (cos : Rat → Rat) (o : Nat) (l : List Scan) (po : List (Option Text)) (h : o + l.length ≤ po.length)
    (hs : ∀ s ∈ l, ∃ x, toSdf cos s = some x) :
    ∃ q, scanLoop cos o l po = some q ∧ q.2.length = po.length ∧ (∀ k, k < o → q.2[k]? = po[k]?) ∧
      ∀ k (hk : k < l.length), q.2[o + k]? = po[o + k]?.map fun x => if l[k].alts = [] then x else some (altTexts cos l[k] 1 l[k].alts ++ x.getD []) := by
  induction l generalizing o po with
  | nil => exact ⟨([], po), rfl, rfl, fun _ _ => rfl, fun k hk => absurd hk (by simp)⟩
  | cons s l ih =>
    simp only [List.length_cons] at h
    obtain ⟨x, hx⟩ := hs s (by simp)
    obtain ⟨p, hp, p1, p2, p3⟩ := officeOne_some cos s o po (by omega)
    obtain ⟨q, hq, q1, q2, q3⟩ := ih (o + 1) p (by omega) fun t ht => hs t (by simp [ht])
    refine ⟨(x :: q.1, q.2), ?_, by simp only; omega, ?_, ?_⟩
    · simp only [scanLoop, hx, hp, hq, Option.bind_some, Option.map_some]
    · intro k hk
      simp only
      rw [q2 k (by omega), p2 k (by omega)]
    · intro k hk
      cases k with
      | zero =>
        simp only [Nat.add_zero, List.getElem_cons_zero]
        rw [q2 o (by omega), p3]
      | succ k =>
        have := q3 k (by simpa using hk)
        simp only [List.getElem_cons_succ]
        rw [show o + (k + 1) = o + 1 + k by omega, this, p2 _ (by omega)]

/-- With scans, comments of the project office on the run and on each scan, and scans that can be observed, there are definitions, and the
alternate phase centers of each scan are in the comments of the project office on its observation. -/
theorem C95_complete (cos : Rat → Rat) (user : Text) (p : Project) (id : Int) (hs : p.run.scans ≠ []) (pr : Option Text) (prs : List (Option Text))
    (ps : List (Option Text)) (pss : List (List (Option Text))) (h1 : p.poRuns = pr :: prs) (h2 : p.poScans = ps :: pss)
    (h3 : p.run.scans.length ≤ ps.length) (h4 : ∀ s ∈ p.run.scans, ∃ x, toSdf cos s = some x) :
    ∃ fs, generate cos user p id = some fs ∧ ∀ f ∈ fs, f.office = officeText p.run pr ∧ f.officeObs.length = ps.length ∧
      ∀ k (hk : k < (sorted p.run).scans.length), f.officeObs[k]? = ps[k]?.map fun x =>
        if (sorted p.run).scans[k].alts = [] then x else some (altTexts cos (sorted p.run).scans[k] 1 (sorted p.run).scans[k].alts ++ x.getD []) := by
  have hlen : (sorted p.run).scans.length = p.run.scans.length := List.length_mergeSort _
  obtain ⟨q, hq, q1, -, q3⟩ := scanLoop_some cos 0 (sorted p.run).scans ps (by omega)
    (fun s h => h4 s (List.mem_mergeSort.mp h))
  have hl : ∀ (l : List Text) (i : Nat) (id : Int), ∃ fs, stationLoop cos user { p with run := sorted p.run } i l id = some fs ∧
      ∀ f ∈ fs, f.office = officeText p.run pr ∧ f.officeObs = q.2 := by
    intro l
    induction l with
    | nil => intro i id; exact ⟨[], rfl, by simp⟩
    | cons st l ih =>
      intro i id
      obtain ⟨fs, e, hf⟩ := ih (i + 1) (id + 1)
      have e1 : stationSdf cos user { p with run := sorted p.run } i st id =
          some ⟨titleOf p.name st (i + 1) p.run.stations.length, titleOf (p.run.name.getD noneText) st (i + 1) p.run.stations.length, id, user, q.1,
            officeText p.run pr, q.2⟩ := by
        simp only [stationSdf, h1, h2, hq, Option.map_some]
        rfl
      simp only [stationLoop, e1, Option.map_some, Option.bind_some, e]
      refine ⟨_, rfl, ?_⟩
      intro f hm
      rcases List.mem_cons.mp hm with rfl | hm
      · exact ⟨rfl, rfl⟩
      · exact hf f hm
  obtain ⟨fs, e, hf⟩ := hl p.run.stations 0 id
  refine ⟨fs, by unfold generate; rw [if_neg hs]; exact e, fun f hm => ?_⟩
  obtain ⟨a, b⟩ := hf f hm
  refine ⟨a, by rw [b, q1], fun k hk => ?_⟩
  rw [b]
  simpa using q3 k hk

/-- A scan of the Sun or of Jupiter can always be observed, one of a fixed target with comments and a position in range once moved. -/
theorem C95_observable (cos : Rat → Rat) (s : Scan) :
    (∃ x, toSdf cos s = some x) ↔ s.mode = .radec → s.comments ≠ none ∧
      SdfParse.raDecOk (moved (epoch s) (cos s.dec) s.ra s.dec s.pm).1 (moved (epoch s) (cos s.dec) s.ra s.dec s.pm).2 = true := by
  unfold toSdf
  cases hm : s.mode <;> simp only [reduceCtorEq, false_implies, iff_true, true_implies]
  case radec =>
    cases hc : s.comments with
    | none => simp
    | some c =>
      by_cases hr : SdfParse.raDecOk (moved (epoch s) (cos s.dec) s.ra s.dec s.pm).1 (moved (epoch s) (cos s.dec) s.ra s.dec s.pm).2 = true
      · simp [hr]
      · simp [hr]
  all_goals exact ⟨_, rfl⟩

/-- Without proper motion an observation is where the scan is. -/
theorem C95_still (cos : Rat → Rat) (s : Scan) (x : SdfObs) (h : toSdf cos s = some x) (hm : s.mode = .radec) (hp : s.pm = (0, 0)) :
    x.ra = s.ra ∧ x.dec = s.dec ∧ x.comments = s.comments := by
  unfold toSdf at h
  rw [hm] at h
  simp only at h
  split at h
  · cases h
  · next c hc =>
    split at h
    · injection h with h
      subst h
      simp only [moved, hp, hc]
      refine ⟨?_, ?_, by simp⟩
      · grind
      · grind
    · cases h

/-- A scan without comments stops everything. -/
theorem C95_not_silent (cos : Rat → Rat) (user : Text) (p : Project) (id : Int) (s : Scan) (hs : s ∈ p.run.scans) (hm : s.mode = .radec)
    (hc : s.comments = none) (hst : p.run.stations ≠ []) : generate cos user p id = none := by
  cases h : generate cos user p id with
  | none => rfl
  | some fs =>
    exfalso
    have h1 := (C95_stations cos user p id fs h).1
    have hne : fs ≠ [] := by
      intro e
      rw [e] at h1
      exact hst (List.eq_nil_of_length_eq_zero h1.symm)
    obtain ⟨f, hf⟩ := List.exists_mem_of_ne_nil _ hne
    have h2 := C95_observations cos user p id fs h f hf
    have hs' : s ∈ p.run.scans.mergeSort fun a b => a.at ≤ b.at := List.mem_mergeSort.mpr hs
    generalize p.run.scans.mergeSort (fun a b => a.at ≤ b.at) = l at h2 hs'
    have : ∀ (l : List Scan) (r : List SdfObs), l.mapM (toSdf cos) = some r → s ∉ l := by
      intro l
      induction l with
      | nil => simp
      | cons a l ih =>
        intro r hr hmem
        rw [List.mapM_cons] at hr
        simp only [Option.bind_eq_bind, Option.bind_eq_some_iff] at hr
        obtain ⟨x, hx, ys, hy, -⟩ := hr
        rcases List.mem_cons.mp hmem with e | e
        · subst e
          unfold toSdf at hx
          rw [hm] at hx
          simp only [hc] at hx
          cases hx
        · exact ih ys hy e
    exact this l _ h2 hs'

/-- Without comments of the project office on the run, which no project has that was not read from a file, everything stops. -/
theorem C95_not_fresh (cos : Rat → Rat) (user : Text) (p : Project) (id : Int) (h : p.poRuns = []) (hst : p.run.stations ≠ []) :
    generate cos user p id = none := by
  obtain ⟨st, l, hl⟩ := List.exists_cons_of_ne_nil hst
  unfold generate
  split
  · rfl
  · rw [hl]
    simp only [stationLoop, stationSdf, h]
    rfl

/-- A run without scans is valid, but there are no definitions. -/
theorem C95_not_empty (site : Site) (hn : 0 < site.n) (r : Run) (hid : 1 ≤ r.id ∧ r.id ≤ 9999) (hst : r.stations.Nodup) (hs : r.scans = [])
    (cos : Rat → Rat) (user : Text) (p : Project) (hp : p.run = r) (id : Int) :
    runValid site [] r = some true ∧ generate cos user p id = none := by
  constructor
  · rw [C95_run site hn [] r (by simp [hs]) (by simp)]
    exact ⟨hid, hst, by simp, by simp [hs], by simp [hs], by simp only [hs, List.map_nil, List.sum_nil]; decide +kernel⟩
  · unfold generate
    rw [if_pos (by rw [hp, hs])]

/-- The ASP filter of a scan is not in the definitions. -/
theorem C95_not_asp (cos : Rat → Rat) (user : Text) (p : Project) (id : Int) (a : Scan → Int) :
    generate cos user { p with run := { p.run with scans := p.run.scans.map fun s => { s with asp := a s } } } id = generate cos user p id := by
  have hscan : ∀ (l : List Scan) (o : Nat) (po : List (Option Text)),
      scanLoop cos o (l.map fun s => { s with asp := a s }) po = scanLoop cos o l po := by
    intro l
    induction l with
    | nil => intro o po; rfl
    | cons s l ih =>
      intro o po
      have h1 : toSdf cos { s with asp := a s } = toSdf cos s := rfl
      have h4 : ∀ n i x t, altLoop cos { s with asp := a s } n i x t = altLoop cos s n i x t := by
        intro n i x
        induction x generalizing i with
        | nil => intro t; rfl
        | cons y x ih =>
          intro t
          simp only [altLoop]
          rw [ih]
          rfl
      have h2 : officeOne cos { s with asp := a s } o po = officeOne cos s o po := by
        simp only [officeOne, h4]
      simp only [List.map_cons, scanLoop, h1, h2, ih]
  have hsort : (p.run.scans.map fun s => { s with asp := a s }).mergeSort (fun a b => a.at ≤ b.at) =
      (p.run.scans.mergeSort fun a b => a.at ≤ b.at).map fun s => { s with asp := a s } :=
    (List.map_mergeSort (f := fun s : Scan => { s with asp := a s }) (r := fun a b => decide (a.at ≤ b.at))
      (s := fun a b => decide (a.at ≤ b.at)) (fun _ _ _ _ => rfl)).symm
  have hst : ∀ (l : List Text) (i : Nat) (id : Int),
      stationLoop cos user { p with run := sorted { p.run with scans := p.run.scans.map fun s => { s with asp := a s } } } i l id =
        stationLoop cos user { p with run := sorted p.run } i l id := by
    intro l
    induction l with
    | nil => intro i id; rfl
    | cons st l ih =>
      intro i id
      have e : stationSdf cos user { p with run := sorted { p.run with scans := p.run.scans.map fun s => { s with asp := a s } } } i st id =
          stationSdf cos user { p with run := sorted p.run } i st id := by
        unfold stationSdf sorted
        simp only [hsort, hscan]
        rfl
      simp only [stationLoop, e, ih]
  unfold generate
  simp only [List.map_eq_nil_iff, hst]

/-! ## Examples -/

/-- Two stations, tunings from 5 to 93 MHz, filter 7 at 19.6 MHz. -/
def demoSite : Site := ⟨2, 109565492, 2037918156, fun f => if f = 7 then some 19600000 else none⟩

/-- An hour on a fixed target with one alternate phase center. -/
def demoScan : Scan :=
  { mode := .radec, target := "CygA".toList, intent := "Target".toList, comments := some "first".toList, mjd := 60000, mpm := 0, dur := 3600000
    ra := 20, dec := 41, pm := (0, 0), freq1 := 800000000, freq2 := 1600000000, filter := 7
    alts := [⟨"Alt".toList, "Target".toList, 20, 40, (0, 0)⟩], asp := -1, gain := -1 }

def demoSky : ScanSky := ⟨fun _ _ => true, [⟨fun _ _ => true, 1⟩]⟩

def demoRun : Run := { id := 1, name := some "run".toList, scans := [demoScan], stations := ["lwa1".toList, "lwasv".toList], channels := 256
                       inttime := 1, basis := "linear".toList, method := "DRX".toList, ucf := none, comments := some [] }

def demoProject : Project := { piId := 1, piName := "A B".toList, id := "P".toList, name := "title".toList, comments := none, poProject := none, run := demoRun
                               poRuns := [none], poScans := [[none]] }

/-- The example scan is good, so it is valid. -/
theorem demo_good : GoodScan demoSite demoSky demoScan := by
  refine ⟨by decide, by unfold Tuned; decide, .inl (by unfold Tuned; decide), by decide, fun _ _ _ _ => rfl, by decide, ?_, by decide +kernel⟩
  intro a ha
  have : a = ⟨fun _ _ => true, 1⟩ := List.mem_singleton.mp ha
  subst this
  exact ⟨fun _ _ _ _ => rfl, by decide +kernel⟩

theorem demo_run : GoodRun demoSite [demoSky] demoRun := by
  refine ⟨by decide, by decide, ?_, ?_, List.pairwise_singleton _ _, by decide +kernel⟩
  · intro p hp
    have : p = (demoSky, demoScan) := List.mem_singleton.mp hp
    subst this
    exact demo_good
  · intro a ha b hb
    rw [List.mem_singleton.mp ha, List.mem_singleton.mp hb]

example : runValid demoSite [demoSky] demoRun = some true :=
  (C95_run demoSite (by decide) [demoSky] demoRun rfl (by
    intro p hp
    have : p = (demoSky, demoScan) := List.mem_singleton.mp hp
    subst this
    exact .inl (by decide +kernel))).mpr demo_run

/-- The example gives two definitions. -/
example : ∃ fs, generate (fun _ => 1) [] demoProject 7 = some fs ∧ fs.length = 2 := by
  obtain ⟨fs, h, -⟩ := C95_complete (fun _ => 1) [] demoProject 7 (by decide) none [] [none] [] rfl rfl (by decide) (by
    intro s hs
    rw [List.mem_singleton.mp hs, C95_observable]
    intro _
    exact ⟨by decide, by decide +kernel⟩)
  exact ⟨fs, h, (C95_stations _ _ _ _ _ h).1⟩

/-- A target that moves past 24 h stops everything. -/
theorem C95_not_past : ¬ ∃ x, toSdf (fun _ => 1) { demoScan with ra := 24 - 1 / 10 ^ 9, pm := (1000, 0) } = some x := by
  rw [C95_observable]
  decide +kernel

/-- A run that takes another filter halfway is refused, and so is a station named twice. -/
example : filterChanges [demoScan, { demoScan with filter := 6, mpm := 3600000 }] = 1 ∧ repeated ["lwa1".toList, "lwa1".toList] = 1 := by
  decide +kernel

end Verif.Idf.Check
