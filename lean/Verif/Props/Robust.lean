import Verif.Lemmas.Robust
/-!
# C86: robust estimates
-/
namespace Verif.Robust

/-- The median is where more than half of the values are, whatever the others. -/
theorem C86_median_majority (lo hi : ℝ) (l : List ℝ)
    (h : l.length < 2 * l.countP fun x => decide (lo ≤ x ∧ x ≤ hi)) : lo ≤ median l ∧ median l ≤ hi :=
  median_majority lo hi l h

/-- It moves with the origin and the unit. -/
theorem C86_median_affine (a b : ℝ) (l : List ℝ) (h : l ≠ []) :
    median (l.map fun x => a * x + b) = a * median l + b := median_affine a b l h

theorem C86_median_perm (l m : List ℝ) (h : l.Perm m) : median l = median m := median_perm l m h

/-! ## The mean -/

/-- The mean is the average of the values within a distance of the median, of which there are at least four. -/
theorem C86_mean_average (cut : ℝ) (data : List ℝ) (m : ℝ) (h : mean cut data = some m) :
    ∃ c, m = avg (within data (median data) c) ∧ 4 ≤ (within data (median data) c).length := by
  unfold mean at h
  simp only at h
  split_ifs at h with h1 h2
  simp only [Option.some.injEq] at h
  exact ⟨_, h.symm, h2⟩

/-- So it is inside the range of the data. -/
theorem C86_mean_between (cut : ℝ) (data : List ℝ) (m lo hi : ℝ) (h : mean cut data = some m)
    (hd : ∀ x ∈ data, lo ≤ x ∧ x ≤ hi) : lo ≤ m ∧ m ≤ hi := by
  obtain ⟨c, rfl, h4⟩ := C86_mean_average cut data m h
  apply avg_between
  · intro h0; rw [h0] at h4; simp at h4
  · intro x hx
    exact hd x (List.mem_filter.1 hx).1

/-- Fewer than four values are too strange. -/
theorem C86_mean_few (cut : ℝ) (data : List ℝ) (h : data.length ≤ 3) : mean cut data = none := by
  cases hm : mean cut data with
  | none => rfl
  | some m =>
    obtain ⟨c, _, h4⟩ := C86_mean_average cut data m hm
    have : (within data (median data) c).length ≤ data.length := List.length_filter_le _ _
    omega

theorem spread_affine (a b : ℝ) (data : List ℝ) (d : ℝ) (hne : data ≠ [])
    (hc : median (devs data d) / 0.6745 < eps ↔ |a| * (median (devs data d) / 0.6745) < eps) :
    spread (data.map fun x => a * x + b) (a * d + b) = |a| * spread data d := by
  unfold spread
  rw [devs_affine, median_affine _ _ _ (devs_ne _ _ hne), avg_affine _ _ _ (devs_ne _ _ hne), add_zero, add_zero,
    mul_div_assoc, mul_div_assoc]
  by_cases h : median (devs data d) / 0.6745 < eps
  · rw [if_pos h, if_pos (hc.1 h)]
  · rw [if_neg h, if_neg fun h' => h (hc.2 h')]

/-- The mean moves with the origin and the unit of the data, as long as the unit does not take the spread across the limit below
which it is held to be zero. -/
theorem C86_mean_affine (cut a b : ℝ) (ha : a ≠ 0) (data : List ℝ) (hne : data ≠ [])
    (hc : median (devs data (median data)) / 0.6745 < eps ↔ |a| * (median (devs data (median data)) / 0.6745) < eps) :
    mean cut (data.map fun x => a * x + b) = (mean cut data).map fun m => a * m + b := by
  unfold mean
  simp only
  rw [median_affine a b data hne, spread_affine a b data _ hne hc, mul_left_comm cut, within_affine a b ha]
  by_cases h1 : within data (median data) (cut * spread data (median data)) = []
  · rw [if_pos h1, if_pos (by rw [h1]; rfl)]; rfl
  · rw [if_neg h1, if_neg (by simpa using h1), sd_affine a b _ h1, correct_mul, mul_left_comm cut, within_affine a b ha,
      List.length_map]
    split_ifs with h3
    · rw [Option.map_some, avg_affine]
      intro h0; rw [h0] at h3; simp at h3
    · rfl

/-- It always moves with the origin. -/
theorem C86_mean_shift (cut b : ℝ) (data : List ℝ) : mean cut (data.map fun x => x + b) = (mean cut data).map fun m => m + b := by
  by_cases hne : data = []
  · subst hne
    rw [C86_mean_few _ _ (by simp), C86_mean_few _ _ (by simp)]; rfl
  · have := C86_mean_affine cut 1 b one_ne_zero data hne (by simp)
    simpa using this

theorem spread_perm (l m : List ℝ) (hp : l.Perm m) (d : ℝ) : spread l d = spread m d := by
  have hd : (devs l d).Perm (devs m d) := hp.map _
  unfold spread avg
  rw [median_perm _ _ hd, hd.sum_eq, hd.length_eq]

/-- The order of the data is of no importance. -/
theorem C86_mean_perm (cut : ℝ) (l m : List ℝ) (hp : l.Perm m) : mean cut l = mean cut m := by
  have e1 := median_perm l m hp
  have e3 : ∀ d c, (within l d c).Perm (within m d c) := fun d c => hp.filter _
  have e4 : ∀ l m : List ℝ, l.Perm m → avg l = avg m := by
    intro l m h; unfold avg; rw [h.sum_eq, h.length_eq]
  have e5 : ∀ l m : List ℝ, l.Perm m → sd l = sd m := by
    intro l m h; unfold sd; rw [e4 l m h, (h.map _).sum_eq, h.length_eq]
  unfold mean
  simp only
  rw [e1, spread_perm l m hp, e5 _ _ (e3 _ _), (e3 _ _).length_eq, e4 _ _ (e3 (median m) _)]
  have : within l (median m) (cut * spread m (median m)) = [] ↔ within m (median m) (cut * spread m (median m)) = [] := by
    rw [← List.length_eq_zero_iff, ← List.length_eq_zero_iff, (e3 _ _).length_eq]
  simp only [this]

/-- Data that are symmetric about a value have it for their mean. -/
theorem C86_mean_symmetric (cut c : ℝ) (data : List ℝ) (hs : (data.map fun x => 2 * c - x).Perm data) (m : ℝ)
    (h : mean cut data = some m) : m = c := by
  have hne : data ≠ [] := by
    intro h0; subst h0; rw [C86_mean_few _ _ (by simp)] at h; simp at h
  have h1 := C86_mean_affine cut (-1) (2 * c) (by norm_num) data hne (by simp)
  have e : (data.map fun x => -1 * x + 2 * c) = data.map fun x => 2 * c - x := by
    apply List.map_congr_left; intro x _; ring
  rw [e, C86_mean_perm _ _ _ hs, h] at h1
  simp only [Option.map_some, Option.some.injEq] at h1
  linarith

theorem mad_bound (lo hi : ℝ) (data : List ℝ)
    (h : data.length < 2 * data.countP fun x => decide (lo ≤ x ∧ x ≤ hi)) :
    median (devs data (median data)) ≤ hi - lo := by
  have hm := median_majority lo hi data h
  refine (median_majority 0 (hi - lo) _ ?_).2
  unfold devs
  rw [List.length_map, List.countP_map]
  refine lt_of_lt_of_le h ?_
  have : (data.countP fun x => decide (lo ≤ x ∧ x ≤ hi)) ≤
      data.countP ((fun x => decide (0 ≤ x ∧ x ≤ hi - lo)) ∘ fun x => |x - median data|) := by
    apply List.countP_mono_left
    intro x _ hx
    simp only [decide_eq_true_eq] at hx
    simp only [Function.comp, decide_eq_true_eq]
    refine ⟨abs_nonneg _, abs_le.2 ⟨by linarith [hx.1, hm.2], by linarith [hx.2, hm.1]⟩⟩
  omega

theorem sd_bound (l : List ℝ) (hne : l ≠ []) (m c : ℝ) (h : ∀ x ∈ l, |x - m| ≤ c) : sd l ≤ c := by
  have hc : 0 ≤ c := by
    obtain ⟨x, hx⟩ := List.exists_mem_of_ne_nil l hne
    exact le_trans (abs_nonneg _) (h x hx)
  have hl : 0 < (l.length : ℝ) := by exact_mod_cast List.length_pos_iff.2 hne
  have e : ∀ a : ℝ, (l.map fun x => (x - a) ^ 2).sum = (l.map fun x => x ^ 2).sum - 2 * a * l.sum + l.length * a ^ 2 := by
    intro a
    clear h hne hl
    induction l with
    | nil => simp
    | cons x l ih => simp only [List.map_cons, List.sum_cons, List.length_cons, ih]; push_cast; ring
  have hb : (l.map fun x => (x - m) ^ 2).sum ≤ c ^ 2 * l.length := by
    have := (sum_between 0 (c ^ 2) (l.map fun x => (x - m) ^ 2) (by
      intro y hy
      obtain ⟨x, hx, rfl⟩ := List.mem_map.1 hy
      exact ⟨sq_nonneg _, sq_le_sq' (by linarith [(abs_le.1 (h x hx)).1]) (abs_le.1 (h x hx)).2⟩)).2
    simpa using this
  have hk : (l.map fun x => (x - avg l) ^ 2).sum ≤ (l.map fun x => (x - m) ^ 2).sum := by
    rw [e, e]
    have : l.sum = avg l * l.length := by unfold avg; field_simp
    rw [this]
    nlinarith [mul_nonneg hl.le (sq_nonneg (avg l - m))]
  unfold sd
  rw [Real.sqrt_le_left hc, div_le_iff₀ hl]
  linarith

/-- With the usual cut the mean is near to where more than half of the values are, whatever the others, as long as more than half
of the values are not the same. -/
theorem C86_mean_majority (lo hi : ℝ) (data : List ℝ) (m : ℝ)
    (h : data.length < 2 * data.countP fun x => decide (lo ≤ x ∧ x ≤ hi))
    (hs : eps ≤ median (devs data (median data)) / 0.6745) (hm : mean 3 data = some m) :
    |m - median data| ≤ 13.5 * (hi - lo) := by
  have hmad := mad_bound lo hi data h
  unfold mean at hm
  simp only at hm
  have hsp : spread data (median data) = median (devs data (median data)) / 0.6745 := by
    unfold spread; rw [if_neg (not_lt.2 hs)]
  rw [hsp] at hm
  split_ifs at hm with h1 h2
  simp only [Option.some.injEq] at hm
  have hsd := sd_bound _ h1 (median data) (3 * (median (devs data (median data)) / 0.6745)) (by
    intro x hx
    simpa using (List.mem_filter.1 hx).2)
  have hne : within data (median data) (3 * correct 3 (sd (within data (median data)
      (3 * (median (devs data (median data)) / 0.6745))))) ≠ [] := by
    intro h0; rw [h0] at h2; simp at h2
  have hcor : ∀ s : ℝ, correct 3 s = s / 0.988914 := by
    intro s; unfold correct; norm_num
  rw [hcor] at hm hne
  have hb := avg_between (median data - 3 * (sd (within data (median data)
      (3 * (median (devs data (median data)) / 0.6745))) / 0.988914)) (median data + 3 * (sd (within data (median data)
      (3 * (median (devs data (median data)) / 0.6745))) / 0.988914)) _ hne (by
    intro x hx
    have := (List.mem_filter.1 hx).2
    simp only [decide_eq_true_eq] at this
    have := abs_le.1 this
    constructor <;> linarith [this.1, this.2])
  rw [hm] at hb
  have hw : 0 ≤ median (devs data (median data)) := by
    have : (0 : ℝ) < eps := by unfold eps; positivity
    have h3 : 0 < median (devs data (median data)) / 0.6745 := lt_of_lt_of_le this hs
    by_contra hneg
    have : median (devs data (median data)) / 0.6745 < 0 := div_neg_of_neg_of_pos (not_le.1 hneg) (by norm_num)
    linarith
  have hfin : 3 * (sd (within data (median data) (3 * (median (devs data (median data)) / 0.6745))) / 0.988914) ≤
      13.5 * (hi - lo) := by
    have e1 : 3 * (sd (within data (median data) (3 * (median (devs data (median data)) / 0.6745))) / 0.988914) ≤
        3 * ((3 * (median (devs data (median data)) / 0.6745)) / 0.988914) := by
      apply mul_le_mul_of_nonneg_left _ (by norm_num)
      exact div_le_div_of_nonneg_right hsd (by norm_num)
    have e2 : 3 * ((3 * (median (devs data (median data)) / 0.6745)) / 0.988914) ≤ 13.5 * median (devs data (median data)) := by
      generalize median (devs data (median data)) = w at *
      have : 3 * ((3 * (w / 0.6745)) / 0.988914) = (9 / (0.6745 * 0.988914)) * w := by ring
      rw [this]
      apply mul_le_mul_of_nonneg_right _ hw
      norm_num
    linarith
  rw [abs_le]
  constructor <;> linarith [hb.1, hb.2]

theorem sort_of_pw (l : List ℝ) (h : l.Pairwise (· ≤ ·)) : sort l = l := pw_unique (sort_pw l) h (sort_perm l)

/-- If more than half of the values are the same the others are not cut at all: two values of five move the mean as far as they
like. -/
theorem C86_not_majority (o : ℝ) (ho : 0 < o) : mean 3 [0, 0, 0, o, o] = some (2 / 5 * o) := by
  have hm : median [0, 0, 0, 1, 1] = 0 := by
    unfold median
    rw [sort_of_pw _ (by simp)]
    simp
  have hd : devs [0, 0, 0, 1, 1] 0 = [0, 0, 0, 1, 1] := by simp [devs]
  have heps : (0 : ℝ) < eps := by unfold eps; positivity
  have hs : spread [0, 0, 0, 1, 1] 0 = 1 / 2 := by
    unfold spread
    rw [hd, hm, if_pos (by simpa using heps)]
    norm_num [avg]
  have hw : ∀ c : ℝ, 1 ≤ c → within [0, 0, 0, 1, 1] 0 c = [0, 0, 0, 1, 1] := by
    intro c hc
    have h0 : (0 : ℝ) ≤ c := by linarith
    simp [within, hc, h0]
  have h1 : mean 3 [0, 0, 0, 1, 1] = some (2 / 5) := by
    unfold mean
    simp only
    rw [hm, hs, hw _ (by norm_num), if_neg (by simp), hw]
    · norm_num [avg]
    · have hsd : 0.4 ≤ sd [0, 0, 0, 1, 1] := by
        unfold sd
        apply Real.le_sqrt_of_sq_le
        norm_num [avg]
      unfold correct
      norm_num at hsd ⊢
      linarith
  have h2 := C86_mean_affine 3 o 0 ho.ne' [0, 0, 0, 1, 1] (by simp) (by
    rw [hm, hd, hm]; simp)
  rw [h1] at h2
  simpa [mul_comm] using h2

theorem devs_constant (n : ℕ) (c : ℝ) : devs (List.replicate n c) c = List.replicate n 0 := by simp [devs]

theorem median_constant (n : ℕ) (hn : 1 ≤ n) (c : ℝ) : median (List.replicate n c) = c := by
  have := median_between c c (List.replicate n c) (by simp; omega) (by
    intro x hx; rw [List.eq_of_mem_replicate hx]; simp)
  exact le_antisymm this.2 this.1

theorem spread_constant (n : ℕ) (hn : 1 ≤ n) (c : ℝ) : spread (List.replicate n c) c = 0 := by
  have heps : (0 : ℝ) < eps := by unfold eps; positivity
  unfold spread
  rw [devs_constant, median_constant n hn, if_pos (by simpa using heps)]
  simp [avg]

/-- Four or more equal values have it for their mean. -/
theorem C86_mean_constant (cut : ℝ) (n : ℕ) (hn : 4 ≤ n) (c : ℝ) : mean cut (List.replicate n c) = some c := by
  have hw : within (List.replicate n c) c 0 = List.replicate n c := by simp [within]
  have ha : avg (List.replicate n c) = c := by
    have : (n : ℝ) ≠ 0 := by exact_mod_cast (show n ≠ 0 by omega)
    simp [avg]; field_simp
  have hsd : sd (List.replicate n c) = 0 := by
    unfold sd; rw [ha]; simp
  unfold mean
  simp only
  rw [median_constant n (by omega), spread_constant n (by omega), mul_zero, hw, if_neg (by simp; omega), hsd]
  have : correct cut 0 = 0 := by simpa using correct_mul cut 0 0
  rw [this, mul_zero, hw, if_pos (by simp; omega), ha]

/-! ## The standard deviation -/

/-- It is not negative. -/
theorem C86_std_nonneg (zero : Bool) (data : List ℝ) (s : ℝ) (h : std zero data = some s) : 0 ≤ s := by
  unfold std at h
  generalize (if zero then 0 else median data) = d at h
  unfold stdAt biweight at h
  simp only at h
  split_ifs at h <;> simp only [Option.some.injEq] at h <;> subst h
  · exact le_refl _
  · exact Real.sqrt_nonneg _
  · exact le_refl _

theorem usq_affine (a b d m x : ℝ) (ha : a ≠ 0) : usq (a * d + b) (|a| * m) (a * x + b) = usq d m x := by
  unfold usq
  rw [show a * x + b - (a * d + b) = a * (x - d) by ring]
  have h2 : |a| ^ 2 = a ^ 2 := sq_abs a
  have e : (a * (x - d) / 6 / (|a| * m)) ^ 2 = a ^ 2 * (x - d) ^ 2 / (36 * (|a| ^ 2 * m ^ 2)) := by
    rw [div_pow, div_pow, mul_pow, mul_pow]; rw [div_div]; norm_num
  have e2 : ((x - d) / 6 / m) ^ 2 = (x - d) ^ 2 / (36 * m ^ 2) := by
    rw [div_pow, div_pow, div_div]; norm_num
  rw [e, e2, h2, show 36 * (a ^ 2 * m ^ 2) = a ^ 2 * (36 * m ^ 2) by ring,
    mul_div_mul_left _ _ (pow_ne_zero 2 ha)]

theorem biweight_affine (n : ℕ) (a b d m : ℝ) (ha : a ≠ 0) (good : List ℝ) :
    biweight n (a * d + b) (|a| * m) (good.map fun x => a * x + b) = (biweight n d m good).map (|a| * ·) := by
  have e1 : ((good.map fun x => a * x + b).map fun x =>
      (x - (a * d + b)) ^ 2 * (1 - usq (a * d + b) (|a| * m) x) ^ 4).sum =
      a ^ 2 * (good.map fun x => (x - d) ^ 2 * (1 - usq d m x) ^ 4).sum := by
    induction good with
    | nil => simp
    | cons x l ih =>
      simp only [List.map_cons, List.sum_cons, ih, usq_affine a b d m x ha]; ring
  have e2 : ((good.map fun x => a * x + b).map fun x =>
      (1 - usq (a * d + b) (|a| * m) x) * (1 - 5 * usq (a * d + b) (|a| * m) x)).sum =
      (good.map fun x => (1 - usq d m x) * (1 - 5 * usq d m x)).sum := by
    clear e1
    induction good with
    | nil => simp
    | cons x l ih => simp only [List.map_cons, List.sum_cons, ih, usq_affine a b d m x ha]
  unfold biweight
  simp only
  rw [e1, e2]
  generalize (good.map fun x => (x - d) ^ 2 * (1 - usq d m x) ^ 4).sum = num
  generalize (good.map fun x => (1 - usq d m x) * (1 - 5 * usq d m x)).sum = den
  have hp : 0 < a ^ 2 := by positivity
  by_cases hz : den * (den - 1) = 0
  · rw [if_pos hz, if_pos hz]; rfl
  · rw [if_neg hz, if_neg hz, show (n : ℝ) * (a ^ 2 * num) / (den * (den - 1)) = a ^ 2 * (n * num / (den * (den - 1))) by ring]
    by_cases h0 : 0 < n * num / (den * (den - 1))
    · rw [if_pos h0, if_pos (mul_pos hp h0), Real.sqrt_mul hp.le, Real.sqrt_sq_eq_abs]; rfl
    · rw [if_neg h0, if_neg (fun h => h0 ((mul_pos_iff_of_pos_left hp).1 h))]; simp

theorem stdAt_affine (a b d : ℝ) (ha : a ≠ 0) (data : List ℝ) (hne : data ≠ [])
    (hc : median (devs data d) / 0.6745 < eps ↔ |a| * (median (devs data d) / 0.6745) < eps)
    (hc2 : spread data d < eps ↔ |a| * spread data d < eps) :
    stdAt (a * d + b) (data.map fun x => a * x + b) = (stdAt d data).map (|a| * ·) := by
  unfold stdAt
  simp only
  rw [spread_affine a b data d hne hc]
  by_cases h : spread data d < eps
  · rw [if_pos h, if_pos (hc2.1 h)]; simp
  · rw [if_neg h, if_neg (fun h' => h (hc2.2 h'))]
    have e : (data.map fun x => a * x + b).filter (fun x => usq (a * d + b) (|a| * spread data d) x ≤ 1) =
        (data.filter fun x => usq d (spread data d) x ≤ 1).map fun x => a * x + b := by
      rw [List.filter_map]
      congr 1
      apply List.filter_congr
      intro x _
      simp only [Function.comp, usq_affine a b d _ x ha]
    rw [e, List.length_map, List.length_map]
    split_ifs with h3
    · rfl
    · exact biweight_affine _ a b d _ ha _

/-- The standard deviation takes the size of the unit and nothing of the origin, as long as the unit does not take the spread
across the limit below which it is held to be zero. -/
theorem C86_std_affine (a b : ℝ) (ha : a ≠ 0) (data : List ℝ) (hne : data ≠ [])
    (hc : median (devs data (median data)) / 0.6745 < eps ↔ |a| * (median (devs data (median data)) / 0.6745) < eps)
    (hc2 : spread data (median data) < eps ↔ |a| * spread data (median data) < eps) :
    std false (data.map fun x => a * x + b) = (std false data).map (|a| * ·) := by
  unfold std
  simp only [Bool.false_eq_true, if_false]
  rw [median_affine a b data hne]
  exact stdAt_affine a b _ ha data hne hc hc2

/-- It never depends on the origin. -/
theorem C86_std_shift (b : ℝ) (data : List ℝ) : std false (data.map fun x => x + b) = std false data := by
  by_cases hne : data = []
  · subst hne
    have heps : (0 : ℝ) < eps := by unfold eps; positivity
    simp [std, stdAt, spread, devs, median, sort, avg, heps]
  · have := C86_std_affine 1 b one_ne_zero data hne (by simp) (by simp)
    simpa using this

/-- It is the same for the data turned over, about zero too. -/
theorem C86_std_mirror (zero : Bool) (data : List ℝ) (hne : data ≠ []) : std zero (data.map fun x => -x) = std zero data := by
  cases zero
  · have := C86_std_affine (-1) 0 (by norm_num) data hne (by simp) (by simp)
    simpa using this
  · have := stdAt_affine (-1) 0 0 (by norm_num) data hne (by simp) (by simp)
    simpa [std] using this

theorem stdAt_perm (d : ℝ) (l m : List ℝ) (hp : l.Perm m) : stdAt d l = stdAt d m := by
  unfold stdAt biweight
  simp only
  rw [spread_perm l m hp]
  have hf : ∀ q : ℝ → Bool, (l.filter q).Perm (m.filter q) := fun q => hp.filter q
  rw [(hf _).length_eq, hp.length_eq, ((hf _).map _).sum_eq, ((hf _).map _).sum_eq]

/-- The order of the data is of no importance. -/
theorem C86_std_perm (zero : Bool) (l m : List ℝ) (hp : l.Perm m) : std zero l = std zero m := by
  unfold std
  rw [median_perm l m hp, stdAt_perm _ l m hp]

/-- Equal values have none. -/
theorem C86_std_constant (n : ℕ) (hn : 1 ≤ n) (c : ℝ) : std false (List.replicate n c) = some 0 := by
  have heps : (0 : ℝ) < eps := by unfold eps; positivity
  unfold std stdAt
  simp only [Bool.false_eq_true, if_false]
  rw [median_constant n hn, spread_constant n hn, if_pos heps]

/-- Two values that differ by more than nothing raise. -/
theorem C86_std_two (a b : ℝ) (h : 2 * eps ≤ |a - b|) : std false [a, b] = none := by
  have hs : sort [a, b] = if a ≤ b then [a, b] else [b, a] := by
    split_ifs with h1
    · exact sort_of_pw _ (by simpa using h1)
    · exact pw_unique (sort_pw _) (by simpa using (not_le.1 h1).le) ((sort_perm _).trans (List.Perm.swap b a []))
  have hm : median [a, b] = (a + b) / 2 := by
    unfold median
    rw [hs]
    split_ifs <;> simp <;> ring
  have hd : devs [a, b] ((a + b) / 2) = List.replicate 2 (|a - b| / 2) := by
    simp only [devs, List.map, List.replicate]
    have e1 : |a - (a + b) / 2| = |a - b| / 2 := by
      rw [show a - (a + b) / 2 = (a - b) / 2 by ring, abs_div, abs_two]
    have e2 : |b - (a + b) / 2| = |a - b| / 2 := by
      rw [show b - (a + b) / 2 = -((a - b) / 2) by ring, abs_neg, abs_div, abs_two]
    rw [e1, e2]
  have heps : (0 : ℝ) < eps := by unfold eps; positivity
  have hsp : ¬ (spread [a, b] ((a + b) / 2) < eps) := by
    have hge : eps ≤ |a - b| / 2 := by linarith
    have hge2 : eps ≤ |a - b| / 2 / 0.6745 := by
      rw [le_div_iff₀ (by norm_num)]
      nlinarith
    unfold spread
    rw [hd, median_constant 2 (by norm_num), if_neg (not_lt.2 hge2)]
    exact not_lt.2 hge2
  unfold std stdAt
  simp only [Bool.false_eq_true, if_false]
  rw [hm, if_neg hsp, if_pos]
  have := List.length_filter_le (fun x => decide (usq ((a + b) / 2) (spread [a, b] ((a + b) / 2)) x ≤ 1)) [a, b]
  simp only [List.length_cons, List.length_nil] at this
  omega

/-! ## The mean with bisquare weights -/

theorem weight_nonneg (y0 s y : ℝ) : 0 ≤ weight y0 s y := by unfold weight; positivity

theorem weighted_between (y0 s lo hi : ℝ) (y : List ℝ) (hd : ∀ x ∈ y, lo ≤ x ∧ x ≤ hi) (m : ℝ)
    (h : weighted y0 s y = some m) : lo ≤ m ∧ m ≤ hi := by
  unfold weighted at h
  simp only at h
  split_ifs at h with hw
  simp only [Option.some.injEq] at h
  have hpos : ∀ y : List ℝ, 0 ≤ (y.map (weight y0 s)).sum := by
    intro y
    induction y with
    | nil => simp
    | cons x l ih => simp only [List.map_cons, List.sum_cons]; have := weight_nonneg y0 s x; linarith
  have hw' : 0 < (y.map (weight y0 s)).sum := lt_of_le_of_ne (hpos y) (Ne.symm hw)
  generalize hwe : (y.map (weight y0 s)).sum = w at hw' h hw
  have key : ∀ y : List ℝ, (∀ x ∈ y, lo ≤ x ∧ x ≤ hi) →
      lo * ((y.map (weight y0 s)).sum / w) ≤ (y.map fun v => weight y0 s v / w * v).sum ∧
      (y.map fun v => weight y0 s v / w * v).sum ≤ hi * ((y.map (weight y0 s)).sum / w) := by
    intro y
    induction y with
    | nil => simp
    | cons x l ih =>
      intro hd
      have h1 := ih fun v hv => hd v (by simp [hv])
      have h2 := hd x (by simp)
      have h3 : 0 ≤ weight y0 s x / w := div_nonneg (weight_nonneg y0 s x) hw'.le
      simp only [List.map_cons, List.sum_cons, add_div]
      constructor
      · nlinarith [mul_le_mul_of_nonneg_left h2.1 h3]
      · nlinarith [mul_le_mul_of_nonneg_left h2.2 h3]
  have := key y hd
  rw [hwe, div_self hw, h, mul_one, mul_one] at this
  exact this

theorem refine_between (lo hi : ℝ) (y : List ℝ) (hd : ∀ x ∈ y, lo ≤ x ∧ x ≤ hi) (k : ℕ) :
    ∀ y0 s m, lo ≤ y0 ∧ y0 ≤ hi → refine y k y0 s = some m → lo ≤ m ∧ m ≤ hi := by
  induction k with
  | zero =>
    intro y0 s m h0 h
    simp only [refine, Option.some.injEq] at h
    subst h; exact h0
  | succ k ih =>
    intro y0 s m h0 h
    rw [refine] at h
    obtain ⟨y1, h1, h⟩ := Option.bind_eq_some_iff.1 h
    obtain ⟨s1, _, h⟩ := Option.bind_eq_some_iff.1 h
    have hb := weighted_between y0 s lo hi y hd y1 h1
    split_ifs at h
    · exact ih y1 s1 m hb h
    · simp only [Option.some.injEq] at h; subst h; exact hb
    · exact ih y1 s1 m hb h
    · simp only [Option.some.injEq] at h; subst h; exact hb

/-- The weighted mean is inside the range of the data. -/
theorem C86_biweight_between (lo hi : ℝ) (y : List ℝ) (hne : y ≠ []) (hd : ∀ x ∈ y, lo ≤ x ∧ x ≤ hi) (m : ℝ)
    (h : biweightMean y = some m) : lo ≤ m ∧ m ≤ hi := by
  have hm := median_between lo hi y hne hd
  unfold biweightMean at h
  split_ifs at h
  obtain ⟨s, _, h⟩ := Option.bind_eq_some_iff.1 h
  split_ifs at h
  · simp only [Option.some.injEq] at h; subst h; exact hm
  · exact refine_between lo hi y hd 25 _ _ m hm h

theorem weighted_shift (b y0 s : ℝ) (y : List ℝ) :
    weighted (y0 + b) s (y.map (· + b)) = (weighted y0 s y).map (· + b) := by
  have e : ∀ v, weight (y0 + b) s (v + b) = weight y0 s v := by
    intro v; unfold weight; rw [show v + b - (y0 + b) = v - y0 by ring]
  have e1 : ((y.map (· + b)).map (weight (y0 + b) s)).sum = (y.map (weight y0 s)).sum := by
    rw [List.map_map]
    congr 1
    apply List.map_congr_left
    intro v _; exact e v
  unfold weighted
  simp only
  rw [e1]
  split_ifs with hw
  · rfl
  · rw [Option.map_some]
    congr 1
    rw [List.map_map]
    generalize hwe : (y.map (weight y0 s)).sum = w at *
    have key : ∀ y : List ℝ, (y.map ((fun v => weight (y0 + b) s v / w * v) ∘ (· + b))).sum =
        (y.map fun v => weight y0 s v / w * v).sum + b * ((y.map (weight y0 s)).sum / w) := by
      intro y
      induction y with
      | nil => simp
      | cons x l ih => simp only [List.map_cons, List.sum_cons, ih, Function.comp, e, add_div]; ring
    rw [key, hwe, div_self hw, mul_one]

theorem sub_shift (b y0 : ℝ) (y : List ℝ) : (y.map (· + b)).map (· - (y0 + b)) = y.map (· - y0) := by
  rw [List.map_map]
  apply List.map_congr_left
  intro v _; simp only [Function.comp]; ring

theorem refine_shift (b : ℝ) (y : List ℝ) (k : ℕ) : ∀ y0 s,
    refine (y.map (· + b)) k (y0 + b) s = (refine y k y0 s).map (· + b) := by
  induction k with
  | zero => intro y0 s; rfl
  | succ k ih =>
    intro y0 s
    rw [refine, refine, weighted_shift]
    cases weighted y0 s y with
    | none => rfl
    | some y1 =>
      simp only [Option.map_some, Option.bind_some]
      rw [sub_shift, List.length_map]
      cases std true (y.map (· - y1)) with
      | none => rfl
      | some s1 =>
        simp only [Option.bind_some]
        rw [ih]
        by_cases h : (if eps < s1 then |s - s1| / s else 0) > 0.03 * Real.sqrt (0.5 / (y.length - 1))
        · rw [if_pos h, if_pos h]
        · rw [if_neg h, if_neg h]; rfl

/-- It moves with the origin. -/
theorem C86_biweight_shift (b : ℝ) (y : List ℝ) (hne : y ≠ []) :
    biweightMean (y.map (· + b)) = (biweightMean y).map (· + b) := by
  have hm : median (y.map (· + b)) = median y + b := by
    have := median_affine 1 b y hne
    simpa using this
  unfold biweightMean
  rw [hm, sub_shift, List.length_map]
  split_ifs
  · rfl
  · cases std false (y.map (· - median y)) with
    | none => rfl
    | some s =>
      simp only [Option.bind_some]
      split_ifs
      · rfl
      · exact refine_shift b y 25 _ s

/-- Two or more equal values have it for their weighted mean. -/
theorem C86_biweight_constant (n : ℕ) (hn : 2 ≤ n) (c : ℝ) : biweightMean (List.replicate n c) = some c := by
  have heps : (0 : ℝ) < eps := by unfold eps; positivity
  unfold biweightMean
  rw [if_neg (by simp; omega), median_constant n (by omega), List.map_replicate, C86_std_constant n (by omega)]
  simp [heps]

/-- A single value raises, and so do two that differ. -/
theorem C86_not_biweight_few (a b : ℝ) (h : 2 * eps ≤ |a - b|) :
    biweightMean [a] = none ∧ biweightMean [a, b] = none := by
  refine ⟨by simp [biweightMean], ?_⟩
  unfold biweightMean
  rw [if_neg (by simp)]
  have := C86_std_two (a - median [a, b]) (b - median [a, b]) (by
    rw [show a - median [a, b] - (b - median [a, b]) = a - b by ring]; exact h)
  simp only [List.map_cons, List.map_nil]
  rw [this]; rfl

example : median [3, 1, 2] = 2 := by
  have e : sort [3, 1, 2] = [1, 2, 3] := pw_unique (sort_pw _) (by norm_num) ((sort_perm _).trans (by
    exact (List.Perm.swap 1 3 [2]).trans ((List.Perm.swap 2 3 []).cons 1)))
  unfold median
  rw [e]; norm_num

example : mean 3 [0, 0, 0, 100, 100] = some 40 := by
  rw [C86_not_majority 100 (by norm_num)]; norm_num

end Verif.Robust
