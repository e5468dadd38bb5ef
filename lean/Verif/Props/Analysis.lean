import Verif.Lemmas.Analysis
/-!
# C92: backgrounds of images
-/
namespace Verif.Analysis

open Finset Classical
open Deconv (Img index)
open Robust (avg sd median)

/-- Tiles are in the image, and leave no more than half of a window at the end. -/
theorem C92_tiles (n w : ℕ) (hw : 0 < w) : edge w (tiles n w) ≤ n ∧ 2 * (n - edge w (tiles n w)) ≤ w := by
  unfold edge tiles
  have h1 : 2 * n / w * w ≤ 2 * n := Nat.div_mul_le_self _ _
  have h2 : 2 * n < (2 * n / w + 1) * w := Nat.lt_mul_of_div_lt (Nat.lt_succ_self _) hw
  rw [Nat.add_mul, Nat.one_mul] at h2
  generalize 2 * n / w * w = q at h1 h2 ⊢
  omega

theorem edge_le (w i x : ℕ) : edge w i ≤ x ↔ i * w ≤ 2 * x + 1 := by
  unfold edge; omega

/-- Every pixel of the tiles is in exactly one: they do not overlap. -/
theorem C92_one (n w : ℕ) (hw : 0 < w) (x : ℕ) (hx : x < edge w (tiles n w)) :
    ∃! i, i < tiles n w ∧ edge w i ≤ x ∧ x < edge w (i + 1) := by
  have hi : ∀ i, (edge w i ≤ x ∧ x < edge w (i + 1)) ↔ i = (2 * x + 1) / w := by
    intro i
    rw [← Nat.not_le, edge_le, edge_le, Nat.not_le]
    constructor
    · rintro ⟨h1, h2⟩
      apply le_antisymm
      · exact (Nat.le_div_iff_mul_le hw).2 h1
      · exact Nat.lt_succ_iff.1 ((Nat.div_lt_iff_lt_mul hw).2 h2)
    · rintro rfl
      exact ⟨Nat.div_mul_le_self _ _, Nat.lt_mul_of_div_lt (Nat.lt_succ_self _) hw⟩
  refine ⟨(2 * x + 1) / w, ⟨?_, (hi _).2 rfl⟩, ?_⟩
  · by_contra h
    push Not at h
    have h1 : edge w (tiles n w) ≤ x := by
      rw [edge_le]
      exact le_trans (Nat.mul_le_mul_right w h) (Nat.div_mul_le_self _ _)
    omega
  · rintro i ⟨_, h⟩
    exact (hi i).1 h

/-- Tiles are half of a window wide, not a window with halves overlapping. -/
theorem C92_not_overlap (w i : ℕ) : edge (2 * w) (i + 1) - edge (2 * w) i = w := by
  unfold edge
  have e1 : (i + 1) * (2 * w) = 2 * ((i + 1) * w) := by ring
  have e2 : i * (2 * w) = 2 * (i * w) := by ring
  rw [e1, e2, Nat.mul_div_cancel_left _ (by omega), Nat.mul_div_cancel_left _ (by omega), Nat.add_mul]
  omega

/-- The place of a tile is half a pixel from the middle of its pixels. -/
theorem C92_not_middle (w i : ℕ) (hw : 0 < w) :
    (∑ x ∈ Ico (edge (2 * w) i) (edge (2 * w) (i + 1)), (x : ℝ)) / w = centre (2 * w) i - 1 / 2 := by
  have hd := C92_not_overlap w i
  have h1 : edge (2 * w) i ≤ edge (2 * w) (i + 1) := by
    unfold edge
    exact Nat.div_le_div_right (Nat.mul_le_mul_right _ (Nat.le_succ i))
  have e : edge (2 * w) (i + 1) = edge (2 * w) i + w := by omega
  have hw' : (w : ℝ) ≠ 0 := by exact_mod_cast hw.ne'
  unfold centre
  rw [e]
  generalize edge (2 * w) i = s
  have hs : ∀ w : ℕ, (∑ x ∈ Ico s (s + w), (x : ℝ)) = w * s + w * (w - 1) / 2 := by
    intro w
    induction w with
    | zero => simp
    | succ k ih =>
      rw [← Nat.add_assoc, Finset.sum_Ico_succ_top (by omega), ih]
      push_cast; ring
  rw [hs, div_eq_iff hw']
  push_cast
  ring

/-- At most a ninth of the values are clipped. -/
theorem C92_clipped (t : List ℝ) (h : sd t ≠ 0) : 9 * (clipped t).length ≤ t.length ∧ clip t ≠ [] := by
  have h0 := ss_eq t
  rw [clip_split t (avg t)] at h0
  have h1 := clipped_far t
  have h2 := ss_nonneg (clip t) (avg t)
  have hs : 0 < sd t ^ 2 := by positivity
  have h3 : 9 * ((clipped t).length : ℝ) ≤ t.length := by
    by_contra hc
    push Not at hc
    nlinarith
  have h4 : 9 * (clipped t).length ≤ t.length := by exact_mod_cast h3
  refine ⟨h4, ?_⟩
  intro hc
  have h5 := clip_length t
  rw [hc] at h5
  simp at h5
  have : t = [] := by
    apply List.eq_nil_of_length_eq_zero
    omega
  subst this
  simp [sd] at h

/-- A tile has a level exactly if its values are not all the same. -/
theorem C92_level_none (t : List ℝ) : level t = none ↔ ∀ v ∈ t, v = avg t := by
  rw [← sd_zero]
  constructor
  · intro h
    by_contra hs
    have := (C92_clipped t hs).2
    unfold level at h
    rw [if_neg this] at h
    split_ifs at h
  · intro h
    have : clip t = [] := by
      unfold clip
      rw [List.filter_eq_nil_iff]
      intro v _
      simp [near, h, abs_nonneg]
    unfold level
    rw [if_pos this]

/-- Clipping never makes the deviation larger. -/
theorem C92_narrower (t : List ℝ) : sd (clip t) ≤ sd t := by
  by_cases hs : sd t = 0
  · have : clip t = [] := by
      unfold clip
      rw [List.filter_eq_nil_iff]
      intro v _
      simp [near, hs, abs_nonneg]
    rw [this, hs]; simp [sd]
  have hc := (C92_clipped t hs).2
  have hl : (0 : ℝ) < (clip t).length := by exact_mod_cast List.length_pos_iff.2 hc
  have h0 := ss_eq t
  rw [clip_split t (avg t)] at h0
  have h1 := clipped_far t
  have h2 := ss_least (clip t) (avg t)
  have h3 : ((t.length : ℕ) : ℝ) = (clip t).length + (clipped t).length := by exact_mod_cast clip_length t
  rw [h3] at h0
  rw [ss_eq] at h2
  have hn : (0 : ℝ) ≤ (clipped t).length := Nat.cast_nonneg _
  have h4 : ((clip t).length : ℝ) * sd (clip t) ^ 2 ≤ (clip t).length * sd t ^ 2 := by
    nlinarith [mul_nonneg hn (sq_nonneg (sd t))]
  have h5 : sd (clip t) ^ 2 ≤ sd t ^ 2 := le_of_mul_le_mul_left h4 hl
  exact abs_le_of_sq_le_sq' h5 (sd_nonneg t) |>.2

/-- The level of a tile is between its values if clipping changes the deviation by no more than a fifth, and no further than half as
much again otherwise. -/
theorem C92_level (t : List ℝ) (lo hi v : ℝ) (h : ∀ x ∈ t, lo ≤ x ∧ x ≤ hi) (hv : level t = some v) :
    (0.8 * sd t ≤ sd (clip t) → lo ≤ v ∧ v ≤ hi) ∧ lo - 1.5 * (hi - lo) ≤ v ∧ v ≤ hi + 1.5 * (hi - lo) := by
  have hs : sd t ≠ 0 := by
    intro h0
    rw [(C92_level_none t).2 ((sd_zero t).1 h0)] at hv
    cases hv
  have hp : 0 < sd t := lt_of_le_of_ne (sd_nonneg t) (Ne.symm hs)
  have hn := C92_narrower t
  unfold level at hv
  have hc : clip t ≠ [] := (C92_clipped t hs).2
  have hb : ∀ x ∈ clip t, lo ≤ x ∧ x ≤ hi := fun x hx => h x (List.mem_filter.1 hx).1
  have ha := Robust.avg_between lo hi _ hc hb
  have hm := Robust.median_between lo hi _ hc hb
  rw [if_neg hc] at hv
  have hlo : lo ≤ hi := le_trans ha.1 ha.2
  split_ifs at hv with h1
  · cases hv
    refine ⟨fun _ => ha, ?_, ?_⟩ <;> nlinarith [ha.1, ha.2]
  · cases hv
    refine ⟨fun h2 => ?_, ?_, ?_⟩
    · exfalso
      apply h1
      rw [div_le_iff₀ hp, abs_of_nonpos (by linarith)]
      linarith
    · nlinarith [ha.1, ha.2, hm.1, hm.2]
    · nlinarith [ha.1, ha.2, hm.1, hm.2]

theorem clip_affine (a b : ℝ) (ha : a ≠ 0) (t : List ℝ) : clip (t.map fun x => a * x + b) = (clip t).map fun x => a * x + b := by
  by_cases ht : t = []
  · subst ht; rfl
  unfold clip
  rw [List.filter_map]
  congr 1
  apply List.filter_congr
  intro x _
  unfold near
  simp only [Function.comp, Robust.avg_affine a b t ht, Robust.sd_affine a b t ht]
  congr 1
  have e : a * x + b - (a * avg t + b) = a * (x - avg t) := by ring
  rw [e, abs_mul]
  have : 3 * (|a| * sd t) = |a| * (3 * sd t) := by ring
  rw [this]
  exact propext (mul_lt_mul_iff_right₀ (abs_pos.2 ha))

/-- The level of a tile moves with the origin and the unit. -/
theorem C92_level_unit (a b : ℝ) (ha : a ≠ 0) (t : List ℝ) :
    level (t.map fun x => a * x + b) = (level t).map fun x => a * x + b := by
  unfold level
  rw [clip_affine a b ha]
  by_cases hc : clip t = []
  · rw [hc]; simp
  have ht : t ≠ [] := by rintro rfl; exact hc rfl
  rw [if_neg hc, if_neg (by simpa using hc), Robust.avg_affine a b _ hc, Robust.sd_affine a b _ hc, Robust.sd_affine a b t ht,
    Robust.median_affine a b _ hc]
  have e : |(|a| * sd (clip t) - |a| * sd t)| / (|a| * sd t) = |sd (clip t) - sd t| / sd t := by
    rw [← mul_sub, abs_mul, abs_abs, mul_div_mul_left _ _ (abs_pos.2 ha).ne']
  rw [e]
  split_ifs
  · rfl
  · simp only [Option.map_some, Option.some.injEq]; ring

/-- Tiles with a level keep it. -/
theorem C92_fill (a b : ℕ) (g : ℕ → ℕ → Option ℝ) (f : Img) (h : fill a b g = some f) (i j : ℕ) (v : ℝ) (hv : g i j = some v) :
    f i j = v := by
  unfold fill at h
  simp only at h
  split_ifs at h
  cases h
  simp [hv]

/-- Tiles without one get one between those of the others. -/
theorem C92_fill_between (a b : ℕ) (g : ℕ → ℕ → Option ℝ) (lo hi : ℝ) (f : Img)
    (hg : ∀ i j v, i < a → j < b → g i j = some v → lo ≤ v ∧ v ≤ hi) (h : fill a b g = some f) (i j : ℕ) (hi' : i < a) (hj : j < b) :
    lo ≤ f i j ∧ f i j ≤ hi := by
  unfold fill at h
  simp only at h
  split_ifs at h with h0
  cases h
  simp only
  cases hv : g i j with
  | some v => exact hg i j v hi' hj hv
  | none =>
    rw [Option.getD_none]
    apply Robust.median_between _ _ _ h0
    intro x hx
    obtain ⟨y, hy, rfl⟩ := List.mem_filterMap.1 hx
    obtain ⟨i', j', h1, h2, h3⟩ := (mem_cells _ _ _ _).1 hy
    exact hg i' j' x h1 h2 h3

/-- There are levels if and only if some tile has one. -/
theorem C92_fill_none (a b : ℕ) (g : ℕ → ℕ → Option ℝ) : fill a b g = none ↔ ∀ i j, i < a → j < b → g i j = none := by
  unfold fill
  simp only
  split_ifs with h
  · simp only [true_iff]
    intro i j hi hj
    rw [List.filterMap_eq_nil_iff] at h
    exact h _ ((mem_cells _ _ _ _).2 ⟨i, j, hi, hj, rfl⟩)
  · simp only [false_iff]
    intro hn
    apply h
    rw [List.filterMap_eq_nil_iff]
    intro x hx
    obtain ⟨i, j, hi, hj, rfl⟩ := (mem_cells _ _ _ _).1 hx
    exact hn i j hi hj

theorem avg_const (c : ℝ) (t : List ℝ) (h : ∀ v ∈ t, v = c) (hne : t ≠ []) : avg t = c := by
  have := Robust.avg_between c c t hne fun x hx => by rw [h x hx]; simp
  exact le_antisymm this.2 this.1

/-- A constant image has no background. -/
theorem C92_not_flat (nx ny w : ℕ) (c : ℝ) : basis nx ny w (fun _ _ => c) = none := by
  unfold basis
  rw [Option.map_eq_none_iff, C92_fill_none]
  intro i j _ _
  rw [C92_level_none]
  have hc : ∀ v ∈ tile w (fun _ _ => c) i j, v = c := by
    intro v hv
    unfold tile at hv
    simp only [List.mem_flatMap, List.mem_map] at hv
    obtain ⟨_, _, _, _, h⟩ := hv
    exact h.symm
  intro v hv
  rw [hc v hv, avg_const c _ hc (List.ne_nil_of_mem hv)]

/-! ## The filter -/

/-- The filter gives a value between those that most of the nine are between. -/
theorem C92_majority (a b : ℕ) (g : Img) (i j : ℕ) (lo hi : ℝ)
    (h : 5 ≤ (hood a b g i j).countP fun x => decide (lo ≤ x ∧ x ≤ hi)) : lo ≤ medfilt a b g i j ∧ medfilt a b g i j ≤ hi := by
  apply Robust.median_majority
  have : (hood a b g i j).length = 9 := rfl
  omega

theorem pad_in (a b : ℕ) (g : Img) (i j : ℕ) (hi : i < a) (hj : j < b) : pad a b g i j = g i j := by
  unfold pad
  rw [if_pos ⟨by omega, by exact_mod_cast hi, by omega, by exact_mod_cast hj⟩]
  simp

theorem pad_out (a b : ℕ) (g : Img) (i j : ℤ) (h : i < 0 ∨ a ≤ i ∨ j < 0 ∨ b ≤ j) : pad a b g i j = 0 := by
  unfold pad
  rw [if_neg (by omega)]

theorem median_zero (a b : ℕ) (g : Img) (i j : ℕ) (h : 5 ≤ (hood a b g i j).countP fun x => decide (0 ≤ x ∧ x ≤ 0)) :
    medfilt a b g i j = 0 := by
  have := C92_majority a b g i j 0 0 h
  exact le_antisymm this.2 this.1

theorem count_zero (x : ℝ) (h : x = 0) : decide (0 ≤ x ∧ x ≤ 0) = true := by subst h; simp

/-- The level in the four corners is zero, whatever the image. -/
theorem C92_not_corner (a b : ℕ) (g : Img) (i j : ℕ) (hi : i = 0 ∨ i + 1 = a) (hj : j = 0 ∨ j + 1 = b) : medfilt a b g i j = 0 := by
  apply median_zero
  unfold hood
  rcases hi with rfl | hi <;> rcases hj with rfl | hj
  · rw [pad_out a b g _ (((0 : ℕ) : ℤ) - 1) (by omega), pad_out a b g (((0 : ℕ) : ℤ) - 1) ((0 : ℕ) : ℤ) (by omega),
      pad_out a b g (((0 : ℕ) : ℤ) - 1) (((0 : ℕ) : ℤ) + 1) (by omega), pad_out a b g ((0 : ℕ) : ℤ) (((0 : ℕ) : ℤ) - 1) (by omega),
      pad_out a b g (((0 : ℕ) : ℤ) + 1) (((0 : ℕ) : ℤ) - 1) (by omega)]
    simp [List.countP_cons]
    split_ifs <;> omega
  · rw [pad_out a b g _ ((j : ℤ) - 1) (by omega), pad_out a b g (((0 : ℕ) : ℤ) - 1) (j : ℤ) (by omega),
      pad_out a b g (((0 : ℕ) : ℤ) - 1) ((j : ℤ) + 1) (by omega), pad_out a b g ((0 : ℕ) : ℤ) ((j : ℤ) + 1) (by omega),
      pad_out a b g (((0 : ℕ) : ℤ) + 1) ((j : ℤ) + 1) (by omega)]
    simp [List.countP_cons]
    split_ifs <;> omega
  · rw [pad_out a b g _ (((0 : ℕ) : ℤ) - 1) (by omega), pad_out a b g (i : ℤ) (((0 : ℕ) : ℤ) - 1) (by omega),
      pad_out a b g ((i : ℤ) + 1) (((0 : ℕ) : ℤ) - 1) (by omega), pad_out a b g ((i : ℤ) + 1) ((0 : ℕ) : ℤ) (by omega),
      pad_out a b g ((i : ℤ) + 1) (((0 : ℕ) : ℤ) + 1) (by omega)]
    simp [List.countP_cons]
    split_ifs <;> omega
  · rw [pad_out a b g ((i : ℤ) - 1) ((j : ℤ) + 1) (by omega), pad_out a b g (i : ℤ) ((j : ℤ) + 1) (by omega),
      pad_out a b g ((i : ℤ) + 1) ((j : ℤ) - 1) (by omega), pad_out a b g ((i : ℤ) + 1) (j : ℤ) (by omega),
      pad_out a b g ((i : ℤ) + 1) ((j : ℤ) + 1) (by omega)]
    simp [List.countP_cons]
    split_ifs <;> omega

/-- With one row of tiles all levels are zero. -/
theorem C92_not_row (b : ℕ) (g : Img) (j : ℕ) : medfilt 1 b g 0 j = 0 := by
  apply median_zero
  unfold hood
  rw [pad_out 1 b g (((0 : ℕ) : ℤ) - 1) ((j : ℤ) - 1) (by omega), pad_out 1 b g (((0 : ℕ) : ℤ) - 1) (j : ℤ) (by omega),
    pad_out 1 b g (((0 : ℕ) : ℤ) - 1) ((j : ℤ) + 1) (by omega), pad_out 1 b g (((0 : ℕ) : ℤ) + 1) ((j : ℤ) - 1) (by omega),
    pad_out 1 b g (((0 : ℕ) : ℤ) + 1) (j : ℤ) (by omega), pad_out 1 b g (((0 : ℕ) : ℤ) + 1) ((j : ℤ) + 1) (by omega)]
  simp [List.countP_cons]
  split_ifs <;> omega

theorem pad_const (a b : ℕ) (g : Img) (c : ℝ) (hg : ∀ i j, i < a → j < b → g i j = c) (i j : ℤ) (hi : 0 ≤ i ∧ i < a)
    (hj : 0 ≤ j ∧ j < b) : pad a b g i j = c := by
  unfold pad
  rw [if_pos ⟨hi.1, hi.2, hj.1, hj.2⟩]
  exact hg _ _ (by omega) (by omega)

/-- Away from the corners equal levels stay. -/
theorem C92_filter_flat (a b : ℕ) (g : Img) (c : ℝ) (hg : ∀ i j, i < a → j < b → g i j = c) (i j : ℕ) (hi : i < a) (hj : j < b)
    (h : (1 ≤ i ∧ i + 1 < a ∧ 2 ≤ b) ∨ (1 ≤ j ∧ j + 1 < b ∧ 2 ≤ a)) : medfilt a b g i j = c := by
  have key : 5 ≤ (hood a b g i j).countP (fun x => decide (c ≤ x ∧ x ≤ c)) → medfilt a b g i j = c := fun h => by
    have := C92_majority a b g i j c c h
    exact le_antisymm this.2 this.1
  apply key
  have hp := pad_const a b g c hg
  unfold hood
  rcases h with ⟨h1, h2, h3⟩ | ⟨h1, h2, h3⟩
  · by_cases hj0 : j = 0
    · rw [hp (i - 1) j (by omega) (by omega), hp (i - 1) (j + 1) (by omega) (by omega), hp i j (by omega) (by omega),
        hp i (j + 1) (by omega) (by omega), hp (i + 1) j (by omega) (by omega), hp (i + 1) (j + 1) (by omega) (by omega)]
      simp [List.countP_cons]
      split_ifs <;> omega
    · rw [hp (i - 1) j (by omega) (by omega), hp (i - 1) (j - 1) (by omega) (by omega), hp i j (by omega) (by omega),
        hp i (j - 1) (by omega) (by omega), hp (i + 1) j (by omega) (by omega), hp (i + 1) (j - 1) (by omega) (by omega)]
      simp [List.countP_cons]
      split_ifs <;> omega
  · by_cases hi0 : i = 0
    · rw [hp i (j - 1) (by omega) (by omega), hp i j (by omega) (by omega), hp i (j + 1) (by omega) (by omega),
        hp (i + 1) (j - 1) (by omega) (by omega), hp (i + 1) j (by omega) (by omega), hp (i + 1) (j + 1) (by omega) (by omega)]
      simp [List.countP_cons]
      split_ifs <;> omega
    · rw [hp i (j - 1) (by omega) (by omega), hp i j (by omega) (by omega), hp i (j + 1) (by omega) (by omega),
        hp (i - 1) (j - 1) (by omega) (by omega), hp (i - 1) j (by omega) (by omega), hp (i - 1) (j + 1) (by omega) (by omega)]
      simp [List.countP_cons]

theorem tile_map (w : ℕ) (img : Img) (f : ℝ → ℝ) (i j : ℕ) : tile w (fun x y => f (img x y)) i j = (tile w img i j).map f := by
  unfold tile
  rw [List.map_flatMap]
  congr 1
  funext x
  rw [List.map_map]
  rfl

theorem map_unit (k : ℝ) (l : List ℝ) : (l.map fun x => k * x) = l.map fun x => k * x + 0 := by simp

theorem pad_unit (a b : ℕ) (g : Img) (k : ℝ) (i j : ℤ) : pad a b (fun i j => k * g i j) i j = k * pad a b g i j := by
  unfold pad
  split_ifs <;> simp

theorem filter_unit (a b : ℕ) (g : Img) (k : ℝ) (i j : ℕ) : medfilt a b (fun i j => k * g i j) i j = k * medfilt a b g i j := by
  have e : hood a b (fun i j => k * g i j) i j = (hood a b g i j).map fun x => k * x + 0 := by
    unfold hood
    simp [pad_unit]
  unfold medfilt
  rw [e, Robust.median_affine k 0 _ (by simp [hood]), add_zero]

/-- The levels are in the unit of the image, also with the opposite sign. -/
theorem C92_unit (nx ny w : ℕ) (img : Img) (k : ℝ) (hk : k ≠ 0) :
    basis nx ny w (fun x y => k * img x y) = (basis nx ny w img).map fun g i j => k * g i j := by
  have hl : ∀ i j, level (tile w (fun x y => k * img x y) i j) = (level (tile w img i j)).map fun x => k * x + 0 := by
    intro i j
    rw [tile_map w img (fun x => k * x), map_unit, C92_level_unit k 0 hk]
  have hfm : ∀ l : List (Option ℝ), (l.map (Option.map fun x => k * x + 0)).filterMap id = (l.filterMap id).map fun x => k * x + 0 := by
    intro l
    induction l with
    | nil => rfl
    | cons x l ih => cases x <;> simp_all
  unfold basis fill
  simp only [hl]
  rw [← cells_map (tiles nx w) (tiles ny w) (fun i j => level (tile w img i j)) (Option.map fun x => k * x + 0), hfm]
  by_cases h0 : (cells (tiles nx w) (tiles ny w) fun i j => level (tile w img i j)).filterMap id = []
  · rw [h0, if_pos rfl, List.map_nil, if_pos rfl]; rfl
  · rw [if_neg h0, if_neg (by simpa using h0), Robust.median_affine k 0 _ h0]
    simp only [Option.map_some, Option.some.injEq]
    funext i j
    rw [← filter_unit]
    congr 1
    funext i j
    cases level (tile w img i j) <;> simp

end Verif.Analysis
