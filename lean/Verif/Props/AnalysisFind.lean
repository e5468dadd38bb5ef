import Verif.Props.Analysis
import Verif.Spec.Analysis
/-!
# C92: point sources in images
-/
namespace Verif.Analysis

open Finset Classical
open Deconv (Img index)

/-- What is used of a kernel. -/
structure Kern.Ok (K : Kern) : Prop where
  s : 0 < K.s
  h : 1 ≤ K.h
  r : (K.h : ℝ) ≤ K.r

/-- The box of every width of a source is between two and six pixels to each side and within the radius. -/
theorem C92_kern (f : ℝ) : (kern f).Ok ∧ 2 ≤ (kern f).h ∧ (kern f).h ≤ 6 := by
  have hr : (2 : ℝ) ≤ radius (sigma f) := le_max_right _ _
  have hf : 2 ≤ ⌊radius (sigma f)⌋₊ := Nat.le_floor (by exact_mod_cast hr)
  refine ⟨⟨?_, ?_, ?_⟩, ?_, ?_⟩
  · change 0 < sigma f
    unfold sigma
    have h1 : 0 < Real.log 2 := Real.log_pos (by norm_num)
    apply div_pos
    · split_ifs with h
      · norm_num
      · push Not at h; linarith
    · have := Real.sqrt_pos.2 (show 0 < 2 * Real.log 2 by linarith)
      linarith
  · change 1 ≤ min _ 6
    omega
  · change ((min _ 6 : ℕ) : ℝ) ≤ _
    exact le_trans (Nat.cast_le.2 (min_le_left _ _)) (Nat.floor_le (by linarith))
  · change 2 ≤ min _ 6
    omega
  · exact min_le_right _ _

theorem mem_box (K : Kern) (a : ℤ) : a ∈ box K ↔ -(K.h : ℤ) ≤ a ∧ a ≤ K.h := by unfold box; exact Finset.mem_Icc

theorem zero_box (K : Kern) : (0 : ℤ) ∈ box K := (mem_box K 0).2 (by omega)

theorem raw_nonneg (K : Kern) (a b : ℤ) : 0 ≤ raw K a b := by
  unfold raw
  split_ifs
  · exact (Real.exp_pos _).le
  · exact le_rfl

theorem mask_zero (K : Kern) : mask K 0 0 := by unfold mask; simp [sq_nonneg]

theorem raw_zero (K : Kern) : raw K 0 0 = 1 := by
  unfold raw
  rw [if_pos (mask_zero K)]; simp

theorem raw_lt (K : Kern) (hK : K.Ok) (a b : ℤ) (h : (a, b) ≠ (0, 0)) : raw K a b < 1 := by
  unfold raw
  split_ifs
  · rw [Real.exp_lt_one_iff]
    have h1 : (0 : ℝ) < (a : ℝ) ^ 2 + (b : ℝ) ^ 2 := by
      by_cases ha : a = 0
      · have hb : b ≠ 0 := by rintro rfl; exact h (by rw [ha])
        have : (b : ℝ) ≠ 0 := by exact_mod_cast hb
        positivity
      · have : (a : ℝ) ≠ 0 := by exact_mod_cast ha
        positivity
    have hs := hK.s
    rw [div_div]
    apply div_neg_of_neg_of_pos
    · linarith
    · positivity
  · norm_num

theorem norm_pos (K : Kern) : 0 < norm K := by
  unfold norm
  have h1 : raw K 0 0 ≤ ∑ b ∈ box K, raw K 0 b := Finset.single_le_sum (f := fun b => raw K 0 b) (fun b _ => raw_nonneg K 0 b) (zero_box K)
  have h2 : ∑ b ∈ box K, raw K 0 b ≤ ∑ a ∈ box K, ∑ b ∈ box K, raw K a b :=
    Finset.single_le_sum (f := fun a => ∑ b ∈ box K, raw K a b) (fun a _ => Finset.sum_nonneg fun b _ => raw_nonneg K a b) (zero_box K)
  rw [raw_zero] at h1
  linarith

theorem kernel_nonneg (K : Kern) (a b : ℤ) : 0 ≤ kernel K a b := div_nonneg (raw_nonneg K a b) (norm_pos K).le

/-- The kernel adds up to one. -/
theorem C92_kernel (K : Kern) : ∑ a ∈ box K, ∑ b ∈ box K, kernel K a b = 1 := by
  have : ∑ a ∈ box K, ∑ b ∈ box K, kernel K a b = norm K / norm K := by
    conv_rhs => rw [div_eq_mul_inv]; unfold norm
    rw [Finset.sum_mul]
    refine Finset.sum_congr rfl fun a _ => ?_
    rw [Finset.sum_mul]
    refine Finset.sum_congr rfl fun b _ => ?_
    unfold kernel
    rw [div_eq_mul_inv]
    rfl
  rw [this, div_self (norm_pos K).ne']

theorem mem_inner (K : Kern) (nx ny : ℕ) (p : ℕ × ℕ) :
    p ∈ inner K nx ny ↔ K.h ≤ p.1 ∧ p.1 + K.h < nx ∧ K.h ≤ p.2 ∧ p.2 + K.h < ny := by
  unfold inner
  rw [Finset.mem_product, Finset.mem_Ico, Finset.mem_Ico]
  omega

theorem pad_inner (K : Kern) (nx ny : ℕ) (img : Img) (p : ℕ × ℕ) (hp : p ∈ inner K nx ny) (a b : ℤ) (ha : a ∈ box K) (hb : b ∈ box K) :
    pad nx ny img (p.1 - a) (p.2 - b) = img ((p.1 : ℤ) - a).toNat ((p.2 : ℤ) - b).toNat := by
  have h := (mem_inner K nx ny p).1 hp
  have h1 := (mem_box K a).1 ha
  have h2 := (mem_box K b).1 hb
  unfold pad
  rw [if_pos (by omega)]

/-- Convolution is a mean: away from the edges it stays between the values of the image, and constants stay. -/
theorem C92_conv_between (K : Kern) (nx ny : ℕ) (img : Img) (lo hi : ℝ) (h : ∀ x y, x < nx → y < ny → lo ≤ img x y ∧ img x y ≤ hi)
    (p : ℕ × ℕ) (hp : p ∈ inner K nx ny) : lo ≤ conv K nx ny img p.1 p.2 ∧ conv K nx ny img p.1 p.2 ≤ hi := by
  have hq := (mem_inner K nx ny p).1 hp
  have hb : ∀ a ∈ box K, ∀ b ∈ box K, lo ≤ pad nx ny img (p.1 - a) (p.2 - b) ∧ pad nx ny img (p.1 - a) (p.2 - b) ≤ hi := by
    intro a ha b hb
    rw [pad_inner K nx ny img p hp a b ha hb]
    have h1 := (mem_box K a).1 ha
    have h2 := (mem_box K b).1 hb
    exact h _ _ (by omega) (by omega)
  unfold conv
  have hc : ∀ c : ℝ, c = ∑ a ∈ box K, ∑ b ∈ box K, kernel K a b * c := by
    intro c
    have := C92_kernel K
    calc c = (∑ a ∈ box K, ∑ b ∈ box K, kernel K a b) * c := by rw [this, one_mul]
      _ = _ := by
        rw [Finset.sum_mul]
        exact Finset.sum_congr rfl fun a _ => Finset.sum_mul _ _ _
  constructor
  · rw [hc lo]
    exact Finset.sum_le_sum fun a ha => Finset.sum_le_sum fun b hb' => mul_le_mul_of_nonneg_left (hb a ha b hb').1 (kernel_nonneg K a b)
  · rw [hc hi]
    exact Finset.sum_le_sum fun a ha => Finset.sum_le_sum fun b hb' => mul_le_mul_of_nonneg_left (hb a ha b hb').2 (kernel_nonneg K a b)

/-- A box that leaves nothing of the image raises, and only then. -/
theorem C92_smooth_none (K : Kern) (nx ny : ℕ) (img : Img) : smooth K nx ny img = none ↔ nx ≤ 2 * K.h ∨ ny ≤ 2 * K.h := by
  unfold smooth
  split_ifs with h
  · simp only [false_iff]
    obtain ⟨p, hp⟩ := h
    have := (mem_inner K nx ny p).1 hp
    omega
  · simp only [true_iff]
    by_contra hc
    exact h ⟨(K.h, K.h), (mem_inner K nx ny _).2 (by simp only; omega)⟩

/-- What smoothing gives: the convolution away from the edges and at them a lower bound that is reached. -/
theorem C92_smooth (K : Kern) (nx ny : ℕ) (img c : Img) (h : smooth K nx ny img = some c) :
    ∃ m, (∀ p ∈ inner K nx ny, c p.1 p.2 = conv K nx ny img p.1 p.2 ∧ m ≤ c p.1 p.2) ∧ (∃ p ∈ inner K nx ny, c p.1 p.2 = m) ∧
      ∀ p, p ∉ inner K nx ny → c p.1 p.2 = m := by
  unfold smooth at h
  split_ifs at h with hn
  simp only [Option.some.injEq] at h
  subst h
  refine ⟨(inner K nx ny).inf' hn fun p => conv K nx ny img p.1 p.2, fun p hp => ⟨?_, ?_⟩, ?_, fun p hp => ?_⟩
  · simp only [Prod.mk.eta]; rw [if_pos hp]
  · simp only [Prod.mk.eta]; rw [if_pos hp]
    exact Finset.inf'_le (fun p : ℕ × ℕ => conv K nx ny img p.1 p.2) hp
  · obtain ⟨p, hp, he⟩ := Finset.exists_mem_eq_inf' hn (fun p : ℕ × ℕ => conv K nx ny img p.1 p.2)
    refine ⟨p, hp, ?_⟩
    simp only [Prod.mk.eta]; rw [if_pos hp]
    exact he.symm
  · simp only [Prod.mk.eta]; rw [if_neg hp]

/-! ## Peaks -/

theorem mem_offsets (K : Kern) (d : ℤ × ℤ) : d ∈ offsets K ↔ d.1 ∈ box K ∧ d.2 ∈ box K ∧ mask K d.1 d.2 ∧ d ≠ (0, 0) := by
  unfold offsets
  rw [List.mem_filter, mem_cells, mem_box, mem_box]
  constructor
  · rintro ⟨⟨i, j, hi, hj, rfl⟩, h⟩
    have h := of_decide_eq_true h
    exact ⟨by simp only; omega, by simp only; omega, h.1, h.2⟩
  · rintro ⟨h1, h2, h3⟩
    refine ⟨⟨(d.1 + K.h).toNat, (d.2 + K.h).toNat, by omega, by omega, ?_⟩, decide_eq_true h3⟩
    ext <;> simp only <;> omega

theorem pick_in (nx ny : ℕ) (c : Img) (x y : ℤ) (hx : 0 ≤ x ∧ x < nx) (hy : 0 ≤ y ∧ y < ny) :
    pick nx ny c x y = some (c x.toNat y.toNat) := by
  unfold pick index
  rw [if_pos hx, if_pos hy]
  rfl

theorem thin_in (nx ny : ℕ) (c : Img) (d : ℤ × ℤ) (l : List (ℕ × ℕ))
    (h : ∀ p ∈ l, (0 ≤ (p.1 : ℤ) + d.1 ∧ (p.1 : ℤ) + d.1 < nx) ∧ (0 ≤ (p.2 : ℤ) + d.2 ∧ (p.2 : ℤ) + d.2 < ny)) :
    thin nx ny c d l = some (l.filter fun p => c ((p.1 : ℤ) + d.1).toNat ((p.2 : ℤ) + d.2).toNat ≤ c p.1 p.2) := by
  unfold thin
  rw [mapM_some _ (fun p => (p, c ((p.1 : ℤ) + d.1).toNat ((p.2 : ℤ) + d.2).toNat)) l
    (fun p hp => by rw [pick_in nx ny c _ _ (h p hp).1 (h p hp).2]; rfl)]
  rw [Option.map_some, List.filter_map, List.map_map]
  congr 1
  conv_rhs => rw [← List.map_id (l.filter _)]
  rfl

theorem thin_all (nx ny : ℕ) (c : Img) (ds : List (ℤ × ℤ)) (l : List (ℕ × ℕ))
    (h : ∀ p ∈ l, ∀ d ∈ ds, (0 ≤ (p.1 : ℤ) + d.1 ∧ (p.1 : ℤ) + d.1 < nx) ∧ (0 ≤ (p.2 : ℤ) + d.2 ∧ (p.2 : ℤ) + d.2 < ny)) :
    ds.foldlM (fun l d => thin nx ny c d l) l =
      some (l.filter fun p => ∀ d ∈ ds, c ((p.1 : ℤ) + d.1).toNat ((p.2 : ℤ) + d.2).toNat ≤ c p.1 p.2) := by
  induction ds generalizing l with
  | nil => simp
  | cons d ds ih =>
    rw [List.foldlM_cons, thin_in nx ny c d l fun p hp => h p hp d (by simp)]
    change List.foldlM _ _ _ = _
    rw [ih _ fun p hp e he => h p (List.mem_filter.1 hp).1 e (by simp [he]), List.filter_filter]
    congr 1
    apply List.filter_congr
    intro p _
    simp [Bool.and_comm]

/-- If the threshold is above the least value, no index is outside of the image, and what is found are exactly the peaks, by rows and
each once; all of them are away from the edges. -/
theorem C92_peaks (K : Kern) (nx ny : ℕ) (img c : Img) (t : ℝ) (hs : smooth K nx ny img = some c)
    (ht : ∃ x y, x < nx ∧ y < ny ∧ c x y < t) :
    ∃ l, peaks K nx ny t c = some l ∧ l.Sublist (cells nx ny fun x y => (x, y)) ∧
      ∀ p, p ∈ l ↔ Spec.IsPeak K.r K.h nx ny t c p := by
  obtain ⟨m, h1, ⟨q, hq, hqm⟩, h2⟩ := C92_smooth K nx ny img c hs
  have hm : m < t := by
    obtain ⟨x, y, _, _, h⟩ := ht
    by_cases hi : (x, y) ∈ inner K nx ny
    · exact lt_of_le_of_lt (h1 _ hi).2 h
    · rw [h2 (x, y) hi] at h; exact h
  have hin : ∀ p : ℕ × ℕ, t ≤ c p.1 p.2 → p ∈ inner K nx ny := by
    intro p hp
    by_contra hn
    rw [h2 p hn] at hp
    linarith
  have hr : ∀ p ∈ ((cells nx ny fun x y => (x, y)).filter fun p => t ≤ c p.1 p.2), ∀ d ∈ offsets K,
      (0 ≤ (p.1 : ℤ) + d.1 ∧ (p.1 : ℤ) + d.1 < nx) ∧ (0 ≤ (p.2 : ℤ) + d.2 ∧ (p.2 : ℤ) + d.2 < ny) := by
    intro p hp d hd
    have h3 := (mem_inner K nx ny p).1 (hin p (of_decide_eq_true (List.mem_filter.1 hp).2))
    have h4 := (mem_offsets K d).1 hd
    have h5 := (mem_box K _).1 h4.1
    have h6 := (mem_box K _).1 h4.2.1
    omega
  refine ⟨_, thin_all nx ny c (offsets K) _ hr, (List.filter_sublist).trans List.filter_sublist, ?_⟩
  intro p
  rw [List.mem_filter, List.mem_filter, mem_cells, decide_eq_true_iff, decide_eq_true_iff]
  constructor
  · rintro ⟨⟨⟨i, j, hi, hj, rfl⟩, h3⟩, h4⟩
    refine ⟨hi, hj, h3, ?_⟩
    intro x y hx hy b1 b2 b3 b4 hd
    by_cases he : (x, y) = (i, j)
    · cases he; exact le_rfl
    have := h4 ((x : ℤ) - i, (y : ℤ) - j) ((mem_offsets K _).2 ⟨(mem_box K _).2 (by simp only at b1 b2 ⊢; omega),
      (mem_box K _).2 (by simp only at b3 b4 ⊢; omega), ?_, ?_⟩)
    · have e1 : ((i : ℤ) + ((x : ℤ) - i)).toNat = x := by omega
      have e2 : ((j : ℤ) + ((y : ℤ) - j)).toNat = y := by omega
      simpa only [e1, e2] using this
    · unfold mask; push_cast; exact hd
    · intro h
      apply he
      simp only [Prod.mk.injEq] at h ⊢
      omega
  · intro h
    refine ⟨⟨⟨p.1, p.2, h.row, h.column, rfl⟩, h.reaches⟩, ?_⟩
    intro d hd
    have h3 := (mem_inner K nx ny p).1 (hin p h.reaches)
    have h4 := (mem_offsets K d).1 hd
    have h5 := (mem_box K _).1 h4.1
    have h6 := (mem_box K _).1 h4.2.1
    apply h.largest _ _ (by omega) (by omega) (by omega) (by omega) (by omega) (by omega)
    have e1 : ((((p.1 : ℤ) + d.1).toNat : ℕ) : ℝ) = p.1 + d.1 := by
      have : ((((p.1 : ℤ) + d.1).toNat : ℕ) : ℤ) = p.1 + d.1 := by omega
      exact_mod_cast this
    have e2 : ((((p.2 : ℤ) + d.2).toNat : ℕ) : ℝ) = p.2 + d.2 := by
      have : ((((p.2 : ℤ) + d.2).toNat : ℕ) : ℤ) = p.2 + d.2 := by omega
      exact_mod_cast this
    rw [e1, e2]
    have := h4.2.2.1
    unfold mask at this
    convert this using 2 <;> ring

/-- What is reported are the peaks of allowed shape, in this order. -/
theorem C92_find_partial (K : Kern) (L : Limits) (nx ny : ℕ) (t : ℝ) (bg img c : Img)
    (hs : smooth K nx ny (fun x y => img x y - bg x y) = some c) (ht : ∃ x y, x < nx ∧ y < ny ∧ c x y < t) :
    ∃ l, find K L nx ny t bg img = some l ∧
      ∀ s, s ∈ l ↔ ∃ p, Spec.IsPeak K.r K.h nx ny t c p ∧ report K L img p = some s := by
  obtain ⟨l, hl, _, hp⟩ := C92_peaks K nx ny _ c t hs ht
  refine ⟨l.filterMap (report K L img), ?_, ?_⟩
  · unfold find
    rw [hs, Option.bind_some, hl]
    rfl
  · intro s
    rw [List.mem_filterMap]
    constructor
    · rintro ⟨p, h1, h2⟩; exact ⟨p, (hp p).1 h1, h2⟩
    · rintro ⟨p, h1, h2⟩; exact ⟨p, (hp p).2 h1, h2⟩

/-- Two that are found within the radius of one another are equal. -/
theorem C92_apart (r : ℝ) (h nx ny : ℕ) (t : ℝ) (c : Img) (p q : ℕ × ℕ) (hp : Spec.IsPeak r h nx ny t c p)
    (hq : Spec.IsPeak r h nx ny t c q) (b1 : p.1 ≤ q.1 + h) (b2 : q.1 ≤ p.1 + h) (b3 : p.2 ≤ q.2 + h) (b4 : q.2 ≤ p.2 + h)
    (hd : ((p.1 : ℝ) - q.1) ^ 2 + ((p.2 : ℝ) - q.2) ^ 2 ≤ r ^ 2) : c p.1 p.2 = c q.1 q.2 := by
  apply le_antisymm
  · exact hq.largest p.1 p.2 hp.row hp.column b1 b2 b3 b4 hd
  · refine hp.largest q.1 q.2 hq.row hq.column b2 b1 b4 b3 ?_
    convert hd using 2 <;> ring

/-- What is reported is within the limits, or of a pixel of zero. -/
theorem C92_limits (K : Kern) (L : Limits) (img : Img) (p : ℕ × ℕ) (s : Src) (h : report K L img p = some s) :
    s.flux = img p.1 p.2 ∧ (img p.1 p.2 ≠ 0 → L.sharp0 ≤ s.sharp ∧ s.sharp ≤ L.sharp1) ∧ L.round0 ≤ s.round ∧ s.round ≤ L.round1 ∧
      s.round < 1 ∧ -1 < s.round := by
  unfold report at h
  split_ifs at h with hc
  cases h
  obtain ⟨h1, h2⟩ := hc
  unfold roundOk at h2
  push Not at h2
  refine ⟨rfl, fun hz => ?_, h2.2.1, h2.2.2, ?_, ?_⟩
  · unfold sharpOk at h1
    rw [if_neg hz] at h1
    push Not at h1
    exact h1
  · unfold roundness
    rw [div_lt_one (by linarith [h2.1.1, h2.1.2])]
    linarith [h2.1.2]
  · unfold roundness
    rw [lt_div_iff₀ (by linarith [h2.1.1, h2.1.2])]
    linarith [h2.1.1]

end Verif.Analysis
