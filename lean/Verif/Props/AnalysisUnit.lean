import Verif.Props.AnalysisPoint
/-!
# C92: units of images, plateaus and thresholds
-/
namespace Verif.Analysis

open Finset Classical
open Deconv (Img index)

/-- A narrow source has a radius and a box of two pixels. -/
theorem C92_default (f : ℝ) (hf : f ≤ 2) : (kern f).r = 2 ∧ (kern f).h = 2 := by
  have hl : (1 : ℝ) / 2 ≤ Real.log 2 := by have := Real.one_sub_inv_le_log_of_pos (show (0 : ℝ) < 2 by norm_num); norm_num at this ⊢; linarith
  have hq : (1 : ℝ) ≤ Real.sqrt (2 * Real.log 2) := by
    rw [show (1 : ℝ) = Real.sqrt 1 by simp]
    exact Real.sqrt_le_sqrt (by linarith)
  have hs : sigma f ≤ 1 := by
    unfold sigma
    rw [div_le_one (by linarith)]
    split_ifs <;> linarith
  have hr : radius (sigma f) = 2 := by
    unfold radius
    apply max_eq_right
    linarith
  refine ⟨hr, ?_⟩
  change half (radius (sigma f)) = 2
  rw [hr]
  unfold half
  have : ⌊(2 : ℝ)⌋₊ = 2 := by exact_mod_cast Nat.floor_natCast (R := ℝ) 2
  rw [this]
  rfl

example : ∃ (K : Kern) (p q : ℕ × ℕ), K.Ok ∧ p ∈ inner K 20 20 ∧ q ∈ inner K 20 20 ∧ Far K p q := by
  refine ⟨kern 1, (5, 5), (12, 12), (C92_kern 1).1, ?_, ?_, ?_⟩
  · rw [mem_inner, (C92_default 1 (by norm_num)).2]; decide
  · rw [mem_inner, (C92_default 1 (by norm_num)).2]; decide
  · rintro ⟨h, _⟩
    rw [mem_box, (C92_default 1 (by norm_num)).2] at h
    revert h; decide

theorem kernel_even (K : Kern) (a b : ℤ) : kernel K a (-b) = kernel K a b := by
  unfold kernel raw mask
  simp

theorem kernel_second (K : Kern) (hK : K.Ok) (a b : ℤ) (h : (a, b) ≠ (0, 0)) : kernel K a b ≤ kernel K 0 1 := by
  unfold kernel
  apply div_le_div_of_nonneg_right _ (norm_pos K).le
  have hr : (1 : ℝ) ≤ K.r := le_trans (by exact_mod_cast hK.h) hK.r
  have hm : mask K 0 1 := by unfold mask; push_cast; nlinarith
  unfold raw
  rw [if_pos hm]
  split_ifs
  · apply Real.exp_le_exp.2
    have h1 : (1 : ℝ) ≤ (a : ℝ) ^ 2 + (b : ℝ) ^ 2 := by
      have : (1 : ℤ) ≤ a ^ 2 + b ^ 2 := by
        by_contra hc
        push Not at hc
        have ha : a = 0 := by nlinarith [sq_nonneg a, sq_nonneg b]
        have hb : b = 0 := by nlinarith [sq_nonneg a, sq_nonneg b]
        exact h (by rw [ha, hb])
      exact_mod_cast this
    have hs := hK.s
    have hs2 : (0 : ℝ) < K.s ^ 2 := by positivity
    push_cast
    apply div_le_div_of_nonneg_right _ hs2.le
    linarith
  · exact (Real.exp_pos _).le

theorem kernel_le (K : Kern) (hK : K.Ok) (a b : ℤ) : kernel K a b ≤ kernel K 0 0 := by
  by_cases h : (a, b) = (0, 0)
  · cases h; exact le_rfl
  · exact (kernel_lt K hK a b h).le

theorem conv_point_le (K : Kern) (hK : K.Ok) (nx ny : ℕ) (p : ℕ × ℕ) (hp : p.1 < nx ∧ p.2 < ny) (v : ℝ) (hv : 0 ≤ v) (x y : ℕ) :
    conv K nx ny (point p v) x y ≤ kernel K 0 0 * v ∧ ((x, y) ≠ p → conv K nx ny (point p v) x y ≤ kernel K 0 1 * v) := by
  rw [conv_point K nx ny p hp]
  split_ifs with h
  · refine ⟨mul_le_mul_of_nonneg_right (kernel_le K hK _ _) hv, fun hne => mul_le_mul_of_nonneg_right (kernel_second K hK _ _ ?_) hv⟩
    intro h0
    apply hne
    simp only [Prod.mk.injEq] at h0
    ext <;> simp only <;> omega
  · exact ⟨mul_nonneg (kernel_nonneg K _ _) hv, fun _ => mul_nonneg (kernel_nonneg K _ _) hv⟩

/-- A source between two pixels is found twice. -/
theorem C92_not_apart (K : Kern) (hK : K.Ok) (nx ny : ℕ) (p q : ℕ × ℕ) (hp : p ∈ inner K nx ny) (hp' : (p.1, p.2 + 1) ∈ inner K nx ny)
    (hq : q ∈ inner K nx ny) (hf : Far K p q) (hf' : Far K (p.1, p.2 + 1) q) (v t : ℝ) (ht : 0 < t)
    (hv : t ≤ (kernel K 0 0 + kernel K 0 1) * v) :
    ∃ c l, smooth K nx ny (fun x y => point p v x y + point (p.1, p.2 + 1) v x y) = some c ∧ peaks K nx ny t c = some l ∧ p ∈ l ∧
      (p.1, p.2 + 1) ∈ l := by
  have hpi := in_image K nx ny p hp
  have hpi' := in_image K nx ny _ hp'
  obtain ⟨c, hc⟩ := smooth_some K nx ny (fun x y => point p v x y + point (p.1, p.2 + 1) v x y) q hq
  obtain ⟨m, h1, _, h2⟩ := C92_smooth K nx ny _ c hc
  have hvp : 0 < v := by
    by_contra h
    have := mul_nonpos_of_nonneg_of_nonpos (add_nonneg (kernel_zero_pos K).le (kernel_nonneg K 0 1)) (not_lt.1 h)
    linarith
  have hcq : c q.1 q.2 = 0 := by
    rw [(h1 q hq).1, conv_add, conv_far K nx ny p hpi v q hf, conv_far K nx ny _ hpi' v q hf', add_zero]
  obtain ⟨l, hl, _, hmem⟩ := C92_peaks K nx ny _ c t hc ⟨q.1, q.2, (in_image K nx ny q hq).1, (in_image K nx ny q hq).2, by rw [hcq]; exact ht⟩
  have h1b : (1 : ℤ) ∈ box K := (mem_box K 1).2 (by have := hK.h; omega)
  have h1b' : (-1 : ℤ) ∈ box K := (mem_box K (-1)).2 (by have := hK.h; omega)
  have hz := zero_box K
  have e1 : c p.1 p.2 = (kernel K 0 0 + kernel K 0 1) * v := by
    rw [(h1 p hp).1, conv_add, conv_point K nx ny p hpi, conv_point K nx ny _ hpi']
    have e : ((p.2 : ℤ) - ((p.2 + 1 : ℕ) : ℤ)) = -1 := by push_cast; ring
    simp only [sub_self, e]
    rw [if_pos ⟨hz, hz⟩, if_pos ⟨hz, h1b'⟩, kernel_even]
    ring
  have e2 : c p.1 (p.2 + 1) = (kernel K 0 0 + kernel K 0 1) * v := by
    have := (h1 _ hp').1
    simp only at this
    rw [this, conv_add, conv_point K nx ny p hpi, conv_point K nx ny _ hpi']
    have e : (((p.2 + 1 : ℕ) : ℤ) - (p.2 : ℤ)) = 1 := by push_cast; ring
    simp only [sub_self, e]
    rw [if_pos ⟨hz, h1b⟩, if_pos ⟨hz, hz⟩]
    ring
  have hall : ∀ x y, c x y ≤ (kernel K 0 0 + kernel K 0 1) * v := by
    intro x y
    by_cases hi : (x, y) ∈ inner K nx ny
    · have := (h1 _ hi).1
      simp only at this
      rw [this, conv_add]
      have b1 := conv_point_le K hK nx ny p hpi v hvp.le x y
      have b2 := conv_point_le K hK nx ny (p.1, p.2 + 1) hpi' v hvp.le x y
      by_cases he : (x, y) = p
      · have hne : (x, y) ≠ (p.1, p.2 + 1) := by
          intro h
          have h3 := congrArg Prod.snd h
          have h4 := congrArg Prod.snd he
          simp only at h3 h4
          omega
        linarith [b1.1, b2.2 hne]
      · linarith [b1.2 he, b2.1]
    · have := h2 _ hi
      simp only at this
      rw [this, ← e1]
      exact (h1 p hp).2
  refine ⟨c, l, hc, hl, (hmem _).2 ⟨hpi.1, hpi.2, by rw [e1]; exact hv, ?_⟩, (hmem _).2 ⟨hpi'.1, hpi'.2, by simp only; rw [e2]; exact hv, ?_⟩⟩
  · intro x y _ _ _ _ _ _ _
    rw [e1]; exact hall x y
  · intro x y _ _ _ _ _ _ _
    simp only
    rw [e2]; exact hall x y

/-! ## Thresholds below everything -/

theorem thin_keeps (nx ny : ℕ) (c : Img) (d : ℤ × ℤ) (l l' : List (ℕ × ℕ)) (h : thin nx ny c d l = some l') (z : ℕ × ℕ) (hz : z ∈ l)
    (v : ℝ) (hv : pick nx ny c (z.1 + d.1) (z.2 + d.2) = some v) (hle : v ≤ c z.1 z.2) : z ∈ l' := by
  unfold thin at h
  cases hm : l.mapM (fun p => (pick nx ny c (p.1 + d.1) (p.2 + d.2)).map fun v => (p, v)) with
  | none => rw [hm] at h; cases h
  | some r =>
    rw [hm] at h
    cases h
    rw [List.mem_map]
    refine ⟨(z, v), List.mem_filter.2 ⟨?_, by simpa using hle⟩, rfl⟩
    clear hle
    induction l generalizing r with
    | nil => simp at hz
    | cons a l ih =>
      rw [List.mapM_cons] at hm
      cases h1 : (pick nx ny c (a.1 + d.1) (a.2 + d.2)).map fun v => (a, v) with
      | none => rw [h1] at hm; cases hm
      | some b =>
        cases h2 : l.mapM (fun p => (pick nx ny c (p.1 + d.1) (p.2 + d.2)).map fun v => (p, v)) with
        | none => rw [h1, h2] at hm; cases hm
        | some s =>
          rw [h1, h2] at hm
          cases hm
          rcases List.mem_cons.1 hz with rfl | hz
          · rw [hv] at h1
            cases h1
            simp
          · exact List.mem_cons_of_mem _ (ih hz s h2)

theorem pick_out (nx ny : ℕ) (c : Img) (x y : ℤ) (h : (nx : ℤ) ≤ x ∨ (ny : ℤ) ≤ y) : pick nx ny c x y = none := by
  unfold pick index
  rcases h with h | h
  · rw [if_neg (by omega), if_neg (by omega)]; rfl
  · rw [if_neg (c := 0 ≤ y ∧ y < (ny : ℤ)) (by omega), if_neg (c := -(ny : ℤ) ≤ y ∧ y < 0) (by omega)]
    split_ifs <;> rfl

theorem fold_raises (nx ny : ℕ) (c : Img) (z : ℕ × ℕ) (hz1 : z.1 + 1 = nx) (hz2 : z.2 + 1 = ny) (ds : List (ℤ × ℤ))
    (hd : ∃ d ∈ ds, 0 < d.1 ∨ 0 < d.2)
    (hle : ∀ d ∈ ds, d.1 ≤ 0 → d.2 ≤ 0 → ∃ v, pick nx ny c (z.1 + d.1) (z.2 + d.2) = some v ∧ v ≤ c z.1 z.2)
    (l : List (ℕ × ℕ)) (hz : z ∈ l) : ds.foldlM (fun l d => thin nx ny c d l) l = none := by
  induction ds generalizing l with
  | nil => simp at hd
  | cons d ds ih =>
    rw [List.foldlM_cons]
    by_cases hpos : 0 < d.1 ∨ 0 < d.2
    · have : thin nx ny c d l = none := by
        unfold thin
        rw [mapM_none _ l z hz (by rw [pick_out nx ny c _ _ (by omega)]; rfl)]
        rfl
      rw [this]; rfl
    · cases ht : thin nx ny c d l with
      | none => rfl
      | some l' =>
        obtain ⟨v, hv, hv'⟩ := hle d (by simp) (by omega) (by omega)
        change List.foldlM _ l' ds = none
        refine ih ?_ (fun e he => hle e (by simp [he])) l' (thin_keeps nx ny c d l l' ht z hz v hv hv')
        obtain ⟨e, he, hp⟩ := hd
        rcases List.mem_cons.1 he with rfl | he
        · exact absurd hp hpos
        · exact ⟨e, he, hp⟩

/-- A threshold that every pixel reaches raises. -/
theorem C92_not_threshold (K : Kern) (hK : K.Ok) (hr : K.r ^ 2 < 2 * K.h ^ 2) (nx ny : ℕ) (img c : Img)
    (hs : smooth K nx ny img = some c) (t : ℝ) (ht : ∀ x y, t ≤ c x y) : peaks K nx ny t c = none := by
  obtain ⟨m, h1, ⟨q, hq, _⟩, h2⟩ := C92_smooth K nx ny _ c hs
  have hqi := (mem_inner K nx ny q).1 hq
  have hh := hK.h
  have hedge : ∀ x y, nx ≤ x + K.h ∨ ny ≤ y + K.h → c x y = m := by
    intro x y hxy
    apply h2 (x, y)
    rw [mem_inner]
    simp only
    omega
  unfold peaks
  apply fold_raises nx ny c (nx - 1, ny - 1) (by simp only; omega) (by simp only; omega)
  · refine ⟨(1, 0), (mem_offsets K _).2 ⟨(mem_box K _).2 (by simp only; omega), (mem_box K _).2 (by simp only; omega), ?_, by simp⟩, Or.inl (by norm_num)⟩
    unfold mask
    have h1 : (1 : ℝ) ≤ K.r := le_trans (by exact_mod_cast hh) hK.r
    push_cast
    nlinarith
  · intro d hd d1 d2
    have h4 := (mem_offsets K d).1 hd
    have h5 := (mem_box K _).1 h4.1
    have h6 := (mem_box K _).1 h4.2.1
    have hne : ¬ (d.1 = -(K.h : ℤ) ∧ d.2 = -(K.h : ℤ)) := by
      rintro ⟨e1, e2⟩
      have := h4.2.2.1
      unfold mask at this
      rw [e1, e2] at this
      push_cast at this
      nlinarith
    simp only
    refine ⟨_, pick_in nx ny c _ _ (by omega) (by omega), ?_⟩
    rw [hedge _ _ (by omega), hedge (nx - 1) (ny - 1) (by omega)]
  · rw [List.mem_filter, mem_cells]
    exact ⟨⟨nx - 1, ny - 1, by omega, by omega, rfl⟩, by simpa using ht _ _⟩

/-! ## Units -/

theorem conv_unit (K : Kern) (nx ny : ℕ) (img : Img) (k : ℝ) (x y : ℕ) :
    conv K nx ny (fun x y => k * img x y) x y = k * conv K nx ny img x y := by
  unfold conv
  rw [Finset.mul_sum]
  refine Finset.sum_congr rfl fun a _ => ?_
  rw [Finset.mul_sum]
  refine Finset.sum_congr rfl fun b _ => ?_
  rw [pad_unit]; ring

theorem smooth_unit (K : Kern) (nx ny : ℕ) (img : Img) (k : ℝ) (hk : 0 < k) :
    smooth K nx ny (fun x y => k * img x y) = (smooth K nx ny img).map fun c x y => k * c x y := by
  unfold smooth
  split_ifs with h
  · simp only [Option.map_some, Option.some.injEq]
    have e : ((inner K nx ny).inf' h fun p => conv K nx ny (fun x y => k * img x y) p.1 p.2) =
        k * (inner K nx ny).inf' h fun p => conv K nx ny img p.1 p.2 := by
      apply le_antisymm
      · obtain ⟨p, hp, he⟩ := Finset.exists_mem_eq_inf' h (fun p : ℕ × ℕ => conv K nx ny img p.1 p.2)
        rw [he, ← conv_unit]
        exact Finset.inf'_le (fun p : ℕ × ℕ => conv K nx ny (fun x y => k * img x y) p.1 p.2) hp
      · apply Finset.le_inf'
        intro p hp
        rw [conv_unit]
        exact mul_le_mul_of_nonneg_left (Finset.inf'_le (fun p : ℕ × ℕ => conv K nx ny img p.1 p.2) hp) hk.le
    rw [e]
    funext x y
    split_ifs
    · exact conv_unit K nx ny img k x y
    · rfl
  · rfl

theorem thin_unit (nx ny : ℕ) (c : Img) (k : ℝ) (hk : 0 < k) (d : ℤ × ℤ) (l : List (ℕ × ℕ)) :
    thin nx ny (fun x y => k * c x y) d l = thin nx ny c d l := by
  have hp : ∀ x y, pick nx ny (fun x y => k * c x y) x y = (pick nx ny c x y).map fun v => k * v := by
    intro x y
    unfold pick
    cases index nx x <;> cases index ny y <;> rfl
  unfold thin
  by_cases h : ∃ p ∈ l, pick nx ny c (p.1 + d.1) (p.2 + d.2) = none
  · obtain ⟨p, h1, h2⟩ := h
    rw [mapM_none _ l p h1 (by rw [hp, h2]; rfl), mapM_none _ l p h1 (by rw [h2]; rfl)]
    rfl
  · push Not at h
    have hv : ∀ p ∈ l, pick nx ny c (p.1 + d.1) (p.2 + d.2) = some ((pick nx ny c (p.1 + d.1) (p.2 + d.2)).getD 0) := by
      intro p hp
      cases he : pick nx ny c (p.1 + d.1) (p.2 + d.2) with
      | none => exact absurd he (h p hp)
      | some v => rfl
    rw [mapM_some _ (fun p => (p, k * (pick nx ny c (p.1 + d.1) (p.2 + d.2)).getD 0)) l
        (fun p h1 => by rw [hp, hv p h1]; rfl),
      mapM_some _ (fun p => (p, (pick nx ny c (p.1 + d.1) (p.2 + d.2)).getD 0)) l (fun p h1 => by rw [hv p h1]; rfl)]
    simp only [Option.map_some, Option.some.injEq, List.filter_map, List.map_map]
    congr 1
    apply List.filter_congr
    intro p _
    simp only [Function.comp, decide_eq_decide]
    exact mul_le_mul_iff_right₀ hk

theorem peaks_unit (K : Kern) (nx ny : ℕ) (c : Img) (k t : ℝ) (hk : 0 < k) :
    peaks K nx ny (k * t) (fun x y => k * c x y) = peaks K nx ny t c := by
  unfold peaks
  have e : (fun (l : List (ℕ × ℕ)) (d : ℤ × ℤ) => thin nx ny (fun x y => k * c x y) d l) = fun l d => thin nx ny c d l := by
    funext l d
    exact thin_unit nx ny c k hk d l
  rw [e]
  congr 1
  apply List.filter_congr
  intro p _
  simp only [decide_eq_decide]
  exact mul_le_mul_iff_right₀ hk

theorem stamp_unit (img : Img) (k : ℝ) (p : ℕ × ℕ) (a b : ℤ) : stamp (fun x y => k * img x y) p a b = k * stamp img p a b := rfl

theorem whole_unit (K : Kern) (img : Img) (k : ℝ) (p : ℕ × ℕ) : whole K (fun x y => k * img x y) p = k * whole K img p := by
  unfold whole
  simp only [stamp_unit, Finset.mul_sum]

theorem around_unit (K : Kern) (img : Img) (k : ℝ) (p : ℕ × ℕ) : around K (fun x y => k * img x y) p = k * around K img p := by
  unfold around
  rw [← mul_div_assoc, Finset.mul_sum]
  congr 1
  refine Finset.sum_congr rfl fun a _ => ?_
  rw [Finset.mul_sum]
  refine Finset.sum_congr rfl fun b _ => ?_
  rw [stamp_unit]
  split_ifs <;> simp

theorem sharp_unit (K : Kern) (img : Img) (k : ℝ) (hk : k ≠ 0) (p : ℕ × ℕ) :
    sharpness K (fun x y => k * img x y) p = sharpness K img p := by
  unfold sharpness
  rw [stamp_unit, around_unit, ← mul_sub, mul_div_mul_left _ _ hk]

theorem profX_unit (K : Kern) (img : Img) (k : ℝ) (p : ℕ × ℕ) : profX K (fun x y => k * img x y) p = k * profX K img p := by
  unfold profX
  simp only [stamp_unit, Finset.mul_sum, Finset.sum_mul, mul_assoc]

theorem profY_unit (K : Kern) (img : Img) (k : ℝ) (p : ℕ × ℕ) : profY K (fun x y => k * img x y) p = k * profY K img p := by
  unfold profY
  simp only [stamp_unit, Finset.mul_sum, Finset.sum_mul, mul_assoc]

theorem round_unit (K : Kern) (img : Img) (k : ℝ) (hk : k ≠ 0) (p : ℕ × ℕ) :
    roundness K (fun x y => k * img x y) p = roundness K img p := by
  unfold roundness
  rw [profX_unit, profY_unit, ← mul_sub, ← mul_add, mul_div_mul_left _ _ hk]

theorem centroid_unit (K : Kern) (img : Img) (k : ℝ) (hk : k ≠ 0) (p : ℕ × ℕ) :
    centroid K (fun x y => k * img x y) p = centroid K img p := by
  unfold centroid
  rw [whole_unit]
  simp only [stamp_unit, mul_assoc, ← Finset.mul_sum]
  rw [mul_div_mul_left _ _ hk, mul_div_mul_left _ _ hk]
  by_cases h : whole K img p = 0
  · rw [if_pos h, if_pos (by rw [h, mul_zero])]
  · rw [if_neg h, if_neg (mul_ne_zero hk h)]

theorem report_unit (K : Kern) (L : Limits) (img : Img) (k : ℝ) (hk : 0 < k) (p : ℕ × ℕ) :
    report K L (fun x y => k * img x y) p = (report K L img p).map fun s => { s with flux := k * s.flux } := by
  have h1 : sharpOk K L (fun x y => k * img x y) p ↔ sharpOk K L img p := by
    unfold sharpOk
    rw [sharp_unit K img k hk.ne', stamp_unit, around_unit, ← mul_sub]
    simp only [mul_eq_zero, hk.ne', false_or]
  have h2 : roundOk K L (fun x y => k * img x y) p ↔ roundOk K L img p := by
    unfold roundOk
    rw [round_unit K img k hk.ne', profX_unit, profY_unit]
    rw [mul_nonpos_iff_pos_imp_nonpos, mul_nonpos_iff_pos_imp_nonpos]
    have e : ∀ x : ℝ, ((0 < k → x ≤ 0) ∧ (x < 0 → 0 ≤ k)) ↔ x ≤ 0 := by
      intro x
      exact ⟨fun h => h.1 hk, fun h => ⟨fun _ => h, fun _ => hk.le⟩⟩
    simp only [hk, forall_const, hk.le, imp_true_iff, and_true]
  unfold report
  rw [h1, h2, centroid_unit K img k hk.ne', sharp_unit K img k hk.ne', round_unit K img k hk.ne']
  split_ifs <;> rfl

/-- What is found does not depend on the unit of the image. -/
theorem C92_find_unit (K : Kern) (L : Limits) (nx ny : ℕ) (t k : ℝ) (hk : 0 < k) (bg img : Img) :
    find K L nx ny (k * t) (fun x y => k * bg x y) (fun x y => k * img x y) =
      (find K L nx ny t bg img).map fun l => l.map fun s => { s with flux := k * s.flux } := by
  unfold find
  have e : (fun x y => (fun x y => k * img x y) x y - (fun x y => k * bg x y) x y) = fun x y => k * (img x y - bg x y) := by
    funext x y; ring
  rw [e, smooth_unit K nx ny (fun x y => img x y - bg x y) k hk]
  cases smooth K nx ny fun x y => img x y - bg x y with
  | none => rfl
  | some c =>
    simp only [Option.map_some, Option.bind_some]
    rw [peaks_unit K nx ny c k t hk]
    cases peaks K nx ny t c with
    | none => rfl
    | some l =>
      simp only [Option.map_some, Option.some.injEq]
      rw [List.map_filterMap]
      congr 1
      funext p
      rw [report_unit K L img k hk]

end Verif.Analysis
