import Verif.Props.AnalysisFind
/-!
# C92: images of single sources
-/
namespace Verif.Analysis

open Finset Classical
open Deconv (Img index)

/-- One pixel. -/
noncomputable def point (p : ℕ × ℕ) (v : ℝ) : Img := fun x y => if x = p.1 ∧ y = p.2 then v else 0

theorem sum_one (K : Kern) (d e : ℤ) (v : ℤ → ℤ → ℝ) :
    (∑ a ∈ box K, ∑ b ∈ box K, if a = d ∧ b = e then v a b else 0) = if d ∈ box K ∧ e ∈ box K then v d e else 0 := by
  have h1 : ∀ a ∈ box K, (∑ b ∈ box K, if a = d ∧ b = e then v a b else 0) = if a = d then (if e ∈ box K then v d e else 0) else 0 := by
    intro a _
    by_cases ha : a = d
    · subst ha
      simp only [true_and, if_true]
      rw [Finset.sum_ite_eq']
    · simp [ha]
  rw [Finset.sum_congr rfl h1, Finset.sum_ite_eq']
  by_cases hd : d ∈ box K <;> by_cases he : e ∈ box K <;> simp [hd, he]

theorem conv_add (K : Kern) (nx ny : ℕ) (f g : Img) (x y : ℕ) :
    conv K nx ny (fun x y => f x y + g x y) x y = conv K nx ny f x y + conv K nx ny g x y := by
  unfold conv
  rw [← Finset.sum_add_distrib]
  refine Finset.sum_congr rfl fun a _ => ?_
  rw [← Finset.sum_add_distrib]
  refine Finset.sum_congr rfl fun b _ => ?_
  unfold pad
  split_ifs <;> ring

theorem conv_point (K : Kern) (nx ny : ℕ) (p : ℕ × ℕ) (hp : p.1 < nx ∧ p.2 < ny) (v : ℝ) (x y : ℕ) :
    conv K nx ny (point p v) x y =
      if (x : ℤ) - p.1 ∈ box K ∧ (y : ℤ) - p.2 ∈ box K then kernel K (x - p.1) (y - p.2) * v else 0 := by
  unfold conv
  rw [← sum_one K _ _ fun a b => kernel K a b * v]
  refine Finset.sum_congr rfl fun a _ => Finset.sum_congr rfl fun b _ => ?_
  unfold pad point
  by_cases h : a = (x : ℤ) - p.1 ∧ b = (y : ℤ) - p.2
  · rw [if_pos h, if_pos (by omega), if_pos (by omega)]
  · rw [if_neg h]
    split_ifs <;> first | omega | simp

theorem kernel_lt (K : Kern) (hK : K.Ok) (a b : ℤ) (h : (a, b) ≠ (0, 0)) : kernel K a b < kernel K 0 0 := by
  unfold kernel
  rw [raw_zero]
  exact div_lt_div_of_pos_right (raw_lt K hK a b h) (norm_pos K)

theorem kernel_zero_pos (K : Kern) : 0 < kernel K 0 0 := by
  unfold kernel
  rw [raw_zero]
  exact div_pos one_pos (norm_pos K)

/-- Far from a pixel: out of the box around it or of the radius. -/
def Far (K : Kern) (p q : ℕ × ℕ) : Prop :=
  ¬ ((q.1 : ℤ) - p.1 ∈ box K ∧ (q.2 : ℤ) - p.2 ∈ box K ∧ mask K (q.1 - p.1) (q.2 - p.2))

theorem conv_far (K : Kern) (nx ny : ℕ) (p : ℕ × ℕ) (hp : p.1 < nx ∧ p.2 < ny) (v : ℝ) (q : ℕ × ℕ) (hq : Far K p q) :
    conv K nx ny (point p v) q.1 q.2 = 0 := by
  rw [conv_point K nx ny p hp]
  split_ifs with h
  · have : ¬ mask K (q.1 - p.1) (q.2 - p.2) := fun hm => hq ⟨h.1, h.2, hm⟩
    unfold kernel raw
    rw [if_neg this]; simp
  · rfl

theorem smooth_some (K : Kern) (nx ny : ℕ) (img : Img) (q : ℕ × ℕ) (hq : q ∈ inner K nx ny) : ∃ c, smooth K nx ny img = some c := by
  cases h : smooth K nx ny img with
  | some c => exact ⟨c, rfl⟩
  | none =>
    have := (C92_smooth_none K nx ny img).1 h
    have := (mem_inner K nx ny q).1 hq
    omega

theorem in_image (K : Kern) (nx ny : ℕ) (p : ℕ × ℕ) (hp : p ∈ inner K nx ny) : p.1 < nx ∧ p.2 < ny := by
  have := (mem_inner K nx ny p).1 hp
  omega

/-- The smoothed image of one pixel has one peak, which is this pixel. -/
theorem C92_one_peak (K : Kern) (hK : K.Ok) (nx ny : ℕ) (p q : ℕ × ℕ) (hp : p ∈ inner K nx ny) (hq : q ∈ inner K nx ny)
    (hf : Far K p q) (v t : ℝ) (ht : 0 < t) (hv : t ≤ kernel K 0 0 * v) :
    ∃ c, smooth K nx ny (point p v) = some c ∧ peaks K nx ny t c = some [p] := by
  have hpi := in_image K nx ny p hp
  obtain ⟨c, hc⟩ := smooth_some K nx ny (point p v) q hq
  refine ⟨c, hc, ?_⟩
  obtain ⟨m, h1, _, h2⟩ := C92_smooth K nx ny _ c hc
  have hvp : 0 < v := by
    by_contra h
    have := mul_nonpos_of_nonneg_of_nonpos (kernel_zero_pos K).le (not_lt.1 h)
    linarith
  have hcq : c q.1 q.2 = 0 := by rw [(h1 q hq).1, conv_far K nx ny p hpi v q hf]
  have hcp : c p.1 p.2 = kernel K 0 0 * v := by
    rw [(h1 p hp).1, conv_point K nx ny p hpi]
    simp [zero_box]
  have hm : m ≤ 0 := by rw [← hcq]; exact (h1 q hq).2
  obtain ⟨l, hl, hsub, hmem⟩ := C92_peaks K nx ny _ c t hc ⟨q.1, q.2, (in_image K nx ny q hq).1, (in_image K nx ny q hq).2, by rw [hcq]; exact ht⟩
  have hval : ∀ x : ℕ × ℕ, 0 < c x.1 x.2 → (x.1 : ℤ) - p.1 ∈ box K ∧ (x.2 : ℤ) - p.2 ∈ box K ∧ mask K (x.1 - p.1) (x.2 - p.2) ∧
      c x.1 x.2 = kernel K (x.1 - p.1) (x.2 - p.2) * v := by
    intro x hx
    have hxi : x ∈ inner K nx ny := by
      by_contra hn
      rw [h2 x hn] at hx; linarith
    have hnf : ¬ Far K p x := by
      intro hn
      rw [(h1 x hxi).1, conv_far K nx ny p hpi v x hn] at hx
      exact lt_irrefl _ hx
    unfold Far at hnf
    push Not at hnf
    refine ⟨hnf.1, hnf.2.1, hnf.2.2, ?_⟩
    rw [(h1 x hxi).1, conv_point K nx ny p hpi, if_pos ⟨hnf.1, hnf.2.1⟩]
  have hiff : ∀ x, x ∈ l ↔ x = p := by
    intro x
    rw [hmem]
    constructor
    · intro hx
      obtain ⟨b1, b2, b3, b4⟩ := hval x (lt_of_lt_of_le ht hx.reaches)
      by_contra hne
      have hlt : c x.1 x.2 < c p.1 p.2 := by
        rw [b4, hcp]
        apply mul_lt_mul_of_pos_right (kernel_lt K hK _ _ ?_) hvp
        intro h
        apply hne
        simp only [Prod.mk.injEq] at h
        ext <;> omega
      have b1' := (mem_box K _).1 b1
      have b2' := (mem_box K _).1 b2
      have := hx.largest p.1 p.2 hpi.1 hpi.2 (by omega) (by omega) (by omega) (by omega) (by
        unfold mask at b3
        push_cast at b3
        convert b3 using 2 <;> ring)
      linarith
    · rintro rfl
      refine ⟨hpi.1, hpi.2, by rw [hcp]; exact hv, ?_⟩
      intro a b _ _ _ _ _ _ _
      by_cases h0 : 0 < c a b
      · rw [(hval (a, b) h0).2.2.2, hcp]
        apply mul_le_mul_of_nonneg_right _ hvp.le
        by_cases he : (((a, b) : ℕ × ℕ).1 - x.1 : ℤ) = 0 ∧ ((((a, b) : ℕ × ℕ).2 : ℤ) - x.2 : ℤ) = 0
        · rw [he.1, he.2]
        · exact (kernel_lt K hK _ _ (by simpa [Prod.mk.injEq] using he)).le
      · have : 0 ≤ c x.1 x.2 := by rw [hcp]; linarith
        linarith [not_lt.1 h0]
  have hnd : l.Nodup := hsub.nodup (cells_nodup _ _ _ fun i j i' j' h => by simpa using h)
  rw [hl]
  congr 1
  match l, hiff, hnd with
  | [], hiff, _ => exact absurd ((hiff p).2 rfl) (by simp)
  | [x], hiff, _ => rw [(hiff x).1 (by simp)]
  | x :: y :: l, hiff, hnd =>
    exfalso
    have e1 := (hiff x).1 (by simp)
    have e2 := (hiff y).1 (by simp)
    rw [e1, e2] at hnd
    simp at hnd

theorem stamp_point (K : Kern) (nx ny : ℕ) (p : ℕ × ℕ) (hp : p ∈ inner K nx ny) (v w : ℝ) (a b : ℤ) (ha : a ∈ box K) (hb : b ∈ box K) :
    stamp (fun x y => point p v x y + w) p a b = (if a = 0 ∧ b = 0 then v else 0) + w := by
  have h := (mem_inner K nx ny p).1 hp
  have h1 := (mem_box K a).1 ha
  have h2 := (mem_box K b).1 hb
  unfold stamp point
  simp only
  congr 1
  by_cases hz : a = 0 ∧ b = 0
  · rw [if_pos hz, if_pos (by omega)]
  · rw [if_neg hz, if_neg (by omega)]

theorem offsets_length (K : Kern) (w : ℝ) :
    (∑ a ∈ box K, ∑ b ∈ box K, if mask K a b ∧ (a, b) ≠ (0, 0) then w else 0) = (offsets K).length * w := by
  have hnd : (offsets K).Nodup := by
    unfold offsets
    apply List.Nodup.filter
    apply cells_nodup
    intro i j i' j' h
    simp only [Prod.mk.injEq] at h
    omega
  have e : ((box K ×ˢ box K).filter fun d => mask K d.1 d.2 ∧ d ≠ (0, 0)) = (offsets K).toFinset := by
    ext d
    rw [Finset.mem_filter, Finset.mem_product, List.mem_toFinset, mem_offsets]
    tauto
  rw [← Finset.sum_product', ← Finset.sum_filter, ]
  rw [Finset.sum_congr e fun _ _ => rfl, Finset.sum_const, List.toFinset_card_of_nodup hnd, nsmul_eq_mul]

theorem offsets_pos (K : Kern) (hK : K.Ok) : (0 : ℝ) < (offsets K).length := by
  have : ((1, 0) : ℤ × ℤ) ∈ offsets K := by
    rw [mem_offsets]
    have h := hK.h
    refine ⟨(mem_box K _).2 (by simp only; omega), (mem_box K _).2 (by simp only; omega), ?_, by simp⟩
    unfold mask
    have h1 : (1 : ℝ) ≤ K.r := le_trans (by exact_mod_cast h) hK.r
    push_cast
    nlinarith
  exact_mod_cast List.length_pos_of_mem this

theorem around_point (K : Kern) (hK : K.Ok) (nx ny : ℕ) (p : ℕ × ℕ) (hp : p ∈ inner K nx ny) (v w : ℝ) :
    around K (fun x y => point p v x y + w) p = w := by
  unfold around
  have : (∑ a ∈ box K, ∑ b ∈ box K, if mask K a b ∧ (a, b) ≠ (0, 0) then stamp (fun x y => point p v x y + w) p a b else 0) =
      ∑ a ∈ box K, ∑ b ∈ box K, if mask K a b ∧ (a, b) ≠ (0, 0) then w else 0 := by
    refine Finset.sum_congr rfl fun a ha => Finset.sum_congr rfl fun b hb => ?_
    split_ifs with h
    · rw [stamp_point K nx ny p hp v w a b ha hb, if_neg (by simpa [Prod.mk.injEq] using h.2)]
      ring
    · rfl
  rw [this, offsets_length, mul_div_cancel_left₀ _ (offsets_pos K hK).ne']

theorem sharp_point (K : Kern) (hK : K.Ok) (nx ny : ℕ) (p : ℕ × ℕ) (hp : p ∈ inner K nx ny) (v w : ℝ) :
    sharpness K (fun x y => point p v x y + w) p = v / (v + w) := by
  unfold sharpness
  rw [around_point K hK nx ny p hp, stamp_point K nx ny p hp v w 0 0 (zero_box K) (zero_box K)]
  simp [point]

theorem cross_pos (K : Kern) (a : ℤ) : 0 < cross K a := by
  unfold cross
  apply div_pos (Real.exp_pos _)
  exact Finset.sum_pos (fun b _ => Real.exp_pos _) ⟨0, zero_box K⟩

theorem point_sub (p : ℕ × ℕ) (v : ℝ) : (fun x y => point p v x y + 0) = point p v := by funext x y; ring

/-- A single pixel that reaches the threshold when smoothed is found once, at its place, with its value, a sharpness of one and no
roundness. -/
theorem C92_point (K : Kern) (hK : K.Ok) (L : Limits) (nx ny : ℕ) (p q : ℕ × ℕ) (hp : p ∈ inner K nx ny) (hq : q ∈ inner K nx ny)
    (hf : Far K p q) (v t : ℝ) (ht : 0 < t) (hv : t ≤ kernel K 0 0 * v) (hs : L.sharp0 ≤ 1 ∧ 1 ≤ L.sharp1)
    (hr : L.round0 ≤ 0 ∧ 0 ≤ L.round1) :
    find K L nx ny t (fun _ _ => 0) (point p v) = some [⟨some p.1, some p.2, v, 1, 0⟩] := by
  obtain ⟨c, h1, h2⟩ := C92_one_peak K hK nx ny p q hp hq hf v t ht hv
  have hvp : 0 < v := by
    by_contra h
    have := mul_nonpos_of_nonneg_of_nonpos (kernel_zero_pos K).le (not_lt.1 h)
    linarith
  have hst : ∀ a ∈ box K, ∀ b ∈ box K, stamp (point p v) p a b = if a = 0 ∧ b = 0 then v else 0 := by
    intro a ha b hb
    have := stamp_point K nx ny p hp v 0 a b ha hb
    rw [point_sub] at this
    rw [this, add_zero]
  have hsh : sharpness K (point p v) p = 1 := by
    have := sharp_point K hK nx ny p hp v 0
    rw [point_sub] at this
    rw [this, add_zero, div_self hvp.ne']
  have hz := zero_box K
  have hx : profX K (point p v) p = v * cross K 0 := by
    unfold profX
    have : ∀ a ∈ box K, (∑ b ∈ box K, stamp (point p v) p a b) * cross K a = if a = 0 then v * cross K 0 else 0 := by
      intro a ha
      rw [Finset.sum_congr rfl fun b hb => hst a ha b hb]
      by_cases h0 : a = 0
      · subst h0; simp [hz]
      · simp [h0]
    rw [Finset.sum_congr rfl this, Finset.sum_ite_eq', if_pos hz]
  have hy : profY K (point p v) p = v * cross K 0 := by
    unfold profY
    have : ∀ b ∈ box K, (∑ a ∈ box K, stamp (point p v) p a b) * cross K b = if b = 0 then v * cross K 0 else 0 := by
      intro b hb
      rw [Finset.sum_congr rfl fun a ha => hst a ha b hb]
      by_cases h0 : b = 0
      · subst h0; simp [hz]
      · simp [h0]
    rw [Finset.sum_congr rfl this, Finset.sum_ite_eq', if_pos hz]
  have hxp : 0 < v * cross K 0 := mul_pos hvp (cross_pos K 0)
  have hro : roundness K (point p v) p = 0 := by
    unfold roundness
    rw [hx, hy, sub_self, zero_div]
  have hpv : point p v p.1 p.2 = v := by simp [point]
  have hw : whole K (point p v) p = v := by
    unfold whole
    rw [Finset.sum_congr rfl fun a ha => Finset.sum_congr rfl fun b hb => hst a ha b hb, sum_one K 0 0 fun _ _ => v, if_pos ⟨hz, hz⟩]
  have hce : centroid K (point p v) p = some ((p.1 : ℝ), (p.2 : ℝ)) := by
    unfold centroid
    rw [hw, if_neg hvp.ne']
    have e1 : (∑ a ∈ box K, ∑ b ∈ box K, stamp (point p v) p a b * (b : ℝ)) = 0 := by
      refine Finset.sum_eq_zero fun a ha => Finset.sum_eq_zero fun b hb => ?_
      rw [hst a ha b hb]
      split_ifs with h
      · rw [h.2]; simp
      · simp
    have e2 : (∑ a ∈ box K, ∑ b ∈ box K, stamp (point p v) p a b * (a : ℝ)) = 0 := by
      refine Finset.sum_eq_zero fun a ha => Finset.sum_eq_zero fun b hb => ?_
      rw [hst a ha b hb]
      split_ifs with h
      · rw [h.1]; simp
      · simp
    rw [e1, e2]; simp
  have hrep : report K L (point p v) p = some ⟨some p.1, some p.2, v, 1, 0⟩ := by
    unfold report
    rw [if_pos, hce, hpv, hsh, hro]
    · rfl
    · constructor
      · unfold sharpOk
        rw [hpv, if_neg hvp.ne', hsh]
        push Not
        exact hs
      · unfold roundOk
        rw [hx, hy, hro]
        push Not
        exact ⟨⟨hxp, hxp⟩, hr⟩
  unfold find
  have e : (fun x y => point p v x y - (fun _ _ => (0 : ℝ)) x y) = point p v := by funext x y; simp
  rw [e, h1, Option.bind_some, h2, Option.map_some]
  simp [hrep]

/-- The shape is taken from the image with its background: a source that is found is left out when the background, although known, is
high. -/
theorem C92_not_background (K : Kern) (hK : K.Ok) (L : Limits) (nx ny : ℕ) (p q : ℕ × ℕ) (hp : p ∈ inner K nx ny)
    (hq : q ∈ inner K nx ny) (hf : Far K p q) (v t w : ℝ) (ht : 0 < t) (hv : t ≤ kernel K 0 0 * v) (hw : 0 ≤ w)
    (hs : v / (v + w) < L.sharp0) : find K L nx ny t (fun _ _ => w) (fun x y => point p v x y + w) = some [] := by
  obtain ⟨c, h1, h2⟩ := C92_one_peak K hK nx ny p q hp hq hf v t ht hv
  have hvp : 0 < v := by
    by_contra h
    have := mul_nonpos_of_nonneg_of_nonpos (kernel_zero_pos K).le (not_lt.1 h)
    linarith
  have hrep : report K L (fun x y => point p v x y + w) p = none := by
    unfold report
    rw [if_neg]
    rintro ⟨h, _⟩
    unfold sharpOk at h
    have hpv : point p v p.1 p.2 = v := by simp [point]
    simp only [hpv] at h
    rw [if_neg (by linarith : v + w ≠ 0), sharp_point K hK nx ny p hp] at h
    exact h (Or.inl hs)
  unfold find
  have e : (fun x y => point p v x y + w - (fun _ _ => w) x y) = point p v := by funext x y; ring
  simp only [e]
  rw [h1, Option.bind_some, h2, Option.map_some]
  simp [hrep]

/-- The centre of two pixels in neighbouring rows is put between two columns. -/
theorem C92_not_centre (K : Kern) (hK : K.Ok) (p : ℕ × ℕ) (hp : K.h ≤ p.1 ∧ K.h ≤ p.2) (v w : ℝ) (hvw : v + w ≠ 0) :
    centroid K (fun x y => point p v x y + point (p.1 + 1, p.2) w x y) p = some ((p.1 : ℝ), p.2 + w / (v + w)) := by
  have h1b : (1 : ℤ) ∈ box K := (mem_box K 1).2 (by have := hK.h; omega)
  have hz := zero_box K
  have hst : ∀ a ∈ box K, ∀ b ∈ box K, stamp (fun x y => point p v x y + point (p.1 + 1, p.2) w x y) p a b =
      (if a = 0 ∧ b = 0 then v else 0) + if a = 1 ∧ b = 0 then w else 0 := by
    intro a ha b hb
    have h1 := (mem_box K a).1 ha
    have h2 := (mem_box K b).1 hb
    unfold stamp point
    simp only
    congr 1
    · by_cases hz : a = 0 ∧ b = 0
      · rw [if_pos hz, if_pos (by omega)]
      · rw [if_neg hz, if_neg (by omega)]
    · by_cases hz : a = 1 ∧ b = 0
      · rw [if_pos hz, if_pos (by omega)]
      · rw [if_neg hz, if_neg (by omega)]
  have hsum : ∀ f : ℤ → ℤ → ℝ, (∑ a ∈ box K, ∑ b ∈ box K, stamp (fun x y => point p v x y + point (p.1 + 1, p.2) w x y) p a b * f a b) =
      v * f 0 0 + w * f 1 0 := by
    intro f
    have : ∀ a ∈ box K, ∀ b ∈ box K, stamp (fun x y => point p v x y + point (p.1 + 1, p.2) w x y) p a b * f a b =
        (if a = 0 ∧ b = 0 then v * f a b else 0) + if a = 1 ∧ b = 0 then w * f a b else 0 := by
      intro a ha b hb
      rw [hst a ha b hb]
      split_ifs <;> ring
    rw [Finset.sum_congr rfl fun a ha => Finset.sum_congr rfl fun b hb => this a ha b hb]
    simp only [Finset.sum_add_distrib]
    rw [sum_one K 0 0 fun a b => v * f a b, sum_one K 1 0 fun a b => w * f a b, if_pos ⟨hz, hz⟩, if_pos ⟨h1b, hz⟩]
  have hw : whole K (fun x y => point p v x y + point (p.1 + 1, p.2) w x y) p = v + w := by
    have := hsum fun _ _ => 1
    simp only [mul_one] at this
    exact this
  unfold centroid
  rw [hw, if_neg hvw, hsum fun _ b => (b : ℝ), hsum fun a _ => (a : ℝ)]
  simp

end Verif.Analysis
