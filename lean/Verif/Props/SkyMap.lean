import Verif.Model.SkyMap
/-!
# C93: sky maps and overlays
-/
namespace Verif.SkyMap

open Classical

/-! ## Interpolation -/

/-- Interpolation is defined between the first and the last point. -/
theorem C93_range (p q : ℝ × ℝ) (l : List (ℝ × ℝ)) (h : (p :: q :: l).Pairwise fun a b => a.1 < b.1) (x : ℝ) :
    (linear (p :: q :: l) x).isSome = true ↔ p.1 ≤ x ∧ x ≤ ((q :: l).getLast (by simp)).1 := by
  induction l generalizing p q with
  | nil =>
    simp only [linear, List.getLast_singleton]
    split_ifs with h1 h2
    · simp; intro h3; linarith
    · simp; exact ⟨not_lt.1 h1, h2⟩
    · simp; intro _; exact not_le.1 h2
  | cons r l ih =>
    have hq := List.pairwise_cons.1 h
    have hr := List.pairwise_cons.1 hq.2
    have hlast : q.1 ≤ ((r :: l).getLast (by simp)).1 := (hr.1 _ (List.getLast_mem _)).le
    rw [linear]
    rw [List.getLast_cons (by simp)]
    split_ifs with h1 h2
    · simp; intro h3; linarith
    · simp only [Option.isSome_some, true_iff]
      exact ⟨not_lt.1 h1, le_trans h2 hlast⟩
    · rw [ih q r hq.2]
      constructor
      · rintro ⟨h3, h4⟩; exact ⟨not_lt.1 h1, h4⟩
      · rintro ⟨_, h4⟩; exact ⟨(not_le.1 h2).le, h4⟩

/-- Points on a line are interpolated by this line. -/
theorem C93_line (a b : ℝ) (l : List (ℝ × ℝ)) (h : l.Pairwise fun p q => p.1 < q.1) (hl : ∀ p ∈ l, p.2 = a + b * p.1) (x v : ℝ)
    (hv : linear l x = some v) : v = a + b * x := by
  induction l with
  | nil => simp [linear] at hv
  | cons p l ih =>
    cases l with
    | nil => simp [linear] at hv
    | cons q l =>
      have hp := List.pairwise_cons.1 h
      rw [linear] at hv
      split_ifs at hv with h1 h2
      · cases hv
        have e1 := hl p (by simp)
        have e2 := hl q (by simp)
        have hne : q.1 - p.1 ≠ 0 := by have := hp.1 q (by simp); linarith
        rw [e1, e2]
        have : (a + b * q.1 - (a + b * p.1)) / (q.1 - p.1) = b := by
          rw [div_eq_iff hne]; ring
        rw [this]; ring
      · exact ih hp.2 (fun p hp => hl p (by simp [hp])) hv

/-- The points themselves are kept. -/
theorem C93_node (p q : ℝ × ℝ) (l : List (ℝ × ℝ)) (h : (p :: q :: l).Pairwise fun a b => a.1 < b.1) (r : ℝ × ℝ)
    (hr : r ∈ p :: q :: l) : linear (p :: q :: l) r.1 = some r.2 := by
  induction l generalizing p q with
  | nil =>
    have hp := List.pairwise_cons.1 h
    have hlt := hp.1 q (by simp)
    have hne : q.1 - p.1 ≠ 0 := by linarith
    rw [linear]
    simp only [List.mem_cons, List.not_mem_nil, or_false] at hr
    rcases hr with rfl | rfl
    · rw [if_neg (lt_irrefl _), if_pos hlt.le]; simp
    · rw [if_neg (by linarith), if_pos le_rfl, mul_div_cancel₀ _ hne]; simp
  | cons s l ih =>
    have hp := List.pairwise_cons.1 h
    have hlt := hp.1 q (by simp)
    have hne : q.1 - p.1 ≠ 0 := by linarith
    rw [linear]
    rcases List.mem_cons.1 hr with rfl | hr
    · rw [if_neg (lt_irrefl _), if_pos hlt.le]; simp
    rcases List.mem_cons.1 hr with rfl | hr'
    · rw [if_neg (by linarith), if_pos le_rfl, mul_div_cancel₀ _ hne]; simp
    · have h1 := hp.1 r (by simp [hr'])
      have h2 := (List.pairwise_cons.1 hp.2).1 r hr'
      rw [if_neg (by linarith), if_neg (by linarith)]
      exact ih q s hp.2 hr

/-- Scales that follow a power law of the frequency do so at all frequencies between. -/
theorem C93_power_law (A α : ℝ) (hA : 0 < A) (survey : List (ℝ × ℝ)) (hf : ∀ p ∈ survey, 0 < p.1)
    (hs : survey.Pairwise fun p q => p.1 < q.1) (hp : ∀ p ∈ survey, p.2 = A * p.1 ^ α) (f s : ℝ) (hf' : 0 < f)
    (h : scale survey f = some s) : s = A * f ^ α := by
  unfold scale at h
  rw [Option.map_eq_some_iff] at h
  obtain ⟨v, hv, rfl⟩ := h
  have := C93_line (Real.log A) α _ ?_ ?_ _ v hv
  · rw [this, Real.exp_add, Real.exp_log hA, mul_comm α, Real.rpow_def_of_pos hf']
  · rw [List.pairwise_map]
    refine hs.imp_of_mem ?_
    intro a b ha hb hab
    exact Real.log_lt_log (hf a ha) hab
  · intro p hp'
    obtain ⟨q, hq, rfl⟩ := List.mem_map.1 hp'
    simp only
    rw [hp q hq, Real.log_mul hA.ne' (Real.rpow_pos_of_pos (hf q hq) α).ne', Real.log_rpow (hf q hq)]

theorem foldl_sum (l : List ℝ) (a : ℝ) : l.foldl (· + ·) a = a + l.sum := by
  induction l generalizing a with
  | nil => simp
  | cons x l ih => simp only [List.foldl_cons, List.sum_cons, ih]; ring

/-- Every pixel is the sum of its maps with the components, times the scale. -/
theorem C93_mix (cs ms : List ℝ) (s : ℝ) : mix cs ms s = (List.zipWith (· * ·) cs ms).sum * s := by
  unfold mix
  rw [foldl_sum, zero_add]

/-- Every position becomes a pixel, in order and in degrees. -/
theorem C93_load (survey : List (ℝ × ℝ)) (comps : ℝ → Option (List ℝ)) (data : List ((ℝ × ℝ) × List ℝ)) (f : ℝ) (sky : List Pix)
    (h : load survey comps data f = some sky) :
    ∃ cs s, comps (Real.log f) = some cs ∧ scale survey f = some s ∧ sky.length = data.length ∧
      ∀ (i : ℕ) (d : (ℝ × ℝ) × List ℝ), data[i]? = some d → ∃ p : Pix, sky[i]? = some p ∧ p.ra * Real.pi = d.1.1 * 180 ∧ p.dec * Real.pi = d.1.2 * 180 ∧
        p.power = mix cs d.2 s := by
  unfold load at h
  rw [Option.bind_eq_some_iff] at h
  obtain ⟨cs, h1, h2⟩ := h
  rw [Option.map_eq_some_iff] at h2
  obtain ⟨s, h3, rfl⟩ := h2
  refine ⟨cs, s, h1, h3, by simp, ?_⟩
  intro i d hd
  refine ⟨⟨d.1.1 / (Real.pi / 180), d.1.2 / (Real.pi / 180), mix cs d.2 s⟩, by simp [hd], ?_, ?_, rfl⟩
  · have := Real.pi_pos.ne'
    simp only
    rw [div_div_eq_mul_div, div_mul_cancel₀ _ this]
  · have := Real.pi_pos.ne'
    simp only
    rw [div_div_eq_mul_div, div_mul_cancel₀ _ this]

/-! ## The visible sky -/

theorem compress_map {α β : Type} (f : α → Bool) (g : α → β) (l : List α) : compress (l.map f) (l.map g) = (l.filter f).map g := by
  unfold compress
  induction l with
  | nil => rfl
  | cons a l ih =>
    simp only [List.map_cons, List.zip_cons_cons, List.filterMap_cons, List.filter_cons]
    cases h : f a
    · simpa using ih
    · simpa using ih

/-- All columns are those of the pixels above the horizon, in the same order. -/
theorem C93_columns (shape : Option (ℕ × ℕ)) (hz : ℝ × ℝ → ℝ × ℝ) (sky : List Pix) (lat lon : ℝ) (P : Proj)
    (h : project shape hz sky lat lon = some P) :
    ∃ up : List Pix, up = sky.filter (fun p => decide (0 < (hz (p.ra, p.dec)).1)) ∧ P.alt = up.map (fun p => (hz (p.ra, p.dec)).1) ∧
      P.az = up.map (fun p => (hz (p.ra, p.dec)).2) ∧ P.power = up.map Pix.power ∧
      P.normalized = up.map (fun p => p.power * fraction shape) ∧ P.ra = up.map Pix.ra ∧ P.dec = up.map Pix.dec := by
  unfold project at h
  split_ifs at h
  cases h
  refine ⟨_, rfl, ?_, ?_, ?_, ?_, ?_, ?_⟩ <;> simp only [List.map_map] <;> rw [compress_map] <;> rfl

/-- Sites off the Earth are refused, and only they. -/
theorem C93_site (shape : Option (ℕ × ℕ)) (hz : ℝ × ℝ → ℝ × ℝ) (sky : List Pix) (lat lon : ℝ) :
    project shape hz sky lat lon = none ↔ lat < -90 ∨ 90 < lat ∨ lon < -360 ∨ 360 < lon := by
  unfold project
  split_ifs with h
  · simp only [false_iff]
    rintro (h1 | h1 | h1 | h1) <;> linarith [h.1.1, h.1.2, h.2.1, h.2.2]
  · simp only [true_iff]
    by_contra hc
    push Not at hc
    exact h ⟨⟨hc.1, hc.2.1⟩, hc.2.2.1, hc.2.2.2⟩

/-- Direction cosines are of length one and point upwards. -/
theorem C93_cosines (shape : Option (ℕ × ℕ)) (hz : ℝ × ℝ → ℝ × ℝ) (sky : List Pix) (lat lon : ℝ) (P : Proj)
    (h : project shape hz sky lat lon = some P) (h90 : ∀ q, (hz q).1 ≤ 90) :
    (cosines P).length = P.power.length ∧ ∀ c ∈ cosines P, c.1 ^ 2 + c.2.1 ^ 2 + c.2.2 ^ 2 = 1 ∧ 0 < c.2.2 := by
  obtain ⟨up, hup, h1, h2, h3, _⟩ := C93_columns shape hz sky lat lon P h
  unfold cosines
  rw [h1, h2, h3]
  refine ⟨by simp, ?_⟩
  intro c hc
  rw [List.zipWith_map_left, List.zipWith_map_right, List.zipWith_self] at hc
  obtain ⟨p, hp, rfl⟩ := List.mem_map.1 hc
  rw [hup] at hp
  have hpos := of_decide_eq_true (List.mem_filter.1 hp).2
  have hle := h90 (p.ra, p.dec)
  simp only
  refine ⟨?_, ?_⟩
  · have e1 := Real.sin_sq_add_cos_sq ((hz (p.ra, p.dec)).1 * (Real.pi / 180))
    have e2 := Real.sin_sq_add_cos_sq ((hz (p.ra, p.dec)).2 * (Real.pi / 180))
    calc _ = Real.cos ((hz (p.ra, p.dec)).1 * (Real.pi / 180)) ^ 2 *
        (Real.sin ((hz (p.ra, p.dec)).2 * (Real.pi / 180)) ^ 2 + Real.cos ((hz (p.ra, p.dec)).2 * (Real.pi / 180)) ^ 2) +
        Real.sin ((hz (p.ra, p.dec)).1 * (Real.pi / 180)) ^ 2 := by ring
      _ = 1 := by rw [e2, mul_one]; linarith
  · have hpi := Real.pi_pos
    apply Real.sin_pos_of_pos_of_lt_pi
    · positivity
    · nlinarith

theorem sum_mul_right (l : List Pix) (k : ℝ) : (l.map fun p => p.power * k).sum = (l.map Pix.power).sum * k := by
  induction l with
  | nil => simp
  | cons a l ih => simp only [List.map_cons, List.sum_cons, ih]; ring

theorem filter_sum_le (l : List Pix) (f : Pix → Bool) (h : ∀ p ∈ l, 0 ≤ p.power) :
    0 ≤ ((l.filter f).map Pix.power).sum ∧ ((l.filter f).map Pix.power).sum ≤ (l.map Pix.power).sum := by
  induction l with
  | nil => simp
  | cons a l ih =>
    have h1 := ih fun p hp => h p (by simp [hp])
    have h2 := h a (by simp)
    simp only [List.filter_cons]
    split_ifs
    · simp only [List.map_cons, List.sum_cons]; constructor <;> linarith
    · simp only [List.map_cons, List.sum_cons]; constructor <;> linarith

theorem solid_nonneg (shape : Option (ℕ × ℕ)) : 0 ≤ solid shape := by
  unfold solid
  split
  · positivity
  · norm_num

/-- The visible power is the sum over the pixels above the horizon times the factor; it is at most that of the whole sky; it raises
exactly if there are none. -/
theorem C93_visible (shape : Option (ℕ × ℕ)) (hz : ℝ × ℝ → ℝ × ℝ) (sky : List Pix) (lat lon : ℝ) (P : Proj)
    (h : project shape hz sky lat lon = some P) :
    (visible P = none ↔ ∀ p ∈ sky, (hz (p.ra, p.dec)).1 ≤ 0) ∧
    ∀ v, visible P = some v → v = (P.power).sum * fraction shape ∧
      ((∀ p ∈ sky, 0 ≤ p.power) → ∃ t, total sky = some t ∧ 0 ≤ v ∧ v ≤ t * fraction shape) := by
  obtain ⟨up, hup, h1, h2, h3, h4, _⟩ := C93_columns shape hz sky lat lon P h
  have hn : P.normalized = [] ↔ ∀ p ∈ sky, (hz (p.ra, p.dec)).1 ≤ 0 := by
    rw [h4, List.map_eq_nil_iff, hup, List.filter_eq_nil_iff]
    simp
  constructor
  · unfold visible
    split_ifs with h0
    · simpa using hn.1 h0
    · simp only [false_iff]
      exact fun hc => h0 (hn.2 hc)
  · intro v hv
    unfold visible at hv
    split_ifs at hv with h0
    cases hv
    have e : P.normalized.foldl (· + ·) 0 = (P.power).sum * fraction shape := by
      rw [foldl_sum, zero_add, h4, h3, sum_mul_right]
    refine ⟨e, fun hp => ?_⟩
    have hne : sky ≠ [] := by
      rintro rfl
      exact h0 (hn.2 (by simp))
    refine ⟨_, by unfold total; rw [if_neg hne], ?_⟩
    rw [e, h3, hup]
    have h5 := filter_sum_le sky (fun p => decide (0 < (hz (p.ra, p.dec)).1)) hp
    have h6 : 0 ≤ fraction shape := by
      unfold fraction
      exact mul_nonneg (by have := Real.pi_pos; linarith) (solid_nonneg shape)
    exact ⟨mul_nonneg h5.1 h6, mul_le_mul_of_nonneg_right h5.2 h6⟩

/-- The factor of a pixel is pi squared times its share of the sphere: it is multiplied by a quarter of pi instead of being divided by
four pi. -/
theorem C93_not_mean (shape : Option (ℕ × ℕ)) : fraction shape = Real.pi ^ 2 * (solid shape / (4 * Real.pi)) := by
  have := Real.pi_pos.ne'
  unfold fraction
  field_simp

/-- A map with a known number of pixels has a whole sky of four times pi squared instead of four pi. -/
theorem C93_not_sphere (x y : ℕ) (hx : 0 < x) (hy : 0 < y) : (x * y : ℝ) * solid (some (x, y)) = 4 * Real.pi ^ 2 := by
  have hx' : (x : ℝ) ≠ 0 := by exact_mod_cast hx.ne'
  have hy' : (y : ℝ) ≠ 0 := by exact_mod_cast hy.ne'
  unfold solid
  simp only
  field_simp
  ring

/-- One pixel in the zenith. -/
example : ∃ P, project none (fun _ => (90, 0)) [⟨0, 0, 1⟩] 34 (-107) = some P ∧ visible P = some (fraction none) := by
  refine ⟨_, by unfold project; rw [if_pos (by norm_num)], ?_⟩
  simp [visible, compress]

/-! ## Overlays -/

/-- Radians give what degrees give. -/
theorem C93_radians (equ : ℝ → ℝ → ℝ → ℝ × ℝ) (date offset az alt : ℝ) :
    radec equ date offset (az * Real.pi / 180) (alt * Real.pi / 180) false =
      ((radec equ date offset az alt true).1 * Real.pi / 180, (radec equ date offset az alt true).2 * Real.pi / 180) := by
  have hp := Real.pi_pos.ne'
  unfold radec
  simp only [Bool.false_eq_true, if_false, if_true]
  have e : ∀ x : ℝ, x * Real.pi / 180 * 180 / Real.pi = x := by
    intro x; field_simp
  rw [e, e]

/-- The azimuth is taken within a turn. -/
theorem C93_azimuth (equ : ℝ → ℝ → ℝ → ℝ × ℝ) (date offset az alt : ℝ) :
    ∃ a, (0 ≤ a ∧ a < 360) ∧ (∃ k : ℤ, az = a + 360 * k) ∧ radecDeg equ date offset az alt = equ alt a (date + offset) := by
  have h1 := Int.floor_le (az / 360)
  have h2 := Int.lt_floor_add_one (az / 360)
  have e : az = 360 * (az / 360) := by ring
  exact ⟨az - 360 * ⌊az / 360⌋, ⟨by linarith, by linarith⟩, ⟨⌊az / 360⌋, by ring⟩, rfl⟩

theorem drawAll_ok (jd : ℝ) (label : Bool) (srcs : List (String × Source)) :
    (drawAll jd label srcs).2 = true ↔ ∀ s ∈ srcs, (s.2 jd).isSome = true := by
  induction srcs with
  | nil => simp [drawAll]
  | cons s l ih =>
    obtain ⟨name, src⟩ := s
    simp only [drawAll]
    cases h : src jd with
    | none => simp [h]
    | some q =>
      obtain ⟨⟨x, y⟩, alt⟩ := q
      simp [h, ih]

/-- When it returns the array has the date it had, and what is marked are the sources above the horizon at the date of the image. -/
theorem C93_sources_partial (mjd offset old : ℝ) (label : Bool) (srcs : List (String × Source))
    (h : ∀ s ∈ srcs, (s.2 (mjd + offset)).isSome = true) :
    (sources mjd offset old label srcs).2 = (true, old) ∧
    (∀ x y, Draw.marker x y ∈ (sources mjd offset old label srcs).1 ↔ ∃ s ∈ srcs, ∃ alt, s.2 (mjd + offset) = some ((x, y), alt) ∧ 0 ≤ alt) ∧
    (∀ x y n, Draw.text x y n ∈ (sources mjd offset old label srcs).1 ↔
      label = true ∧ ∃ src, (n, src) ∈ srcs ∧ ∃ alt, src (mjd + offset) = some ((x, y), alt) ∧ 0 ≤ alt) := by
  have hok := (drawAll_ok (mjd + offset) label srcs).2 h
  refine ⟨?_, ?_, ?_⟩
  · unfold sources
    simp [hok]
  · intro x y
    change Draw.marker x y ∈ (drawAll (mjd + offset) label srcs).1 ↔ _
    clear hok
    induction srcs with
    | nil => simp [drawAll]
    | cons s l ih =>
      obtain ⟨name, src⟩ := s
      have ih := ih fun s hs => h s (by simp [hs])
      simp only [drawAll]
      cases hq : src (mjd + offset) with
      | none => have := h (name, src) (by simp); simp [hq] at this
      | some q =>
        obtain ⟨⟨x', y'⟩, alt⟩ := q
        simp only [List.mem_append, ih, List.mem_cons, exists_eq_or_imp, hq, Option.some.injEq, Prod.mk.injEq]
        by_cases ha : 0 ≤ alt
        · cases label <;> simp [ha, eq_comm]
        · cases label <;> simp [ha]
  · intro x y n
    change Draw.text x y n ∈ (drawAll (mjd + offset) label srcs).1 ↔ _
    clear hok
    induction srcs with
    | nil => simp [drawAll]
    | cons s l ih =>
      obtain ⟨name, src⟩ := s
      have ih := ih fun s hs => h s (by simp [hs])
      simp only [drawAll]
      cases hq : src (mjd + offset) with
      | none => have := h (name, src) (by simp); simp [hq] at this
      | some q =>
        obtain ⟨⟨x', y'⟩, alt⟩ := q
        simp only [List.mem_append, ih, List.mem_cons, Prod.mk.injEq]
        cases label
        · by_cases ha : 0 ≤ alt <;> simp [ha]
        · simp only [if_true, true_and]
          constructor
          · rintro (h1 | ⟨s, h1, h2⟩)
            · by_cases ha : 0 ≤ alt
              · rw [if_pos ha] at h1
                simp at h1
                obtain ⟨rfl, rfl, rfl⟩ := h1
                exact ⟨src, Or.inl ⟨rfl, rfl⟩, alt, hq, ha⟩
              · rw [if_neg ha] at h1; simp at h1
            · exact ⟨s, Or.inr h1, h2⟩
          · rintro ⟨s, ⟨rfl, rfl⟩ | h1, a, h2, h3⟩
            · rw [hq] at h2
              cases h2
              left
              rw [if_pos h3]
              simp
            · exact Or.inr ⟨s, h1, a, h2, h3⟩

/-- A source that cannot be computed leaves the date of the image in the array. -/
theorem C93_not_restored (mjd offset old : ℝ) (label : Bool) (srcs : List (String × Source)) (s : String × Source) (hs : s ∈ srcs)
    (h : s.2 (mjd + offset) = none) : (sources mjd offset old label srcs).2 = (false, mjd + offset) := by
  have hok : (drawAll (mjd + offset) label srcs).2 = false := by
    cases hb : (drawAll (mjd + offset) label srcs).2
    · rfl
    · have := (drawAll_ok (mjd + offset) label srcs).1 hb s hs
      rw [h] at this
      cases this
  unfold sources
  simp [hok]

/-- A label has a place on the line exactly if more than ten points of it are on the image. -/
theorem C93_label (points : List (Option (ℝ × ℝ))) :
    ((labelAt points).isSome = true ↔ 10 < (points.filterMap id).length) ∧ ∀ q, labelAt points = some q → some q ∈ points := by
  unfold labelAt
  constructor
  · simp only
    split_ifs with h
    · have : (points.filterMap id).length / 2 - (points.filterMap id).length / 5 < (points.filterMap id).length := by omega
      rw [List.getElem?_eq_getElem this]
      simpa using h
    · simpa using h
  · intro q hq
    simp only at hq
    split_ifs at hq with h
    have := List.mem_of_getElem? hq
    obtain ⟨p, hp, he⟩ := List.mem_filterMap.1 this
    simp only [id] at he
    rw [he] at hp
    exact hp

end Verif.SkyMap
