import Verif.Lemmas.Rst
import Mathlib.Tactic.LinearCombination
/-! # C101: rise, set and transit times -/
namespace Verif.Rst

/-! ## The rough search -/

/-- What is found between two lower culminations: the first and the last sample above the horizon, and the middle of them. -/
theorem C101_rough (body : Bool) (n : Nat) (down up : Nat → Bool) (r s t : Nat) (h : coarse body n down up = .ok (some (r, s, t))) :
    ∃ a b, a ∈ drops down n ∧ (b ∈ drops down n ∨ body = true ∧ b = n) ∧ a ≤ r ∧ r ≤ s ∧ s < b ∧ up r = true ∧ up s = true ∧ t = (r + s) / 2 ∧
      (∀ k, a ≤ k → k < r → up k = false) ∧ (∀ k, s < k → k < b → up k = false) := by
  have hp : ∀ a b, pick up a b = .ok (some (r, s, t)) → a ≤ r ∧ r ≤ s ∧ s < b ∧ up r = true ∧ up s = true ∧ t = (r + s) / 2 ∧
      (∀ k, a ≤ k → k < r → up k = false) ∧ (∀ k, s < k → k < b → up k = false) := by
    intro a b hab
    unfold pick at hab
    split at hab
    · rename_i i j hi hj
      simp only [Except.ok.injEq, Option.some.injEq, Prod.mk.injEq] at hab
      obtain ⟨rfl, rfl, rfl⟩ := hab
      obtain ⟨h1, h2, h3⟩ := filter_head hi
      obtain ⟨h4, h5, h6⟩ := filter_last hj
      refine ⟨by omega, ?_, by omega, by rw [Nat.add_comm]; exact h2, by rw [Nat.add_comm]; exact h5, rfl, ?_, ?_⟩
      · have : i ≤ j := by
          by_contra hc
          have := h3 j (by omega)
          rw [h5] at this; cases this
        omega
      · intro k h7 h8
        have := h3 (k - a) (by omega)
        rwa [show a + (k - a) = k by omega] at this
      · intro k h7 h8
        have := h6 (k - a) (by omega) (by omega)
        rwa [show a + (k - a) = k by omega] at this
    · cases hab
  unfold coarse at h
  split at h
  · cases h
  · rename_i a hd
    split at h
    · rename_i hb
      obtain ⟨h1, h2⟩ := hp a n h
      exact ⟨a, n, by rw [hd]; simp, .inr ⟨hb, rfl⟩, h1, h2⟩
    · cases h
  · rename_i a b l hd
    obtain ⟨h1, h2⟩ := hp a b h
    exact ⟨a, b, by rw [hd]; simp, .inl (by rw [hd]; simp), h1, h2⟩

/-- Something that is never up between its first two lower culminations is an `IndexError`, not the `None` of the description. -/
theorem C101_not_never_up (body : Bool) (n a b : Nat) (l : List Nat) (down up : Nat → Bool) (hd : drops down n = a :: b :: l)
    (hu : ∀ k, a ≤ k → k < b → up k = false) : coarse body n down up = .error .index := by
  unfold coarse
  rw [hd]
  simp only [pick]
  have : (List.range (b - a)).filter (fun i => up (a + i)) = [] := by
    rw [List.filter_eq_nil_iff]
    intro i hi
    rw [hu (a + i) (by omega) (by have := List.mem_range.mp hi; omega)]; simp
  rw [this]; rfl

/-- Without a jump of the azimuth there is no result, whatever the altitude. -/
theorem C101_no_jump (body : Bool) (n : Nat) (down up : Nat → Bool) (h : ∀ k, k + 1 < n → down k = false) : coarse body n down up = .ok none := by
  have : drops down n = [] := by
    unfold drops
    rw [List.filter_eq_nil_iff]
    intro k hk
    rw [h k (by have := List.mem_range.mp hk; omega)]; simp
  unfold coarse
  rw [this]

/-! ## The fine search -/

variable {K : Type} [Field K] [LinearOrder K] [IsStrictOrderedRing K]

omit [LinearOrder K] [IsStrictOrderedRing K] in
theorem fine_get (alt : K → K) (t0 off : K) (scale i : Nat) (h : i < ((fine t0 off scale).map (fun t => (alt t, t))).length) :
    ((fine t0 off scale).map (fun t => (alt t, t)))[i] = (alt (fineTime t0 off scale i), fineTime t0 off scale i) := by
  simp [fine]

omit [LinearOrder K] [IsStrictOrderedRing K] in
theorem fine_length (alt : K → K) (t0 off : K) (scale : Nat) : ((fine t0 off scale).map (fun t => (alt t, t))).length = 2 * scale + 1 := by
  simp [fine]

theorem fine_bounds (t0 off : K) (scale i : Nat) (h : i < 2 * scale + 1) :
    t0 + off - (scale : K) / 1440 ≤ fineTime t0 off scale i ∧ fineTime t0 off scale i ≤ t0 + off + (scale : K) / 1440 := by
  unfold fineTime
  have h1 : (0 : K) ≤ (i : K) := Nat.cast_nonneg i
  have h2 : (i : K) ≤ 2 * (scale : K) := by
    have : ((i : Nat) : K) ≤ ((2 * scale : Nat) : K) := Nat.cast_le.mpr (by omega)
    push_cast at this; exact this
  constructor
  · have : (0 : K) ≤ (i : K) / 1440 := by positivity
    linarith
  · have : (i : K) / 1440 ≤ 2 * (scale : K) / 1440 := by gcongr
    have : 2 * (scale : K) / 1440 = (scale : K) / 1440 + (scale : K) / 1440 := by ring
    linarith

theorem fine_lt (t0 off : K) (scale i j : Nat) (h : i < j) : fineTime t0 off scale i < fineTime t0 off scale j := by
  unfold fineTime
  have h1 : ((i : Nat) : K) < (j : K) := Nat.cast_lt.mpr h
  have : (i : K) / 1440 < (j : K) / 1440 := by gcongr
  linarith

theorem fine_next (t0 off : K) (scale i : Nat) : fineTime t0 off scale (i + 1) = fineTime t0 off scale i + 1 / 1440 := by
  unfold fineTime; push_cast; ring

theorem split_get {α : Type} (l pre post : List α) (p q : α) (h : l = pre ++ p :: q :: post) :
    ∃ (h1 : pre.length < l.length) (h2 : pre.length + 1 < l.length), l[pre.length] = p ∧ l[pre.length + 1] = q := by
  subst h
  refine ⟨by simp, by simp, ?_, ?_⟩
  · simp
  · rw [List.getElem_append_right (by omega)]; simp

/-- Rising: with an altitude that grows through the horizon within the window, the time is right to a minute. -/
theorem C101_rise (alt : K → K) (t0 off z : K) (scale : Nat)
    (hm : ∀ x y, t0 + off - (scale : K) / 1440 ≤ x → x < y → y ≤ t0 + off + (scale : K) / 1440 → alt x < alt y)
    (hz1 : t0 + off - (scale : K) / 1440 ≤ z) (hz2 : z ≤ t0 + off + (scale : K) / 1440) (hz : alt z = 0) (hs : 1 ≤ scale) :
    ∃ r, cross ((fine t0 off scale).map (fun t => (alt t, t))) = some r ∧ |r - z| ≤ 1 / 1440 := by
  set l := (fine t0 off scale).map (fun t => (alt t, t)) with hl
  have hlen : l.length = 2 * scale + 1 := fine_length alt t0 off scale
  have hmono : l.Pairwise (fun a b => a.1 < b.1) := by
    rw [List.pairwise_iff_getElem]
    intro i j hi hj hij
    rw [fine_get alt t0 off scale i hi, fine_get alt t0 off scale j hj]
    exact hm _ _ (fine_bounds t0 off scale i (by omega)).1 (fine_lt t0 off scale i j hij) (fine_bounds t0 off scale j (by omega)).2
  have hz_le : ∀ y, t0 + off - (scale : K) / 1440 ≤ y → y ≤ t0 + off + (scale : K) / 1440 → alt y ≤ 0 → y ≤ z := by
    intro y h1 h2 h3
    by_contra hc
    have := hm z y hz1 (not_le.mp hc) h2
    rw [hz] at this; linarith
  have hz_ge : ∀ y, t0 + off - (scale : K) / 1440 ≤ y → y ≤ t0 + off + (scale : K) / 1440 → 0 ≤ alt y → z ≤ y := by
    intro y h1 h2 h3
    by_contra hc
    have := hm y z h1 (not_le.mp hc) hz2
    rw [hz] at this; linarith
  have hf0 : fineTime t0 off scale 0 = t0 + off - (scale : K) / 1440 := by unfold fineTime; push_cast; ring
  have he0 : fineTime t0 off scale (2 * scale) = t0 + off + (scale : K) / 1440 := by unfold fineTime; push_cast; ring
  have hhead : l.head? = some (alt (fineTime t0 off scale 0), fineTime t0 off scale 0) := by
    rw [List.head?_eq_getElem?, List.getElem?_eq_getElem (by omega), fine_get]
  have hlast : l.getLast? = some (alt (fineTime t0 off scale (2 * scale)), fineTime t0 off scale (2 * scale)) := by
    rw [List.getLast?_eq_getElem?, hlen, List.getElem?_eq_getElem (by omega), fine_get]; rfl
  have h1 : alt (fineTime t0 off scale 0) ≤ 0 := by
    rw [hf0]
    rcases eq_or_lt_of_le hz1 with h | h
    · rw [h, hz]
    · rw [← hz]; exact le_of_lt (hm _ _ le_rfl h hz2)
  have h2 : 0 ≤ alt (fineTime t0 off scale (2 * scale)) := by
    rw [he0]
    rcases eq_or_lt_of_le hz2 with h | h
    · rw [← h, hz]
    · rw [← hz]; exact le_of_lt (hm _ _ hz1 h le_rfl)
  obtain ⟨p, q, pre, post, hb, hsplit, hp0, hq0⟩ := bracket_spec l (by omega) _ _ hhead hlast h1 h2
  obtain ⟨g1, g2, e1, e2⟩ := split_get l pre post p q hsplit
  rw [fine_get] at e1 e2
  refine ⟨onLine p q, ?_, ?_⟩
  · unfold cross
    simp only [sort_sorted l hmono, hhead, hlast, hb, Option.map_some]
    rw [if_neg (by push Not; exact ⟨h1, h2⟩)]
  · have hpq : p.1 < q.1 := by
      rw [← e1, ← e2]
      exact hm _ _ (fine_bounds t0 off scale _ (by omega)).1 (fine_lt t0 off scale _ _ (by omega)) (fine_bounds t0 off scale _ (by omega)).2
    obtain ⟨w, hw0, hw1, hw⟩ := onLine_between p q hp0 hq0 hpq
    have hq2 : q.2 = p.2 + 1 / 1440 := by rw [← e1, ← e2]; exact fine_next t0 off scale _
    have hzp : p.2 ≤ z := by
      have := fine_bounds t0 off scale pre.length (by omega)
      rw [← e1] at hp0 ⊢
      exact hz_le _ this.1 this.2 hp0
    have hzq : z ≤ q.2 := by
      have := fine_bounds t0 off scale (pre.length + 1) (by omega)
      rw [← e2] at hq0 ⊢
      exact hz_ge _ this.1 this.2 hq0
    rw [hw, hq2] at *
    rw [abs_le]
    constructor
    · nlinarith
    · nlinarith

/-- Setting: the same for an altitude that falls through the horizon. -/
theorem C101_set (alt : K → K) (t0 off z : K) (scale : Nat)
    (hm : ∀ x y, t0 + off - (scale : K) / 1440 ≤ x → x < y → y ≤ t0 + off + (scale : K) / 1440 → alt y < alt x)
    (hz1 : t0 + off - (scale : K) / 1440 ≤ z) (hz2 : z ≤ t0 + off + (scale : K) / 1440) (hz : alt z = 0) (hs : 1 ≤ scale) :
    ∃ r, cross ((fine t0 off scale).map (fun t => (alt t, t))) = some r ∧ |r - z| ≤ 1 / 1440 := by
  set l := (fine t0 off scale).map (fun t => (alt t, t)) with hl
  have hlen : l.length = 2 * scale + 1 := fine_length alt t0 off scale
  have hmono : l.Pairwise (fun a b => b.1 < a.1) := by
    rw [List.pairwise_iff_getElem]
    intro i j hi hj hij
    rw [fine_get alt t0 off scale i hi, fine_get alt t0 off scale j hj]
    exact hm _ _ (fine_bounds t0 off scale i (by omega)).1 (fine_lt t0 off scale i j hij) (fine_bounds t0 off scale j (by omega)).2
  have hz_le : ∀ y, t0 + off - (scale : K) / 1440 ≤ y → y ≤ t0 + off + (scale : K) / 1440 → 0 ≤ alt y → y ≤ z := by
    intro y h1 h2 h3
    by_contra hc
    have := hm z y hz1 (not_le.mp hc) h2
    rw [hz] at this; linarith
  have hz_ge : ∀ y, t0 + off - (scale : K) / 1440 ≤ y → y ≤ t0 + off + (scale : K) / 1440 → alt y ≤ 0 → z ≤ y := by
    intro y h1 h2 h3
    by_contra hc
    have := hm y z h1 (not_le.mp hc) hz2
    rw [hz] at this; linarith
  have hf0 : fineTime t0 off scale 0 = t0 + off - (scale : K) / 1440 := by unfold fineTime; push_cast; ring
  have he0 : fineTime t0 off scale (2 * scale) = t0 + off + (scale : K) / 1440 := by unfold fineTime; push_cast; ring
  have hhead : l.head? = some (alt (fineTime t0 off scale 0), fineTime t0 off scale 0) := by
    rw [List.head?_eq_getElem?, List.getElem?_eq_getElem (by omega), fine_get]
  have hlast : l.getLast? = some (alt (fineTime t0 off scale (2 * scale)), fineTime t0 off scale (2 * scale)) := by
    rw [List.getLast?_eq_getElem?, hlen, List.getElem?_eq_getElem (by omega), fine_get]; rfl
  have h1 : 0 ≤ alt (fineTime t0 off scale 0) := by
    rw [hf0]
    rcases eq_or_lt_of_le hz1 with h | h
    · rw [h, hz]
    · rw [← hz]; exact le_of_lt (hm _ _ le_rfl h hz2)
  have h2 : alt (fineTime t0 off scale (2 * scale)) ≤ 0 := by
    rw [he0]
    rcases eq_or_lt_of_le hz2 with h | h
    · rw [← h, hz]
    · rw [← hz]; exact le_of_lt (hm _ _ hz1 h le_rfl)
  obtain ⟨p, q, pre, post, hb, hsplit, hp0, hq0⟩ := bracket_spec l.reverse (by simp; omega) _ _ (by rw [List.head?_reverse]; exact hlast)
    (by rw [List.getLast?_reverse]; exact hhead) h2 h1
  have hsplit' : l = post.reverse ++ q :: p :: pre.reverse := by
    have := congrArg List.reverse hsplit
    simpa using this
  obtain ⟨g1, g2, e1, e2⟩ := split_get l post.reverse pre.reverse q p hsplit'
  rw [fine_get] at e1 e2
  refine ⟨onLine p q, ?_, ?_⟩
  · unfold cross
    simp only [sort_reversed l hmono, List.head?_reverse, List.getLast?_reverse, hhead, hlast, hb, Option.map_some]
    rw [if_neg (by push Not; exact ⟨h2, h1⟩)]
  · have hpq : p.1 < q.1 := by
      rw [← e1, ← e2]
      exact hm _ _ (fine_bounds t0 off scale _ (by omega)).1 (fine_lt t0 off scale _ _ (by omega)) (fine_bounds t0 off scale _ (by omega)).2
    obtain ⟨w, hw0, hw1, hw⟩ := onLine_between p q hp0 hq0 hpq
    have hq2 : p.2 = q.2 + 1 / 1440 := by rw [← e1, ← e2]; exact fine_next t0 off scale _
    have hzq : q.2 ≤ z := by
      have := fine_bounds t0 off scale post.reverse.length (by omega)
      rw [← e1] at hq0 ⊢
      exact hz_le _ this.1 this.2 hq0
    have hzp : z ≤ p.2 := by
      have := fine_bounds t0 off scale (post.reverse.length + 1) (by omega)
      rw [← e2] at hp0 ⊢
      exact hz_ge _ this.1 this.2 hp0
    rw [hw, hq2] at *
    rw [abs_le]
    constructor
    · nlinarith
    · nlinarith

omit [IsStrictOrderedRing K] in
/-- Something that stays above or stays below the horizon in the window has no time there. -/
theorem C101_no_crossing (alt : K → K) (t0 off : K) (scale : Nat)
    (h : (∀ t ∈ fine t0 off scale, 0 < alt t) ∨ (∀ t ∈ fine t0 off scale, alt t < 0)) :
    cross ((fine t0 off scale).map (fun t => (alt t, t))) = none := by
  unfold cross
  have hmem : ∀ x ∈ ((fine t0 off scale).map (fun t => (alt t, t))).mergeSort (fun a b => decide (a.1 ≤ b.1)), ∃ t ∈ fine t0 off scale, x.1 = alt t := by
    intro x hx
    rw [List.mem_mergeSort, List.mem_map] at hx
    obtain ⟨t, ht, rfl⟩ := hx
    exact ⟨t, ht, rfl⟩
  simp only
  split
  · rename_i f e hf he
    obtain ⟨t1, ht1, hf1⟩ := hmem f (List.mem_of_mem_head? hf)
    obtain ⟨t2, ht2, he2⟩ := hmem e (List.mem_of_mem_getLast? he)
    rw [if_pos]
    rcases h with h | h
    · left; rw [hf1]; exact h t1 ht1
    · right; rw [he2]; exact h t2 ht2
  · rfl

/-- The window holds the crossing: that before the first sample above the horizon, or the one a sidereal day after it. -/
theorem C101_window (jD t0 z P : K) (hz : t0 - 2 / 191 ≤ z ∧ z ≤ t0) (hP : 1 - 4 / 1440 ≤ P ∧ P ≤ 1) :
    let z' := if t0 < jD then z + P else z
    t0 + offset jD t0 - ((20 : Nat) : K) / 1440 ≤ z' ∧ z' ≤ t0 + offset jD t0 + ((20 : Nat) : K) / 1440 := by
  have c1 : (2 : K) / 191 ≤ 16 / 1440 := by rw [div_le_div_iff₀ (by norm_num) (by norm_num)]; norm_num
  have c2 : (0 : K) ≤ 20 / 1440 := by positivity
  have c3 : (16 : K) / 1440 + 4 / 1440 = 20 / 1440 := by norm_num
  have c4 : (0 : K) ≤ 4 / 1440 := by positivity
  obtain ⟨h1, h2⟩ := hz
  obtain ⟨h3, h4⟩ := hP
  simp only [offset]
  push_cast
  split
  · constructor <;> linarith
  · constructor <;> linarith

/-- Rising, together: the time is that of the crossing before the first sample above the horizon, or of the one a sidereal day after it,
to a minute. -/
theorem C101_rise_time_partial (alt : K → K) (jD t0 z P : K) (hz : t0 - 2 / 191 ≤ z ∧ z ≤ t0) (hP : 1 - 4 / 1440 ≤ P ∧ P ≤ 1)
    (h0 : alt z = 0) (hper : ∀ t, alt (t + P) = alt t)
    (hm : ∀ x y, t0 + offset jD t0 - ((20 : Nat) : K) / 1440 ≤ x → x < y → y ≤ t0 + offset jD t0 + ((20 : Nat) : K) / 1440 → alt x < alt y) :
    ∃ r, crossing alt jD t0 20 = some r ∧ |r - (if t0 < jD then z + P else z)| ≤ 1 / 1440 := by
  obtain ⟨h1, h2⟩ := C101_window jD t0 z P hz hP
  refine C101_rise alt t0 (offset jD t0) _ 20 hm h1 h2 ?_ (by omega)
  split
  · rw [hper, h0]
  · exact h0

/-- Setting, together: the crossing is after the last sample above the horizon. -/
theorem C101_set_time_partial (alt : K → K) (jD t0 z P : K) (hz : t0 ≤ z ∧ z ≤ t0 + 2 / 191) (hP : 1 - 4 / 1440 ≤ P ∧ P ≤ 1)
    (h0 : alt z = 0) (hper : ∀ t, alt (t + P) = alt t)
    (hm : ∀ x y, t0 + offset jD t0 - ((20 : Nat) : K) / 1440 ≤ x → x < y → y ≤ t0 + offset jD t0 + ((20 : Nat) : K) / 1440 → alt y < alt x) :
    ∃ r, crossing alt jD t0 20 = some r ∧ |r - (if t0 < jD then z + P else z)| ≤ 1 / 1440 := by
  have c1 : (2 : K) / 191 ≤ 16 / 1440 := by rw [div_le_div_iff₀ (by norm_num) (by norm_num)]; norm_num
  have c3 : (16 : K) / 1440 + 4 / 1440 = 20 / 1440 := by norm_num
  have c4 : (0 : K) ≤ 4 / 1440 := by positivity
  obtain ⟨g1, g2⟩ := hz
  obtain ⟨g3, g4⟩ := hP
  refine C101_set alt t0 (offset jD t0) _ 20 hm ?_ ?_ ?_ (by omega)
  · simp only [offset]; push_cast; split <;> linarith
  · simp only [offset]; push_cast; split <;> linarith
  · split
    · rw [hper, h0]
    · exact h0

/-- Not the next rise: what rose in the last minutes before the time asked for is below the horizon in sample 95 and above it in
sample 96, which is not past, and is given with the rise that is over. -/
theorem C101_not_next (alt : K → K) (jD z : K) (hz : jD - 1 / 191 ≤ z ∧ z < jD - 1 / 1440) (h0 : alt z = 0)
    (hm : ∀ x y, jD + 1 / 191 - 20 / 1440 ≤ x → x < y → y ≤ jD + 1 / 191 + 20 / 1440 → alt x < alt y) :
    ∃ r, crossing alt jD (gridTime jD 96) 20 = some r ∧ r < jD := by
  have hg : gridTime jD 96 = jD + 1 / 191 := by unfold gridTime; push_cast; ring
  have hoff : offset jD (gridTime jD 96) = 0 := by
    unfold offset
    rw [if_neg]
    rw [hg]
    have : (0 : K) ≤ 1 / 191 := by positivity
    linarith
  have c1 : (2 : K) / 191 ≤ 20 / 1440 := by rw [div_le_div_iff₀ (by norm_num) (by norm_num)]; norm_num
  have c2 : (1 : K) / 191 + 1 / 191 = 2 / 191 := by norm_num
  have c3 : (0 : K) ≤ 1 / 1440 := by positivity
  have c4 : (0 : K) ≤ 20 / 1440 := by positivity
  have c5 : (0 : K) ≤ 1 / 191 := by positivity
  obtain ⟨r, h1, h2⟩ := C101_rise alt (gridTime jD 96) (offset jD (gridTime jD 96)) z 20 (by
      rw [hoff, hg]; push_cast
      intro x y a b c
      exact hm x y (by linarith) b (by linarith)) (by rw [hoff, hg]; push_cast; linarith [hz.1]) (by rw [hoff, hg]; push_cast; linarith [hz.2]) h0 (by omega)
  refine ⟨r, h1, ?_⟩
  have := abs_le.mp h2
  linarith [hz.2, this.2]

/-- The steps of the rough search are of that size. -/
theorem C101_step (jD : K) (k : Nat) : gridTime jD (k + 1) - gridTime jD k = 2 / 191 ∧ gridTime jD 0 = jD - 1 ∧ gridTime jD 191 = jD + 1 := by
  unfold gridTime
  refine ⟨?_, ?_, ?_⟩
  · push_cast; ring
  · push_cast; ring
  · push_cast; norm_num

/-! ## The transit -/

/-- The fitted altitude. -/
def cubic (c : K × K × K × K) (x : K) : K := c.1 * x ^ 3 + c.2.1 * x ^ 2 + c.2.2.1 * x + c.2.2.2

/-- Its slope. -/
def slope (c : K × K × K × K) (x : K) : K := 3 * c.1 * x ^ 2 + 2 * c.2.1 * x + c.2.2.1

/-- The time given for the transit is another one with the fitted altitude of the best sample. The fitted altitude has no
slope there only if it is the best sample itself or the two times are the same. -/
theorem C101_not_transit (sqrt : K → K) (c : K × K × K × K) (h0 : c.1 ≠ 0) (hs : sqrt (c.2.1 ^ 2 - 4 * c.1 * c.2.2.1) ^ 2 = c.2.1 ^ 2 - 4 * c.1 * c.2.2.1) :
    cubic c (stationary sqrt c) = cubic c 0 ∧
    slope c (stationary sqrt c) = -(stationary sqrt c) * sqrt (c.2.1 ^ 2 - 4 * c.1 * c.2.2.1) ∧
    (slope c (stationary sqrt c) = 0 ↔ stationary sqrt c = 0 ∨ c.2.1 ^ 2 = 4 * c.1 * c.2.2.1) := by
  obtain ⟨a, b, d, e⟩ := c
  simp only at h0 hs
  have hx : a * stationary sqrt (a, b, d, e) ^ 2 + b * stationary sqrt (a, b, d, e) + d = 0 := by
    unfold stationary
    simp only
    generalize sqrt (b ^ 2 - 4 * a * d) = w at *
    field_simp
    linear_combination hs
  have hx2 : 2 * a * stationary sqrt (a, b, d, e) + b = -sqrt (b ^ 2 - 4 * a * d) := by
    unfold stationary
    simp only
    field_simp
    ring
  have hsl : slope (a, b, d, e) (stationary sqrt (a, b, d, e)) = -(stationary sqrt (a, b, d, e)) * sqrt (b ^ 2 - 4 * a * d) := by
    unfold slope
    simp only
    linear_combination hx + stationary sqrt (a, b, d, e) * hx2
  refine ⟨?_, hsl, ?_⟩
  · unfold cubic
    simp only
    linear_combination stationary sqrt (a, b, d, e) * hx
  · rw [hsl, neg_mul, neg_eq_zero, mul_eq_zero]
    constructor
    · rintro (h | h)
      · left; exact h
      · right; simp only; rw [h] at hs; linear_combination -hs
    · rintro (h | h)
      · left; exact h
      · right
        simp only at h
        have : sqrt (b ^ 2 - 4 * a * d) ^ 2 = 0 := by rw [hs]; linear_combination h
        exact pow_eq_zero_iff (two_ne_zero) |>.mp this

omit [IsStrictOrderedRing K] in
/-- The best sample has the greatest altitude, and is the first with it. -/
theorem C101_best (alt : K → K) (ts : List K) (h : ts ≠ []) :
    (∀ t ∈ ts, alt t ≤ alt (bestTime alt ts)) ∧ ∃ pre post, ts = pre ++ bestTime alt ts :: post ∧ ∀ t ∈ pre, alt t < alt (bestTime alt ts) := by
  induction ts with
  | nil => exact absurd rfl h
  | cons t l ih =>
    cases l with
    | nil => exact ⟨by simp [bestTime], [], [], rfl, by simp⟩
    | cons u l =>
      obtain ⟨h1, pre, post, h2, h3⟩ := ih (by simp)
      by_cases hle : alt (bestTime alt (u :: l)) ≤ alt t
      · have hb : bestTime alt (t :: u :: l) = t := by simp only [bestTime, hle, if_true]
        rw [hb]
        refine ⟨?_, [], u :: l, rfl, by simp⟩
        intro x hx
        rcases List.mem_cons.mp hx with rfl | hx
        · exact le_rfl
        · exact le_trans (h1 x hx) hle
      · have hb : bestTime alt (t :: u :: l) = bestTime alt (u :: l) := by simp only [bestTime, hle, if_false]
        rw [hb]
        refine ⟨?_, t :: pre, post, by rw [List.cons_append, ← h2], ?_⟩
        · intro x hx
          rcases List.mem_cons.mp hx with rfl | hx
          · exact le_of_lt (not_le.mp hle)
          · exact h1 x hx
        · intro x hx
          rcases List.mem_cons.mp hx with rfl | hx
          · exact not_le.mp hle
          · exact h3 x hx

omit [IsStrictOrderedRing K] in
/-- What the result is made of. -/
theorem C101_result (sqrt : K → K) (fit : List (K × K) → K × K × K × K) (body : Bool) (scale : Nat) (half : K) (alt az : K → K) (jD tr ts tt : K)
    (h : rst sqrt fit body scale half alt az jD = .ok (some (tr, ts, tt))) :
    ∃ r s, 0 ≤ alt (gridTime jD r) ∧ 0 ≤ alt (gridTime jD s) ∧ r ≤ s ∧ crossing alt jD (gridTime jD r) scale = some tr ∧
      crossing alt jD (gridTime jD s) scale = some ts ∧
      let w := fine (gridTime jD ((r + s) / 2)) (offset jD (gridTime jD ((r + s) / 2))) scale
      let b := bestTime alt w
      tt = b + stationary sqrt (fit (w.map (fun t => (t - b, alt t)))) := by
  unfold rst at h
  split at h
  · cases h
  · cases h
  · rename_i r s t hc
    obtain ⟨a, b, h1, h2, h3, h4, h5, h6, h7, h8, h9⟩ := C101_rough _ _ _ _ _ _ _ hc
    split at h
    · rename_i tr' ts' e1 e2
      simp only [Except.ok.injEq, Option.some.injEq, Prod.mk.injEq] at h
      obtain ⟨rfl, rfl, rfl⟩ := h
      refine ⟨r, s, by simpa using h6, by simpa using h7, h4, e1, e2, ?_⟩
      subst h8
      simp only [transit]
      ring
    · cases h

end Verif.Rst
