import Verif.Lemmas.Ionex
/-! # Lemmas on the interpolation of ionospheric maps -/
namespace Verif.Ionex

theorem head_filter_range (p : Nat → Bool) (n a : Nat) (ha : a < n) (hp : p a = true) (hl : ∀ j, j < a → p j = false) :
    ((List.range n).filter p).head? = some a := by
  rw [List.head?_filter, List.find?_range_eq_some]
  exact ⟨hp, by simpa using ha, fun j hj => by simp [hl j hj]⟩

theorem last_filter_range (p : Nat → Bool) (n a : Nat) (ha : a < n) (hp : p a = true) (hl : ∀ j, a < j → j < n → p j = false) :
    ((List.range n).filter p).getLast? = some a := by
  induction n with
  | zero => omega
  | succ n ih =>
    rw [List.range_succ, List.filter_append, List.getLast?_append]
    by_cases h : a = n
    · subst h; simp [hp]
    · have : p n = false := hl n (by omega) (by omega)
      simp only [List.filter_cons, this, Bool.false_eq_true, if_false, List.filter_nil, List.getLast?_nil, Option.none_or]
      exact ih (by omega) (fun j h1 h2 => hl j h1 (by omega))

/-- Maps at equal distances. -/
def evenly (d0 h : Rat) (n : Nat) : List Rat := (List.range n).map (fun (k : Nat) => d0 + (k : Rat) * h)

theorem evenly_get (d0 h : Rat) (n k : Nat) (hk : k < n) : (evenly d0 h n).getD k 0 = d0 + (k : Rat) * h := by
  simp [evenly, List.getD_eq_getElem?_getD, hk]

theorem abs_lt_iff (x w : Rat) : x.abs < w ↔ -w < x ∧ x < w := by
  rcases Rat.le_total (a := 0) (b := x) with hx | hx
  · rw [Rat.abs_of_nonneg hx]; grind
  · rw [Rat.abs_of_nonpos hx]; grind

/-- The rule by which maps are taken, for maps at equal distances: between the `i`-th and the next. -/
theorem near_iff (d0 h f : Rat) (i m j : Nat) (hh : 0 < h) :
    (d0 + (j : Rat) * h - (d0 + ((i : Rat) + f) * h)).abs < (m : Rat) * h ↔ (i : Rat) + f < (j : Rat) + (m : Rat) ∧ (j : Rat) < (i : Rat) + f + (m : Rat) := by
  have e : d0 + (j : Rat) * h - (d0 + ((i : Rat) + f) * h) = ((j : Rat) - ((i : Rat) + f)) * h := by grind
  rw [e, abs_lt_iff]
  have e2 : -((m : Rat) * h) = (-(m : Rat)) * h := by grind
  rw [e2]
  have h1 : (-(m : Rat)) * h < ((j : Rat) - ((i : Rat) + f)) * h ↔ -(m : Rat) < (j : Rat) - ((i : Rat) + f) := by
    constructor
    · intro hx; exact Rat.lt_of_mul_lt_mul_right hx (by grind)
    · intro hx; exact Rat.mul_lt_mul_of_pos_right hx hh
  have h2 : ((j : Rat) - ((i : Rat) + f)) * h < (m : Rat) * h ↔ (j : Rat) - ((i : Rat) + f) < (m : Rat) := by
    constructor
    · intro hx; exact Rat.lt_of_mul_lt_mul_right hx (by grind)
    · intro hx; exact Rat.mul_lt_mul_of_pos_right hx hh
  rw [h1, h2]
  constructor
  · intro ⟨a, b⟩; constructor <;> grind
  · intro ⟨a, b⟩; constructor <;> grind

theorem cast_lt (a b : Nat) : (a : Rat) < (b : Rat) ↔ a < b := Rat.natCast_lt_natCast
theorem cast_le (a b : Nat) : (a : Rat) ≤ (b : Rat) ↔ a ≤ b := Rat.natCast_le_natCast

/-- Strictly between two maps. -/
theorem near_between (f : Rat) (i m j : Nat) (h0 : 0 < f) (h1 : f < 1) :
    ((i : Rat) + f < (j : Rat) + (m : Rat) ∧ (j : Rat) < (i : Rat) + f + (m : Rat)) ↔ i + 1 ≤ j + m ∧ j ≤ i + m := by
  have e1 : ((j + m : Nat) : Rat) = (j : Rat) + (m : Rat) := Rat.natCast_add j m
  have e2 : ((i + m : Nat) : Rat) = (i : Rat) + (m : Rat) := Rat.natCast_add i m
  have e3 : ((i + 1 : Nat) : Rat) = (i : Rat) + 1 := Rat.natCast_add i 1
  have e4 : ((i + m + 1 : Nat) : Rat) = (i : Rat) + (m : Rat) + 1 := by rw [Rat.natCast_add, e2]; rfl
  constructor
  · intro ⟨a, b⟩
    constructor
    · have : (i : Rat) < ((j + m : Nat) : Rat) := by rw [e1]; grind
      have := (cast_lt _ _).mp this; omega
    · have : (j : Rat) < ((i + m + 1 : Nat) : Rat) := by rw [e4]; grind
      have := (cast_lt _ _).mp this; omega
  · intro ⟨a, b⟩
    have a' := (cast_le _ _).mpr a
    have b' := (cast_le _ _).mpr b
    rw [e1, e3] at a'; rw [e2] at b'
    constructor <;> grind

/-- At the time of a map. -/
theorem near_at (i m j : Nat) :
    ((i : Rat) + 0 < (j : Rat) + (m : Rat) ∧ (j : Rat) < (i : Rat) + 0 + (m : Rat)) ↔ i < j + m ∧ j < i + m := by
  have e1 : ((j + m : Nat) : Rat) = (j : Rat) + (m : Rat) := Rat.natCast_add j m
  have e2 : ((i + m : Nat) : Rat) = (i : Rat) + (m : Rat) := Rat.natCast_add i m
  rw [show (i : Rat) + 0 = (i : Rat) by grind, ← e1, ← e2, cast_lt, cast_lt]

/-- What is taken when the first and the last map of the selection are known. -/
theorem value_of (dates vals : List Rat) (w t : Rat) (a b : Nat) (ha : (best id dates w t).head? = some a) (hb : (best id dates w t).getLast? = some b) :
    timeValue id dates vals w t = .ok ((if b = a then 0 else (vals.getD b 0 - vals.getD a 0) / (dates.getD b 0 - dates.getD a 0)) * (t - dates.getD a 0) + vals.getD a 0) := by
  unfold timeValue
  rw [ha, hb]

theorem select (d0 h f : Rat) (n m i : Nat) (hh : 0 < h) (j : Nat) (hj : j < n) :
    decide ((id ((evenly d0 h n).getD j 0 - (d0 + ((i : Rat) + f) * h))).abs < (m : Rat) * h) =
      decide ((i : Rat) + f < (j : Rat) + (m : Rat) ∧ (j : Rat) < (i : Rat) + f + (m : Rat)) := by
  rw [evenly_get d0 h n j hj]
  simp only [id]
  rw [decide_eq_decide]
  exact near_iff d0 h f i m j hh

theorem best_ends (d0 h f : Rat) (n m i a b : Nat) (hh : 0 < h) (ha : a < n) (hb : b < n)
    (hs : ∀ j, j < n → ((((i : Rat) + f < (j : Rat) + (m : Rat) ∧ (j : Rat) < (i : Rat) + f + (m : Rat))) ↔ (a ≤ j ∧ j ≤ b))) (hab : a ≤ b) :
    (best id (evenly d0 h n) ((m : Rat) * h) (d0 + ((i : Rat) + f) * h)).head? = some a ∧
    (best id (evenly d0 h n) ((m : Rat) * h) (d0 + ((i : Rat) + f) * h)).getLast? = some b := by
  have hl : (evenly d0 h n).length = n := by simp [evenly]
  unfold best
  rw [hl]
  constructor
  · apply head_filter_range _ _ _ ha
    · rw [select d0 h f n m i hh a ha, decide_eq_true_iff, hs a ha]; omega
    · intro j hj
      rw [select d0 h f n m i hh j (by omega), decide_eq_false_iff_not, hs j (by omega)]; omega
  · apply last_filter_range _ _ _ hb
    · rw [select d0 h f n m i hh b hb, decide_eq_true_iff, hs b hb]; omega
    · intro j hj hj2
      rw [select d0 h f n m i hh j hj2, decide_eq_false_iff_not, hs j hj2]; omega

/-! ## Places -/

/-- Ascending places. -/
def Ascending : List (Rat × Rat) → Prop
  | [] => True
  | [_] => True
  | a :: b :: r => a.1 < b.1 ∧ Ascending (b :: r)

theorem ascending_tail (a : Rat × Rat) (l : List (Rat × Rat)) (h : Ascending (a :: l)) : Ascending l := by
  cases l with
  | nil => trivial
  | cons b r => exact h.2

theorem ascending_lt (a : Rat × Rat) (l : List (Rat × Rat)) (h : Ascending (a :: l)) : ∀ p ∈ l, a.1 < p.1 := by
  induction l generalizing a with
  | nil => intro p hp; simp at hp
  | cons b r ih =>
    intro p hp
    rcases List.mem_cons.mp hp with rfl | hp
    · exact h.1
    · have h1 : a.1 < b.1 := h.1
      have h2 := ih b h.2 p hp
      grind

theorem lerp_node (l : List (Rat × Rat)) (h : Ascending l) (p : Rat × Rat) (hp : p ∈ l) : lerp l p.1 = p.2 := by
  induction l with
  | nil => simp at hp
  | cons a r ih =>
    cases r with
    | nil =>
      obtain ⟨x, z⟩ := a
      simp only [List.mem_singleton] at hp; subst hp; rfl
    | cons b r =>
      obtain ⟨x0, z0⟩ := a
      obtain ⟨x1, z1⟩ := b
      have h01 : x0 < x1 := h.1
      rcases List.mem_cons.mp hp with hp | hp
      · subst hp
        simp only [lerp]
        rw [if_pos (by exact Rat.le_refl)]
      · have hlt := ascending_lt _ _ h p hp
        simp only at hlt
        simp only [lerp]
        rw [if_neg (by grind)]
        by_cases h2 : p.1 ≤ x1
        · rw [if_pos h2]
          have hp1 : p = (x1, z1) := by
            rcases List.mem_cons.mp hp with h3 | h3
            · exact h3
            · have := ascending_lt _ _ (ascending_tail _ _ h) p h3
              simp only at this; grind
          subst hp1
          simp only
          have : x1 - x0 ≠ 0 := by grind
          rw [Rat.mul_div_cancel this]; grind
        · rw [if_neg h2]
          exact ih (ascending_tail _ _ h) hp

theorem lerp_bounds (l : List (Rat × Rat)) (h : Ascending l) (h0 : l ≠ []) (lo hi : Rat) (hb : ∀ p ∈ l, lo ≤ p.2 ∧ p.2 ≤ hi) (x : Rat) :
    lo ≤ lerp l x ∧ lerp l x ≤ hi := by
  induction l with
  | nil => exact absurd rfl h0
  | cons a r ih =>
    cases r with
    | nil => obtain ⟨x0, z⟩ := a; exact hb (x0, z) (by simp)
    | cons b r =>
      obtain ⟨x0, z0⟩ := a
      obtain ⟨x1, z1⟩ := b
      have h01 : x0 < x1 := h.1
      have ha := hb (x0, z0) (by simp)
      have hb1 := hb (x1, z1) (by simp)
      simp only at ha hb1
      simp only [lerp]
      split
      · exact ha
      · split
        · rename_i hx0 hx1
          have hd : 0 < x1 - x0 := by grind
          -- the weight of the second node
          have hw : ∃ u : Rat, 0 ≤ u ∧ u ≤ 1 ∧ (z1 - z0) * (x - x0) / (x1 - x0) = (z1 - z0) * u := by
            refine ⟨(x - x0) / (x1 - x0), ?_, ?_, ?_⟩
            · rw [Rat.div_def]; exact Rat.mul_nonneg (by grind) (Rat.le_of_lt (Rat.inv_pos.mpr hd))
            · rw [Rat.div_def]
              have : (x - x0) * (x1 - x0)⁻¹ ≤ (x1 - x0) * (x1 - x0)⁻¹ := Rat.mul_le_mul_of_nonneg_right (by grind) (Rat.le_of_lt (Rat.inv_pos.mpr hd))
              rw [Rat.mul_inv_cancel _ (by grind)] at this; exact this
            · rw [Rat.div_def, Rat.div_def, Rat.mul_assoc]
          obtain ⟨u, hu0, hu1, hu⟩ := hw
          rw [hu]
          have e : z0 + (z1 - z0) * u = (1 - u) * z0 + u * z1 := by grind
          rw [e]
          constructor
          · have a1 : (1 - u) * lo ≤ (1 - u) * z0 := Rat.mul_le_mul_of_nonneg_left ha.1 (by grind)
            have a2 : u * lo ≤ u * z1 := Rat.mul_le_mul_of_nonneg_left hb1.1 hu0
            grind
          · have a1 : (1 - u) * z0 ≤ (1 - u) * hi := Rat.mul_le_mul_of_nonneg_left ha.2 (by grind)
            have a2 : u * z1 ≤ u * hi := Rat.mul_le_mul_of_nonneg_left hb1.2 hu0
            grind
        · exact ih (ascending_tail _ _ h) (by simp) (fun p hp => hb p (by simp [hp]))

/-- Beyond the last place its value is kept. -/
theorem lerp_beyond (l : List (Rat × Rat)) (h : Ascending l) (p : Rat × Rat) (hp : l.getLast? = some p) (x : Rat) (hx : p.1 ≤ x) : lerp l x = p.2 := by
  induction l with
  | nil => simp at hp
  | cons a r ih =>
    cases r with
    | nil => simp only [List.getLast?_singleton, Option.some.injEq] at hp; subst hp; rfl
    | cons b r =>
      have hp2 : (b :: r).getLast? = some p := by simpa [List.getLast?_cons_cons] using hp
      have hmem : p ∈ b :: r := List.mem_of_getLast? hp2
      have hlt := ascending_lt _ _ h p hmem
      obtain ⟨x0, z0⟩ := a
      obtain ⟨x1, z1⟩ := b
      simp only at hlt
      simp only [lerp]
      rw [if_neg (by grind)]
      by_cases h2 : x ≤ x1
      · rw [if_pos h2]
        have h3 : p = (x1, z1) := by
          rcases List.mem_cons.mp hmem with h3 | h3
          · exact h3
          · have := ascending_lt _ _ (ascending_tail _ _ h) p h3
            simp only at this; grind
        subst h3
        simp only at hx ⊢
        have : x = x1 := by grind
        subst this
        have : x - x0 ≠ 0 := by grind
        rw [Rat.mul_div_cancel this]; grind
      · rw [if_neg h2]; exact ih (ascending_tail _ _ h) hp2

end Verif.Ionex
