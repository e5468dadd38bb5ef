import Verif.Model.PyNum
/-!
# Facts about rounding
-/
namespace Verif

theorem floor_bounds (x : Rat) : (x.floor : Rat) ≤ x ∧ x < x.floor + 1 := by
  have h1 := Rat.floor_le x
  have h2 := @Rat.lt_floor x
  exact ⟨h1, by grind⟩

theorem intCast_le_of {a b : Int} (h : (a : Rat) < (b : Rat) + 1) : a ≤ b := by
  have h2 : (a : Rat) < ((b + 1 : Int) : Rat) := by rw [Rat.intCast_add]; simpa using h
  have := Rat.intCast_lt_intCast.mp h2
  omega

theorem floor_unique {x : Rat} {n : Int} (h1 : (n : Rat) ≤ x) (h2 : x < n + 1) : x.floor = n := by
  obtain ⟨h3, h4⟩ := floor_bounds x
  have a := intCast_le_of (a := n) (b := x.floor) (by grind)
  have b := intCast_le_of (a := x.floor) (b := n) (by grind)
  omega

theorem floor_int (n : Int) : (n : Rat).floor = n := floor_unique (Rat.le_refl) (by grind)

theorem pyInt_int (n : Int) : pyInt (n : Rat) = n := by
  unfold pyInt
  split
  · exact floor_int n
  · rw [show (-(n : Rat)) = ((-n : Int) : Rat) by rw [Rat.intCast_neg], floor_int]; omega

theorem pyInt_bounds (x : Rat) : (0 ≤ x → (pyInt x : Rat) ≤ x ∧ x < pyInt x + 1) ∧
    (x < 0 → (x ≤ pyInt x ∧ (pyInt x : Rat) < x + 1)) := by
  refine ⟨fun h => ?_, fun h => ?_⟩
  · unfold pyInt; rw [if_pos h]; exact floor_bounds x
  · unfold pyInt
    rw [if_neg (by grind)]
    have := floor_bounds (-x)
    rw [Rat.intCast_neg]
    grind

theorem pyInt_eq_of_near {y : Rat} {n : Int} (h0 : 0 ≤ n) (h1 : (n : Rat) ≤ y) (h2 : y < n + 1) :
    pyInt y = n := by
  unfold pyInt
  have : (0 : Rat) ≤ (n : Rat) := by exact_mod_cast h0
  rw [if_pos (by grind)]
  exact floor_unique h1 h2

theorem round_near {x : Rat} {n : Int} (h1 : x - n < 1/2) (h2 : (n : Rat) - x < 1/2) :
    roundHalfEven x = n := by
  unfold roundHalfEven
  simp only
  obtain ⟨h3, h4⟩ := floor_bounds x
  by_cases hx : (n : Rat) ≤ x
  · have : x.floor = n := floor_unique hx (by grind)
    rw [this, if_pos h1]
  · have : x.floor = n - 1 := floor_unique (by rw [Rat.intCast_sub]; grind) (by rw [Rat.intCast_sub]; grind)
    rw [this, if_neg (by rw [Rat.intCast_sub]; grind), if_pos (by rw [Rat.intCast_sub]; grind)]
    omega

theorem round_int (n : Int) : roundHalfEven (n : Rat) = n := round_near (by grind) (by grind)

theorem round_half (x : Rat) : x - roundHalfEven x ≤ 1/2 ∧ roundHalfEven x - x ≤ 1/2 := by
  obtain ⟨h3, h4⟩ := floor_bounds x
  unfold roundHalfEven
  simp only
  split
  · grind
  · split
    · rw [Rat.intCast_add]; grind
    · split
      · grind
      · rw [Rat.intCast_add]; grind

end Verif
