import Verif.Lemmas.Float64
/-!
# Binary64 rounding keeps order and leaves representable numbers alone
-/
namespace Verif

theorem pow2_le {a b : Int} (hab : a ≤ b) : pow2 a ≤ pow2 b := by
  obtain ⟨n, rfl⟩ : ∃ n : Nat, b = a + n := ⟨(b - a).toNat, by omega⟩
  rw [pow2_add_nat]
  have h1 : (1 : Rat) ≤ ((2 ^ n : Nat) : Rat) := by have := Nat.two_pow_pos n; exact_mod_cast this
  have := Rat.mul_le_mul_of_nonneg_left h1 (Rat.le_of_lt (pow2_pos a))
  grind

theorem pow2_add (a b : Int) : pow2 (a + b) = pow2 a * pow2 b := by
  by_cases hb : 0 ≤ b
  · have := pow2_add_nat a b.toNat
    rw [show (b.toNat : Int) = b by omega] at this
    rw [this]
    congr 1
    unfold pow2; rw [if_pos hb]
  · have h1 := pow2_add_nat (a + b) (-b).toNat
    rw [show (a + b) + ((-b).toNat : Int) = a by omega] at h1
    have h2 := pow2_add_nat b (-b).toNat
    rw [show b + ((-b).toNat : Int) = 0 by omega, show pow2 0 = 1 from by decide +kernel] at h2
    rw [h1, Rat.mul_assoc]
    rw [Rat.mul_comm] at h2
    rw [← h2]; grind

theorem roundHalfEven_mono {x y : Rat} (h : x ≤ y) : roundHalfEven x ≤ roundHalfEven y := by
  obtain ⟨a1, a2⟩ := round_half x
  obtain ⟨b1, b2⟩ := round_half y
  by_cases hlt : roundHalfEven x ≤ roundHalfEven y
  · exact hlt
  · have h1 : ((roundHalfEven y + 1 : Int) : Rat) ≤ (roundHalfEven x : Rat) := by
      have : roundHalfEven y + 1 ≤ roundHalfEven x := by omega
      exact_mod_cast this
    rw [Rat.intCast_add] at h1
    have hxy : x = y := by
      have : ((1 : Int) : Rat) = 1 := rfl
      rw [this] at h1
      grind
    rw [hxy]; exact Int.le_refl _

theorem fl64_zero : fl64 0 = 0 := by simp [fl64]

/-- The bounds of a positive number in units of its last place. -/
theorem scaled_bounds {x : Rat} (hx : 0 < x) :
    ((2 ^ 52 : Nat) : Rat) ≤ x / pow2 (expo x - 52) ∧ x / pow2 (expo x - 52) < ((2 ^ 53 : Nat) : Rat) := by
  have hne : x ≠ 0 := by grind
  obtain ⟨h1, h2⟩ := expo_spec x hne
  rw [Rat.abs_of_nonneg (by grind)] at h1 h2
  have hu := pow2_pos (expo x - 52)
  have e1 := pow2_add_nat (expo x - 52) 52
  have e2 := pow2_add_nat (expo x - 52) 53
  rw [show expo x - 52 + ((52 : Nat) : Int) = expo x by omega] at e1
  rw [show expo x - 52 + ((53 : Nat) : Int) = expo x + 1 by omega] at e2
  have hq : x = (x / pow2 (expo x - 52)) * pow2 (expo x - 52) := by
    rw [Rat.div_mul_cancel]; grind
  generalize x / pow2 (expo x - 52) = q at *
  generalize pow2 (expo x - 52) = u at *
  constructor
  · have : ((2 ^ 52 : Nat) : Rat) * u ≤ q * u := by grind
    exact Rat.le_of_mul_le_mul_right this hu
  · have : q * u < ((2 ^ 53 : Nat) : Rat) * u := by grind
    exact Rat.lt_of_mul_lt_mul_right this (Rat.le_of_lt hu)

theorem fl64_scaled {x : Rat} (hx : 0 < x) :
    ∃ k : Int, fl64 x = (k : Rat) * pow2 (expo x - 52) ∧ ((2 ^ 52 : Nat) : Int) ≤ k ∧ k ≤ ((2 ^ 53 : Nat) : Int) := by
  obtain ⟨h1, h2⟩ := scaled_bounds hx
  refine ⟨roundHalfEven (x / pow2 (expo x - 52)), ?_, ?_, ?_⟩
  · unfold fl64; rw [if_neg (by grind)]
  · have := roundHalfEven_mono h1
    rw [← Rat.intCast_natCast, round_int] at this
    exact this
  · have := roundHalfEven_mono (Rat.le_of_lt h2)
    rw [← Rat.intCast_natCast, round_int] at this
    exact this

theorem expo_mono {x y : Rat} (hx : 0 < x) (h : x ≤ y) : expo x ≤ expo y := by
  have hy : 0 < y := by grind
  obtain ⟨a1, a2⟩ := expo_spec x (by grind)
  obtain ⟨b1, b2⟩ := expo_spec y (by grind)
  rw [Rat.abs_of_nonneg (by grind)] at a1 a2 b1 b2
  by_cases hlt : expo x ≤ expo y
  · exact hlt
  · have := pow2_le (show expo y + 1 ≤ expo x by omega)
    grind

theorem fl64_pos {x : Rat} (hx : 0 < x) : 0 < fl64 x := by
  obtain ⟨k, h1, h2, _⟩ := fl64_scaled hx
  rw [h1]
  have hk : (0 : Rat) < (k : Rat) := by have : (0 : Int) < k := by omega
                                        exact_mod_cast this
  exact Rat.mul_pos hk (pow2_pos _)

theorem fl64_nonneg {x : Rat} (hx : 0 ≤ x) : 0 ≤ fl64 x := by
  by_cases h : x = 0
  · rw [h, fl64_zero]; grind
  · exact Rat.le_of_lt (fl64_pos (by grind))

/-- Rounding keeps the order of numbers that are not negative. -/
theorem fl64_mono {x y : Rat} (hx : 0 ≤ x) (h : x ≤ y) : fl64 x ≤ fl64 y := by
  by_cases h0 : x = 0
  · rw [h0, fl64_zero]; exact fl64_nonneg (by grind)
  · have hx' : 0 < x := by grind
    have hy' : 0 < y := by grind
    have he := expo_mono hx' h
    by_cases heq : expo x = expo y
    · unfold fl64
      rw [if_neg (by grind), if_neg (by grind), heq]
      have hu := pow2_pos (expo y - 52)
      have hd : x / pow2 (expo y - 52) ≤ y / pow2 (expo y - 52) := by
        rw [Rat.div_def, Rat.div_def]
        exact Rat.mul_le_mul_of_nonneg_right h (Rat.le_of_lt (Rat.inv_pos.mpr hu))
      have := roundHalfEven_mono hd
      have : (roundHalfEven (x / pow2 (expo y - 52)) : Rat) ≤ (roundHalfEven (y / pow2 (expo y - 52)) : Rat) := by
        exact_mod_cast this
      exact Rat.mul_le_mul_of_nonneg_right this (Rat.le_of_lt hu)
    · obtain ⟨k, a1, _, a3⟩ := fl64_scaled hx'
      obtain ⟨m, b1, b2, _⟩ := fl64_scaled hy'
      rw [a1, b1]
      have hux := pow2_pos (expo x - 52)
      have huy := pow2_pos (expo y - 52)
      have c1 : (k : Rat) ≤ ((2 ^ 53 : Nat) : Rat) := by rw [← Rat.intCast_natCast]; exact Rat.intCast_le_intCast.mpr a3
      have c2 : ((2 ^ 52 : Nat) : Rat) ≤ (m : Rat) := by rw [← Rat.intCast_natCast]; exact Rat.intCast_le_intCast.mpr b2
      have d1 := Rat.mul_le_mul_of_nonneg_right c1 (Rat.le_of_lt hux)
      have d2 := Rat.mul_le_mul_of_nonneg_right c2 (Rat.le_of_lt huy)
      have e1 := pow2_add_nat (expo x - 52) 53
      have e2 := pow2_add_nat (expo y - 52) 52
      rw [show expo x - 52 + ((53 : Nat) : Int) = expo x + 1 by omega] at e1
      rw [show expo y - 52 + ((52 : Nat) : Int) = expo y by omega] at e2
      have e3 := pow2_le (show expo x + 1 ≤ expo y by omega)
      grind

/-- Numbers with at most 53 significant bits are kept. -/
theorem fl64_exact (k : Nat) (E : Int) (hk : k ≤ 2 ^ 53) : fl64 ((k : Rat) * pow2 E) = (k : Rat) * pow2 E := by
  by_cases h0 : k = 0
  · subst h0; simp [fl64]
  · have hkp : (0 : Rat) < (k : Rat) := by have : 0 < k := by omega
                                           exact_mod_cast this
    have hx : 0 < (k : Rat) * pow2 E := Rat.mul_pos hkp (pow2_pos E)
    generalize hxe : (k : Rat) * pow2 E = x at hx
    obtain ⟨a1, a2⟩ := expo_spec x (by grind)
    rw [Rat.abs_of_nonneg (by grind)] at a1 a2
    have hint : ∃ m : Int, x / pow2 (expo x - 52) = (m : Rat) := by
      have hu := pow2_pos (expo x - 52)
      by_cases hE : expo x - 52 ≤ E
      · refine ⟨(k * 2 ^ (E - (expo x - 52)).toNat : Nat), ?_⟩
        have e := pow2_add_nat (expo x - 52) (E - (expo x - 52)).toNat
        rw [show expo x - 52 + ((E - (expo x - 52)).toNat : Int) = E by omega] at e
        rw [Rat.intCast_natCast]
        have hx2 : x = (k : Rat) * (pow2 (expo x - 52) * ((2 ^ (E - (expo x - 52)).toNat : Nat) : Rat)) := by rw [← e]; exact hxe.symm
        generalize ((2 ^ (E - (expo x - 52)).toNat : Nat)) = N at hx2 ⊢
        generalize pow2 (expo x - 52) = u at *
        have hc : u * u⁻¹ = 1 := Rat.mul_inv_cancel u (by grind)
        rw [Rat.div_def, hx2, Rat.natCast_mul]
        generalize (k : Rat) = a
        generalize (N : Rat) = b
        have : a * (u * b) * u⁻¹ = a * b * (u * u⁻¹) := by grind
        rw [this, hc, Rat.mul_one]
      · -- only `k = 2^53`
        have h1 := pow2_le (show E + 53 ≤ expo x by omega)
        have e := pow2_add_nat E 53
        rw [show E + ((53 : Nat) : Int) = E + 53 by omega] at e
        have hkr : (k : Rat) ≤ ((2 ^ 53 : Nat) : Rat) := by exact_mod_cast hk
        have h2 := Rat.mul_le_mul_of_nonneg_right hkr (Rat.le_of_lt (pow2_pos E))
        have hx53 : x = pow2 (E + 53) := by grind
        have hexp : expo x = E + 53 := by
          apply expo_unique (by grind)
          · rw [Rat.abs_of_nonneg (by grind)]; grind
          · rw [Rat.abs_of_nonneg (by grind), hx53]
            have := pow2_succ (E + 53)
            have hp := pow2_pos (E + 53)
            grind
        refine ⟨(2 ^ 52 : Nat), ?_⟩
        have e2 := pow2_add_nat (expo x - 52) 52
        rw [show expo x - 52 + ((52 : Nat) : Int) = E + 53 by omega] at e2
        rw [Rat.intCast_natCast]
        have hx' : x = ((2 ^ 52 : Nat) : Rat) * pow2 (expo x - 52) := by grind
        generalize pow2 (expo x - 52) = u at *
        rw [hx', Rat.div_def, Rat.mul_assoc, Rat.mul_inv_cancel u (by grind), Rat.mul_one]
    obtain ⟨m, hm⟩ := hint
    unfold fl64
    rw [if_neg (by grind), hm, round_int, ← hm, Rat.div_mul_cancel]
    have := pow2_pos (expo x - 52); grind

/-- Whole numbers up to `2^53` are kept. -/
theorem fl64_nat (n : Nat) (h : n ≤ 2 ^ 53) : fl64 (n : Rat) = (n : Rat) := by
  have := fl64_exact n 0 h
  rw [show pow2 0 = 1 from by decide +kernel, Rat.mul_one] at this
  exact this

/-- A rounded number below a whole number is below it by at least `2^-53`. -/
theorem fl64_gap {z : Rat} (hz : 0 ≤ z) (n : Nat) (h : fl64 z < (n : Rat) + 1) : fl64 z ≤ (n : Rat) + 1 - pow2 (-53) := by
  have hp : pow2 (-53) ≤ 1 / 2 := by decide +kernel
  have hn : (0 : Rat) ≤ (n : Rat) := Rat.natCast_nonneg
  by_cases h0 : z = 0
  · rw [h0, fl64_zero]; grind
  · have hz' : 0 < z := by grind
    by_cases hE : -1 ≤ expo z
    · obtain ⟨k, h1, h2, h3⟩ := fl64_scaled hz'
      have e := pow2_add_nat (-53) (expo z - 52 + 53).toNat
      rw [show (-53 : Int) + ((expo z - 52 + 53).toNat : Int) = expo z - 52 by omega] at e
      have e2 := pow2_add_nat (-53) 53
      rw [show (-53 : Int) + ((53 : Nat) : Int) = 0 by omega, show pow2 0 = 1 from by decide +kernel] at e2
      have hpp := pow2_pos (-53)
      generalize hN : 2 ^ (expo z - 52 + 53).toNat = N at e
      generalize hM : (2 ^ 53 : Nat) = M at e2
      generalize pow2 (-53) = u at *
      have e3 : fl64 z = ((k * (N : Int) : Int) : Rat) * u := by
        rw [h1, e, Rat.intCast_mul, Rat.intCast_natCast]; grind
      have e4 : (n : Rat) + 1 = ((((n + 1) * M : Nat) : Int) : Rat) * u := by
        rw [Rat.intCast_natCast, Rat.natCast_mul, Rat.natCast_add, Rat.mul_assoc, Rat.mul_comm (M : Rat), ← e2, Rat.mul_one]
        rfl
      rw [e3, e4] at h ⊢
      have hlt2 := Rat.intCast_lt_intCast.mp (Rat.lt_of_mul_lt_mul_right h (Rat.le_of_lt hpp))
      have hle : k * (N : Int) + 1 ≤ (((n + 1) * M : Nat) : Int) := hlt2
      have hle2 := Rat.mul_le_mul_of_nonneg_right (Rat.intCast_le_intCast.mpr hle) (Rat.le_of_lt hpp)
      rw [Rat.intCast_add, show ((1 : Int) : Rat) = 1 from rfl] at hle2
      grind
    · -- far below one
      obtain ⟨k, h1, h2, h3⟩ := fl64_scaled hz'
      have hkr : (k : Rat) ≤ ((2 ^ 53 : Nat) : Rat) := by rw [← Rat.intCast_natCast]; exact Rat.intCast_le_intCast.mpr h3
      have d1 := Rat.mul_le_mul_of_nonneg_right hkr (Rat.le_of_lt (pow2_pos (expo z - 52)))
      have e1 := pow2_add_nat (expo z - 52) 53
      rw [show expo z - 52 + ((53 : Nat) : Int) = expo z + 1 by omega] at e1
      have e2 := pow2_le (show expo z + 1 ≤ -1 by omega)
      have e3 : pow2 (-1) = 1 / 2 := by decide +kernel
      rw [Rat.mul_comm] at d1
      rw [← Rat.mul_comm (pow2 (expo z - 52)) ((2 ^ 53 : Nat) : Rat), ← e1, Rat.mul_comm, ← h1] at d1
      generalize (n : Rat) = r at *
      generalize pow2 (-53) = u at *
      clear e1 h hkr h2 h3 h1
      have : fl64 z ≤ 1 / 2 := by rw [← e3]; exact Rat.le_trans d1 e2
      grind

end Verif
