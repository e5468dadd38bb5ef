import Verif.Model.Float64
import Verif.Lemmas.PyNum
/-!
# Facts about binary64 rounding
-/
namespace Verif

theorem natPow2_pos (n : Nat) : (0 : Rat) < ((2 ^ n : Nat) : Rat) := by
  have : 0 < 2 ^ n := Nat.two_pow_pos n
  exact_mod_cast this

theorem pow2_pos (e : Int) : 0 < pow2 e := by
  unfold pow2
  split
  · exact natPow2_pos _
  · have := natPow2_pos (-e).toNat
    rw [Rat.div_def, Rat.one_mul]
    exact Rat.inv_pos.mpr this

theorem pow2_succ (e : Int) : pow2 (e + 1) = 2 * pow2 e := by
  unfold pow2
  by_cases h : 0 ≤ e
  · rw [if_pos h, if_pos (by omega), show (e + 1).toNat = e.toNat + 1 by omega, Nat.pow_succ]
    push_cast
    grind
  · rw [if_neg h]
    by_cases h1 : e = -1
    · subst h1; decide +kernel
    · rw [if_neg (by omega), show (-e).toNat = (-(e+1)).toNat + 1 by omega, Nat.pow_succ]
      have := natPow2_pos (-(e+1)).toNat
      push_cast
      grind

theorem pow2_pred (e : Int) : pow2 e = 2 * pow2 (e - 1) := by
  have := pow2_succ (e - 1)
  rw [show e - 1 + 1 = e by omega] at this
  exact this

theorem pow2_add_nat (e : Int) (n : Nat) : pow2 (e + n) = pow2 e * ((2 ^ n : Nat) : Rat) := by
  induction n with
  | zero => simp
  | succ n ih =>
    rw [show e + ((n + 1 : Nat) : Int) = e + n + 1 by omega, pow2_succ, ih, Nat.pow_succ]
    push_cast
    grind

theorem pow2_sub (m n : Nat) : pow2 ((m : Int) - n) * ((2 ^ n : Nat) : Rat) = ((2 ^ m : Nat) : Rat) := by
  rw [← pow2_add_nat, show (m : Int) - n + n = m by omega]
  unfold pow2
  rw [if_pos (by omega)]
  simp

theorem abs_mul_den (x : Rat) : x.abs * (x.den : Rat) = ((x.num.natAbs : Nat) : Rat) := by
  have h : x * (x.den : Rat) = (x.num : Rat) := by
    have h := Rat.num_divInt_den x
    rw [Rat.divInt_eq_div] at h
    have hd : ((x.den : Int) : Rat) ≠ 0 := by have := x.den_nz; exact_mod_cast this
    rw [← Rat.intCast_natCast]
    conv => lhs; lhs; rw [← h]
    rw [Rat.div_mul_cancel hd]
  have e : ((x.num.natAbs : Nat) : Rat) = ((x.num.natAbs : Int) : Rat) := (Rat.intCast_natCast _).symm
  rw [e]
  by_cases h0 : 0 ≤ x
  · rw [Rat.abs_of_nonneg h0, h]
    have : 0 ≤ x.num := Rat.num_nonneg.mpr h0
    rw [Int.natAbs_of_nonneg this]
  · have h1 : x ≤ 0 := by grind
    rw [Rat.abs_of_nonpos h1, Rat.neg_mul, h]
    have : x.num ≤ 0 := by
      have := Rat.num_nonneg (q := -x).mpr (by grind)
      rw [Rat.neg_num] at this
      omega
    rw [show ((x.num.natAbs : Nat) : Int) = -x.num by omega]
    push_cast
    rfl

theorem expo_spec (x : Rat) (hx : x ≠ 0) : pow2 (expo x) ≤ x.abs ∧ x.abs < pow2 (expo x + 1) := by
  have hn : x.num.natAbs ≠ 0 := by
    intro h
    apply hx
    have : x.num = 0 := by omega
    exact Rat.num_eq_zero.mp this
  have a1 := Nat.log2_self_le hn
  have a2 := Nat.lt_log2_self (n := x.num.natAbs)
  have b1 := Nat.log2_self_le x.den_nz
  have b2 := Nat.lt_log2_self (n := x.den)
  have hd := abs_mul_den x
  have hden : (0 : Rat) < (x.den : Rat) := by have := x.den_pos; exact_mod_cast this
  have c1 : ((2 ^ x.num.natAbs.log2 : Nat) : Rat) ≤ ((x.num.natAbs : Nat) : Rat) := by exact_mod_cast a1
  have c2 : ((x.num.natAbs : Nat) : Rat) < ((2 ^ (x.num.natAbs.log2 + 1) : Nat) : Rat) := by exact_mod_cast a2
  have d1 : ((2 ^ x.den.log2 : Nat) : Rat) ≤ ((x.den : Nat) : Rat) := by exact_mod_cast b1
  have d2 : ((x.den : Nat) : Rat) < ((2 ^ (x.den.log2 + 1) : Nat) : Rat) := by exact_mod_cast b2
  have e1 := pow2_sub (x.num.natAbs.log2 + 1) x.den.log2
  have e2 := pow2_sub x.num.natAbs.log2 (x.den.log2 + 1)
  have up : x.abs < pow2 ((x.num.natAbs.log2 : Int) - (x.den.log2 : Int) + 1) := by
    have q : ((x.num.natAbs.log2 : Int) - (x.den.log2 : Int) + 1) = ((x.num.natAbs.log2 + 1 : Nat) : Int) - (x.den.log2 : Nat) := by omega
    rw [q]
    have hp := pow2_pos (((x.num.natAbs.log2 + 1 : Nat) : Int) - (x.den.log2 : Nat))
    have := Rat.mul_le_mul_of_nonneg_left d1 (Rat.le_of_lt hp)
    rw [e1] at this
    have h3 : x.abs * (x.den : Rat) < pow2 (((x.num.natAbs.log2 + 1 : Nat) : Int) - (x.den.log2 : Nat)) * (x.den : Rat) := by
      rw [hd]; grind
    exact Rat.lt_of_mul_lt_mul_right h3 (Rat.le_of_lt hden)
  have low : pow2 ((x.num.natAbs.log2 : Int) - (x.den.log2 : Int) - 1) ≤ x.abs := by
    have q : ((x.num.natAbs.log2 : Int) - (x.den.log2 : Int) - 1) = (x.num.natAbs.log2 : Int) - ((x.den.log2 + 1 : Nat) : Int) := by omega
    rw [q]
    have hp := pow2_pos ((x.num.natAbs.log2 : Int) - ((x.den.log2 + 1 : Nat) : Int))
    have := Rat.mul_le_mul_of_nonneg_left (Rat.le_of_lt d2) (Rat.le_of_lt hp)
    rw [e2] at this
    have h3 : pow2 ((x.num.natAbs.log2 : Int) - ((x.den.log2 + 1 : Nat) : Int)) * (x.den : Rat) ≤ x.abs * (x.den : Rat) := by
      rw [hd]; grind
    exact Rat.le_of_mul_le_mul_right h3 hden
  unfold expo
  simp only
  split
  · rename_i h; exact ⟨h, up⟩
  · rename_i h
    refine ⟨low, ?_⟩
    rw [show (x.num.natAbs.log2 : Int) - (x.den.log2 : Int) - 1 + 1 = (x.num.natAbs.log2 : Int) - (x.den.log2 : Int) by omega]
    grind

theorem expo_unique {x : Rat} (hx : x ≠ 0) {e : Int} (h1 : pow2 e ≤ x.abs) (h2 : x.abs < pow2 (e + 1)) : expo x = e := by
  obtain ⟨g1, g2⟩ := expo_spec x hx
  have mono : ∀ a b : Int, a ≤ b → pow2 a ≤ pow2 b := by
    intro a b hab
    obtain ⟨n, rfl⟩ : ∃ n : Nat, b = a + n := ⟨(b - a).toNat, by omega⟩
    rw [pow2_add_nat]
    have h1 : (1 : Rat) ≤ ((2 ^ n : Nat) : Rat) := by have := Nat.two_pow_pos n; exact_mod_cast this
    have := Rat.mul_le_mul_of_nonneg_left h1 (Rat.le_of_lt (pow2_pos a))
    grind
  by_cases h : expo x < e
  · have := mono (expo x + 1) e (by omega); grind
  · by_cases h' : e < expo x
    · have := mono (e + 1) (expo x) (by omega); grind
    · omega

/-- The error is at most half a unit in the last place. -/
theorem fl64_err (x : Rat) (hx : x ≠ 0) : (fl64 x - x) ≤ pow2 (expo x - 53) ∧ (x - fl64 x) ≤ pow2 (expo x - 53) := by
  unfold fl64
  rw [if_neg hx]
  have hp := pow2_pos (expo x - 52)
  obtain ⟨h1, h2⟩ := round_half (x / pow2 (expo x - 52))
  have hu : pow2 (expo x - 52) = 2 * pow2 (expo x - 53) := by
    have := pow2_pred (expo x - 52)
    rw [show expo x - 52 - 1 = expo x - 53 by omega] at this
    exact this
  generalize hn : (roundHalfEven (x / pow2 (expo x - 52)) : Rat) = n at *
  generalize hq : pow2 (expo x - 52) = u at *
  have hx' : x = (x / u) * u := by
    rw [Rat.div_mul_cancel]; grind
  generalize x / u = y at *
  have k1 := Rat.mul_le_mul_of_nonneg_right h1 (Rat.le_of_lt hp)
  have k2 := Rat.mul_le_mul_of_nonneg_right h2 (Rat.le_of_lt hp)
  constructor <;> grind

end Verif
