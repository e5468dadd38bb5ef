import Verif.Model.Vdif
import Verif.Lemmas.Bytes
/-! Digit lemmas for the VDIF sample packing. -/
namespace Verif.Vdif

/-- Number with the given base-`B` digits, least significant first. -/
def ofDigits (B : Nat) : List Nat → Nat
  | [] => 0
  | d :: ds => d + B * ofDigits B ds

/-- The first `k` base-`B` digits. -/
def toDigits (B : Nat) : Nat → Nat → List Nat
  | 0, _ => []
  | k + 1, n => n % B :: toDigits B k (n / B)

theorem toDigits_ofDigits (B : Nat) (ls : List Nat) (h : ∀ l ∈ ls, l < B) :
    toDigits B ls.length (ofDigits B ls) = ls := by
  induction ls with
  | nil => rfl
  | cons d ds ih =>
    have hd : d < B := h d (by simp)
    simp only [List.length_cons, toDigits, ofDigits]
    rw [Nat.add_mul_mod_self_left, Nat.mod_eq_of_lt hd, Nat.add_mul_div_left _ _ (by omega),
      Nat.div_eq_of_lt hd, Nat.zero_add, ih (fun l hl => h l (by simp [hl]))]

theorem ofDigits_lt (B : Nat) (ls : List Nat) (h : ∀ l ∈ ls, l < B) :
    ofDigits B ls < B ^ ls.length := by
  induction ls with
  | nil => simp [ofDigits]
  | cons d ds ih =>
    have hd : d < B := h d (by simp)
    have := ih (fun l hl => h l (by simp [hl]))
    simp only [ofDigits, List.length_cons, Nat.pow_succ]
    have h2 : B * (ofDigits B ds + 1) ≤ B * B ^ ds.length := Nat.mul_le_mul_left _ this
    rw [Nat.mul_add] at h2
    rw [Nat.mul_comm (B ^ _)]
    omega

theorem ofDigits_append (B : Nat) (a b : List Nat) :
    ofDigits B (a ++ b) = ofDigits B a + B ^ a.length * ofDigits B b := by
  induction a with
  | nil => simp [ofDigits]
  | cons d ds ih =>
    simp only [List.cons_append, ofDigits, ih, List.length_cons, Nat.pow_succ]
    rw [Nat.mul_add, ← Nat.mul_assoc, Nat.mul_comm B (B ^ _)]
    omega

theorem toDigits_append (B a b n : Nat) :
    toDigits B (a + b) n = toDigits B a n ++ toDigits B b (n / B ^ a) := by
  induction a generalizing n with
  | zero => simp [toDigits]
  | succ a ih =>
    rw [show a + 1 + b = (a + b) + 1 by omega]
    simp only [toDigits, ih, List.cons_append]
    rw [Nat.div_div_eq_div_mul, Nat.pow_succ, Nat.mul_comm B]

theorem toDigits_mod (B a : Nat) : ∀ n, toDigits B a (n % B ^ a) = toDigits B a n := by
  induction a with
  | zero => intro n; rfl
  | succ a ih =>
    intro n
    simp only [toDigits]
    rw [Nat.pow_succ, Nat.mul_comm, Nat.mod_mul_right_mod, Nat.mod_mul_right_div_self, ih]

theorem toDigits_eq_map (B k n : Nat) :
    toDigits B k n = (List.range k).map fun i => n / B ^ i % B := by
  induction k generalizing n with
  | zero => rfl
  | succ k ih =>
    rw [List.range_succ_eq_map]
    simp only [toDigits, ih, List.map_cons, List.map_map, Nat.pow_zero, Nat.div_one]
    congr 1
    apply List.map_congr_left
    intro i _
    simp only [Function.comp]
    rw [Nat.div_div_eq_div_mul, Nat.pow_succ, Nat.mul_comm B]

theorem byteLevels_eq (bits : Nat) (b : UInt8) :
    byteLevels bits b = toDigits (2 ^ bits) (8 / bits) b.toNat := by
  unfold byteLevels
  rw [toDigits_eq_map]
  apply List.map_congr_left
  intro i _
  rw [Nat.shiftRight_eq_div_pow, Nat.pow_mul]

theorem levels_leEnc (bits : Nat) (hb : (2 ^ bits) ^ (8 / bits) = 256) (w n : Nat) :
    (leEnc w n).flatMap (byteLevels bits) = toDigits (2 ^ bits) (w * (8 / bits)) n := by
  induction w generalizing n with
  | zero => simp [leEnc, toDigits]
  | succ w ih =>
    rw [leEnc, List.flatMap_cons, ih, Nat.succ_mul, Nat.add_comm, toDigits_append, hb,
      byteLevels_eq]
    congr 1
    rw [← toDigits_mod _ _ n, hb]
    simp

theorem orWord_aux (bits : Nat) (ls : List Nat) (h : ∀ l ∈ ls, l < 2 ^ bits) :
    ∀ (k acc : Nat), acc < 2 ^ (bits * k) →
      ls.foldl (fun (acc : Nat × Nat) d => (acc.1 ||| (d <<< (bits * acc.2)), acc.2 + 1)) (acc, k) =
        (acc + 2 ^ (bits * k) * ofDigits (2 ^ bits) ls, k + ls.length) := by
  induction ls with
  | nil => intro k acc _; simp [ofDigits]
  | cons d ds ih =>
    intro k acc hacc
    have hd : d < 2 ^ bits := h d (by simp)
    simp only [List.foldl_cons]
    have hor : acc ||| d <<< (bits * k) = acc + 2 ^ (bits * k) * d := by
      rw [Nat.or_comm, ← Nat.shiftLeft_add_eq_or_of_lt hacc, Nat.shiftLeft_eq, Nat.mul_comm,
        Nat.add_comm]
    rw [hor, ih (fun l hl => h l (by simp [hl]))]
    · simp only [ofDigits, List.length_cons]
      rw [Nat.mul_add bits k 1, Nat.mul_one, Nat.pow_add, Nat.mul_add, Nat.mul_assoc]
      simp only [Prod.mk.injEq]
      omega
    · rw [Nat.mul_add, Nat.mul_one, Nat.pow_add]
      have : 2 ^ (bits * k) * (d + 1) ≤ 2 ^ (bits * k) * 2 ^ bits := Nat.mul_le_mul_left _ hd
      rw [Nat.mul_add] at this
      omega

theorem orWord_eq (bits : Nat) (ls : List Nat) (h : ∀ l ∈ ls, l < 2 ^ bits) :
    orWord bits ls = ofDigits (2 ^ bits) ls := by
  unfold orWord
  rw [orWord_aux bits ls h 0 0 (by simp)]
  simp

/-- One packed word decodes to its levels. -/
theorem word_levels (bits : Nat) (hb : (2 ^ bits) ^ (8 / bits) = 256) (ls : List Nat)
    (h : ∀ l ∈ ls, l < 2 ^ bits) (hl : ls.length = 4 * (8 / bits)) :
    (leEnc 4 (orWord bits ls)).flatMap (byteLevels bits) = ls := by
  rw [levels_leEnc bits hb, orWord_eq bits ls h, ← hl, toDigits_ofDigits _ _ h]

end Verif.Vdif
