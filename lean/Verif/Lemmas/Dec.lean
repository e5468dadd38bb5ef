import Verif.Model.Dec
/-!
# Lemmas about decimal text
-/
namespace Verif.Dec

theorem showNat_ne_nil (n : Nat) : showNat n ≠ [] := Nat.toDigits_ne_nil

theorem showNat_digit (n : Nat) (c : Char) (h : c ∈ showNat n) : c.isDigit = true :=
  Nat.isDigit_of_mem_toDigits (by decide) (by decide) h

theorem showNat_all (n : Nat) : (showNat n).all Char.isDigit = true := by
  rw [List.all_eq_true]; exact showNat_digit n

theorem parseNat_showNat (n : Nat) : parseNat? (showNat n) = some n := by
  unfold parseNat?
  rw [if_pos ⟨showNat_ne_nil n, showNat_all n⟩]
  exact congrArg some Nat.ofDigitChars_ten_toDigits

theorem showPad_digit (w n : Nat) (c : Char) (h : c ∈ showPad w n) : c.isDigit = true := by
  rcases List.mem_append.mp h with h | h
  · rw [List.eq_of_mem_replicate h]; decide
  · exact showNat_digit n c h

theorem showPad_ne_nil (w n : Nat) : showPad w n ≠ [] := by
  simp [showPad, showNat_ne_nil]

theorem parseNat_showPad (w n : Nat) : parseNat? (showPad w n) = some n := by
  unfold parseNat?
  have : (showPad w n).all Char.isDigit = true := by
    rw [List.all_eq_true]; exact showPad_digit w n
  rw [if_pos ⟨showPad_ne_nil w n, this⟩]
  congr 1
  unfold showPad
  rw [Nat.ofDigitChars_append, Nat.ofDigitChars_replicate_zero]
  exact Nat.ofDigitChars_ten_toDigits

theorem showPad_length (w n : Nat) (hw : 0 < w) (h : n < 10 ^ w) : (showPad w n).length = w := by
  have := (Nat.length_toDigits_le_iff (b := 10) (n := n) (by decide) hw).mpr h
  unfold showPad showNat
  rw [List.length_append, List.length_replicate]
  omega

theorem digit_not_minus : ∀ c : Char, c.isDigit = true → c ≠ '-' ∧ c ≠ '+' ∧ c ≠ ':' ∧ c ≠ '.' := by
  intro c h
  refine ⟨?_, ?_, ?_, ?_⟩ <;> intro hc <;> subst hc <;> exact absurd h (by decide)

theorem parseInt_digits (l : List Char) (h : ∀ c ∈ l, c.isDigit = true) :
    parseInt? l = (parseNat? l).map (fun n : Nat => (n : Int)) := by
  unfold parseInt?
  split
  · exact absurd rfl (digit_not_minus _ (h '-' (by simp))).1
  · exact absurd rfl (digit_not_minus _ (h '+' (by simp))).2.1
  · rfl

theorem parseInt_showNat (n : Nat) : parseInt? (showNat n) = some (n : Int) := by
  rw [parseInt_digits _ (showNat_digit n), parseNat_showNat]; rfl

theorem parseInt_showPad (w n : Nat) : parseInt? (showPad w n) = some (n : Int) := by
  rw [parseInt_digits _ (showPad_digit w n), parseNat_showPad]; rfl

theorem parseInt_showInt (i : Int) : parseInt? (showInt i) = some i := by
  unfold showInt
  split
  · rename_i h
    show (parseNat? (showNat (-i).toNat)).map (fun n : Nat => -(n : Int)) = some i
    rw [parseNat_showNat, Option.map_some]
    congr 1
    omega
  · rename_i h
    rw [parseInt_showNat]
    congr 1
    omega

theorem showInt_chars (i : Int) (c : Char) (h : c ∈ showInt i) : c.isDigit = true ∨ c = '-' := by
  unfold showInt at h
  split at h
  · rcases List.mem_cons.mp h with h | h
    · exact .inr h
    · exact .inl (showNat_digit _ c h)
  · exact .inl (showNat_digit _ c h)

theorem splitOn_not_mem (c : Char) (l : List Char) (h : c ∉ l) : splitOn c l = [l] := by
  induction l with
  | nil => rfl
  | cons x l ih =>
    have hx : ¬ x = c := fun hx => h (by simp [hx])
    have hl : c ∉ l := fun hl => h (by simp [hl])
    simp [splitOn, hx, ih hl]

theorem splitOn_ne_nil (c : Char) (l : List Char) : splitOn c l ≠ [] := by
  induction l with
  | nil => simp [splitOn]
  | cons x l ih =>
    simp only [splitOn]
    split
    · simp
    · split <;> simp

theorem splitOn_append (c : Char) (a b : List Char) (h : c ∉ a) :
    splitOn c (a ++ c :: b) = a :: splitOn c b := by
  induction a with
  | nil => simp [splitOn]
  | cons x a ih =>
    have hx : ¬ x = c := fun hx => h (by simp [hx])
    have ha : c ∉ a := fun ha => h (by simp [ha])
    simp [splitOn, hx, ih ha]

theorem not_mem_showNat (n : Nat) (c : Char) (h : c.isDigit = false) : c ∉ showNat n := by
  intro hc
  rw [showNat_digit n c hc] at h
  exact absurd h (by decide)

theorem not_mem_showPad (w n : Nat) (c : Char) (h : c.isDigit = false) : c ∉ showPad w n := by
  intro hc
  rw [showPad_digit w n c hc] at h
  exact absurd h (by decide)

theorem not_mem_showInt (i : Int) (c : Char) (h : c.isDigit = false) (h2 : c ≠ '-') : c ∉ showInt i := by
  intro hc
  rcases showInt_chars i c hc with h1 | h1
  · rw [h1] at h; exact absurd h (by decide)
  · exact h2 h1

/-- Reading back `n.mmm`. -/
theorem parseDec_pad (w n k m : Nat) (hk : 0 < k) (hm : m < 10 ^ k) :
    parseDec? (showPad w n ++ '.' :: showPad k m) =
      some ((n : Rat) + (m : Rat) / ((10 ^ k : Nat) : Rat)) := by
  unfold parseDec?
  rw [splitOn_append _ _ _ (not_mem_showPad _ _ _ (by decide)),
    splitOn_not_mem _ _ (not_mem_showPad _ _ _ (by decide))]
  simp only [parseNat_showPad, showPad_length k m hk hm]

end Verif.Dec
