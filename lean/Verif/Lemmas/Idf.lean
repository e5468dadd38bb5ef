import Verif.Spec.Idf
import Verif.Lemmas.SsmifLine
import Verif.Lemmas.SdfParse
import Verif.Lemmas.Float64Mono
/-!
# Lemmas on interferometer definitions
-/
namespace Verif.Idf

open Dec Parser Spec

/-! ## Numbers -/

theorem digit_blank (c : Char) (h : c.isDigit = true) : isBlank c = false := (Ssmif.key_char c (Ssmif.digit_key c h)).1

theorem fixed_chars (k : Nat) (plus : Bool) (x : Rat) (c : Char) (h : c ∈ fixed k plus x) :
    c.isDigit = true ∨ c = '-' ∨ c = '+' ∨ c = '.' := by
  unfold fixed at h
  simp only [List.mem_append, List.mem_cons] at h
  rcases h with h | h | h | h
  · split at h
    · simp at h; simp [h]
    · split at h
      · simp at h; simp [h]
      · simp at h
  · exact .inl (showPad_digit _ _ _ h)
  · simp [h]
  · exact .inl (showPad_digit _ _ _ h)

theorem plain_blank (c : Char) (h : c.isDigit = true ∨ c = '-' ∨ c = '+' ∨ c = '.') : isBlank c = false ∧ c ≠ '\n' ∧ c ≠ '\r' := by
  rcases h with h | rfl | rfl | rfl
  · exact ⟨digit_blank c h, (Ssmif.key_char c (Ssmif.digit_key c h)).2.2⟩
  all_goals decide

theorem fixed_ne (k : Nat) (plus : Bool) (x : Rat) : fixed k plus x ≠ [] := by
  unfold fixed
  simp

theorem strip_plain (s : Text) (h : ∀ c ∈ s, isBlank c = false) : strip s = s :=
  strip_tight s ⟨fun c hc => h c (List.mem_of_head? hc), fun c hc => h c (List.mem_of_getLast? hc)⟩

theorem clean_plain (s : Text) (h : ∀ c ∈ s, c.isDigit = true ∨ c = '-' ∨ c = '+' ∨ c = '.') (hne : s ≠ []) : Clean s := by
  obtain ⟨c, r, rfl⟩ := List.exists_cons_of_ne_nil hne
  exact ⟨⟨c, r, rfl, (plain_blank c (h c (by simp))).1⟩, fun hc => (plain_blank _ (h _ hc)).2.1 rfl,
    fun hc => (plain_blank _ (h _ hc)).2.2 rfl⟩

theorem clean_fixed (k : Nat) (plus : Bool) (x : Rat) : Clean (fixed k plus x) :=
  clean_plain _ (fixed_chars k plus x) (fixed_ne k plus x)

theorem clean_int (n : Int) : Clean (showInt n) :=
  clean_plain _ (fun c hc => (showInt_chars n c hc).elim .inl fun h => .inr (.inl h)) (by
    unfold showInt
    split
    · simp
    · exact showNat_ne_nil _)

theorem clean_nat (n : Nat) : Clean (showNat n) :=
  clean_plain _ (fun c hc => .inl (showNat_digit n c hc)) (showNat_ne_nil n)

theorem intText_showNat (n : Nat) : intText? (showNat n) = some (n : Int) := by
  have : showNat n = showInt (n : Int) := by
    unfold showInt
    rw [if_neg (by omega)]
    simp
  rw [this, intText_showInt]

theorem neg_round (x : Rat) (h : x ≤ 0) : roundHalfEven x ≤ 0 := by
  have := roundHalfEven_mono (x := x) (y := ((0 : Int) : Rat)) (by simpa using h)
  rwa [round_int] at this

theorem pos_round (x : Rat) (h : 0 ≤ x) : 0 ≤ roundHalfEven x := by
  have := roundHalfEven_mono (y := x) (x := ((0 : Int) : Rat)) (by simpa using h)
  rwa [round_int] at this

theorem pow_pos10 (k : Nat) : (0 : Rat) < ((10 ^ k : Nat) : Rat) := by
  have : 0 < 10 ^ k := Nat.pos_of_ne_zero (by simp)
  exact_mod_cast this

theorem parts (n k : Nat) : ((n / 10 ^ k : Nat) : Rat) + ((n % 10 ^ k : Nat) : Rat) / ((10 ^ k : Nat) : Rat) = (n : Rat) / ((10 ^ k : Nat) : Rat) := by
  have hp := pow_pos10 k
  generalize hd : 10 ^ k = d at *
  have h := Nat.div_add_mod n d
  have h' : ((d : Rat)) * ((n / d : Nat) : Rat) + ((n % d : Nat) : Rat) = (n : Rat) := by exact_mod_cast h
  have hd : (d : Rat) ≠ 0 := by grind
  rw [← h']
  grind

theorem float_fixed (k : Nat) (hk : 0 < k) (plus : Bool) (x : Rat) : float? (fixed k plus x) = some (toFixed k x) := by
  have hs : strip (fixed k plus x) = fixed k plus x := strip_plain _ fun c hc => (plain_blank c (fixed_chars k plus x c hc)).1
  unfold float?
  rw [hs]
  have hp := pow_pos10 k
  have hparse : parseDec? (showPad 0 ((roundHalfEven (x * ((10 ^ k : Nat) : Rat))).natAbs / 10 ^ k) ++
      '.' :: showPad k ((roundHalfEven (x * ((10 ^ k : Nat) : Rat))).natAbs % 10 ^ k)) =
      some (((roundHalfEven (x * ((10 ^ k : Nat) : Rat))).natAbs : Rat) / ((10 ^ k : Nat) : Rat)) := by
    rw [parseDec_pad 0 _ k _ hk (Nat.mod_lt _ (Nat.pos_of_ne_zero (by simp))), parts]
  unfold fixed toFixed
  simp only
  by_cases hx : x < 0
  · have hn : roundHalfEven (x * ((10 ^ k : Nat) : Rat)) ≤ 0 := neg_round _ (by
      have := Rat.mul_le_mul_of_nonneg_right (Rat.le_of_lt hx) (Rat.le_of_lt hp)
      simpa using this)
    have ha : ((roundHalfEven (x * ((10 ^ k : Nat) : Rat))).natAbs : Rat) = -(roundHalfEven (x * ((10 ^ k : Nat) : Rat)) : Rat) := by
      have : (((roundHalfEven (x * ((10 ^ k : Nat) : Rat))).natAbs : Int)) = -roundHalfEven (x * ((10 ^ k : Nat) : Rat)) := by omega
      exact_mod_cast this
    rw [if_pos hx]
    simp only [List.cons_append, List.nil_append]
    rw [hparse, ha]
    simp only [Option.map_some]
    congr 1
    grind
  · have hn : 0 ≤ roundHalfEven (x * ((10 ^ k : Nat) : Rat)) := pos_round _ (by
      have := Rat.mul_nonneg (a := x) (by grind) (Rat.le_of_lt hp)
      exact this)
    have ha : ((roundHalfEven (x * ((10 ^ k : Nat) : Rat))).natAbs : Rat) = (roundHalfEven (x * ((10 ^ k : Nat) : Rat)) : Rat) := by
      have : (((roundHalfEven (x * ((10 ^ k : Nat) : Rat))).natAbs : Int)) = roundHalfEven (x * ((10 ^ k : Nat) : Rat)) := by omega
      exact_mod_cast this
    rw [if_neg hx]
    rw [ha] at hparse
    cases plus with
    | true =>
      simp only [if_true, List.cons_append, List.nil_append]
      exact hparse
    | false =>
      simp only [Bool.false_eq_true, if_false, List.nil_append]
      rw [← hparse]
      obtain ⟨d, r, hd⟩ := List.exists_cons_of_ne_nil
        (showPad_ne_nil 0 ((roundHalfEven (x * ((10 ^ k : Nat) : Rat))).natAbs / 10 ^ k))
      have hdig : d.isDigit = true := showPad_digit 0 _ d (by rw [hd]; simp)
      have := digit_not_minus d hdig
      rw [hd]
      simp only [List.cons_append]
      split
      · next h => exact absurd (List.cons.inj h).1 this.1
      · next h => exact absurd (List.cons.inj h).1 this.2.1
      · rfl

/-! ## Lines -/

theorem key_plain (c : Char) (h : isKey c = true) : isBlank c = false ∧ c ≠ '\n' ∧ c ≠ '\r' := by
  unfold isKey at h
  rw [Bool.or_eq_true] at h
  rcases h with h | h
  · have := Ssmif.key_char c h
    exact ⟨this.1, this.2.2⟩
  · rw [beq_iff_eq] at h
    subst h
    decide

/-- A keyword of the file in a column of `w` characters. -/
def entryOk (k : String) (w : Nat) : Bool := k.toList.all isKey && !k.toList.isEmpty && decide (k.length < w)

theorem key_stop (k : Text) (hk : ∀ c ∈ k, isKey c = true) (r : Text) (hr : ∀ x, r.head? = some x → isKey x = false) :
    (k ++ r).takeWhile isKey = k := Ssmif.takeWhile_append_stop isKey k r hk hr

theorem row_parts (k : String) (w : Nat) (v : Text) (hk : entryOk k w = true) (hv : Clean v) :
    Ssmif.twoParts (row k w v) = some (k.toList, v) ∧ keyword? k.toList = some (k.toList, -1) := by
  unfold entryOk at hk
  simp only [Bool.and_eq_true, List.all_eq_true, decide_eq_true_eq, Bool.not_eq_true', List.isEmpty_eq_false_iff] at hk
  obtain ⟨⟨h1, h2⟩, h3⟩ := hk
  constructor
  · unfold row
    have : w - k.length = (w - k.length - 1) + 1 := by omega
    rw [this]
    exact Ssmif.twoParts_line k.toList v _ (fun c hc => (key_plain c (h1 c hc)).1) h2 hv.1
  · have := key_stop k.toList h1 [] (by simp)
    rw [List.append_nil] at this
    simp only [keyword?, this]
    rw [if_neg h2]
    simp [Ssmif.index?]

theorem step_row (all plus : List Text) (s : State) (k : String) (w : Nat) (v : Text) (a : Key) (hk : entryOk k w = true)
    (hl : keys.lookup k = some a) (hp : k.toList.getLast? ≠ some '+') (hv : Clean v) :
    step all plus s (row k w v) = act all plus s a (-1) v := by
  obtain ⟨h1, h2⟩ := row_parts k w v hk hv
  unfold step
  simp only [h1, h2]
  rw [if_neg hp, String.ofList_toList]
  simp only [hl]

/-- Lines that are not read. -/
theorem step_skip (all plus : List Text) (s : State) (k : String) (w : Nat) (v : Text) (hk : entryOk k w = true)
    (hp : k.toList.getLast? = some '+' ∨ keys.lookup k = none) (hv : Clean v) :
    step all plus s (row k w v) = some s := by
  obtain ⟨h1, h2⟩ := row_parts k w v hk hv
  unfold step
  simp only [h1, h2]
  rcases hp with hp | hp
  · rw [if_pos hp]
  · rw [String.ofList_toList]
    simp only [hp]
    simp

theorem step_blank (all plus : List Text) (s : State) : step all plus s [] = some s := by
  have : Ssmif.twoParts [] = none := by simp [Ssmif.twoParts]
  unfold step
  rw [this]

theorem altRow_parts (k : String) (j gap : Nat) (v : Text) (hk : entryOk k 40 = true) (hg : 0 < gap) (hv : Clean v) :
    Ssmif.twoParts (altRow k j gap v) = some (k.toList ++ '[' :: (showNat j ++ [']']), v) ∧
      keyword? (k.toList ++ '[' :: (showNat j ++ [']'])) = some (k.toList, (j : Int)) := by
  unfold entryOk at hk
  simp only [Bool.and_eq_true, List.all_eq_true, decide_eq_true_eq, Bool.not_eq_true', List.isEmpty_eq_false_iff] at hk
  obtain ⟨⟨h1, h2⟩, -⟩ := hk
  constructor
  · have e : altRow k j gap v = (k.toList ++ '[' :: (showNat j ++ [']'])) ++ (List.replicate (gap - 1 + 1) ' ' ++ v) := by
      unfold altRow
      rw [show gap - 1 + 1 = gap by omega]
      simp
    rw [e]
    apply Ssmif.twoParts_line
    · intro c hc
      simp only [List.mem_append, List.mem_cons, List.not_mem_nil, or_false] at hc
      rcases hc with hc | rfl | hc | rfl
      · exact (key_plain c (h1 c hc)).1
      · decide
      · exact digit_blank c (showNat_digit j c hc)
      · decide
    · simp
    · exact hv.1
  · have := key_stop k.toList h1 ('[' :: (showNat j ++ [']'])) (by
      intro x hx
      simp at hx
      subst hx
      decide)
    simp only [keyword?, this]
    rw [if_neg h2]
    have hd : (k.toList ++ '[' :: (showNat j ++ [']'])).drop k.toList.length = '[' :: (showNat j ++ [']']) := by
      rw [List.drop_append]; simp
    rw [hd, Ssmif.index_bracket j []]

theorem step_altRow (all plus : List Text) (s : State) (k : String) (j gap : Nat) (v : Text) (a : Key) (hk : entryOk k 40 = true)
    (hl : keys.lookup k = some a) (hp : k.toList.getLast? ≠ some '+') (hg : 0 < gap) (hv : Clean v) :
    step all plus s (altRow k j gap v) = act all plus s a j v := by
  obtain ⟨h1, h2⟩ := altRow_parts k j gap v hk hg hv
  unfold step
  simp only [h1, h2]
  rw [if_neg hp, String.ofList_toList]
  simp only [hl]

theorem steps_append (all plus : List Text) (s : State) (a b : List Text) :
    steps all plus s (a ++ b) = (steps all plus s a).bind fun s' => steps all plus s' b := by
  induction a generalizing s with
  | nil => simp [steps]
  | cons x a ih =>
    simp only [List.cons_append, steps]
    cases step all plus s x with
    | none => simp
    | some s' => simp [ih]

end Verif.Idf
