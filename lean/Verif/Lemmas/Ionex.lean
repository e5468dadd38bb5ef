import Verif.Spec.Ionex
import Verif.Lemmas.Dec
import Verif.Lemmas.Parser
import Verif.Lemmas.Idf
/-! # Lemmas on files of ionospheric maps -/
namespace Verif.Ionex
open Verif.Dec Verif.McsTime Spec
open Verif.Parser (isBlank strip strip_pre digit_not_blank)

/-! ## Finding labels -/

theorem contains_append (c : Char) (p pre l : Text) (h : ∀ x ∈ pre, x ≠ c) : contains (c :: p) (pre ++ l) = contains (c :: p) l := by
  induction pre with
  | nil => rfl
  | cons x xs ih =>
    have hx : x ≠ c := h x (by simp)
    show ((c :: p).isPrefixOf (x :: (xs ++ l)) || contains (c :: p) (xs ++ l)) = _
    rw [ih (fun y hy => h y (by simp [hy]))]
    have : (c :: p).isPrefixOf (x :: (xs ++ l)) = false := by
      simp [List.isPrefixOf, Ne.symm hx]
    rw [this]; rfl

/-- Characters of numbers and blanks. -/
def Plain (l : Text) : Prop := ∀ x ∈ l, x.isDigit = true ∨ x = ' ' ∨ x = '-' ∨ x = '.'

theorem plain_ne (l : Text) (h : Plain l) (c : Char) (hc : c.isDigit = false ∧ c ≠ ' ' ∧ c ≠ '-' ∧ c ≠ '.') : ∀ x ∈ l, x ≠ c := by
  intro x hx hxc; subst hxc
  rcases h x hx with h1 | h1 | h1 | h1
  · rw [hc.1] at h1; exact absurd h1 (by decide)
  · exact hc.2.1 h1
  · exact hc.2.2.1 h1
  · exact hc.2.2.2 h1

theorem plain_append {a b : Text} (ha : Plain a) (hb : Plain b) : Plain (a ++ b) := by
  intro x hx
  rcases List.mem_append.mp hx with h | h
  · exact ha x h
  · exact hb x h

theorem plain_blanks (k : Nat) : Plain (List.replicate k ' ') := by
  intro x hx; rw [List.eq_of_mem_replicate hx]; simp

theorem plain_right (w : Nat) {l : Text} (h : Plain l) : Plain (right w l) := plain_append (plain_blanks _) h

theorem plain_nat (n : Nat) : Plain (showNat n) := fun x hx => Or.inl (showNat_digit n x hx)

theorem plain_int (n : Int) : Plain (showInt n) := by
  intro x hx
  rcases showInt_chars n x hx with h | h
  · exact Or.inl h
  · simp [h]

theorem plain_tenths (n : Int) : Plain (tenths n) := by
  unfold tenths
  refine plain_append (plain_append ?_ (plain_nat _)) ?_
  · split
    · intro x hx; simp only [List.mem_singleton] at hx; simp [hx]
    · intro x hx; simp at hx
  · intro x hx
    rcases List.mem_cons.mp hx with h | h
    · simp [h]
    · exact plain_nat _ x h

/-- The labels of the format, found after numbers. -/
theorem contains_label (s : String) (pre l : Text) (h : Plain pre) (c : Char) (p : Text) (hs : s.toList = c :: p)
    (hc : c.isDigit = false ∧ c ≠ ' ' ∧ c ≠ '-' ∧ c ≠ '.') : contains s.toList (pre ++ l) = contains s.toList l := by
  rw [hs]; exact contains_append c p pre l (plain_ne pre h c hc)

/-! ## Words -/

theorem splitBlank_ne (l : Text) : splitBlank l ≠ [] := by
  cases l with
  | nil => simp [splitBlank]
  | cons c l =>
    simp only [splitBlank]; split
    · simp
    · split <;> simp

theorem words_blank (c : Char) (l : Text) (h : isBlank c = true) : words (c :: l) = words l := by
  simp [words, splitBlank, h]

theorem words_blanks (k : Nat) (l : Text) : words (List.replicate k ' ' ++ l) = words l := by
  induction k with
  | zero => rfl
  | succ k ih => rw [List.replicate_succ, List.cons_append, words_blank _ _ (by decide), ih]

theorem splitBlank_cons (c : Char) (l : Text) (h : isBlank c = false) :
    splitBlank (c :: l) = (c :: (splitBlank l).headD []) :: (splitBlank l).tail := by
  simp only [splitBlank, h, Bool.false_eq_true, if_false]
  have := splitBlank_ne l
  cases hs : splitBlank l with
  | nil => exact absurd hs this
  | cons p ps => rfl

theorem splitBlank_word (t rest : Text) (ht : ∀ c ∈ t, isBlank c = false) :
    splitBlank (t ++ rest) = (t ++ (splitBlank rest).headD []) :: (splitBlank rest).tail := by
  induction t with
  | nil =>
    have := splitBlank_ne rest
    cases hs : splitBlank rest with
    | nil => exact absurd hs this
    | cons p ps => simp [hs]
  | cons c t ih =>
    rw [List.cons_append, splitBlank_cons _ _ (ht c (by simp)), ih (fun x hx => ht x (by simp [hx]))]
    rfl

theorem words_word (t rest : Text) (h0 : t ≠ []) (ht : ∀ c ∈ t, isBlank c = false) (hr : rest = [] ∨ ∃ r, rest = ' ' :: r) :
    words (t ++ rest) = t :: words rest := by
  unfold words
  rw [splitBlank_word t rest ht]
  rcases hr with hr | ⟨r, hr⟩
  · subst hr; simp [splitBlank, h0]
  · subst hr
    simp [splitBlank, show isBlank ' ' = true by decide, h0]

theorem words_nil : words [] = [] := by simp [words, splitBlank]

theorem nat_tight (n : Nat) : ∀ c ∈ showNat n, isBlank c = false := fun c hc => digit_not_blank c (showNat_digit n c hc)

theorem int_tight (n : Int) : ∀ c ∈ showInt n, isBlank c = false := by
  intro c hc
  rcases showInt_chars n c hc with h | h
  · exact digit_not_blank c h
  · subst h; decide

theorem tenths_tight (n : Int) : ∀ c ∈ tenths n, isBlank c = false := by
  intro c hc
  rcases plain_tenths n c hc with h | h | h | h
  · exact digit_not_blank c h
  · exfalso
    subst h
    unfold tenths at hc
    simp only [List.mem_append, List.mem_cons] at hc
    rcases hc with (hc | hc) | hc | hc
    · split at hc <;> simp at hc
    · exact absurd (showNat_digit _ _ hc) (by decide)
    · exact absurd hc (by decide)
    · exact absurd (showNat_digit _ _ hc) (by decide)
  · subst h; decide
  · subst h; decide

theorem showInt_ne_nil (n : Int) : showInt n ≠ [] := by
  unfold showInt; split
  · simp
  · exact showNat_ne_nil _

/-! ## Numbers -/

theorem strip_right (w : Nat) (l : Text) (h : ∀ c ∈ l, isBlank c = false) : strip (right w l) = l := by
  unfold right
  rw [strip_pre _ _ (by intro c hc; rw [List.eq_of_mem_replicate hc]; decide), Idf.strip_plain _ h]

theorem strip_tight' (l : Text) (h : ∀ c ∈ l, isBlank c = false) : strip l = l := Idf.strip_plain _ h

theorem parseDec_nat (n : Nat) : parseDec? (showNat n) = some (n : Rat) := by
  unfold parseDec?
  rw [splitOn_not_mem _ _ (not_mem_showNat _ _ (by decide)), ]
  simp only [parseNat_showNat, Option.map_some]

theorem float_digits (l : Text) (h : ∀ c ∈ l, isBlank c = false) (h2 : ∀ c, l.head? = some c → c ≠ '-' ∧ c ≠ '+') :
    float? l = parseDec? l := by
  unfold float?
  rw [strip_tight' l h]
  split
  · exact absurd rfl (h2 '-' rfl).1
  · exact absurd rfl (h2 '+' rfl).2
  · rfl

theorem head_nat (n : Nat) (r : Text) (c : Char) (h : (showNat n ++ r).head? = some c) : c ≠ '-' ∧ c ≠ '+' := by
  have hn := showNat_ne_nil n
  cases hs : showNat n with
  | nil => exact absurd hs hn
  | cons x xs =>
    rw [hs] at h; simp only [List.cons_append, List.head?_cons, Option.some.injEq] at h
    have := showNat_digit n c (by rw [hs]; simp [h])
    exact ⟨(digit_not_minus c this).1, (digit_not_minus c this).2.1⟩

theorem float_int (n : Int) : float? (showInt n) = some (n : Rat) := by
  unfold showInt
  split
  · rename_i hn
    unfold float?
    rw [strip_tight' _ (by
      intro c hc
      rcases List.mem_cons.mp hc with h | h
      · subst h; decide
      · exact nat_tight _ c h)]
    simp only [parseDec_nat, Option.map_some]
    congr 1
    have : ((((-n).toNat : Nat) : Int) : Rat) = ((-n : Int) : Rat) := by rw [Int.toNat_of_nonneg (by omega)]
    have h2 : ((((-n).toNat : Nat) : Int) : Rat) = (((-n).toNat : Nat) : Rat) := rfl
    rw [← h2, this]
    rw [Rat.intCast_neg]; grind
  · rename_i hn
    rw [float_digits _ (nat_tight _) (fun c hc => head_nat n.toNat [] c (by simpa using hc)), parseDec_nat]
    congr 1
    have : (((n.toNat : Nat) : Int) : Rat) = (n : Rat) := by rw [Int.toNat_of_nonneg (by omega)]
    exact this

theorem showNat_digit1 (n : Nat) (h : n < 10) : (showNat n).length = 1 := by
  have h1 := (Nat.length_toDigits_le_iff (b := 10) (n := n) (by decide) (k := 1) (by decide)).mpr (by omega)
  have h2 : 0 < (showNat n).length := List.length_pos_iff.mpr (showNat_ne_nil n)
  unfold showNat at *; omega

theorem showNat_short (n k : Nat) (hk : 0 < k) (h : n < 10 ^ k) : (showNat n).length ≤ k :=
  (Nat.length_toDigits_le_iff (b := 10) (n := n) (by decide) hk).mpr h

theorem parseDec_tenths (n : Nat) : parseDec? (showNat (n / 10) ++ '.' :: showNat (n % 10)) = some ((n : Rat) / 10) := by
  unfold parseDec?
  rw [splitOn_append _ _ _ (not_mem_showNat _ _ (by decide)), splitOn_not_mem _ _ (not_mem_showNat _ _ (by decide))]
  simp only [parseNat_showNat, showNat_digit1 _ (Nat.mod_lt n (by decide : 10 > 0))]
  congr 1
  have h : n = 10 * (n / 10) + n % 10 := (Nat.div_add_mod n 10).symm
  have h2 : (n : Rat) = 10 * ((n / 10 : Nat) : Rat) + ((n % 10 : Nat) : Rat) := by
    have := congrArg (fun (k : Nat) => (k : Rat)) h
    simp only [Rat.natCast_add, Rat.natCast_mul] at this
    exact this
  rw [h2]
  simp only [Nat.pow_one]
  have : (((10 : Nat)) : Rat) = 10 := rfl
  rw [this]; grind

theorem float_tenths (n : Int) : float? (tenths n) = some ((n : Rat) / 10) := by
  by_cases hn : n < 0
  · have ht : tenths n = '-' :: (showNat (n.natAbs / 10) ++ '.' :: showNat (n.natAbs % 10)) := by simp [tenths, hn]
    unfold float?
    rw [strip_tight' _ (tenths_tight n), ht]
    simp only [parseDec_tenths, Option.map_some]
    congr 1
    have : ((n.natAbs : Nat) : Rat) = -(n : Rat) := by
      have h1 : ((n.natAbs : Nat) : Int) = -n := by omega
      have h2 : (((n.natAbs : Nat) : Int) : Rat) = ((n.natAbs : Nat) : Rat) := rfl
      rw [← h2, h1, Rat.intCast_neg]
    rw [this]; grind
  · have ht : tenths n = showNat (n.natAbs / 10) ++ '.' :: showNat (n.natAbs % 10) := by simp [tenths, hn]
    rw [float_digits _ (tenths_tight n) (fun c hc => head_nat _ _ c (by rw [ht] at hc; exact hc)), ht, parseDec_tenths]
    congr 1
    have : ((n.natAbs : Nat) : Rat) = (n : Rat) := by
      have h1 : ((n.natAbs : Nat) : Int) = n := by omega
      have h2 : (((n.natAbs : Nat) : Int) : Rat) = ((n.natAbs : Nat) : Rat) := rfl
      rw [← h2, h1]
    rw [this]

theorem float_right (w : Nat) (n : Int) : float? (right w (tenths n)) = some ((n : Rat) / 10) := by
  rw [← float_tenths n]
  unfold float?
  rw [strip_right _ _ (tenths_tight n), strip_tight' _ (tenths_tight n)]

theorem int_nat (n : Nat) : int? (showNat n) = some (n : Int) := by
  unfold int?; rw [strip_tight' _ (nat_tight n), parseInt_showNat]

/-! ## Widths -/

theorem tenths_length (n : Int) (k : Nat) (h : n.natAbs < 10 ^ (k + 2)) : (tenths n).length ≤ k + 3 + (if n < 0 then 1 else 0) := by
  unfold tenths
  have h1 := showNat_digit1 (n.natAbs % 10) (Nat.mod_lt _ (by decide))
  have h2 := showNat_short (n.natAbs / 10) (k + 1) (by omega) (by
    rw [Nat.div_lt_iff_lt_mul (by decide)]
    have : 10 ^ (k + 1) * 10 = 10 ^ (k + 2) := by rw [Nat.pow_succ 10 (k + 1)]
    omega)
  simp only [List.length_append, List.length_cons, h1]
  split <;> simp <;> omega

theorem right_length (w : Nat) (l : Text) (h : l.length ≤ w) : (right w l).length = w := by
  simp [right]; omega

theorem drop_right (w : Nat) (l : Text) (h : l.length ≤ w) : (right (w + 1) l).drop 1 = right w l := by
  unfold right
  have : w + 1 - l.length = (w - l.length) + 1 := by omega
  rw [this, List.replicate_succ]; rfl

theorem cols_at (a b : Nat) (pre x post : Text) (h1 : pre.length = a) (h2 : x.length = b - a) : cols a b (pre ++ x ++ post) = x := by
  unfold cols
  rw [List.append_assoc, List.drop_left' h1, List.take_left' h2]

/-! ## Lists of objects -/

theorem withLast_snoc (f : Map → Map) (l : List Map) (m : Map) : withLast f (l ++ [m]) = l ++ [f m] := by simp [withLast]

theorem extend_snoc (r x : Row) (m : Map) : extend r (m ++ [x]) = m ++ [x ++ r] := by simp [extend]

theorem run_append (s : St) (a b : List Text) :
    run s (a ++ b) = match run s a with | .error e => .error e | .ok s' => run s' b := by
  induction a generalizing s with
  | nil => rfl
  | cons l a ih =>
    simp only [List.cons_append, run]
    cases step s l with
    | error e => rfl
    | ok s' => exact ih s'

theorem run_append_ok (s s' : St) (a b : List Text) (h : run s a = .ok s') : run s (a ++ b) = run s' b := by
  rw [run_append, h]

theorem run_one (s s' : St) (l : Text) (b : List Text) (h : step s l = .ok s') : run s (l :: b) = run s' b := by
  simp only [run, h]

/-! ## Lines -/

/-- A label after plain text. -/
theorem labels (pre lab : Text) (h : Plain pre) :
    contains "START OF TEC MAP".toList (pre ++ lab) = contains "START OF TEC MAP".toList lab ∧
    contains "START OF RMS MAP".toList (pre ++ lab) = contains "START OF RMS MAP".toList lab ∧
    contains "END OF TEC MAP".toList (pre ++ lab) = contains "END OF TEC MAP".toList lab ∧
    contains "END OF RMS MAP".toList (pre ++ lab) = contains "END OF RMS MAP".toList lab ∧
    contains "TEC".toList (pre ++ lab) = contains "TEC".toList lab ∧
    contains "EPOCH OF CURRENT MAP".toList (pre ++ lab) = contains "EPOCH OF CURRENT MAP".toList lab ∧
    contains "LAT/LON1/LON2/DLON/H".toList (pre ++ lab) = contains "LAT/LON1/LON2/DLON/H".toList lab :=
  ⟨contains_label _ pre lab h 'S' _ rfl (by decide), contains_label _ pre lab h 'S' _ rfl (by decide),
    contains_label _ pre lab h 'E' _ rfl (by decide), contains_label _ pre lab h 'E' _ rfl (by decide),
    contains_label _ pre lab h 'T' _ rfl (by decide), contains_label _ pre lab h 'E' _ rfl (by decide),
    contains_label _ pre lab h 'L' _ rfl (by decide)⟩

theorem step_start (s : St) (pre : Text) (kind : String) (h : Plain pre) (hk : kind = "TEC" ∨ kind = "RMS") :
    step s (pre ++ ("START OF " ++ kind ++ " MAP").toList) = .ok { s with inMap := true } := by
  obtain ⟨h1, h2, h3, h4, h5, h6, h7⟩ := labels pre ("START OF " ++ kind ++ " MAP").toList h
  unfold step
  rw [h1, h2]
  rcases hk with hk | hk <;> subst hk
  · rw [if_pos (by decide +kernel)]
  · rw [if_pos (by decide +kernel)]

theorem step_end_tec (s : St) (pre : Text) (k : Nat) (h : Plain pre) (hc : cmap s = some k) :
    step s (pre ++ ("END OF " ++ "TEC" ++ " MAP").toList) = .ok { s with tec := s.tec ++ [k], inMap := false } := by
  obtain ⟨h1, h2, h3, h4, h5, h6, h7⟩ := labels pre ("END OF " ++ "TEC" ++ " MAP").toList h
  unfold step
  rw [h1, h2, h3, h4, h5, if_neg (by decide +kernel), if_pos (by decide +kernel)]
  simp only [hc]
  rw [if_pos (by decide +kernel)]

theorem step_end_rms (s : St) (pre : Text) (k : Nat) (h : Plain pre) (hc : cmap s = some k) :
    step s (pre ++ ("END OF " ++ "RMS" ++ " MAP").toList) = .ok { s with rms := s.rms ++ [k], inMap := false } := by
  obtain ⟨h1, h2, h3, h4, h5, h6, h7⟩ := labels pre ("END OF " ++ "RMS" ++ " MAP").toList h
  unfold step
  rw [h1, h2, h3, h4, h5, if_neg (by decide +kernel), if_pos (by decide +kernel)]
  simp only [hc]
  rw [if_neg (by decide +kernel)]

theorem step_epoch (s : St) (pre : Text) (h : Plain pre) (hm : s.inMap = true) :
    step s (pre ++ "EPOCH OF CURRENT MAP".toList) = epochLine s (pre ++ "EPOCH OF CURRENT MAP".toList) := by
  obtain ⟨h1, h2, h3, h4, h5, h6, h7⟩ := labels pre "EPOCH OF CURRENT MAP".toList h
  unfold step
  rw [h1, h2, h3, h4, h6, if_neg (by decide +kernel), if_neg (by decide +kernel), if_pos hm, if_pos (by decide +kernel)]

theorem step_lat (s : St) (pre : Text) (h : Plain pre) (hm : s.inMap = true) :
    step s (pre ++ "LAT/LON1/LON2/DLON/H".toList) = latLine s (pre ++ "LAT/LON1/LON2/DLON/H".toList) := by
  obtain ⟨h1, h2, h3, h4, h5, h6, h7⟩ := labels pre "LAT/LON1/LON2/DLON/H".toList h
  unfold step
  rw [h1, h2, h3, h4, h6, h7, if_neg (by decide +kernel), if_neg (by decide +kernel), if_pos hm, if_neg (by decide +kernel),
    if_pos (by decide +kernel)]

theorem step_data (s : St) (l : Text) (h : Plain l) (hm : s.inMap = true) (hb : s.inBlock = true) : step s l = dataLine s l := by
  obtain ⟨h1, h2, h3, h4, h5, h6, h7⟩ := labels l [] h
  rw [List.append_nil] at h1 h2 h3 h4 h5 h6 h7
  unfold step
  rw [h1, h2, h3, h4, h6, h7, if_neg (by decide +kernel), if_neg (by decide +kernel), if_pos hm, if_neg (by decide +kernel),
    if_neg (by decide +kernel), if_pos hb]

theorem step_outside (s : St) (l : Text) (h : Outside l) (hm : s.inMap = false) : step s l = .ok s := by
  unfold step
  rw [h _ (by simp), h _ (by simp), h _ (by simp), h _ (by simp)]
  simp [hm]

theorem run_outside (s : St) (ls : List Text) (h : ∀ l ∈ ls, Outside l) (hm : s.inMap = false) : run s ls = .ok s := by
  induction ls with
  | nil => rfl
  | cons l ls ih => rw [run_one s s l ls (step_outside s l (h l (by simp)) hm)]; exact ih (fun x hx => h x (by simp [hx]))

/-! ## Values -/

/-- The value as it is stored. -/
def stored (v : Option Int) : Option Rat := v.map (fun (x : Int) => (x : Rat) / 10)

def Okay (v : Option Int) : Prop := ∀ x, v = some x → -1000 < x ∧ x < 9999

theorem showInt_short (n : Int) (h : -1000 < n) (h2 : n < 10000) : (showInt n).length ≤ 4 := by
  unfold showInt
  split
  · have := showNat_short (-n).toNat 3 (by decide) (by omega)
    simp; omega
  · exact showNat_short n.toNat 4 (by decide) (by omega)

theorem okay_short (v : Option Int) (h : Okay v) : (showInt (v.getD 9999)).length ≤ 4 := by
  cases v with
  | none => exact showInt_short 9999 (by decide) (by decide)
  | some x => have := h x rfl; exact showInt_short x this.1 (by omega)

theorem valueText_blank (v : Option Int) (h : Okay v) : ∃ r, valueText v = ' ' :: r := by
  have := okay_short v h
  unfold valueText right
  obtain ⟨k, hk⟩ : ∃ k, 5 - (showInt (v.getD 9999)).length = k + 1 := ⟨4 - (showInt (v.getD 9999)).length, by omega⟩
  exact ⟨List.replicate k ' ' ++ showInt (v.getD 9999), by rw [hk, List.replicate_succ]; rfl⟩

theorem words_row (r : List (Option Int)) (h : ∀ v ∈ r, Okay v) :
    words ((r.map valueText).flatten) = r.map (fun v => showInt (v.getD 9999)) := by
  induction r with
  | nil => exact words_nil
  | cons v r ih =>
    have hr := ih (fun x hx => h x (by simp [hx]))
    simp only [List.map_cons, List.flatten_cons]
    unfold valueText
    rw [right, List.append_assoc, words_blanks, words_word _ _ (showInt_ne_nil _) (int_tight _)]
    · exact congrArg _ hr
    · cases r with
      | nil => left; rfl
      | cons w r =>
        right
        obtain ⟨t, ht⟩ := valueText_blank w (h w (by simp))
        exact ⟨t ++ (r.map valueText).flatten, by simp only [List.map_cons, List.flatten_cons]; rw [show right 5 (showInt (w.getD 9999)) = _ from ht]; rfl⟩

theorem mapM_some {α β : Type} (f : α → Option β) (g : α → β) (l : List α) (h : ∀ a ∈ l, f a = some (g a)) : l.mapM f = some (l.map g) := by
  induction l with
  | nil => rfl
  | cons a l ih =>
    rw [List.mapM_cons, h a (by simp), ih (fun x hx => h x (by simp [hx]))]; rfl

theorem floats_row (r : List (Option Int)) :
    (r.map (fun v => showInt (v.getD 9999))).mapM float? = some (r.map (fun v => ((v.getD 9999 : Int) : Rat))) := by
  induction r with
  | nil => rfl
  | cons v r ih =>
    rw [List.map_cons, List.mapM_cons, float_int, ih]; rfl

theorem cell_stored (v : Option Int) (h : Okay v) : cell ((v.getD 9999 : Int) : Rat) = stored v := by
  cases v with
  | none => simp [cell, stored]
  | some x =>
    have hx := h x rfl
    simp only [cell, stored, Option.getD_some, Option.map_some]
    rw [if_neg]
    intro he
    have h2 : (x : Rat) = ((9999 : Int) : Rat) := by
      have : (x : Rat) = 9999 := by grind
      exact this
    have := Rat.intCast_inj.mp h2
    omega

theorem data_line (s : St) (O : List Map) (m : Map) (x : Row) (r : List (Option Int)) (h : ∀ v ∈ r, Okay v) (ho : s.objs = O ++ [m ++ [x]]) :
    dataLine s ((r.map valueText).flatten) = .ok { s with objs := O ++ [m ++ [x ++ r.map stored]] } := by
  unfold dataLine
  rw [words_row r h, floats_row]
  simp only [ho, List.getLast?_append, List.getLast?_singleton, Option.some_or]
  have he : (r.map (fun v => ((v.getD 9999 : Int) : Rat))).map cell = r.map stored := by
    rw [List.map_map]; apply List.map_congr_left; intro v hv; exact cell_stored v (h v hv)
  cases hm : m ++ [x] with
  | nil => simp at hm
  | cons a b =>
    simp only
    rw [← hm, withLast_snoc, extend_snoc, he]

theorem plain_row (r : List (Option Int)) : Plain ((r.map valueText).flatten) := by
  intro c hc
  simp only [List.mem_flatten, List.mem_map] at hc
  obtain ⟨t, ⟨v, _, rfl⟩, hc⟩ := hc
  exact plain_right 5 (plain_int _) c hc

theorem chunks_flatten (k : Nat) (l : List (Option Int)) : (chunks k l).flatten = l := by
  fun_induction chunks k l with
  | case1 => rfl
  | case2 v l ih => simp [ih]

theorem run_data (s : St) (O : List Map) (m : Map) (x : Row) (rs : List (List (Option Int))) (h : ∀ r ∈ rs, ∀ v ∈ r, Okay v)
    (hm : s.inMap = true) (hb : s.inBlock = true) (ho : s.objs = O ++ [m ++ [x]]) :
    run s (rs.map (fun r => (r.map valueText).flatten)) = .ok { s with objs := O ++ [m ++ [x ++ rs.flatten.map stored]] } := by
  induction rs generalizing s x with
  | nil => simp [run, ← ho]
  | cons r rs ih =>
    rw [List.map_cons, run_one s _ _ _ ((step_data s _ (plain_row r) hm hb).trans (data_line s O m x r (h r (by simp)) ho))]
    rw [ih { s with objs := O ++ [m ++ [x ++ r.map stored]] } (x ++ r.map stored) (fun a ha => h a (by simp [ha])) hm hb rfl]
    simp [List.append_assoc]

/-! ## Latitudes -/

theorem rat_tenth (a b : Int) : (a : Rat) / 10 + (b : Rat) / 10 = ((a + b : Int) : Rat) / 10 := by
  rw [Rat.intCast_add]; grind

/-- The longitudes of the grid. -/
def lngsOf (g : Grid) : List Rat := (List.range g.n).map (fun (i : Nat) => ((g.lng1 + g.dlng * i : Int) : Rat) / 10)

theorem arange_grid (g : Grid) (hd : g.dlng ≠ 0) :
    arange ((g.lng1 : Rat) / 10) ((g.lng2 : Rat) / 10 + (g.dlng : Rat) / 10) ((g.dlng : Rat) / 10) = .ok (lngsOf g) := by
  have hd2 : (g.dlng : Rat) ≠ 0 := by
    intro h; exact hd (Rat.intCast_inj.mp (h.trans Rat.intCast_zero.symm))
  have hd3 : (g.dlng : Rat) / 10 ≠ 0 := by grind
  unfold arange
  rw [if_neg hd3]
  have hq : ((g.lng2 : Rat) / 10 + (g.dlng : Rat) / 10 - (g.lng1 : Rat) / 10) / ((g.dlng : Rat) / 10) = ((g.n : Int) : Rat) := by
    have : (g.lng2 : Rat) = (g.lng1 : Rat) + (g.dlng : Rat) * (((g.n : Int) : Rat) - 1) := by
      unfold Grid.lng2
      rw [Rat.intCast_add, Rat.intCast_mul, Rat.intCast_sub]; rfl
    rw [this]; grind
  rw [hq, Rat.ceil_intCast]
  congr 1
  simp only [Int.toNat_natCast, lngsOf]
  apply List.map_congr_left
  intro i _
  rw [Rat.intCast_add, Rat.intCast_mul]
  have : ((i : Nat) : Rat) = (((i : Nat) : Int) : Rat) := rfl
  rw [this]; grind

theorem short5 (x : Int) (h : -1000 < x ∧ x < 1000) : (tenths x).length ≤ 5 := by
  have := tenths_length x 1 (by omega)
  split at this <;> omega

theorem short6 (x : Int) (h : -10000 < x ∧ x < 10000) : (tenths x).length ≤ 6 := by
  have := tenths_length x 2 (by omega)
  split at this <;> omega

theorem short6' (x : Int) (h : 0 ≤ x ∧ x < 100000) : (tenths x).length ≤ 6 := by
  have := tenths_length x 3 (by omega)
  rw [if_neg (by omega)] at this; omega

theorem lat_line (s : St) (O : List Map) (m : Map) (ls : List Rat) (g : Grid) (lats : List Int) (lat : Int) (hg : g.Fits lats)
    (hl : lat ∈ lats) (hm : s.inMap = true) (ho : s.objs = O ++ [m]) (hs : s.lats = some ls) :
    step s ("  ".toList ++ right 6 (tenths lat) ++ right 6 (tenths g.lng1) ++ right 6 (tenths g.lng2) ++ right 6 (tenths g.dlng) ++
      right 6 (tenths g.height) ++ label 28 "LAT/LON1/LON2/DLON/H") =
      .ok { s with objs := O ++ [m ++ [[]]], lats := some (ls ++ [(lat : Rat) / 10]), lngs := some (lngsOf g), height := some ((g.height : Rat) / 10),
                   inBlock := true } := by
  have l0 := short5 lat (hg.range lat hl)
  have l1 := right_length 6 _ (short6 _ hg.lng1)
  have l2 := right_length 6 _ (short6 _ hg.lng2)
  have l3 := right_length 6 _ (short6 _ ⟨hg.dlng.1, hg.dlng.2.1⟩)
  have l4 := right_length 6 _ (short6' _ hg.height)
  have hr : right 6 (tenths lat) = ' ' :: right 5 (tenths lat) := by
    have h1 := drop_right 5 (tenths lat) l0
    unfold right at h1 ⊢
    have : 5 + 1 - (tenths lat).length = (5 - (tenths lat).length) + 1 := by omega
    rw [show 6 - (tenths lat).length = (5 - (tenths lat).length) + 1 by omega, List.replicate_succ]; rfl
  have l5 := right_length 5 _ l0
  rw [label, ← List.append_assoc _ (List.replicate 28 ' ')]
  rw [step_lat s _ _ hm]
  · rw [hr]
    generalize hA : right 5 (tenths lat) = A at *
    generalize hB : right 6 (tenths g.lng1) = B at *
    generalize hC : right 6 (tenths g.lng2) = C at *
    generalize hD : right 6 (tenths g.dlng) = D at *
    generalize hE : right 6 (tenths g.height) = E at *
    generalize hZ : List.replicate 28 ' ' = Z
    generalize hY : "LAT/LON1/LON2/DLON/H".toList = Y
    have hsp : "  ".toList = [' ', ' '] := rfl
    rw [hsp]
    have c1 : cols 3 8 ([' ', ' '] ++ (' ' :: A) ++ B ++ C ++ D ++ E ++ Z ++ Y) = A := by
      have := cols_at 3 8 [' ', ' ', ' '] A (B ++ C ++ D ++ E ++ Z ++ Y) rfl (by omega)
      simpa [List.append_assoc] using this
    have c2 : cols 8 14 ([' ', ' '] ++ (' ' :: A) ++ B ++ C ++ D ++ E ++ Z ++ Y) = B := by
      have := cols_at 8 14 ([' ', ' ', ' '] ++ A) B (C ++ D ++ E ++ Z ++ Y) (by simp; omega) (by omega)
      simpa [List.append_assoc] using this
    have c3 : cols 14 20 ([' ', ' '] ++ (' ' :: A) ++ B ++ C ++ D ++ E ++ Z ++ Y) = C := by
      have := cols_at 14 20 ([' ', ' ', ' '] ++ A ++ B) C (D ++ E ++ Z ++ Y) (by simp; omega) (by omega)
      simpa [List.append_assoc] using this
    have c4 : cols 20 26 ([' ', ' '] ++ (' ' :: A) ++ B ++ C ++ D ++ E ++ Z ++ Y) = D := by
      have := cols_at 20 26 ([' ', ' ', ' '] ++ A ++ B ++ C) D (E ++ Z ++ Y) (by simp; omega) (by omega)
      simpa [List.append_assoc] using this
    have c5 : cols 26 32 ([' ', ' '] ++ (' ' :: A) ++ B ++ C ++ D ++ E ++ Z ++ Y) = E := by
      have := cols_at 26 32 ([' ', ' ', ' '] ++ A ++ B ++ C ++ D) E (Z ++ Y) (by simp; omega) (by omega)
      simpa [List.append_assoc] using this
    unfold latLine
    rw [c1, c2, c3, c4, c5, ← hA, ← hB, ← hC, ← hD, ← hE]
    simp only [float_right]
    rw [if_neg (by simp [ho])]
    simp only [hs, arange_grid g hg.dlng.2.2, ho, withLast_snoc]
  · refine plain_append (plain_append (plain_append (plain_append (plain_append (plain_append ?_ ?_) ?_) ?_) ?_) ?_) (plain_blanks _)
    · exact plain_blanks 2
    all_goals exact plain_right 6 (plain_tenths _)

/-- The row of a latitude. -/
def rowOf (b : Band) : Row := b.values.map stored

theorem mem_chunks (k : Nat) (l : List (Option Int)) (r : List (Option Int)) (h : r ∈ chunks k l) (v : Option Int) (hv : v ∈ r) : v ∈ l := by
  rw [← chunks_flatten k l]
  exact List.mem_flatten.mpr ⟨r, h, hv⟩

theorem run_band (s : St) (O : List Map) (m : Map) (ls : List Rat) (g : Grid) (lats : List Int) (b : Band) (hg : g.Fits lats)
    (hl : b.lat ∈ lats) (hv : ∀ v ∈ b.values, Okay v) (hm : s.inMap = true) (ho : s.objs = O ++ [m]) (hs : s.lats = some ls) :
    run s (bandLines g b) =
      .ok { s with objs := O ++ [m ++ [rowOf b]], lats := some (ls ++ [(b.lat : Rat) / 10]), lngs := some (lngsOf g),
                   height := some ((g.height : Rat) / 10), inBlock := true } := by
  unfold bandLines
  rw [run_one s _ _ _ (lat_line s O m ls g lats b.lat hg hl hm ho hs)]
  refine (run_data { s with objs := O ++ [m ++ [[]]], lats := some (ls ++ [(b.lat : Rat) / 10]), lngs := some (lngsOf g), height := some ((g.height : Rat) / 10), inBlock := true } O m [] (chunks 15 b.values) (fun r hr v hx => hv v (mem_chunks 15 _ r hr v hx)) hm rfl rfl).trans ?_
  rw [chunks_flatten]
  simp [rowOf]

theorem run_bands (s : St) (O : List Map) (m : Map) (ls : List Rat) (g : Grid) (lats : List Int) (bs : List Band) (hg : g.Fits lats)
    (h0 : bs ≠ []) (hl : ∀ b ∈ bs, b.lat ∈ lats) (hv : ∀ b ∈ bs, ∀ v ∈ b.values, Okay v) (hm : s.inMap = true) (ho : s.objs = O ++ [m])
    (hs : s.lats = some ls) :
    run s (bs.flatMap (bandLines g)) =
      .ok { s with objs := O ++ [m ++ bs.map rowOf], lats := some (ls ++ bs.map (fun b => (b.lat : Rat) / 10)), lngs := some (lngsOf g),
                   height := some ((g.height : Rat) / 10), inBlock := true } := by
  induction bs generalizing s m ls with
  | nil => exact absurd rfl h0
  | cons b bs ih =>
    rw [List.flatMap_cons, run_append_ok s _ _ _ (run_band s O m ls g lats b hg (hl b (by simp)) (hv b (by simp)) hm ho hs)]
    cases bs with
    | nil => simp [run]
    | cons b2 bs2 =>
      rw [ih { s with objs := O ++ [m ++ [rowOf b]], lats := some (ls ++ [(b.lat : Rat) / 10]), lngs := some (lngsOf g), height := some ((g.height : Rat) / 10), inBlock := true } (m ++ [rowOf b]) (ls ++ [(b.lat : Rat) / 10]) (by simp) (fun x hx => hl x (by simp [hx])) (fun x hx => hv x (by simp [hx])) hm rfl rfl]
      simp [List.append_assoc]

/-! ## Times -/

theorem words_right (w : Nat) (t rest : Text) (h0 : t ≠ []) (ht : ∀ c ∈ t, isBlank c = false) (hr : rest = [] ∨ ∃ r, rest = ' ' :: r) :
    words (right w t ++ rest) = t :: words rest := by
  rw [right, List.append_assoc, words_blanks, words_word t rest h0 ht hr]

theorem right_blank (w : Nat) (t rest : Text) (h : t.length < w) : ∃ r, right w t ++ rest = ' ' :: r := by
  obtain ⟨k, hk⟩ : ∃ k, w - t.length = k + 1 := ⟨w - t.length - 1, by omega⟩
  exact ⟨List.replicate k ' ' ++ t ++ rest, by unfold right; rw [hk, List.replicate_succ]; simp⟩

theorem nat_lt6 (n : Nat) (h : n < 100000) : (showNat n).length < 6 := by
  have := showNat_short n 5 (by decide) (by omega); omega

theorem words_epoch (c : Chart) (h : c.year < 100000 ∧ c.month < 100000 ∧ c.day < 100000 ∧ c.hour < 100000 ∧ c.minute < 100000 ∧ c.second < 100000) :
    (words (epochText c)).take 6 =
      [showNat c.year, showNat c.month, showNat c.day, showNat c.hour, showNat c.minute, showNat c.second] := by
  unfold epochText
  have hl : label 24 "EPOCH OF CURRENT MAP" = ' ' :: label 23 "EPOCH OF CURRENT MAP" := rfl
  rw [List.append_assoc, List.append_assoc, List.append_assoc, List.append_assoc, List.append_assoc]
  rw [words_right 6 _ _ (showNat_ne_nil _) (nat_tight _) (Or.inr (right_blank 6 _ _ (nat_lt6 _ h.2.1)))]
  rw [words_right 6 _ _ (showNat_ne_nil _) (nat_tight _) (Or.inr (right_blank 6 _ _ (nat_lt6 _ h.2.2.1)))]
  rw [words_right 6 _ _ (showNat_ne_nil _) (nat_tight _) (Or.inr (right_blank 6 _ _ (nat_lt6 _ h.2.2.2.1)))]
  rw [words_right 6 _ _ (showNat_ne_nil _) (nat_tight _) (Or.inr (right_blank 6 _ _ (nat_lt6 _ h.2.2.2.2.1)))]
  rw [words_right 6 _ _ (showNat_ne_nil _) (nat_tight _) (Or.inr (right_blank 6 _ _ (nat_lt6 _ h.2.2.2.2.2)))]
  rw [words_right 6 _ _ (showNat_ne_nil _) (nat_tight _) (Or.inr ⟨_, hl⟩)]
  rfl

theorem six_epoch (c : Chart) (h : c.year < 100000 ∧ c.month < 100000 ∧ c.day < 100000 ∧ c.hour < 100000 ∧ c.minute < 100000 ∧ c.second < 100000) :
    six (epochText c) = some ((c.year : Int), (c.month : Int), (c.day : Int), (c.hour : Int), (c.minute : Int), (c.second : Int)) := by
  unfold six
  rw [words_epoch c h]
  have : [showNat c.year, showNat c.month, showNat c.day, showNat c.hour, showNat c.minute, showNat c.second].mapM int? =
      some [(c.year : Int), (c.month : Int), (c.day : Int), (c.hour : Int), (c.minute : Int), (c.second : Int)] := by
    simp only [List.mapM_cons, List.mapM_nil, int_nat]; rfl
  rw [this]

theorem small_of_exists (dt : DateTime) (h : SdfUtils.exists? dt = true) :
    dt.year < 100000 ∧ dt.month < 100000 ∧ dt.day < 100000 ∧ dt.hour < 24 ∧ dt.minute < 60 ∧ dt.second < 60 := by
  simp only [SdfUtils.exists?, decide_eq_true_eq] at h
  have hd : SdfUtils.daysIn dt.year dt.month ≤ 31 := by
    unfold SdfUtils.daysIn; repeat' split
    all_goals omega
  omega

theorem datetime_nat (y mo d h mi s : Nat) : datetime? y mo d h mi s =
    if SdfUtils.exists? ⟨y, mo, d, h, mi, s, 0⟩ then some ⟨y, mo, d, h, mi, s, 0⟩ else none := by
  unfold datetime?
  rw [if_neg (by omega)]
  simp only [Int.toNat_natCast]

theorem exists_hour (y mo d h mi s : Nat) (he : SdfUtils.exists? ⟨y, mo, d, 0, mi, s, 0⟩ = true) (hh : h < 24) :
    SdfUtils.exists? ⟨y, mo, d, h, mi, s, 0⟩ = true := by
  simp only [SdfUtils.exists?, decide_eq_true_eq] at he ⊢
  omega

theorem not_exists_24 (y mo d mi s : Nat) : SdfUtils.exists? ⟨y, mo, d, 24, mi, s, 0⟩ = false := by
  simp only [SdfUtils.exists?, decide_eq_false_iff_not]
  omega

theorem mjdOf_eq (y mo d h mi s : Nat) :
    mjdOf ⟨y, mo, d, h, mi, s, 0⟩ = (toMjd ⟨y, mo, d, 0, 0, 0, 0⟩ : Rat) + ((h * 3600 + mi * 60 + s : Nat) : Rat) / 86400 := by
  unfold mjdOf
  have h1 : toMjd ⟨y, mo, d, h, mi, s, 0⟩ = toMjd ⟨y, mo, d, 0, 0, 0, 0⟩ := rfl
  have h2 : toMpm ⟨y, mo, d, h, mi, s, 0⟩ = ((h * 3600 + mi * 60 + s : Nat) : Int) * 1000 := by
    simp only [toMpm]; omega
  rw [h1, h2, Rat.intCast_mul]
  have h3 : (((h * 3600 + mi * 60 + s : Nat) : Int) : Rat) = ((h * 3600 + mi * 60 + s : Nat) : Rat) := rfl
  rw [h3]
  generalize ((h * 3600 + mi * 60 + s : Nat) : Rat) = x
  have h4 : ((1000 : Int) : Rat) = 1000 := rfl
  rw [h4]; grind

theorem epoch_chart (c : Chart) (he : SdfUtils.exists? ⟨c.year, c.month, c.day, 0, c.minute, c.second, 0⟩ = true) (hh : c.hour ≤ 24) :
    epoch c.year c.month c.day c.hour c.minute c.second = .ok (some (timeOf c)) := by
  unfold epoch
  rw [datetime_nat]
  by_cases h : c.hour < 24
  · rw [if_pos (exists_hour _ _ _ _ _ _ he h)]
    simp only [mjdOf_eq, timeOf]
  · have h24 : c.hour = 24 := by omega
    rw [h24, not_exists_24]
    simp only [Bool.false_eq_true, if_false]
    rw [if_pos (by decide)]
    have : (((24 : Nat) : Int) - 24) = ((0 : Nat) : Int) := by decide
    rw [this, datetime_nat, if_pos he]
    simp only [mjdOf_eq, timeOf, h24]
    congr 2
    have : ((24 * 3600 + c.minute * 60 + c.second : Nat) : Rat) = ((86400 : Nat) : Rat) + ((0 * 3600 + c.minute * 60 + c.second : Nat) : Rat) := by
      rw [← Rat.natCast_add]; congr 1; omega
    rw [this]
    have h4 : ((86400 : Nat) : Rat) = 86400 := rfl
    rw [h4]; grind

theorem plain_epoch (c : Chart) : ∃ pre, Plain pre ∧ epochText c = pre ++ "EPOCH OF CURRENT MAP".toList := by
  refine ⟨right 6 (showNat c.year) ++ right 6 (showNat c.month) ++ right 6 (showNat c.day) ++ right 6 (showNat c.hour) ++
    right 6 (showNat c.minute) ++ right 6 (showNat c.second) ++ List.replicate 24 ' ', ?_, ?_⟩
  · refine plain_append (plain_append (plain_append (plain_append (plain_append (plain_append ?_ ?_) ?_) ?_) ?_) ?_) (plain_blanks _)
    all_goals exact plain_right 6 (plain_nat _)
  · simp [epochText, label, List.append_assoc]

theorem step_chart_epoch (s : St) (g : Grid) (lats : List Int) (c : Chart) (hc : c.Fits g lats) (hm : s.inMap = true) :
    step s (epochText c) = .ok { s with dates := if timeOf c ∈ s.dates then s.dates else s.dates ++ [timeOf c],
                                        objs := s.objs ++ [[]], lats := some [], lngs := some [] } := by
  obtain ⟨pre, hp, he⟩ := plain_epoch c
  rw [he, step_epoch s pre hp hm, ← he]
  unfold epochLine
  have hs := small_of_exists _ hc.date
  simp only at hs
  have := hc.hour
  rw [six_epoch c ⟨hs.1, hs.2.1, hs.2.2.1, by omega, by omega, by omega⟩]
  simp only [epoch_chart c hc.date hc.hour]

/-! ## Maps -/

/-- The state after a map. -/
def after (tec : Bool) (g : Grid) (s : St) (c : Chart) : St where
  dates := if timeOf c ∈ s.dates then s.dates else s.dates ++ [timeOf c]
  objs := s.objs ++ [valuesOf c]
  tec := if tec then s.tec ++ [s.objs.length] else s.tec
  rms := if tec then s.rms else s.rms ++ [s.objs.length]
  inMap := false
  inBlock := true
  lats := some (c.bands.map (fun b => (b.lat : Rat) / 10))
  lngs := some (lngsOf g)
  height := some ((g.height : Rat) / 10)

theorem cmap_snoc (s : St) (O : List Map) (m : Map) (h : s.objs = O ++ [m]) : cmap s = some O.length := by
  unfold cmap
  rw [if_neg (by simp [h]), h]; simp

theorem run_chart (tec : Bool) (s : St) (g : Grid) (lats : List Int) (k : Nat) (c : Chart) (hg : g.Fits lats) (hc : c.Fits g lats) :
    run s (chartLines (if tec then "TEC" else "RMS") g k c) = .ok (after tec g s c) := by
  have hb : c.bands ≠ [] := by
    intro h
    apply hg.nonempty
    rw [← hc.rows, h]; rfl
  have hpre : Plain (right 6 (showNat k) ++ List.replicate 54 ' ') := plain_append (plain_right 6 (plain_nat k)) (plain_blanks _)
  unfold chartLines
  rw [label, label, ← List.append_assoc (right 6 (showNat k)), ← List.append_assoc (right 6 (showNat k))]
  rw [List.append_assoc, List.cons_append, run_one s _ _ _ (step_start s _ _ hpre (by cases tec <;> simp))]
  rw [List.cons_append, run_one _ _ _ _ (step_chart_epoch { s with inMap := true } g lats c hc rfl), List.nil_append]
  rw [run_append_ok _ _ _ _ (run_bands { s with dates := if timeOf c ∈ s.dates then s.dates else s.dates ++ [timeOf c], objs := s.objs ++ [[]], lats := some [], lngs := some [], inMap := true } s.objs [] [] g lats c.bands hg hb
    (fun b hx => by rw [← hc.rows]; exact List.mem_map.mpr ⟨b, hx, rfl⟩)
    (fun b hx v hv x hxe => hc.values b hx x (hxe ▸ hv)) rfl rfl rfl)]
  have hend := cmap_snoc { s with dates := if timeOf c ∈ s.dates then s.dates else s.dates ++ [timeOf c], objs := s.objs ++ [[] ++ c.bands.map rowOf], lats := some ([] ++ c.bands.map (fun b => (b.lat : Rat) / 10)), lngs := some (lngsOf g), height := some ((g.height : Rat) / 10), inBlock := true, inMap := true } s.objs _ rfl
  cases tec with
  | true =>
    refine (run_one _ _ _ _ (step_end_tec _ _ s.objs.length hpre hend)).trans ?_
    simp only [run, after, List.nil_append, if_true]
    rfl
  | false =>
    refine (run_one _ _ _ _ (step_end_rms _ _ s.objs.length hpre hend)).trans ?_
    simp only [run, after, List.nil_append, Bool.false_eq_true, if_false]
    rfl

theorem run_charts (tec : Bool) (g : Grid) (lats : List Int) (cs : List Chart) (hg : g.Fits lats) (hc : ∀ c ∈ cs, c.Fits g lats) (s : St) (n : Nat) :
    run s ((cs.zipIdx n).flatMap (fun x => chartLines (if tec then "TEC" else "RMS") g (x.2 + 1) x.1)) = .ok (cs.foldl (after tec g) s) := by
  induction cs generalizing s n with
  | nil => rfl
  | cons c cs ih =>
    rw [List.zipIdx_cons, List.flatMap_cons, run_append_ok s _ _ _ (run_chart tec s g lats (n + 1) c hg (hc c (by simp)))]
    exact ih (fun x hx => hc x (by simp [hx])) _ _

/-- What the loop over the maps leaves. -/
theorem fold_after (tec : Bool) (g : Grid) (lats : List Int) (cs : List Chart) (hc : ∀ c ∈ cs, c.Fits g lats) (s : St) :
    cs.foldl (after tec g) s =
      { dates := (cs.map timeOf).foldl (fun a t => if t ∈ a then a else a ++ [t]) s.dates
        objs := s.objs ++ cs.map valuesOf
        tec := if tec then s.tec ++ (List.range cs.length).map (· + s.objs.length) else s.tec
        rms := if tec then s.rms else s.rms ++ (List.range cs.length).map (· + s.objs.length)
        inMap := if cs = [] then s.inMap else false
        inBlock := if cs = [] then s.inBlock else true
        lats := if cs = [] then s.lats else some (lats.map (fun (x : Int) => (x : Rat) / 10))
        lngs := if cs = [] then s.lngs else some (lngsOf g)
        height := if cs = [] then s.height else some ((g.height : Rat) / 10) } := by
  induction cs generalizing s with
  | nil => simp
  | cons c cs ih =>
    rw [List.foldl_cons, ih (fun x hx => hc x (by simp [hx]))]
    have hr : (List.range (cs.length + 1)).map (· + s.objs.length) = s.objs.length :: (List.range cs.length).map (· + (s.objs.length + 1)) := by
      rw [List.range_succ_eq_map]; simp [Function.comp_def]; intro a _; omega
    have hl : c.bands.map (fun b => (b.lat : Rat) / 10) = lats.map (fun (x : Int) => (x : Rat) / 10) := by
      rw [← (hc c (by simp)).rows, List.map_map]; rfl
    cases tec with
    | true =>
      cases cs with
      | nil => simp [after, hl]
      | cons d ds => simp [after, hl]; exact hr.symm
    | false =>
      cases cs with
      | nil => simp [after, hl]
      | cons d ds => simp [after, hl]; exact hr.symm

theorem refs_map (A B : List Map) (C : List Map) :
    ((List.range B.length).map (· + A.length)).map (fun k => (A ++ B ++ C).getD k []) = B := by
  apply List.ext_getElem
  · simp
  · intro i h1 h2
    simp only [List.getElem_map, List.getElem_range]
    rw [List.append_assoc, List.getD_eq_getElem?_getD, List.getElem?_append_right (by omega), show i + A.length - A.length = i by omega,
      List.getElem?_append_left h2, List.getElem?_eq_getElem h2]
    rfl

theorem regular (g : Grid) (lats : List Int) (cs : List Chart) (hc : ∀ c ∈ cs, c.Fits g lats) : Regular? (cs.map valuesOf) = true := by
  have hlen : ∀ c ∈ cs, (valuesOf c).length = lats.length := by
    intro c h; rw [← (hc c h).rows]; simp [valuesOf]
  have hrow : ∀ c ∈ cs, ∀ r ∈ valuesOf c, r.length = g.n := by
    intro c h r hr
    simp only [valuesOf, List.mem_map] at hr
    obtain ⟨b, hb, rfl⟩ := hr
    simp [(hc c h).count b hb]
  cases cs with
  | nil => rfl
  | cons c cs =>
    simp only [Regular?, List.map_cons, List.all_eq_true, Bool.and_eq_true, beq_iff_eq]
    intro m hm
    have hm2 : m ∈ (c :: cs).map valuesOf := by simpa using hm
    obtain ⟨d, hd, rfl⟩ := List.mem_map.mp hm2
    refine ⟨by rw [hlen d hd, hlen c (by simp)], ?_⟩
    intro r hr
    rw [hrow d hd r hr]
    cases hv : valuesOf c with
    | nil =>
      have h1 := hlen c (by simp); rw [hv] at h1
      have h2 := hlen d hd
      rw [← h1] at h2
      rw [List.eq_nil_of_length_eq_zero h2] at hr; simp at hr
    | cons r0 rs => simp only [List.headD_cons]; rw [hrow c (by simp) r0 (by rw [hv]; simp)]

theorem size_charts (g : Grid) (lats : List Int) (cs : List Chart) (hc : ∀ c ∈ cs, c.Fits g lats) :
    size (cs.map valuesOf) = cs.length * (lats.length * g.n) := by
  have hsum : ∀ (l : List Nat) (k : Nat), (∀ x ∈ l, x = k) → l.sum = l.length * k := by
    intro l k h
    induction l with
    | nil => simp
    | cons a l ih => rw [List.sum_cons, ih (fun x hx => h x (by simp [hx])), h a (by simp), List.length_cons, Nat.succ_mul]; omega
  unfold size
  rw [hsum _ (lats.length * g.n), List.length_map, List.length_map]
  intro x hx
  simp only [List.mem_map] at hx
  obtain ⟨m, ⟨c, hcm, rfl⟩, rfl⟩ := hx
  rw [hsum _ g.n, List.length_map]
  · congr 1; rw [← (hc c hcm).rows]; simp [valuesOf]
  · intro y hy
    simp only [valuesOf, List.mem_map] at hy
    obtain ⟨r, ⟨b, hb, rfl⟩, rfl⟩ := hy
    simp [(hc c hcm).count b hb]

end Verif.Ionex
