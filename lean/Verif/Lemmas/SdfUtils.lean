import Verif.Spec.SdfUtils
import Verif.Lemmas.Dec
import Verif.Lemmas.PyNum
import Verif.Props.McsTime
/-!
# The pattern of a time
-/
namespace Verif.SdfUtils

open Dec Idf McsTime Spec

theorem takeWhile_stop {α : Type} (p : α → Bool) (a b : List α) (ha : ∀ x ∈ a, p x = true) (hb : ∀ x, b.head? = some x → p x = false) :
    (a ++ b).takeWhile p = a := by
  induction a with
  | nil =>
    cases b with
    | nil => rfl
    | cons x b => simp [hb x rfl]
  | cons x a ih =>
    simp only [List.cons_append, List.takeWhile_cons, ha x (by simp), if_true]
    rw [ih fun y hy => ha y (by simp [hy])]

theorem takeWhile_split {α : Type} (p : α → Bool) (s : List α) :
    s = s.takeWhile p ++ s.drop (s.takeWhile p).length ∧ (∀ x ∈ s.takeWhile p, p x = true) ∧
      ∀ x, (s.drop (s.takeWhile p).length).head? = some x → p x = false := by
  induction s with
  | nil => simp
  | cons a s ih =>
    simp only [List.takeWhile_cons]
    by_cases h : p a = true
    · simp only [h, if_true, List.length_cons, List.drop_succ_cons, List.cons_append]
      refine ⟨by rw [← ih.1], ?_, ih.2.2⟩
      intro x hx
      rcases List.mem_cons.mp hx with e | e
      · rw [e]; exact h
      · exact ih.2.1 x e
    · simp only [Bool.not_eq_true] at h
      simp [h]

/-- No digit comes next. -/
def NoDigit (r : Text) : Prop := ∀ x, r.head? = some x → x.isDigit = false

theorem noDigit_nil : NoDigit [] := by intro x h; cases h

theorem noDigit_cons (c : Char) (r : Text) (h : c.isDigit = false) : NoDigit (c :: r) := by
  intro x hx
  injection hx with hx
  rw [← hx]; exact h

theorem digits_ok (lo hi : Nat) (d r : Text) (h : Digits lo hi d) (hr : NoDigit r) : digits lo hi (d ++ r) = some (d, r) := by
  unfold digits
  simp only [takeWhile_stop _ d r h.2.2 hr]
  rw [if_pos ⟨h.1, h.2.1⟩, List.drop_left]

theorem digits_some (lo hi : Nat) (s : Text) (q : Text × Text) (h : digits lo hi s = some q) : s = q.1 ++ q.2 ∧ Digits lo hi q.1 ∧ NoDigit q.2 := by
  obtain ⟨h1, h2, h3⟩ := takeWhile_split Char.isDigit s
  unfold digits at h
  simp only at h
  split at h
  · next hl =>
    injection h with h
    subst h
    exact ⟨h1, ⟨hl.1, hl.2, h2⟩, h3⟩
  · cases h

theorem digits_none (lo hi : Nat) (c : Char) (r : Text) (hlo : 0 < lo) (h : c.isDigit = false) : digits lo hi (c :: r) = none := by
  unfold digits
  simp only [List.takeWhile_cons, h]
  rw [if_neg (by simp; omega)]

theorem char1_ok (p : Char → Bool) (c : Char) (r : Text) (h : p c = true) : char1 p (c :: r) = some r := by
  simp [char1, h]

theorem char1_some (p : Char → Bool) (s r : Text) (h : char1 p s = some r) : ∃ c, s = c :: r ∧ p c = true := by
  cases s with
  | nil => cases h
  | cons c l =>
    simp only [char1] at h
    split at h
    · next hp =>
      injection h with h
      exact ⟨c, by rw [h], hp⟩
    · cases h

theorem upper_digit (c : Char) (h : c.isDigit = true) : isUpper c = false := by
  simp only [Char.isDigit, isUpper, ge_iff_le, Bool.and_eq_true, decide_eq_true_eq] at *
  have h2 : c.val ≤ 57 := h.2
  have : ¬ 'A' ≤ c := by
    intro hc
    have hc : (65 : UInt32) ≤ c.val := hc
    have := UInt32.le_trans hc h2
    exact absurd this (by decide)
  simp [this]

theorem letter_digit (c : Char) (h : isLetter c = true) : c.isDigit = false := by
  cases hd : c.isDigit with
  | false => rfl
  | true =>
    exfalso
    have h2 : c.val ≤ 57 := by
      simp only [Char.isDigit, ge_iff_le, Bool.and_eq_true, decide_eq_true_eq] at hd
      exact hd.2
    unfold isLetter at h
    rw [upper_digit c hd] at h
    simp only [Bool.false_or, Bool.and_eq_true, decide_eq_true_eq] at h
    have hc : (97 : UInt32) ≤ c.val := h.1
    exact absurd (UInt32.le_trans hc h2) (by decide)

theorem sep_val (c : Char) (h : Sep c) : c.val ≤ 47 := by
  simp only [Spec.Sep, isSep, Bool.and_eq_true, decide_eq_true_eq] at h
  exact h.2

theorem sep_digit (c : Char) (h : Sep c) : c.isDigit = false := by
  cases hd : c.isDigit with
  | false => rfl
  | true =>
    exfalso
    simp only [Char.isDigit, ge_iff_le, Bool.and_eq_true, decide_eq_true_eq] at hd
    exact absurd (UInt32.le_trans hd.1 (sep_val c h)) (by decide)

theorem sep_letter (c : Char) (h : Sep c) : isLetter c = false := by
  have hv := sep_val c h
  cases hd : isLetter c with
  | false => rfl
  | true =>
    exfalso
    simp only [isLetter, isUpper, Bool.or_eq_true, Bool.and_eq_true, decide_eq_true_eq] at hd
    rcases hd with hd | hd
    · have hc : (65 : UInt32) ≤ c.val := hd.1
      exact absurd (UInt32.le_trans hc hv) (by decide)
    · have hc : (97 : UInt32) ≤ c.val := hd.1
      exact absurd (UInt32.le_trans hc hv) (by decide)

/-! ## Parts -/

theorem digits_head (lo hi : Nat) (d r : Text) (hlo : 0 < lo) (h : Digits lo hi d) : ∀ x, (d ++ r).head? = some x → x.isDigit = true := by
  intro x hx
  cases d with
  | nil =>
    have := h.1
    simp only [List.length_nil] at this
    omega
  | cons c d =>
    simp only [List.cons_append, List.head?_cons, Option.some.injEq] at hx
    rw [← hx]
    exact h.2.2 c (by simp)

theorem zone_ok (z : Option Text) (hz : ∀ t, z = some t → ZoneName t) (d r : Text) (hd : Digits 4 4 d) :
    zone? (zoneText z ++ (d ++ r)) = some (z, d ++ r) := by
  cases z with
  | none =>
    unfold zone?
    have e : (zoneText none ++ (d ++ r)).takeWhile isUpper = [] := by
      have := takeWhile_stop isUpper [] (d ++ r) (by simp) fun x hx => upper_digit x (digits_head 4 4 d r (by decide) hd x hx)
      simpa [zoneText] using this
    simp only [e, if_true]
    rfl
  | some t =>
    have ht := hz t rfl
    unfold zone?
    have e0 : zoneText (some t) ++ (d ++ r) = t ++ (' ' :: (d ++ r)) := by simp [zoneText]
    have e : (t ++ (' ' :: (d ++ r))).takeWhile isUpper = t :=
      takeWhile_stop isUpper t _ ht.2.2 fun x hx => by
        simp only [List.head?_cons, Option.some.injEq] at hx
        rw [← hx]; decide
    simp only [e0, e]
    rw [if_neg (by intro h; have := ht.1; rw [h] at this; simp at this), if_pos ⟨ht.1, ht.2.1⟩, List.drop_left,
      char1_ok _ _ _ (by decide)]
    rfl

theorem zone_some (s : Text) (q : Option Text × Text) (h : zone? s = some q) : s = zoneText q.1 ++ q.2 ∧ ∀ t, q.1 = some t → ZoneName t := by
  obtain ⟨h1, h2, h3⟩ := takeWhile_split isUpper s
  unfold zone? at h
  simp only at h
  split at h
  · injection h with h
    subst h
    exact ⟨rfl, by intro t ht; cases ht⟩
  · split at h
    · next hl =>
      rw [Option.map_eq_some_iff] at h
      obtain ⟨r, hr, rfl⟩ := h
      obtain ⟨c, hc, hp⟩ := char1_some _ _ _ hr
      have hc' : c = ' ' := by simpa using hp
      subst hc'
      rw [hc] at h1
      refine ⟨?_, ?_⟩
      · simp only [zoneText, List.append_assoc, List.cons_append, List.nil_append]
        exact h1
      · intro t ht
        injection ht with ht
        rw [← ht]
        exact ⟨hl.1, hl.2, h2⟩
    · cases h

theorem month_ok (mo : Text) (c : Char) (r : Text) (h : Digits 1 2 mo ∨ Letters mo) (hc : Sep c) : month? (mo ++ c :: r) = some (mo, c :: r) := by
  unfold month?
  rcases h with h | h
  · rw [digits_ok 1 2 mo _ h (noDigit_cons c r (sep_digit c hc))]
  · have h0 : digits 1 2 (mo ++ c :: r) = none := by
      cases mo with
      | nil => simp [Letters] at h
      | cons x l => exact digits_none 1 2 x _ (by decide) (letter_digit x (h.2 x (by simp)))
    rw [h0]
    have e : (mo ++ c :: r).takeWhile isLetter = mo :=
      takeWhile_stop isLetter mo _ h.2 fun x hx => by
        simp only [List.head?_cons, Option.some.injEq] at hx
        rw [← hx]; exact sep_letter c hc
    simp only [e]
    rw [if_pos h.1]
    congr 2
    rw [← h.1, List.drop_left]

theorem month_some (s : Text) (q : Text × Text) (h : month? s = some q) : s = q.1 ++ q.2 ∧ (Digits 1 2 q.1 ∨ Letters q.1) := by
  unfold month? at h
  split at h
  · next x hx =>
    injection h with h
    subst h
    obtain ⟨a, b, -⟩ := digits_some 1 2 s x hx
    exact ⟨a, .inl b⟩
  · obtain ⟨h1, h2, -⟩ := takeWhile_split isLetter s
    simp only at h
    split at h
    · next hl =>
      injection h with h
      subst h
      rw [hl] at h1
      exact ⟨h1, .inr ⟨hl, h2⟩⟩
    · cases h

/-- What may come after the seconds. -/
def EndLike (r : Text) : Prop := ∀ x, r.head? = some x → x.isDigit = false ∧ x ≠ '.'

theorem second_ok (d f r : Text) (hd : Digits 1 2 d) (hf : Digits 0 6 f) (hr : EndLike r) : second? (d ++ (fracText f ++ r)) = some (d, f, r) := by
  unfold second? fracText
  by_cases hn : f = []
  · subst hn
    simp only [if_true, List.nil_append]
    rw [digits_ok 1 2 d r hd fun x hx => (hr x hx).1, Option.bind_some]
    simp only
    split
    · next l => exact absurd rfl (hr '.' rfl).2
    · rfl
  · rw [if_neg hn, List.cons_append, digits_ok 1 2 d _ hd (noDigit_cons '.' _ (by decide)), Option.bind_some]
    simp only
    have : Digits 1 6 f := ⟨List.length_pos_iff.mpr hn, hf.2⟩
    rw [digits_ok 1 6 f r this fun x hx => (hr x hx).1]
    rfl

theorem second_some (s : Text) (q : Text × Text × Text) (h : second? s = some q) : s = q.1 ++ (fracText q.2.1 ++ q.2.2) ∧ Digits 1 2 q.1 ∧ Digits 0 6 q.2.1 := by
  unfold second? at h
  rw [Option.bind_eq_some_iff] at h
  obtain ⟨p, hp, h⟩ := h
  obtain ⟨h1, h2, -⟩ := digits_some 1 2 s p hp
  split at h
  · next l hl =>
    rw [Option.map_eq_some_iff] at h
    obtain ⟨f, hf, rfl⟩ := h
    obtain ⟨h3, h4, -⟩ := digits_some 1 6 l f hf
    refine ⟨?_, h2, ⟨Nat.zero_le _, h4.2⟩⟩
    have hne : f.1 ≠ [] := by
      intro e
      have := h4.1
      rw [e] at this
      simp at this
    simp only [fracText, if_neg hne, List.cons_append]
    rw [← h3, ← hl]
    exact h1
  · injection h with h
    subst h
    refine ⟨?_, h2, by simp [Digits]⟩
    simpa [fracText] using h1

theorem shift_ok (m : Marks) (s : Shift) (ha : Digits 1 2 s.a) (hb : Digits 1 2 s.b) : shift? (shiftText m (some s)) = some (s.neg, s.a ++ s.b) := by
  obtain ⟨neg, a, b⟩ := s
  simp only at ha hb
  unfold shift? shiftText
  simp only
  have hs : (if neg then '-' else '+') = '+' ∨ (if neg then '-' else '+') = '-' := by cases neg <;> simp
  rw [if_pos hs]
  have hn : ((if neg then '-' else '+') == '-') = neg := by cases neg <;> rfl
  cases hm : m.colon with
  | true =>
    simp only [if_true]
    have e : (a ++ ([':'] ++ b)).takeWhile Char.isDigit = a :=
      takeWhile_stop _ a _ ha.2.2 fun x hx => by
        simp only [List.cons_append, List.head?_cons, Option.some.injEq] at hx
        rw [← hx]; decide
    rw [e, List.drop_left]
    simp only [List.cons_append, List.nil_append]
    rw [if_pos ⟨ha.1, ha.2.1, hb.1, hb.2.1, List.all_eq_true.mpr hb.2.2⟩, hn]
  | false =>
    simp only [Bool.false_eq_true, if_false, List.nil_append]
    have e : (a ++ b).takeWhile Char.isDigit = a ++ b := by
      have := takeWhile_stop Char.isDigit (a ++ b) [] (by
        intro x hx
        rcases List.mem_append.mp hx with h | h
        · exact ha.2.2 x h
        · exact hb.2.2 x h) (by simp)
      simpa using this
    rw [e]
    have hd : (a ++ b).drop (a ++ b).length = [] := List.drop_length
    rw [hd]
    simp only
    have h1 := ha.1
    have h2 := ha.2.1
    have h3 := hb.1
    have h4 := hb.2.1
    rw [if_pos (by rw [List.length_append]; omega), hn]

theorem shift_some (t : Text) (q : Bool × Text) (h : shift? t = some q) :
    ∃ (colon : Bool) (s : Shift), Digits 1 2 s.a ∧ Digits 1 2 s.b ∧ q = (s.neg, s.a ++ s.b) ∧
      t = (if s.neg then '-' else '+') :: (s.a ++ ((if colon then [':'] else []) ++ s.b)) := by
  cases t with
  | nil => cases h
  | cons c l =>
    obtain ⟨h1, h2, h3⟩ := takeWhile_split Char.isDigit l
    simp only [shift?] at h
    split at h
    · next hc =>
      have hcn : c = if (c == '-') then '-' else '+' := by
        rcases hc with rfl | rfl <;> rfl
      split at h
      · next hd =>
        split at h
        · next hl =>
          injection h with h
          subst h
          rw [hd, List.append_nil] at h1
          generalize hw : l.takeWhile Char.isDigit = w at *
          let k := if w.length = 2 then 1 else 2
          refine ⟨false, ⟨c == '-', w.take k, w.drop k⟩, ⟨?_, ?_, fun x hx => h2 x (List.mem_of_mem_take hx)⟩,
            ⟨?_, ?_, fun x hx => h2 x (List.mem_of_mem_drop hx)⟩, ?_, ?_⟩
          · simp only [List.length_take, k]; split <;> omega
          · simp only [List.length_take, k]; split <;> omega
          · simp only [List.length_drop, k]; split <;> omega
          · simp only [List.length_drop, k]; split <;> omega
          · simp
          · simp only [Bool.false_eq_true, if_false, List.nil_append, List.take_append_drop]
            rw [← h1, ← hcn]
        · cases h
      · next b hd =>
        split at h
        · next hl =>
          injection h with h
          subst h
          refine ⟨true, ⟨c == '-', l.takeWhile Char.isDigit, b⟩, ⟨hl.1, hl.2.1, h2⟩,
            ⟨hl.2.2.1, hl.2.2.2.1, List.all_eq_true.mp hl.2.2.2.2⟩, rfl, ?_⟩
          simp only [if_true, List.cons_append, List.nil_append]
          rw [← hcn, ← hd, ← h1]
        · cases h
      · cases h
    · cases h

theorem last_append {α : Type} (a b : List α) (h : b ≠ []) : (a ++ b).getLast? = b.getLast? := by
  rw [List.getLast?_append]
  cases hb : b.getLast? with
  | none => exact absurd (List.getLast?_eq_none_iff.mp hb) h
  | some x => rfl

theorem shift_last (m : Marks) (s : Shift) (hb : Digits 1 2 s.b) (pre : Text) : (pre ++ shiftText m (some s)).getLast? ≠ some '\n' := by
  intro h
  have hne : s.b ≠ [] := by
    intro e
    have := hb.1
    rw [e] at this
    simp at this
  have e : (pre ++ shiftText m (some s)).getLast? = s.b.getLast? := by
    simp only [shiftText]
    rw [show pre ++ ((if s.neg then '-' else '+') :: (s.a ++ ((if m.colon then [':'] else []) ++ s.b))) =
      (pre ++ ((if s.neg then '-' else '+') :: (s.a ++ (if m.colon then [':'] else [])))) ++ s.b by simp]
    rw [last_append _ _ hne]
  rw [e] at h
  have := hb.2.2 '\n' (List.mem_of_getLast? h)
  exact absurd this (by decide)

theorem skip_ok (m : Marks) (s : Option Shift) : skip ((if m.gap then [' '] else []) ++ shiftText m s) = shiftText m s := by
  cases m.gap with
  | true => rfl
  | false =>
    cases s with
    | none => rfl
    | some x =>
      simp only [shiftText, Bool.false_eq_true, if_false, List.nil_append]
      cases x.neg <;> rfl

theorem chomp_ok (m : Marks) (s : Option Shift) (hs : ∀ x, s = some x → Digits 1 2 x.a ∧ Digits 1 2 x.b) :
    chomp ((if m.gap then [' '] else []) ++ (shiftText m s ++ if m.newline then ['\n'] else [])) = (if m.gap then [' '] else []) ++ shiftText m s := by
  unfold chomp
  cases hm : m.newline with
  | true =>
    simp only [if_true]
    rw [← List.append_assoc, last_append _ _ (by simp), if_pos (by rfl), List.dropLast_concat]
  | false =>
    simp only [Bool.false_eq_true, if_false, List.append_nil]
    have hl : ((if m.gap then [' '] else []) ++ shiftText m s).getLast? ≠ some '\n' := by
      cases s with
      | none => cases m.gap <;> simp [shiftText]
      | some x => exact shift_last m x (hs x rfl).2 _
    rw [if_neg hl]

theorem tail_ok (m : Marks) (s : Option Shift) (hs : ∀ x, s = some x → Digits 1 2 x.a ∧ Digits 1 2 x.b) :
    tail? ((if m.gap then [' '] else []) ++ (shiftText m s ++ if m.newline then ['\n'] else [])) = some (s.map fun s => (s.neg, s.a ++ s.b)) := by
  unfold tail?
  rw [chomp_ok m s hs, skip_ok]
  cases s with
  | none => rfl
  | some x =>
    rw [if_neg (by simp [shiftText]), shift_ok m x (hs x rfl).1 (hs x rfl).2]
    rfl

theorem chomp_some (t : Text) : ∃ nl : Bool, t = chomp t ++ if nl then ['\n'] else [] := by
  unfold chomp
  by_cases hl : t.getLast? = some '\n'
  · refine ⟨true, ?_⟩
    rw [if_pos hl, if_pos rfl]
    have hne : t ≠ [] := by intro e; rw [e] at hl; cases hl
    have h1 := List.dropLast_concat_getLast hne
    have h2 : t.getLast hne = '\n' := by
      rw [List.getLast?_eq_some_getLast hne] at hl
      injection hl
    rw [h2] at h1
    exact h1.symm
  · exact ⟨false, by rw [if_neg hl]; simp⟩

theorem skip_some (t : Text) : ∃ gap : Bool, t = (if gap then [' '] else []) ++ skip t := by
  unfold skip
  split
  · exact ⟨true, rfl⟩
  · exact ⟨false, rfl⟩

theorem tail_some (t : Text) (q : Option (Bool × Text)) (h : tail? t = some q) :
    ∃ (gap colon nl : Bool) (s : Option Shift), (∀ x, s = some x → Digits 1 2 x.a ∧ Digits 1 2 x.b) ∧ q = (s.map fun s => (s.neg, s.a ++ s.b)) ∧
      ∀ m : Marks, m.gap = gap → m.colon = colon → m.newline = nl →
        t = (if m.gap then [' '] else []) ++ (shiftText m s ++ if m.newline then ['\n'] else []) := by
  unfold tail? at h
  obtain ⟨nl, h1⟩ := chomp_some t
  obtain ⟨gap, h2⟩ := skip_some (chomp t)
  generalize skip (chomp t) = v at h h2
  generalize chomp t = u at h1 h2
  split at h
  · next hv =>
    injection h with h
    subst h
    refine ⟨gap, false, nl, none, by simp, rfl, ?_⟩
    intro m e1 e2 e3
    rw [e1, e3, h1, h2, hv]
    simp [shiftText]
  · rw [Option.map_eq_some_iff] at h
    obtain ⟨p, hp, rfl⟩ := h
    obtain ⟨colon, s, ha, hb, hq, ht⟩ := shift_some v p hp
    refine ⟨gap, colon, nl, some s, ?_, by rw [hq]; rfl, ?_⟩
    · intro x hx
      injection hx with hx
      rw [← hx]; exact ⟨ha, hb⟩
    · intro m e1 e2 e3
      rw [e1, e3, h1, h2, ht]
      simp [shiftText, e2]

/-! ## The whole pattern -/

theorem endLike_tail (f : Form) (m : Marks) (h : f.Ok m) :
    EndLike ((if m.gap then [' '] else []) ++ (shiftText m f.shift ++ if m.newline then ['\n'] else [])) := by
  intro x hx
  cases hg : m.gap with
  | true =>
    rw [hg] at hx
    simp only [if_true, List.cons_append, List.head?_cons, Option.some.injEq] at hx
    rw [← hx]; decide
  | false =>
    rw [hg] at hx
    cases hs : f.shift with
    | none =>
      rw [hs] at hx
      cases hn : m.newline with
      | true =>
        rw [hn] at hx
        simp only [shiftText, Bool.false_eq_true, if_false, if_true, List.nil_append, List.head?_cons, Option.some.injEq] at hx
        rw [← hx]; decide
      | false =>
        rw [hn] at hx
        simp [shiftText] at hx
    | some s =>
      rw [hs] at hx
      simp only [shiftText, Bool.false_eq_true, if_false, List.nil_append, List.cons_append, List.head?_cons, Option.some.injEq] at hx
      rw [← hx]
      cases s.neg <;> decide

theorem match_ok (f : Form) (m : Marks) (h : f.Ok m) : match? (f.text m) = some f.found := by
  have ht : ∀ r, NoDigit (m.t :: r) := fun r => noDigit_cons _ _ (by rcases h.t with e | e <;> rw [e] <;> decide)
  have hc : ∀ r, NoDigit (':' :: r) := fun r => noDigit_cons _ _ (by decide)
  unfold match? Form.text
  rw [zone_ok f.zone h.zone f.year _ h.year]
  simp only [Option.bind_eq_bind, Option.bind_some]
  rw [digits_ok 4 4 f.year _ h.year (noDigit_cons _ _ (sep_digit _ h.sep1))]
  simp only [Option.bind_some]
  rw [char1_ok _ _ _ h.sep1]
  simp only [Option.bind_some]
  rw [month_ok f.month _ _ h.month h.sep2]
  simp only [Option.bind_some]
  rw [char1_ok _ _ _ h.sep2]
  simp only [Option.bind_some]
  rw [digits_ok 1 2 f.day _ h.day (ht _)]
  simp only [Option.bind_some]
  rw [char1_ok _ _ _ (by rcases h.t with e | e <;> rw [e] <;> decide)]
  simp only [Option.bind_some]
  rw [digits_ok 1 2 f.hour _ h.hour (hc _)]
  simp only [Option.bind_some]
  rw [char1_ok _ _ _ (by decide)]
  simp only [Option.bind_some]
  rw [digits_ok 1 2 f.minute _ h.minute (hc _)]
  simp only [Option.bind_some]
  rw [char1_ok _ _ _ (by decide)]
  simp only [Option.bind_some]
  rw [second_ok f.second f.frac _ h.second h.frac (endLike_tail f m h)]
  simp only [Option.bind_some]
  rw [tail_ok m f.shift h.shift]
  rfl

theorem match_some (s : Text) (q : Found) (h : match? s = some q) : ∃ (f : Form) (m : Marks), f.Ok m ∧ s = f.text m ∧ q = f.found := by
  unfold match? at h
  simp only [Option.bind_eq_bind, Option.bind_eq_some_iff] at h
  obtain ⟨⟨z, s1⟩, hz, ⟨y, s2⟩, hy, s3, h3, ⟨mo, s4⟩, hmo, s5, h5, ⟨d, s6⟩, hd, s7, h7, ⟨hh, s8⟩, hhh, s9, h9, ⟨mi, s10⟩, hmi, s11, h11,
    ⟨se, fr, s12⟩, hse, o, ho, h⟩ := h
  injection h with h
  obtain ⟨a1, b1⟩ := zone_some _ _ hz
  obtain ⟨a2, b2, -⟩ := digits_some _ _ _ _ hy
  obtain ⟨c3, a3, b3⟩ := char1_some _ _ _ h3
  obtain ⟨a4, b4⟩ := month_some _ _ hmo
  obtain ⟨c5, a5, b5⟩ := char1_some _ _ _ h5
  obtain ⟨a6, b6, -⟩ := digits_some _ _ _ _ hd
  obtain ⟨c7, a7, b7⟩ := char1_some _ _ _ h7
  obtain ⟨a8, b8, -⟩ := digits_some _ _ _ _ hhh
  obtain ⟨c9, a9, b9⟩ := char1_some _ _ _ h9
  obtain ⟨a10, b10, -⟩ := digits_some _ _ _ _ hmi
  obtain ⟨c11, a11, b11⟩ := char1_some _ _ _ h11
  obtain ⟨a12, b12, b13⟩ := second_some _ _ hse
  obtain ⟨gap, colon, nl, sh, b14, a14, a15⟩ := tail_some _ _ ho
  simp only at a1 b1 a2 b2 a4 b4 a6 b6 a8 b8 a10 b10 a12 b12 b13
  have e9 : c9 = ':' := by simpa using b9
  have e11 : c11 = ':' := by simpa using b11
  have e7 : c7 = ' ' ∨ c7 = 'T' := by simpa using b7
  have a16 := a15 ⟨c3, c5, c7, gap, colon, nl⟩ rfl rfl rfl
  refine ⟨⟨z, y, mo, d, hh, mi, se, fr, sh⟩, ⟨c3, c5, c7, gap, colon, nl⟩, ⟨b1, b2, b4, b6, b8, b10, b12, b13, b14, b3, b5, e7⟩, ?_, ?_⟩
  · unfold Form.text
    simp only
    rw [e11] at a11
    rw [e9] at a9
    simp only at a3 a5 a7 a9 a11 a16
    rw [← a16, ← a12, ← a11, ← a10, ← a9, ← a8, ← a7, ← a6, ← a5, ← a4, ← a3, ← a2]
    exact a1
  · rw [← h, a14]
    rfl

/-! ## Dates -/

theorem daysIn_eq (y m : Nat) : daysIn y m = monthLen y m := by
  unfold daysIn monthLen
  have hl := leap_int y
  split
  · subst m
    simp only
    cases h : leap y with
    | true =>
      have := hl.mp h
      rw [if_pos (by omega)]
      rfl
    | false =>
      have : ¬ ((y % 4 = 0 ∧ y % 100 ≠ 0) ∨ y % 400 = 0) := by
        intro hc
        have := hl.mpr hc
        rw [h] at this; cases this
      rw [if_neg (by omega)]
      rfl
  · split
    · next h => rcases h with rfl | rfl | rfl | rfl <;> rfl
    · next h1 h2 =>
      split <;> first | rfl | (exfalso; omega)

theorem exists_iff (dt : DateTime) : exists? dt = true ↔ Valid dt ∧ dt.year ≤ 9999 := by
  unfold exists?
  rw [decide_eq_true_eq, daysIn_eq]
  constructor
  · rintro ⟨a, b, c, d, e, f, g, h, i, j⟩
    exact ⟨⟨a, ⟨c, d⟩, ⟨e, f⟩, g, h, i, j⟩, b⟩
  · rintro ⟨⟨a, ⟨c, d⟩, ⟨e, f⟩, g, h, i, j⟩, b⟩
    exact ⟨a, b, c, d, e, f, g, h, i, j⟩

theorem moment_ms (dt : DateTime) (h : Valid dt) : moment dt = (instantMs dt + 3506716800000) * 1000 + (dt.microsecond % 1000 : Nat) := by
  have := C23_instant dt h
  unfold toUnixMs at this
  unfold moment
  have e : toMjd dt * 86400000 + toMpm dt = instantMs dt + 3506716800000 := by omega
  rw [← e]
  unfold toMpm
  omega

theorem moment_range (dt : DateTime) (h : Valid dt) (hy : dt.year ≤ 9999) : inRange (moment dt) = true := by
  have h1 := year_bounds dt h
  have h2 := daysBeforeYear_mono (a := dt.year + 1) (b := 10000) (by omega) (by omega)
  have h3 := daysBeforeYear_closed 10000 (by omega)
  have h4 : toMjd dt = (ordinal dt : Int) - 678576 := C23_mjd_is_day_count dt h
  have a := h.hour
  have b := h.minute
  have c := h.second
  have d := h.us
  have lo : moment ⟨1, 1, 1, 0, 0, 0, 0⟩ = -678575 * 86400000000 := by decide +kernel
  have hi : moment ⟨9999, 12, 31, 23, 59, 59, 999999⟩ = 2973484 * 86400000000 - 1 := by decide +kernel
  unfold inRange
  rw [lo, hi, Bool.and_eq_true, decide_eq_true_eq, decide_eq_true_eq]
  unfold moment
  omega

end Verif.SdfUtils
