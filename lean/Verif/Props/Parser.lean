import Verif.Spec.Parser
import Verif.Lemmas.Parser
import Verif.Lemmas.Float64Mono
/-!
# C51 command line lists and times; C69 frequency ranges
-/
namespace Verif.Parser
open Dec Spec

theorem span_upFrom (a b : Int) : span a b = upFrom a (b + 1 - a).toNat := by
  unfold span
  generalize (b + 1 - a).toNat = n
  clear b
  induction n generalizing a with
  | zero => rfl
  | succ n ih =>
    rw [List.range_succ_eq_map, List.map_cons, List.map_map, upFrom, ← ih (a + 1)]
    congr 1
    · simp
    · apply List.map_congr_left
      intro i _
      simp only [Function.comp]
      omega

/-- The specified range has exactly the numbers from the first to the last. -/
theorem mem_upFrom (a : Int) (n : Nat) (x : Int) : x ∈ upFrom a n ↔ a ≤ x ∧ x < a + n := by
  induction n generalizing a with
  | zero => simp only [upFrom, List.not_mem_nil, false_iff]; omega
  | succ n ih =>
    rw [upFrom, List.mem_cons, ih]
    push_cast
    omega

theorem mem_span (a b x : Int) : x ∈ span a b ↔ a ≤ x ∧ x ≤ b := by
  rw [span_upFrom, mem_upFrom]; omega

theorem blank_blanks (n : Nat) : ∀ c ∈ blanks n, isBlank c = true := by
  intro c hc; rw [List.eq_of_mem_replicate hc]; decide

theorem not_mem_blanks (n : Nat) (c : Char) (h : c ≠ ' ') : c ∉ blanks n := fun hc => h (List.eq_of_mem_replicate hc)

theorem mem_itemText (i : Item) (c : Char) (h : c ∈ i.text) : c.isDigit = true ∨ c = '-' ∨ c = '~' ∨ c = ' ' := by
  cases i with
  | one n => rcases showInt_chars n c h with h | h <;> simp [h]
  | upto a p q b =>
    simp only [Item.text, List.mem_append, List.mem_cons] at h
    rcases h with (h | h) | h | h | h
    · rcases showInt_chars a c h with h | h <;> simp [h]
    · rw [List.eq_of_mem_replicate h]; simp
    · simp [h]
    · rw [List.eq_of_mem_replicate h]; simp
    · rcases showInt_chars b c h with h | h <;> simp [h]

theorem item_tight (i : Item) : Tight i.text ∧ i.text ≠ [] := by
  cases i with
  | one n => exact ⟨tight_of_all _ (showInt_not_blank n), showInt_ne_nil n⟩
  | upto a p q b =>
    refine ⟨⟨?_, ?_⟩, by simp [Item.text]⟩
    · intro c hc
      cases ha : showInt a with
      | nil => exact absurd ha (showInt_ne_nil a)
      | cons x r =>
        rw [Item.text, ha] at hc
        simp only [List.cons_append, List.head?_cons, Option.some.injEq] at hc
        subst hc
        exact showInt_not_blank a x (by rw [ha]; exact List.mem_cons_self ..)
    · intro c hc
      have hb := showInt_ne_nil b
      rw [Item.text, show showInt a ++ blanks p ++ '~' :: (blanks q ++ showInt b) =
        (showInt a ++ blanks p ++ '~' :: blanks q) ++ showInt b by simp, List.getLast?_append] at hc
      rw [List.getLast?_eq_some_getLast hb] at hc
      simp only [Option.some_or, Option.some.injEq] at hc
      subst hc
      exact showInt_not_blank b _ (List.getLast_mem hb)

theorem itemOrRange_text (i : Item) : itemOrRange i.text = some i.mean := by
  cases i with
  | one n =>
    rw [Item.text, itemOrRange, cut_none _ _ (not_mem_showInt n '~' (by decide) (by decide))]
    simp only [intText_showInt]; rfl
  | upto a p q b =>
    rw [Item.text, itemOrRange, cut_append '~' (showInt a ++ blanks p) _ ?_]
    · have h1 := intText_pad a [] (blanks p) (by simp) (blank_blanks p)
      have h2 := intText_pad b (blanks q) [] (blank_blanks q) (by simp)
      simp only [List.nil_append, List.append_nil] at h1 h2
      simp only [h1, h2, span_upFrom]; rfl
    · intro h
      rcases List.mem_append.1 h with h | h
      · exact not_mem_showInt a '~' (by decide) (by decide) h
      · exact not_mem_blanks p '~' (by decide) h

/-- Splitting joined pieces gives the pieces back. -/
theorem split_join (ps : List (List Char)) (h : ∀ p ∈ ps, ',' ∉ p) (hne : ps ≠ []) : splitOn ',' (join ps) = ps := by
  induction ps with
  | nil => exact absurd rfl hne
  | cons p ps ih =>
    cases ps with
    | nil => exact splitOn_not_mem _ _ (h p (List.mem_cons_self ..))
    | cons q ps =>
      rw [join, splitOn_append _ _ _ (h p (List.mem_cons_self ..)),
        ih (fun x hx => h x (List.mem_cons_of_mem _ hx)) (by simp)]
      simp

theorem comma_itemText (i : Item) : ',' ∉ i.text := by
  intro h
  rcases mem_itemText i _ h with h | h | h | h <;> exact absurd h (by decide)

theorem comma_piece (p : Piece) : ',' ∉ p.text := by
  cases p with
  | blank n => exact not_mem_blanks n _ (by decide)
  | item b i a =>
    simp only [Piece.text, List.mem_append, not_or]
    exact ⟨⟨not_mem_blanks b _ (by decide), comma_itemText i⟩, not_mem_blanks a _ (by decide)⟩

theorem items_pieces (ps : List Piece) : items itemOrRange (ps.map Piece.text) = some (ps.flatMap Piece.mean) := by
  induction ps with
  | nil => rfl
  | cons p ps ih =>
    rw [List.map_cons, items, List.flatMap_cons, ih]
    cases p with
    | blank n =>
      have : strip (blanks n) = [] := by
        have := strip_post [] (blanks n) (blank_blanks n)
        exact this
      rw [Piece.text, if_pos this]; rfl
    | item b i a =>
      have : strip (blanks b ++ i.text ++ blanks a) = i.text := by
        rw [strip_mid _ _ _ (blank_blanks b) (blank_blanks a), strip_tight _ (item_tight i).1]
      rw [Piece.text, this, if_neg (item_tight i).2, itemOrRange_text]; rfl

theorem mem_join (ps : List (List Char)) (c : Char) (h : c ∈ join ps) : c = ',' ∨ ∃ p ∈ ps, c ∈ p := by
  induction ps with
  | nil => cases h
  | cons p ps ih =>
    cases ps with
    | nil => exact .inr ⟨p, List.mem_cons_self .., h⟩
    | cons q ps =>
      rw [join] at h
      · rcases List.mem_append.1 h with h | h
        · exact .inr ⟨p, List.mem_cons_self .., h⟩
        · rcases List.mem_cons.1 h with h | h
          · exact .inl h
          · rcases ih h with h | ⟨x, hx, hc⟩
            · exact .inl h
            · exact .inr ⟨x, List.mem_cons_of_mem _ hx, hc⟩
      · simp

theorem csv_plain {α : Type} (f : Str → Option (List α)) (s : Str) (h : s ≠ [])
    (hc : ∀ c ∈ s, c ≠ 'a' ∧ c ≠ '*' ∧ c ≠ 'n') : csv f s = (items f (splitOn ',' s)).map .list := by
  unfold csv
  rw [if_neg, if_neg]
  · rintro (h1 | h1)
    · subst h1; exact absurd rfl (hc 'n' (by simp)).2.2
    · exact h h1
  · rintro (h1 | h1)
    · subst h1; exact absurd rfl (hc 'a' (by simp)).1
    · subst h1; exact absurd rfl (hc '*' (by simp)).2.1

/-- C51: a list of numbers and ranges is parsed to exactly those numbers, in order. -/
theorem C51_ints (ps : List Piece) (h : join (ps.map Piece.text) ≠ []) :
    csvInt (join (ps.map Piece.text)) = some (.list (ps.flatMap Piece.mean)) := by
  have hps : ps.map Piece.text ≠ [] := by intro h0; rw [h0] at h; exact h rfl
  rw [csvInt, csv_plain _ _ h, split_join _ ?_ hps, items_pieces]
  · rfl
  · intro p hp
    obtain ⟨q, _, rfl⟩ := List.mem_map.1 hp
    exact comma_piece q
  · intro c hc
    rcases mem_join _ _ hc with rfl | ⟨p, hp, hc⟩
    · decide
    · obtain ⟨q, _, rfl⟩ := List.mem_map.1 hp
      have : c.isDigit = true ∨ c = '-' ∨ c = '~' ∨ c = ' ' := by
        cases q with
        | blank n => rw [List.eq_of_mem_replicate hc]; simp
        | item b i a =>
          simp only [Piece.text, List.mem_append] at hc
          rcases hc with (hc | hc) | hc
          · rw [List.eq_of_mem_replicate hc]; simp
          · exact mem_itemText i c hc
          · rw [List.eq_of_mem_replicate hc]; simp
      rcases this with h | rfl | rfl | rfl
      · refine ⟨?_, ?_, ?_⟩ <;> (intro he; subst he; exact absurd h (by decide))
      · decide
      · decide
      · decide

example : join ([Piece.item 0 (.one 3) 1, .item 0 (.upto (-2) 1 0 2) 0, .blank 2].map Piece.text) = "3 ,-2 ~2,  ".toList := by
  decide

/-- A number written in a piece of any text. -/
def Written (p : Str) (x : Int) : Prop :=
  ('~' ∉ p ∧ intText? p = some x) ∨
  ∃ a b lo hi, p = a ++ '~' :: b ∧ '~' ∉ a ∧ intText? a = some lo ∧ intText? b = some hi ∧ lo ≤ x ∧ x ≤ hi

theorem tilde_not_blank (s : Str) (h : ∀ c ∈ s, isBlank c = true) : '~' ∉ s := fun hm => absurd (h _ hm) (by decide)

theorem written_mem (p : Str) (l : List Int) (h : itemOrRange (strip p) = some l) (x : Int) : x ∈ l ↔ Written p x := by
  obtain ⟨pre, post, hp, h1, h2⟩ := strip_split p
  generalize strip p = s at hp h
  unfold itemOrRange at h
  cases hc : cut '~' s with
  | none =>
    rw [hc] at h
    have hns := not_mem_of_cut_none _ _ hc
    have hnp : '~' ∉ p := by
      rw [hp]; simp only [List.mem_append, not_or]; exact ⟨⟨tilde_not_blank pre h1, hns⟩, tilde_not_blank post h2⟩
    have hi : intText? p = intText? s := intText_of_strip _ _ (by rw [hp]; exact strip_mid _ _ _ h1 h2)
    cases hv : intText? s with
    | none => rw [hv] at h; cases h
    | some v =>
      rw [hv] at h
      cases h
      simp only [List.mem_singleton, Written, hnp, hi, hv, not_false_eq_true, true_and]
      constructor
      · rintro rfl; exact .inl rfl
      · rintro (h | ⟨a, b, lo, hi, h, _⟩)
        · cases h; rfl
        · exact absurd (show '~' ∈ p by rw [h]; simp) hnp
  | some ab =>
    obtain ⟨a, b⟩ := ab
    rw [hc] at h
    obtain ⟨hs, ha⟩ := cut_some _ _ _ _ hc
    have hp' : p = (pre ++ a) ++ '~' :: (b ++ post) := by rw [hp, hs]; simp
    have ha' : '~' ∉ pre ++ a := by simp only [List.mem_append, not_or]; exact ⟨tilde_not_blank pre h1, ha⟩
    have ia : intText? (pre ++ a) = intText? a := intText_of_strip _ _ (strip_pre _ _ h1)
    have ib : intText? (b ++ post) = intText? b := intText_of_strip _ _ (strip_post _ _ h2)
    simp only at h
    cases hva : intText? a with
    | none => rw [hva] at h; simp at h
    | some lo =>
      cases hvb : intText? b with
      | none => rw [hva, hvb] at h; simp at h
      | some hi =>
        rw [hva, hvb] at h
        simp only [Option.some.injEq] at h
        subst h
        rw [mem_span]
        constructor
        · rintro ⟨g1, g2⟩
          exact .inr ⟨_, _, lo, hi, hp', ha', by rw [ia, hva], by rw [ib, hvb], g1, g2⟩
        · rintro (⟨g, _⟩ | ⟨a', b', lo', hi', g, ga, g1, g2, g3, g4⟩)
          · exact absurd (show '~' ∈ p by rw [hp']; simp) g
          · have e1 := cut_append '~' _ (b ++ post) ha'
            have e2 := cut_append '~' _ b' ga
            rw [← hp'] at e1
            rw [← g] at e2
            rw [e1] at e2
            simp only [Option.some.injEq, Prod.mk.injEq] at e2
            obtain ⟨e3, e4⟩ := e2
            subst e3; subst e4
            rw [ia, hva] at g1
            rw [ib, hvb] at g2
            cases g1; cases g2
            exact ⟨g3, g4⟩

theorem blank_not_written (p : Str) (h : strip p = []) (x : Int) : ¬ Written p x := by
  obtain ⟨pre, post, hp, h1, h2⟩ := strip_split p
  rw [h, List.append_nil] at hp
  have hb : ∀ c ∈ p, isBlank c = true := by
    intro c hc; rw [hp] at hc
    rcases List.mem_append.1 hc with hc | hc
    · exact h1 c hc
    · exact h2 c hc
  rintro (⟨_, g⟩ | ⟨a, b, lo, hi, g, _⟩)
  · unfold intText? at g; rw [h] at g; cases g
  · exact tilde_not_blank p hb (by rw [g]; simp)

/-- C51: whatever the text, what an accepted list selects is what is written in one of its pieces. -/
theorem C51_ints_any (s : Str) (l : List Int) (h : csvInt s = some (.list l)) (x : Int) :
    x ∈ l ↔ ∃ p ∈ splitOn ',' s, Written p x := by
  unfold csvInt csv at h
  split at h
  · cases h
  · split at h
    · cases h
    · generalize splitOn ',' s = ps at h ⊢
      cases hi : items itemOrRange ps with
      | none => rw [hi] at h; cases h
      | some l' =>
        rw [hi] at h
        simp only [Option.map_some, Option.some.injEq, Sel.list.injEq] at h
        subst h
        rename_i hn1 hn2
        clear hn1 hn2 s
        induction ps generalizing l' with
        | nil => cases hi; simp
        | cons p ps ih =>
          rw [items] at hi
          by_cases hb : strip p = []
          · rw [if_pos hb] at hi
            rw [ih l' hi]
            constructor
            · rintro ⟨q, hq, hw⟩; exact ⟨q, List.mem_cons_of_mem _ hq, hw⟩
            · rintro ⟨q, hq, hw⟩
              rcases List.mem_cons.1 hq with rfl | hq
              · exact absurd hw (blank_not_written _ hb x)
              · exact ⟨q, hq, hw⟩
          · rw [if_neg hb] at hi
            cases hf : itemOrRange (strip p) with
            | none => rw [hf] at hi; cases hi
            | some m =>
              rw [hf] at hi
              cases hr : items itemOrRange ps with
              | none => rw [hr] at hi; cases hi
              | some r =>
                rw [hr] at hi
                simp only [Option.map_some, Option.some.injEq] at hi
                subst hi
                rw [List.mem_append, ih r hr, written_mem p m hf x]
                constructor
                · rintro (hw | ⟨q, hq, hw⟩)
                  · exact ⟨p, List.mem_cons_self .., hw⟩
                  · exact ⟨q, List.mem_cons_of_mem _ hq, hw⟩
                · rintro ⟨q, hq, hw⟩
                  rcases List.mem_cons.1 hq with rfl | hq
                  · exact .inl hw
                  · exact .inr ⟨q, hq, hw⟩

theorem itemOrRange_none (p : Str) (h : itemOrRange (strip p) = none) : (∀ c, c ∈ p → c ≠ '~') ∧ intText? p = none ∨
    ∃ a b, p = a ++ '~' :: b ∧ '~' ∉ a ∧ (intText? a = none ∨ intText? b = none) := by
  obtain ⟨pre, post, hp, h1, h2⟩ := strip_split p
  generalize strip p = s at hp h
  unfold itemOrRange at h
  cases hc : cut '~' s with
  | none =>
    rw [hc] at h
    have hns := not_mem_of_cut_none _ _ hc
    have hi : intText? p = intText? s := intText_of_strip _ _ (by rw [hp]; exact strip_mid _ _ _ h1 h2)
    refine .inl ⟨?_, ?_⟩
    · intro c hcp he
      subst he
      rw [hp] at hcp
      simp only [List.mem_append] at hcp
      rcases hcp with (g | g) | g
      · exact tilde_not_blank pre h1 g
      · exact hns g
      · exact tilde_not_blank post h2 g
    · rw [hi]; cases hv : intText? s with
      | none => rfl
      | some v => rw [hv] at h; cases h
  | some ab =>
    obtain ⟨a, b⟩ := ab
    rw [hc] at h
    obtain ⟨hs, ha⟩ := cut_some _ _ _ _ hc
    refine .inr ⟨pre ++ a, b ++ post, by rw [hp, hs]; simp, ?_, ?_⟩
    · simp only [List.mem_append, not_or]; exact ⟨tilde_not_blank pre h1, ha⟩
    · rw [intText_of_strip _ _ (strip_pre _ _ h1), intText_of_strip (b ++ post) b (strip_post _ _ h2)]
      simp only at h
      cases hva : intText? a with
      | none => exact .inl rfl
      | some lo =>
        cases hvb : intText? b with
        | none => exact .inr rfl
        | some hi => rw [hva, hvb] at h; cases h

/-- C51: a list is refused only if a piece is neither blank, nor a number, nor a range of numbers. -/
theorem C51_refused (s : Str) (h : csvInt s = none) : ∃ p ∈ splitOn ',' s, strip p ≠ [] ∧
    (('~' ∉ p ∧ intText? p = none) ∨ ∃ a b, p = a ++ '~' :: b ∧ '~' ∉ a ∧ (intText? a = none ∨ intText? b = none)) := by
  unfold csvInt csv at h
  split at h
  · cases h
  · split at h
    · cases h
    · generalize splitOn ',' s = ps at h ⊢
      rename_i hn1 hn2
      clear hn1 hn2 s
      induction ps with
      | nil => cases h
      | cons p ps ih =>
        rw [items] at h
        by_cases hb : strip p = []
        · rw [if_pos hb] at h
          obtain ⟨q, hq, hw⟩ := ih h
          exact ⟨q, List.mem_cons_of_mem _ hq, hw⟩
        · rw [if_neg hb] at h
          cases hf : itemOrRange (strip p) with
          | none =>
            refine ⟨p, List.mem_cons_self .., hb, ?_⟩
            rcases itemOrRange_none p hf with ⟨g1, g2⟩ | g
            · exact .inl ⟨fun hm => g1 _ hm rfl, g2⟩
            · exact .inr g
          | some m =>
            rw [hf] at h
            cases hr : items itemOrRange ps with
            | none =>
              obtain ⟨q, hq, hw⟩ := ih (by rw [hr]; rfl)
              exact ⟨q, List.mem_cons_of_mem _ hq, hw⟩
            | some r => rw [hr] at h; cases h

example : csvInt "1,2x".toList = none := by decide +kernel

/-- C51: a range written backwards selects nothing, without a message. -/
theorem C51_backwards : csvInt "5~3,9".toList = some (.list [9]) := by decide +kernel

/-- C51: the special words. -/
theorem C51_words : csvInt "all".toList = some .all ∧ csvInt "*".toList = some .all ∧
    csvInt "none".toList = some .none ∧ csvInt [] = some .none ∧ csvInt " ".toList = some (.list []) ∧
    csvInt "1,all".toList = none := by decide +kernel

/-! ## Baselines -/

theorem items_all {α β : Type} (f : Str → Option (List α)) (text : β → Str) (mean : β → List α) (ps : List β)
    (h1 : ∀ p ∈ ps, Tight (text p) ∧ text p ≠ []) (h2 : ∀ p ∈ ps, f (text p) = some (mean p)) :
    items f (ps.map text) = some (ps.flatMap mean) := by
  induction ps with
  | nil => rfl
  | cons p ps ih =>
    obtain ⟨g1, g2⟩ := h1 p (List.mem_cons_self ..)
    rw [List.map_cons, items, List.flatMap_cons, strip_tight _ g1, if_neg g2, h2 p (List.mem_cons_self ..),
      ih (fun x hx => h1 x (List.mem_cons_of_mem _ hx)) (fun x hx => h2 x (List.mem_cons_of_mem _ hx))]
    rfl

theorem minus_itemText (i : Item) (h : i.Nat) : '-' ∉ i.text := by
  have key : ∀ n : Int, 0 ≤ n → '-' ∉ showInt n := by
    intro n hn
    unfold showInt
    rw [if_neg (by omega)]
    exact not_mem_showNat _ _ (by decide)
  cases i with
  | one n => exact key n h
  | upto a p q b =>
    simp only [Item.text, List.mem_append, List.mem_cons, not_or]
    exact ⟨⟨key a h.1, not_mem_blanks p _ (by decide)⟩, by decide, not_mem_blanks q _ (by decide), key b h.2⟩

theorem pair_tight (p : Pair) : Tight p.text ∧ p.text ≠ [] := by
  refine ⟨⟨?_, ?_⟩, by simp [Pair.text]⟩
  · intro c hc
    cases hi : p.i.text with
    | nil => exact absurd hi (item_tight p.i).2
    | cons x r =>
      refine (item_tight p.i).1.1 c ?_
      rw [Pair.text, hi] at hc
      rw [hi]; exact hc
  · intro c hc
    have hne := (item_tight p.j).2
    refine (item_tight p.j).1.2 c ?_
    rw [Pair.text, show p.i.text ++ '-' :: p.j.text = (p.i.text ++ ['-']) ++ p.j.text by simp, List.getLast?_append,
      List.getLast?_eq_some_getLast hne] at hc
    rw [List.getLast?_eq_some_getLast hne]
    exact hc

/-- C51: pairs of antenna numbers or ranges select every combination, in order. -/
theorem C51_baselines (ps : List Pair) (hne : ps ≠ []) (h : ∀ p ∈ ps, p.i.Nat) :
    csvBaseline (join (ps.map Pair.text)) = some (.list (ps.flatMap Pair.mean)) := by
  have hitem : ∀ p ∈ ps, baselineItem p.text = some p.mean := by
    intro p hp
    rw [baselineItem, Pair.text, cut_append _ _ _ (minus_itemText _ (h p hp))]
    simp only [itemOrRange_text]; rfl
  have hmem : ∀ c ∈ join (ps.map Pair.text), c.isDigit = true ∨ c = '-' ∨ c = '~' ∨ c = ' ' ∨ c = ',' := by
    intro c hc
    rcases mem_join _ _ hc with rfl | ⟨q, hq, hc⟩
    · simp
    · obtain ⟨p, _, rfl⟩ := List.mem_map.1 hq
      simp only [Pair.text, List.mem_append, List.mem_cons] at hc
      rcases hc with hc | rfl | hc
      · rcases mem_itemText _ _ hc with h | h | h | h <;> simp [h]
      · simp
      · rcases mem_itemText _ _ hc with h | h | h | h <;> simp [h]
  rw [csvBaseline, csv_plain, split_join, items_all baselineItem Pair.text Pair.mean ps (fun p _ => pair_tight p) hitem]
  · rfl
  · intro q hq
    obtain ⟨p, _, rfl⟩ := List.mem_map.1 hq
    simp only [Pair.text, List.mem_append, List.mem_cons, not_or]
    exact ⟨comma_itemText _, by decide, comma_itemText _⟩
  · simpa using hne
  · cases ps with
    | nil => exact absurd rfl hne
    | cons p ps =>
      intro h0
      cases ps with
      | nil => exact (pair_tight p).2 h0
      | cons q ps =>
        rw [List.map_cons, List.map_cons, join] at h0
        · simp at h0
        · simp
  · intro c hc
    rcases hmem c hc with h | rfl | rfl | rfl | rfl
    · refine ⟨?_, ?_, ?_⟩ <;> (intro he; subst he; exact absurd h (by decide))
    all_goals decide

example : join ([⟨.one 1, .upto 2 0 0 4⟩, ⟨.upto 5 0 0 6, .one 7⟩].map Pair.text) = "1-2~4,5~6-7".toList := by decide

/-! ## Hosts -/

theorem natSpan_upNat (a b : Nat) : natSpan a b = upNat a (b + 1 - a) := by
  unfold natSpan
  generalize b + 1 - a = n
  clear b
  induction n generalizing a with
  | zero => rfl
  | succ n ih =>
    rw [List.range_succ_eq_map, List.map_cons, List.map_map, upNat, ← ih (a + 1)]
    congr 1
    apply List.map_congr_left
    intro i _
    simp only [Function.comp]
    omega

theorem byteText_showNat (n : Nat) (h : n ≤ 999) : byteText? (showNat n) = some n := by
  unfold byteText?
  have : (showNat n).length ≤ 3 :=
    (Nat.length_toDigits_le_iff (b := 10) (n := n) (k := 3) (by decide) (by decide)).mpr (by omega)
  rw [if_pos this, parseNat_showNat]

theorem byteRange_text (f : Field) (h : f.Ok) : ∃ r, byteRange? f.text = some r ∧ natSpan r.1 r.2 = f.mean := by
  cases f with
  | one n =>
    refine ⟨(n, n), ?_, ?_⟩
    · rw [Field.text, byteRange?, cut_none _ _ (not_mem_showNat n '~' (by decide))]
      simp only [byteText_showNat n h]; rfl
    · rw [natSpan_upNat]
      show upNat n (n + 1 - n) = [n]
      rw [show n + 1 - n = 1 by omega]; rfl
  | upto a b =>
    refine ⟨(a, b), ?_, natSpan_upNat a b⟩
    rw [Field.text, byteRange?, cut_append _ _ _ (not_mem_showNat a '~' (by decide))]
    simp only [byteText_showNat a h.1, byteText_showNat b h.2]

theorem field_chars (f : Field) (c : Char) (h : c ∈ f.text) : c.isDigit = true ∨ c = '~' := by
  cases f with
  | one n => exact .inl (showNat_digit n c h)
  | upto a b =>
    simp only [Field.text, List.mem_append, List.mem_cons] at h
    rcases h with h | h | h
    · exact .inl (showNat_digit a c h)
    · exact .inr h
    · exact .inl (showNat_digit b c h)

theorem dot_field (f : Field) : '.' ∉ f.text := by
  intro h; rcases field_chars f _ h with h | h <;> exact absurd h (by decide)

theorem base_facts (c : Char) (h : isBaseChar c = true) : c ≠ '.' ∧ c ≠ '~' ∧ c ≠ ',' ∧ isBlank c = false ∧ c.isDigit = false := by
  have h' : c.isAlpha = true ∨ c = '-' := by
    simp only [isBaseChar, Bool.or_eq_true, beq_iff_eq] at h; exact h
  refine ⟨?_, ?_, ?_, ?_, ?_⟩
  · rintro rfl; exact absurd h (by decide)
  · rintro rfl; exact absurd h (by decide)
  · rintro rfl; exact absurd h (by decide)
  · rcases h' with h' | rfl
    · simp only [Char.isAlpha, Char.isUpper, Char.isLower, Bool.or_eq_true, Bool.and_eq_true, decide_eq_true_eq] at h'
      have h1 : 48 ≤ c.toNat := by
        rcases h' with ⟨h1, _⟩ | ⟨h1, _⟩
        · have : 65 ≤ c.toNat := h1
          omega
        · have : 97 ≤ c.toNat := h1
          omega
      have ne : ∀ d : Char, d.toNat < 48 → (c == d) = false := by
        intro d hd
        cases hcd : c == d with
        | false => rfl
        | true => rw [beq_iff_eq.1 hcd] at h1; omega
      simp only [isBlank, ne ' ' (by decide), ne '\t' (by decide), ne '\n' (by decide), ne '\r' (by decide),
        ne (Char.ofNat 11) (by decide), ne (Char.ofNat 12) (by decide), Bool.or_self, Bool.false_or]
      have : ¬ c.toNat ≤ 31 := by omega
      simp [this]
    · decide
  · rcases h' with h' | rfl
    · cases hd : c.isDigit with
      | false => rfl
      | true =>
        simp only [Char.isAlpha, Char.isUpper, Char.isLower, Bool.or_eq_true, Bool.and_eq_true, decide_eq_true_eq] at h'
        simp only [Char.isDigit, Bool.and_eq_true, decide_eq_true_eq] at hd
        have h2 : c.toNat ≤ 57 := hd.2
        rcases h' with ⟨h1, _⟩ | ⟨h1, _⟩
        · have : 65 ≤ c.toNat := h1
          omega
        · have : 97 ≤ c.toNat := h1
          omega
    · decide

theorem host_chars (t : Host) (ht : t.Ok) (c : Char) (h : c ∈ t.text) : isBlank c = false ∧ c ≠ ',' := by
  have dig : ∀ c : Char, c.isDigit = true → isBlank c = false ∧ c ≠ ',' := by
    intro c hc; refine ⟨digit_not_blank c hc, ?_⟩; rintro rfl; exact absurd hc (by decide)
  have fld : ∀ (f : Field), c ∈ f.text → isBlank c = false ∧ c ≠ ',' := by
    intro f hf
    rcases field_chars f c hf with h | rfl
    · exact dig c h
    · decide
  cases t with
  | ip f1 f2 f3 f4 =>
    simp only [Host.text, List.mem_append, List.mem_cons, List.append_assoc, List.cons_append] at h
    rcases h with h | rfl | h | rfl | h | rfl | h
    · exact fld _ h
    · decide
    · exact fld _ h
    · decide
    · exact fld _ h
    · decide
    · exact fld _ h
  | run base a b =>
    simp only [Host.text, List.mem_append, List.mem_cons] at h
    rcases h with (h | h) | rfl | h
    · have := base_facts c (ht c h); exact ⟨this.2.2.2.1, this.2.2.1⟩
    · exact dig c (showNat_digit a c h)
    · decide
    · exact dig c (showNat_digit b c h)
  | name s =>
    have := ht.2 c h
    rcases this with h | h
    · have := base_facts c h; exact ⟨this.2.2.2.1, this.2.2.1⟩
    · exact dig c h

theorem takeWhile_base (base : Str) (c : Char) (r : Str) (h : ∀ x ∈ base, isBaseChar x = true) (hc : isBaseChar c = false) :
    (base ++ c :: r).takeWhile isBaseChar = base ∧ (base ++ c :: r).dropWhile isBaseChar = c :: r := by
  induction base with
  | nil => simp [hc]
  | cons x base ih =>
    have hx := h x (List.mem_cons_self ..)
    obtain ⟨g1, g2⟩ := ih (fun y hy => h y (List.mem_cons_of_mem _ hy))
    simp [hx, g1, g2]

theorem hostItem_text (t : Host) (ht : t.Ok) : hostItem t.text = some t.mean := by
  cases t with
  | ip f1 f2 f3 f4 =>
    obtain ⟨o1, o2, o3, o4⟩ := ht
    obtain ⟨r1, a1, m1⟩ := byteRange_text f1 o1
    obtain ⟨r2, a2, m2⟩ := byteRange_text f2 o2
    obtain ⟨r3, a3, m3⟩ := byteRange_text f3 o3
    obtain ⟨r4, a4, m4⟩ := byteRange_text f4 o4
    have hsp : splitOn '.' (Host.ip f1 f2 f3 f4).text = [f1.text, f2.text, f3.text, f4.text] := by
      simp only [Host.text, List.append_assoc, List.cons_append]
      rw [splitOn_append _ _ _ (dot_field f1), splitOn_append _ _ _ (dot_field f2), splitOn_append _ _ _ (dot_field f3),
        splitOn_not_mem _ _ (dot_field f4)]
    have : ipItem (Host.ip f1 f2 f3 f4).text = some (Host.ip f1 f2 f3 f4).mean := by
      unfold ipItem
      rw [hsp]
      simp only [a1, a2, a3, a4, m1, m2, m3, m4]
      rfl
    unfold hostItem; rw [this]
  | run base a b =>
    have hdot : '.' ∉ (Host.run base a b).text := by
      simp only [Host.text, List.mem_append, List.mem_cons, not_or]
      exact ⟨⟨fun h => absurd rfl (base_facts _ (ht _ h)).1, not_mem_showNat a _ (by decide)⟩, by decide,
        not_mem_showNat b _ (by decide)⟩
    have hip : ipItem (Host.run base a b).text = none := by
      unfold ipItem; rw [splitOn_not_mem _ _ hdot]
    have hr : hostRange? (Host.run base a b).text = some (base, a, b) := by
      cases hs : showNat a with
      | nil => exact absurd hs (showNat_ne_nil a)
      | cons x r =>
        have hx : isBaseChar x = false := by
          cases hbx : isBaseChar x with
          | false => rfl
          | true =>
            have := (base_facts x hbx).2.2.2.2
            rw [showNat_digit a x (by rw [hs]; exact List.mem_cons_self ..)] at this
            cases this
        have e : (Host.run base a b).text = base ++ x :: (r ++ '~' :: showNat b) := by simp [Host.text, hs]
        obtain ⟨g1, g2⟩ := takeWhile_base base x (r ++ '~' :: showNat b) ht hx
        unfold hostRange?
        rw [e]
        simp only [g1, g2]
        rw [show x :: (r ++ '~' :: showNat b) = showNat a ++ '~' :: showNat b by rw [hs]; rfl,
          cut_append _ _ _ (not_mem_showNat a '~' (by decide))]
        simp only [parseNat_showNat]
    unfold hostItem
    rw [hip, hr]
    simp only [natSpan_upNat]
    rfl
  | name s =>
    have hc : ∀ c ∈ s, c ≠ '.' ∧ c ≠ '~' := by
      intro c h
      rcases ht.2 c h with h | h
      · have := base_facts c h; exact ⟨this.1, this.2.1⟩
      · constructor <;> (rintro rfl; exact absurd h (by decide))
    have hip : ipItem s = none := by
      unfold ipItem; rw [splitOn_not_mem _ _ (fun h => (hc _ h).1 rfl)]
    have hr : hostRange? s = none := by
      unfold hostRange?
      rw [cut_none _ _ (fun h => (hc _ (List.dropWhile_sublist _ |>.subset h)).2 rfl)]
    have hh : isHost s = true := by
      unfold isHost
      rw [List.all_eq_true]
      intro c h
      rcases ht.2 c h with h | h
      · have : isBaseChar c = true := h
        simp [this]
      · simp [h]
    show hostItem s = some [s]
    unfold hostItem
    rw [hip, hr]
    simp only [hh, if_true]

theorem host_ne_nil (t : Host) (ht : t.Ok) : t.text ≠ [] := by
  cases t with
  | ip f1 f2 f3 f4 => simp [Host.text]
  | run base a b => simp [Host.text]
  | name s => exact ht.1

/-- C51: addresses with ranges give every combination in order, numbered hosts every number, names themselves. -/
theorem C51_hosts_list (ts : List Host) (hne : ts ≠ []) (h : ∀ t ∈ ts, t.Ok) :
    csvHost (join (ts.map Host.text)) = some (ts.flatMap Host.mean) := by
  rw [csvHost, split_join]
  · exact items_all hostItem Host.text Host.mean ts
      (fun t ht => ⟨tight_of_all _ (fun c hc => (host_chars t (h t ht) c hc).1), host_ne_nil t (h t ht)⟩)
      (fun t ht => hostItem_text t (h t ht))
  · intro q hq
    obtain ⟨t, ht, rfl⟩ := List.mem_map.1 hq
    exact fun hc => (host_chars t (h t ht) _ hc).2 rfl
  · simpa using hne

example : ∀ t ∈ [Host.ip (.one 10) (.one 1) (.upto 1 2) (.one 7), .run "node".toList 1 3, .name "lwa-dp".toList], t.Ok := by
  intro t ht
  simp only [List.mem_cons, List.not_mem_nil, or_false] at ht
  rcases ht with rfl | rfl | rfl
  · exact ⟨show 10 ≤ 999 by decide, show 1 ≤ 999 by decide, ⟨by decide, by decide⟩, show 7 ≤ 999 by decide⟩
  · show ∀ c ∈ "node".toList, _; decide
  · exact ⟨by decide, by decide⟩

theorem C51_hosts : csvHost "10.1.1.1~3, node1~3, lwa-dp".toList =
    some ["10.1.1.1".toList, "10.1.1.2".toList, "10.1.1.3".toList, "node1".toList, "node2".toList, "node3".toList,
      "lwa-dp".toList] := by decide +kernel

/-- C51: leading zeros of the numbers of hosts are lost. -/
theorem C51_host_zeros : csvHost "node01~02".toList = some ["node1".toList, "node2".toList] := by decide +kernel

/-- C51: fields of addresses are not checked. -/
theorem C51_host_bytes : csvHost "999.1.1.1".toList = some ["999.1.1.1".toList] := by decide +kernel

/-! ## Times -/

/-- A number with whole part `n` that is below `n + 1` by a representable step keeps its whole part when rounded. -/
theorem fl64_within (x : Rat) (n k : Nat) (h1 : (n : Rat) ≤ x) (h2 : x ≤ (n : Rat) + 1 - pow2 (-(k : Int)))
    (hn : (n + 1) * 2 ^ k ≤ 2 ^ 53) : (n : Rat) ≤ fl64 x ∧ fl64 x ≤ (n : Rat) + 1 - pow2 (-(k : Int)) := by
  have hk1 : 1 ≤ 2 ^ k := Nat.one_le_two_pow
  have hle : n + 1 ≤ (n + 1) * 2 ^ k := Nat.le_mul_of_pos_right _ (by omega)
  have hn0 : (0 : Rat) ≤ (n : Rat) := Rat.natCast_nonneg
  have e1 : fl64 (n : Rat) = (n : Rat) := fl64_nat n (by omega)
  have hpp : pow2 (-(k : Int)) * ((2 ^ k : Nat) : Rat) = 1 := by
    have := pow2_add_nat (-(k : Int)) k
    rw [show -(k : Int) + k = 0 by omega] at this
    rw [← this]; decide +kernel
  have hx : (((n + 1) * 2 ^ k - 1 : Nat) : Rat) * pow2 (-(k : Int)) = (n : Rat) + 1 - pow2 (-(k : Int)) := by
    have hc : (((n + 1) * 2 ^ k - 1 : Nat) : Rat) = ((n : Rat) + 1) * ((2 ^ k : Nat) : Rat) - 1 := by
      have : ((n + 1) * 2 ^ k - 1) + 1 = (n + 1) * 2 ^ k := by omega
      have h := congrArg (fun m : Nat => (m : Rat)) this
      simp only [Rat.natCast_add, Rat.natCast_mul] at h
      have e1 : ((1 : Nat) : Rat) = 1 := rfl
      rw [e1] at h
      grind
    rw [hc]
    generalize pow2 (-(k : Int)) = u at hpp
    generalize ((2 ^ k : Nat) : Rat) = v at hpp
    grind
  have e2 := fl64_exact ((n + 1) * 2 ^ k - 1) (-(k : Int)) (by omega)
  rw [hx] at e2
  constructor
  · have := fl64_mono hn0 h1; rw [e1] at this; exact this
  · have := fl64_mono (show 0 ≤ x by grind) h2; rw [e2] at this; exact this

theorem pyInt_within (x : Rat) (n : Nat) (h1 : (n : Rat) ≤ x) (h2 : x < (n : Rat) + 1) : pyInt x = n := by
  have := pyInt_eq_of_near (y := x) (n := (n : Int)) (by omega) (by rw [Rat.intCast_natCast]; exact h1)
    (by rw [Rat.intCast_natCast]; exact h2)
  exact this

theorem mod60_within (x : Rat) (a : Nat) (d : Rat) (hd : 0 < d) (h1 : (a : Rat) ≤ x) (h2 : x ≤ (a : Rat) + 1 - d) :
    pyInt (mod60 x) = (a % 60 : Nat) := by
  have hq : a = 60 * (a / 60) + a % 60 := by omega
  have hr : a % 60 < 60 := Nat.mod_lt _ (by decide)
  generalize a / 60 = q at hq
  generalize a % 60 = r at hq hr
  subst hq
  have c1 : ((60 * q + r : Nat) : Rat) = 60 * (q : Rat) + (r : Rat) := by
    rw [Rat.natCast_add, Rat.natCast_mul]; rfl
  rw [c1] at h1 h2
  have hr1 : (r : Rat) + 1 ≤ 60 := by
    have : ((r + 1 : Nat) : Rat) ≤ ((60 : Nat) : Rat) := Rat.natCast_le_natCast.mpr hr
    rw [Rat.natCast_add] at this; exact this
  have hr0 : (0 : Rat) ≤ (r : Rat) := Rat.natCast_nonneg
  have hf : (x / 60).floor = (q : Int) := by
    refine floor_unique ?_ ?_
    · rw [Rat.intCast_natCast]; grind
    · rw [Rat.intCast_natCast]; grind
  unfold mod60
  rw [hf, Rat.intCast_natCast]
  refine pyInt_within _ _ ?_ ?_
  · grind
  · grind

/-- C51: milliseconds past midnight are turned into their time of day, whatever the rounding of the divisions. -/
theorem C51_time_mpm (str : Str) (n : Nat) (h : intText? str = some (n : Int)) (hn : n ≤ 86400999) :
    time str = some (clockText (ofMpm n).1 (ofMpm n).2.1 (ofMpm n).2.2.1 (ofMpm n).2.2.2) := by
  have hlt : ¬ ((n : Int) < 0 ∨ 86400 * 1000 + 999 < (n : Int)) := by omega
  unfold time
  rw [h]
  simp only [if_neg hlt]
  -- seconds
  have ha : n = 1000 * (n / 1000) + n % 1000 := by omega
  have hf : n % 1000 ≤ 999 := by omega
  have hA : n / 1000 ≤ 86400 := by omega
  have hn' : ((n : Int) : Rat) = 1000 * ((n / 1000 : Nat) : Rat) + ((n % 1000 : Nat) : Rat) := by
    rw [Rat.intCast_natCast]
    conv => lhs; rw [ha]
    rw [Rat.natCast_add, Rat.natCast_mul]; rfl
  have hfr : ((n % 1000 : Nat) : Rat) ≤ 999 := by
    have : ((n % 1000 : Nat) : Rat) ≤ ((999 : Nat) : Rat) := Rat.natCast_le_natCast.mpr hf
    exact this
  have hf0 : (0 : Rat) ≤ ((n % 1000 : Nat) : Rat) := Rat.natCast_nonneg
  have p10 : pow2 (-(10 : Nat)) = 1 / 1024 := by decide +kernel
  have p22 : pow2 (-(22 : Nat)) = 1 / 4194304 := by decide +kernel
  have p16 : pow2 (-(16 : Nat)) = 1 / 65536 := by decide +kernel
  have hs := fl64_within ((n : Int) / 1000) (n / 1000) 10 (by rw [hn']; grind) (by rw [hn', p10]; grind) (by omega)
  rw [p10] at hs
  generalize fl64 (((n : Int) : Rat) / 1000) = s at hs ⊢
  obtain ⟨hs1, hs2⟩ := hs
  -- hours
  have hh : n / 1000 = 3600 * (n / 3600000) + n / 1000 % 3600 := by omega
  have hhr : n / 1000 % 3600 ≤ 3599 := by omega
  have hhc : ((n / 1000 : Nat) : Rat) = 3600 * ((n / 3600000 : Nat) : Rat) + ((n / 1000 % 3600 : Nat) : Rat) := by
    conv => lhs; rw [hh]
    rw [Rat.natCast_add, Rat.natCast_mul]; rfl
  have hhr' : ((n / 1000 % 3600 : Nat) : Rat) ≤ 3599 := by
    have : ((n / 1000 % 3600 : Nat) : Rat) ≤ ((3599 : Nat) : Rat) := Rat.natCast_le_natCast.mpr hhr
    exact this
  have hh0 : (0 : Rat) ≤ ((n / 1000 % 3600 : Nat) : Rat) := Rat.natCast_nonneg
  have h1 := fl64_within (s / 3600) (n / 3600000) 22 (by rw [hhc] at hs1; grind) (by rw [hhc] at hs2; rw [p22]; grind) (by omega)
  rw [p22] at h1
  have e1 := pyInt_within _ _ h1.1 (by grind)
  -- minutes
  have hm : n / 1000 = 60 * (n / 60000) + n / 1000 % 60 := by omega
  have hmr : n / 1000 % 60 ≤ 59 := by omega
  have hmc : ((n / 1000 : Nat) : Rat) = 60 * ((n / 60000 : Nat) : Rat) + ((n / 1000 % 60 : Nat) : Rat) := by
    conv => lhs; rw [hm]
    rw [Rat.natCast_add, Rat.natCast_mul]; rfl
  have hmr' : ((n / 1000 % 60 : Nat) : Rat) ≤ 59 := by
    have : ((n / 1000 % 60 : Nat) : Rat) ≤ ((59 : Nat) : Rat) := Rat.natCast_le_natCast.mpr hmr
    exact this
  have hm0 : (0 : Rat) ≤ ((n / 1000 % 60 : Nat) : Rat) := Rat.natCast_nonneg
  have h2 := fl64_within (s / 60) (n / 60000) 16 (by rw [hmc] at hs1; grind) (by rw [hmc] at hs2; rw [p16]; grind) (by omega)
  rw [p16] at h2
  have e2 := mod60_within _ _ (1 / 65536) (by decide +kernel) h2.1 h2.2
  have e3 := mod60_within s _ (1 / 1024) (by decide +kernel) hs1 hs2
  rw [e1, e2, e3]
  rfl

theorem ofMpm_valid (n : Nat) (h : n < 86400000) : Valid (ofMpm n) := by
  refine ⟨?_, ?_, ?_, ?_⟩ <;> simp only [ofMpm] <;> omega

theorem field_le (top : Nat) (s : Str) (n : Nat) (h : field? top s = some n) : n ≤ top := by
  unfold field? at h
  split at h
  · cases hp : parseNat? s with
    | none => rw [hp] at h; cases h
    | some m =>
      rw [hp] at h
      simp only [Option.bind_some] at h
      split at h
      · cases h; assumption
      · cases h
  · cases h

theorem parseNat_lt (s : Str) (n : Nat) (h : parseNat? s = some n) : n < 10 ^ s.length := by
  unfold parseNat? at h
  split at h
  · next hd =>
    cases h
    have := hd.2
    clear hd
    have key : ∀ (l : Str) (a : Nat), l.all Char.isDigit = true → Nat.ofDigitChars 10 l a < (a + 1) * 10 ^ l.length := by
      intro l
      induction l with
      | nil => intro a _; simp [Nat.ofDigitChars]
      | cons c l ih =>
        intro a hl
        simp only [List.all_cons, Bool.and_eq_true] at hl
        have := ih (10 * a + (c.toNat - '0'.toNat)) hl.2
        rw [Nat.ofDigitChars_cons, List.length_cons, Nat.pow_succ]
        have hc : c.toNat - '0'.toNat ≤ 9 := by
          have := hl.1
          simp only [Char.isDigit, Bool.and_eq_true, decide_eq_true_eq] at this
          have h2 : c.toNat ≤ 57 := this.2
          have h0 : '0'.toNat = 48 := rfl
          omega
        refine Nat.lt_of_lt_of_le this ?_
        rw [Nat.mul_comm (10 ^ l.length) 10, ← Nat.mul_assoc]
        exact Nat.mul_le_mul_right _ (by omega)
    have := key s 0 this
    simpa using this
  · cases h

theorem clock_valid (s : Str) (c : Nat × Nat × Nat × Nat) (h : clock? s = some c) : Valid c := by
  unfold clock? at h
  split at h
  · next hh m x hsp =>
    cases h1 : field? 23 hh with
    | none => rw [h1] at h; cases h
    | some a =>
      cases h2 : field? 59 m with
      | none => rw [h1, h2] at h; cases h
      | some b =>
        cases h3 : seconds? x with
        | none => rw [h1, h2, h3] at h; cases h
        | some p =>
          rw [h1, h2, h3] at h
          cases h
          have g1 := field_le _ _ _ h1
          have g2 := field_le _ _ _ h2
          have g3 : p.1 < 60 ∧ p.2 < 1000000 := by
            unfold seconds? at h3
            split at h3
            · cases h4 : field? 59 x with
              | none => rw [h4] at h3; cases h3
              | some k =>
                rw [h4] at h3; cases h3
                have := field_le _ _ _ h4
                exact ⟨Nat.lt_succ_of_le this, show 0 < 1000000 by decide⟩
            · next a' b' hc =>
              split at h3
              · next hl =>
                cases h4 : field? 59 a' with
                | none => rw [h4] at h3; cases h3
                | some k =>
                  cases h5 : parseNat? b' with
                  | none => rw [h4, h5] at h3; cases h3
                  | some f =>
                    rw [h4, h5] at h3; cases h3
                    have := field_le _ _ _ h4
                    refine ⟨by omega, ?_⟩
                    have hf := parseNat_lt _ _ h5
                    have : f * 10 ^ (6 - b'.length) < 10 ^ b'.length * 10 ^ (6 - b'.length) :=
                      Nat.mul_lt_mul_of_pos_right hf (Nat.pow_pos (by decide))
                    rw [← Nat.pow_add, show b'.length + (6 - b'.length) = 6 by omega] at this
                    exact this
              · cases h3
          exact ⟨Nat.lt_succ_of_le g1, Nat.lt_succ_of_le g2, g3.1, g3.2⟩
  · cases h

/-- C51: an accepted time is the text of a time of day, unless it is given as 86400000 or more milliseconds. -/
theorem C51_time_partial (str t : Str) (h : time str = some t) (hlt : ∀ n, intText? str = some n → n < 86400000) :
    ∃ c, Valid c ∧ t = clockText c.1 c.2.1 c.2.2.1 c.2.2.2 := by
  cases hi : intText? str with
  | some n =>
    have h0 : 0 ≤ n := by
      unfold time at h
      rw [hi] at h
      simp only at h
      split at h
      · cases h
      · omega
    have hn := hlt n hi
    have := C51_time_mpm str n.toNat (by rw [hi, Int.toNat_of_nonneg h0]) (by omega)
    rw [this] at h
    cases h
    exact ⟨ofMpm n.toNat, ofMpm_valid _ (by omega), rfl⟩
  | none =>
    unfold time at h
    rw [hi] at h
    simp only at h
    cases hc : clock? str with
    | none => rw [hc] at h; cases h
    | some c => rw [hc] at h; cases h; exact ⟨c, clock_valid _ _ hc, rfl⟩

theorem intText_colon (s : Str) (h1 : ∀ c ∈ s, c.isDigit = true ∨ c = ':' ∨ c = '.') (h2 : ':' ∈ s) : intText? s = none := by
  have hb : ∀ c ∈ s, isBlank c = false := by
    intro c hc
    rcases h1 c hc with h | rfl | rfl
    · exact digit_not_blank c h
    · decide
    · decide
  have hn : natText? s = none := by
    unfold natText?
    have hu : '_' ∉ s := fun hm => by rcases h1 _ hm with h | h | h <;> exact absurd h (by decide)
    rw [splitOn_not_mem _ _ hu]
    rw [if_neg]
    intro h
    simp only [List.all_cons, List.all_nil, Bool.and_true, Bool.and_eq_true] at h
    have := List.all_eq_true.1 h.2 ':' h2
    exact absurd this (by decide)
  unfold intText?
  rw [strip_tight _ (tight_of_all _ hb)]
  split
  · next l => rcases h1 '-' (List.mem_cons_self ..) with h | h | h <;> exact absurd h (by decide)
  · next l => rcases h1 '+' (List.mem_cons_self ..) with h | h | h <;> exact absurd h (by decide)
  · rw [hn]; rfl

theorem showNat_len2 (n : Nat) (h : n < 100) : (showNat n).length ≤ 2 :=
  (Nat.length_toDigits_le_iff (b := 10) (n := n) (k := 2) (by decide) (by decide)).mpr (by omega)

/-- C51: a fraction of one to six digits is read as that fraction of a second. -/
theorem C51_fraction (hh m s us k : Nat) (h1 : hh < 24) (h2 : m < 60) (h3 : s < 60) (hk : 0 < k) (hk6 : k ≤ 6)
    (h4 : us < 10 ^ k) :
    clock? (showNat hh ++ ':' :: (showPad 2 m ++ ':' :: (showPad 2 s ++ '.' :: showPad k us))) =
      some (hh, m, s, us * 10 ^ (6 - k)) := by
  have hdrop : ∀ r : Str, (showNat hh ++ r).dropWhile isBlank = showNat hh ++ r := by
    intro r
    cases hs : showNat hh with
    | nil => exact absurd hs (showNat_ne_nil hh)
    | cons x l =>
      have := digit_not_blank x (showNat_digit hh x (by rw [hs]; exact List.mem_cons_self ..))
      rw [List.cons_append, List.dropWhile_cons_of_neg (by rw [this]; decide)]
  have n1 := not_mem_showNat hh ':' (by decide)
  have n2 := not_mem_showPad 2 m ':' (by decide)
  have n3 : ':' ∉ showPad 2 s ++ '.' :: showPad k us := by
    simp only [List.mem_append, List.mem_cons, not_or]
    exact ⟨not_mem_showPad 2 s ':' (by decide), by decide, not_mem_showPad k us ':' (by decide)⟩
  have f1 : field? 23 (showNat hh) = some hh := by
    unfold field?
    rw [if_pos (showNat_len2 hh (by omega)), parseNat_showNat, Option.bind_some, if_pos (by omega)]
  have f2 : ∀ n < 60, field? 59 (showPad 2 n) = some n := by
    intro n hn
    unfold field?
    rw [if_pos (by rw [showPad_length 2 n (by decide) (by omega)]; exact Nat.le_refl 2), parseNat_showPad, Option.bind_some,
      if_pos (by omega)]
  have f3 : seconds? (showPad 2 s ++ '.' :: showPad k us) = some (s, us * 10 ^ (6 - k)) := by
    unfold seconds?
    rw [cut_append _ _ _ (not_mem_showPad 2 s '.' (by decide))]
    simp only [showPad_length k us hk h4, f2 s h3, parseNat_showPad, if_pos hk6]
  unfold clock?
  rw [hdrop, splitOn_append _ _ _ n1, splitOn_append _ _ _ n2, splitOn_not_mem _ _ n3]
  simp only [f1, f2 m h2, f3]

theorem clock_clockText (c : Nat × Nat × Nat × Nat) (h : Valid c) :
    clock? (clockText c.1 c.2.1 c.2.2.1 c.2.2.2) = some c := by
  obtain ⟨hh, m, s, us⟩ := c
  obtain ⟨h1, h2, h3, h4⟩ := h
  have := C51_fraction hh m s us 6 h1 h2 h3 (by decide) (by decide) h4
  simp only [Nat.sub_self, Nat.pow_zero, Nat.mul_one] at this
  have e : clockText hh m s us = showNat hh ++ ':' :: (showPad 2 m ++ ':' :: (showPad 2 s ++ '.' :: showPad 6 us)) := by
    simp [clockText]
  rw [e]; exact this

/-- C51: a time of day written out is taken as it is, and gives its milliseconds. -/
theorem C51_time_text (c : Nat × Nat × Nat × Nat) (h : Valid c) :
    time (clockText c.1 c.2.1 c.2.2.1 c.2.2.2) = some (clockText c.1 c.2.1 c.2.2.1 c.2.2.2) ∧
    mpm (clockText c.1 c.2.1 c.2.2.1 c.2.2.2) = some (clockMpm c.1 c.2.1 c.2.2.1 c.2.2.2) := by
  have hi : intText? (clockText c.1 c.2.1 c.2.2.1 c.2.2.2) = none := by
    refine intText_colon _ ?_ (by simp [clockText])
    intro x hx
    simp only [clockText, List.mem_append, List.mem_cons, List.append_assoc, List.cons_append] at hx
    rcases hx with hx | rfl | hx | rfl | hx | rfl | hx
    · exact .inl (showNat_digit _ _ hx)
    · simp
    · exact .inl (showPad_digit _ _ _ hx)
    · simp
    · exact .inl (showPad_digit _ _ _ hx)
    · simp
    · exact .inl (showPad_digit _ _ _ hx)
  unfold time mpm
  rw [hi, clock_clockText c h]
  exact ⟨rfl, rfl⟩

example : Valid (23, 59, 59, 999999) := ⟨by decide, by decide, by decide, by decide⟩

/-- C51: a thousand values past the end of the day are accepted and give times that do not exist. -/
theorem C51_time_end : time "86400000".toList = some "24:00:00.000000".toList ∧
    time "86400999".toList = some "24:00:00.999000".toList ∧ mpm "86400999".toList = some 86400999 := by decide +kernel

example : time "45296789".toList = some "12:34:56.789000".toList := by decide +kernel
example : time "1:2:3.5".toList = some "1:02:03.500000".toList := by decide +kernel

/-- C51: the milliseconds of a time of day, whatever the rounding. -/
theorem clockMpm_eq (c : Nat × Nat × Nat × Nat) (h : Valid c) :
    clockMpm c.1 c.2.1 c.2.2.1 c.2.2.2 = ((c.1 * 3600 + c.2.1 * 60 + c.2.2.1) * 1000 + c.2.2.2 / 1000 : Nat) := by
  obtain ⟨hh, m, s, us⟩ := c
  obtain ⟨h1, h2, h3, h4⟩ := h
  simp only at h1 h2 h3 h4 ⊢
  unfold clockMpm
  have hN : (hh * 3600 + m * 60 + s) * 1000 ≤ 86399000 := by omega
  generalize (hh * 3600 + m * 60 + s) * 1000 = N at hN
  have hu : us = 1000 * (us / 1000) + us % 1000 := by omega
  have hr : us % 1000 ≤ 999 := by omega
  have hq : us / 1000 ≤ 999 := by omega
  have hc : (us : Rat) = 1000 * ((us / 1000 : Nat) : Rat) + ((us % 1000 : Nat) : Rat) := by
    conv => lhs; rw [hu]
    rw [Rat.natCast_add, Rat.natCast_mul]; rfl
  have hr' : ((us % 1000 : Nat) : Rat) ≤ 999 := by
    have : ((us % 1000 : Nat) : Rat) ≤ ((999 : Nat) : Rat) := Rat.natCast_le_natCast.mpr hr
    exact this
  have hr0 : (0 : Rat) ≤ ((us % 1000 : Nat) : Rat) := Rat.natCast_nonneg
  have p10 : pow2 (-(10 : Nat)) = 1 / 1024 := by decide +kernel
  have e1 := fl64_within ((us : Rat) / 1000) (us / 1000) 10 (by rw [hc]; grind) (by rw [hc, p10]; grind) (by omega)
  rw [p10] at e1
  generalize fl64 ((us : Rat) / 1000) = f at e1
  generalize us / 1000 = k at e1 hq
  have e2 := fl64_within ((N : Rat) + f) (N + k) 10 (by rw [Rat.natCast_add]; grind) (by rw [Rat.natCast_add, p10]; grind) (by omega)
  rw [p10] at e2
  refine floor_unique ?_ ?_
  · rw [Rat.intCast_natCast]; exact e2.1
  · rw [Rat.intCast_natCast]; grind

/-- C51: milliseconds from a time of day are within the day. -/
theorem C51_mpm_partial (str : Str) (n : Int) (h : mpm str = some n) (hlt : ∀ n, intText? str = some n → n < 86400000) :
    0 ≤ n ∧ n < 86400000 ∧ (∀ c, intText? str = none → clock? str = some c →
      n = ((c.1 * 3600 + c.2.1 * 60 + c.2.2.1) * 1000 + c.2.2.2 / 1000 : Nat)) := by
  cases hi : intText? str with
  | some k =>
    have hk := hlt k hi
    unfold mpm at h
    rw [hi] at h
    simp only at h
    split at h
    · cases h
    · cases h
      refine ⟨by omega, hk, ?_⟩
      intro c hc; cases hc
  | none =>
    unfold mpm at h
    rw [hi] at h
    simp only at h
    cases hc : clock? str with
    | none => rw [hc] at h; cases h
    | some c =>
      rw [hc] at h
      cases h
      have hv := clock_valid _ _ hc
      have e := clockMpm_eq c hv
      simp only [e]
      obtain ⟨h1, h2, h3, h4⟩ := hv
      refine ⟨by omega, by omega, ?_⟩
      intro c' _ hc'
      cases hc'
      rfl

/-! ## Frequencies -/

/-- C69: a range comes out in order and is made of the values of its two ends. -/
theorem C69_order (flt qty : Str → Option Rat) (scale : Rat) (s : Str) (x y : Rat)
    (h : range flt qty scale s = some (x, y)) : x ≤ y ∧
    ∃ a b a', cut '~' s = some (a, b) ∧ (∀ u, getUnits flt a = none → getUnits flt b = some u → a' = a ++ u) ∧
      ((getUnits flt a).isSome = (getUnits flt b).isSome → a' = a) ∧ ((getUnits flt a).isSome → (getUnits flt b).isSome) ∧
      ((quantity flt qty scale a' = some x ∧ quantity flt qty scale b = some y) ∨
       (quantity flt qty scale a' = some y ∧ quantity flt qty scale b = some x)) := by
  unfold range base at h
  cases hs : flt s with
  | some v => rw [hs] at h; cases h
  | none =>
    rw [hs] at h
    cases hc : cut '~' s with
    | none =>
      rw [hc] at h
      simp only at h
      cases hq : quantity flt qty scale s with
      | none => rw [hq] at h; cases h
      | some v => rw [hq] at h; cases h
    | some ab =>
      obtain ⟨a, b⟩ := ab
      rw [hc] at h
      simp only at h
      by_cases hu : (getUnits flt a).isSome ∧ getUnits flt b = none
      · rw [if_pos hu] at h; cases h
      · rw [if_neg hu] at h
        generalize ha' : startText (getUnits flt a) (getUnits flt b) a = a' at h
        have hcase : (∀ u, getUnits flt a = none → getUnits flt b = some u → a' = a ++ u) ∧
            ((getUnits flt a).isSome = (getUnits flt b).isSome → a' = a) ∧
            ((getUnits flt a).isSome → (getUnits flt b).isSome) := by
          rw [← ha']
          unfold startText
          cases h1 : getUnits flt a <;> cases h2 : getUnits flt b <;> simp_all
        cases hx : quantity flt qty scale a' with
        | none => rw [hx] at h; cases h
        | some v =>
          cases hy : quantity flt qty scale b with
          | none => rw [hx, hy] at h; cases h
          | some w =>
            rw [hx, hy] at h
            simp only at h
            by_cases hlt : w < v
            · rw [if_pos hlt] at h
              cases h
              exact ⟨Rat.le_of_lt hlt, a, b, a', rfl, hcase.1, hcase.2.1, hcase.2.2, .inr ⟨hx, hy⟩⟩
            · rw [if_neg hlt] at h
              cases h
              exact ⟨Rat.not_lt.mp hlt, a, b, a', rfl, hcase.1, hcase.2.1, hcase.2.2, .inl ⟨hx, hy⟩⟩

/-- C69: without units on either end both are scaled; with units only on the first the range is refused. -/
theorem C69_plain (flt qty : Str → Option Rat) (scale : Rat) (a b : Str) (x y : Rat) (ha : '~' ∉ a)
    (hs : flt (a ++ '~' :: b) = none) (hx : flt a = some x) (hy : flt b = some y) (h0 : a ≠ []) (h1 : b ≠ []) :
    range flt qty scale (a ++ '~' :: b) =
      some (if y * scale < x * scale then (y * scale, x * scale) else (x * scale, y * scale)) := by
  have hu : ∀ (c : Str) (v : Rat), flt c = some v → c ≠ [] → getUnits flt c = none := by
    intro c v hc hne
    unfold getUnits
    cases c with
    | nil => exact absurd rfl hne
    | cons z r =>
      have : (List.range (z :: r).length).reverse.map (· + 1) =
          (r.length + 1) :: (List.range r.length).reverse.map (· + 1) := by
        rw [List.length_cons, List.range_succ, List.reverse_append]; simp
      simp only [this]
      rw [List.find?_cons_of_pos (by
        rw [show r.length + 1 = (z :: r).length from rfl, List.take_length, hc]; rfl)]
      simp
  unfold range base
  rw [hs, cut_append _ _ _ ha]
  simp only [hu a x hx h0, hu b y hy h1, startText, quantity, hx, hy]
  by_cases hlt : y * scale < x * scale
  · rw [if_pos hlt, if_pos hlt]; simp
  · rw [if_neg hlt, if_neg hlt]; simp

end Verif.Parser
