import Verif.Spec.Color
import Verif.Lemmas.Dec
/-!
# C52 colour markup
-/
namespace Verif.Color
open Spec Dec

/-! ## Codes -/

theorem reset_mem : reset ∈ colors.map (·.2) := by decide

theorem codes_shape : ∀ s ∈ colors.map (·.2), s.head? = some ESC ∧ '{' ∉ s ∧ '}' ∉ s ∧ '\\' ∉ s ∧ '\n' ∉ s := by
  decide +kernel

theorem codes_prefix_free : ∀ a ∈ colors.map (·.2), ∀ b ∈ colors.map (·.2), a.isPrefixOf b = true → a = b := by
  decide +kernel

theorem codes_ne_nil (s : Str) (h : s ∈ colors.map (·.2)) : s ≠ [] := by
  intro hs; have := (codes_shape s h).1; rw [hs] at this; simp at this

theorem lookup_mem (n : Str) (s : Str) (h : colors.lookup n = some s) : s ∈ colors.map (·.2) := by
  have : ∀ (l : List (Str × Str)), l.lookup n = some s → s ∈ l.map (·.2) := by
    intro l
    induction l with
    | nil => intro h; simp at h
    | cons p l ih =>
      intro h
      rw [List.lookup_cons] at h
      split at h
      · cases h; exact List.mem_cons_self ..
      · exact List.mem_cons_of_mem _ (ih h)
  exact this _ h

theorem lookup_reset (n : Str) (h : colors.lookup n = some reset) : n = "reset".toList := by
  have : ∀ (l : List (Str × Str)), (∀ p ∈ l, p.2 = reset → p.1 = "reset".toList) → l.lookup n = some reset →
      n = "reset".toList := by
    intro l
    induction l with
    | nil => intro _ h; simp at h
    | cons p l ih =>
      intro hl h
      rw [List.lookup_cons] at h
      split at h
      · next hp =>
        have : n = p.1 := by simpa using hp
        rw [this]; exact hl p (List.mem_cons_self ..) (Option.some.inj h)
      · exact ih (fun q hq => hl q (List.mem_cons_of_mem _ hq)) h
  exact this colors (by decide +kernel) h

/-- Tokens whose characters are not the escape character and whose codes are in the table. -/
def Good (l : List Tok) : Prop := ∀ t ∈ l, match t with | .chr c => c ≠ ESC | .code s => s ∈ colors.map (·.2)

theorem flat_cons (t : Tok) (l : List Tok) : flat (t :: l) = t.str ++ flat l := by simp [flat]
theorem flat_append (l m : List Tok) : flat (l ++ m) = flat l ++ flat m := by simp [flat]
theorem flat_nil : flat [] = [] := rfl

theorem not_prefix_append (a b r : Str) (h1 : a.isPrefixOf b = false) (h2 : b.isPrefixOf a = false) :
    a.isPrefixOf (b ++ r) = false := by
  induction a generalizing b with
  | nil => simp at h1
  | cons x a ih =>
    cases b with
    | nil => simp at h2
    | cons y b =>
      simp only [List.isPrefixOf, List.cons_append, Bool.and_eq_false_iff] at h1 h2 ⊢
      by_cases hxy : (x == y) = true
      · right
        have hyx : (y == x) = true := by rw [beq_iff_eq] at hxy ⊢; exact hxy.symm
        rw [hxy] at h1; rw [hyx] at h2
        exact ih b (by simpa only [Bool.true_eq_false, false_or] using h1) (by simpa only [Bool.true_eq_false, false_or] using h2)
      · left; simpa using hxy

theorem replaceAll_append_code (a b rep r : Str) (ha : a ∈ colors.map (·.2)) (hb : b ∈ colors.map (·.2)) (hab : a ≠ b) :
    replaceAll a rep (b ++ r) = b ++ replaceAll a rep r := by
  have h1 : a.isPrefixOf b = false := by
    cases h : a.isPrefixOf b with
    | false => rfl
    | true => exact absurd (codes_prefix_free a ha b hb h) hab
  have h2 : b.isPrefixOf a = false := by
    cases h : b.isPrefixOf a with
    | false => rfl
    | true => exact absurd (codes_prefix_free b hb a ha h).symm hab
  have hh := (codes_shape a ha).1
  -- the code has its escape character only at its start
  have tailEsc : ∀ s ∈ colors.map (·.2), ESC ∉ s.tail := by decide +kernel
  obtain ⟨x, b', rfl⟩ := List.exists_cons_of_ne_nil (codes_ne_nil b hb)
  have key : ∀ (t : Str), ESC ∉ t → replaceAll a rep (t ++ r) = t ++ replaceAll a rep r := by
    intro t
    induction t with
    | nil => intro _; rfl
    | cons y t ih =>
      intro ht
      have hy : y ≠ ESC := fun h => ht (by simp [h])
      rw [List.cons_append, replaceAll, if_neg, ih (fun h => ht (List.mem_cons_of_mem _ h)), List.cons_append]
      obtain ⟨z, a', rfl⟩ := List.exists_cons_of_ne_nil (codes_ne_nil a ha)
      simp only [List.head?_cons, Option.some.injEq] at hh
      subst hh
      simp [List.isPrefixOf, Ne.symm hy]
  rw [List.cons_append, replaceAll, if_neg, key b' (tailEsc _ hb), List.cons_append]
  rw [← List.cons_append, not_prefix_append a _ r h1 h2]; simp

theorem isPrefixOf_append (a r : Str) : a.isPrefixOf (a ++ r) = true := by
  rw [List.isPrefixOf_iff_prefix]; exact List.prefix_append a r

theorem replaceAll_self (a rep r : Str) (ha : a ≠ []) : replaceAll a rep (a ++ r) = rep ++ replaceAll a rep r := by
  obtain ⟨x, a', rfl⟩ := List.exists_cons_of_ne_nil ha
  rw [List.cons_append, replaceAll, ← List.cons_append, if_pos (isPrefixOf_append _ _)]
  simp

theorem replaceAll_flat (a : Str) (ha : a ∈ colors.map (·.2)) (rep : List Tok) (l : List Tok) (hl : Good l) :
    replaceAll a (flat rep) (flat l) = flat (l.flatMap (fun t => if t = .code a then rep else [t])) := by
  induction l with
  | nil => simp [flat, replaceAll]
  | cons t l ih =>
    have ih := ih (fun x hx => hl x (List.mem_cons_of_mem _ hx))
    have ht := hl t (List.mem_cons_self ..)
    rw [flat_cons, List.flatMap_cons, flat_append, ← ih]
    cases t with
    | chr c =>
      have hc : c ≠ ESC := ht
      simp only [Tok.str, List.cons_append, List.nil_append, reduceCtorEq, if_false, flat_cons, flat_nil,
        List.append_nil]
      rw [replaceAll, if_neg]
      have hh := (codes_shape a ha).1
      obtain ⟨z, a', rfl⟩ := List.exists_cons_of_ne_nil (codes_ne_nil a ha)
      simp only [List.head?_cons, Option.some.injEq] at hh
      subst hh
      simp [List.isPrefixOf, Ne.symm hc]
    | code s =>
      have hs : s ∈ colors.map (·.2) := ht
      simp only [Tok.str]
      by_cases hsa : s = a
      · subst hsa
        rw [if_pos rfl, replaceAll_self _ _ _ (codes_ne_nil _ hs)]
      · rw [if_neg (by intro h; cases h; exact hsa rfl), replaceAll_append_code a s _ _ ha hs (Ne.symm hsa)]
        simp [flat_cons, flat_nil, Tok.str]

/-- Removing the colours leaves the characters. -/
theorem uncolorfy_flat (l : List Tok) (hl : Good l) :
    uncolorfy (flat l) = l.filterMap (fun t => match t with | .chr c => some c | .code _ => none) := by
  have step : ∀ (cs : List (Str × Str)), (∀ p ∈ cs, p ∈ colors) → ∀ l : List Tok, Good l →
      cs.foldl (fun t p => replaceAll p.2 [] t) (flat l) =
        flat (l.filter (fun t => match t with | .chr _ => true | .code s => !(cs.map (·.2)).contains s)) := by
    intro cs
    induction cs with
    | nil =>
      intro _ l _
      rw [List.filter_eq_self.2]
      · rfl
      · intro t _; cases t <;> rfl
    | cons p cs ih =>
      intro hcs l hl
      have hp : p.2 ∈ colors.map (·.2) := List.mem_map.2 ⟨p, hcs p (List.mem_cons_self ..), rfl⟩
      rw [List.foldl_cons]
      have := replaceAll_flat p.2 hp [] l hl
      rw [flat_nil] at this
      rw [this]
      have e : l.flatMap (fun t => if t = Tok.code p.2 then [] else [t]) = l.filter (fun t => t ≠ Tok.code p.2) := by
        clear this hl
        induction l with
        | nil => rfl
        | cons t l ih =>
          rw [List.flatMap_cons, ih, List.filter_cons]
          by_cases h : t = Tok.code p.2 <;> simp [h]
      rw [e, ih (fun q hq => hcs q (List.mem_cons_of_mem _ hq)) _ (fun t ht => hl t (List.mem_filter.1 ht).1),
        List.filter_filter]
      congr 2
      funext t
      cases t with
      | chr c => simp
      | code s =>
        by_cases hs : s = p.2
        · simp [hs]
        · simp [hs]
  have h := step colors (fun p hp => hp) l hl
  rw [uncolorfy, h]
  clear h step
  induction l with
  | nil => rfl
  | cons t l ih =>
    have ih := ih (fun x hx => hl x (List.mem_cons_of_mem _ hx))
    have ht := hl t (List.mem_cons_self ..)
    cases t with
    | chr c => simp only [List.filter_cons, if_true, flat_cons, ih, Tok.str]; rfl
    | code s =>
      have : (colors.map (·.2)).contains s = true := by simpa using ht
      simp only [List.filter_cons, this, Bool.not_true, Bool.false_eq_true, if_false, ih]
      rfl

/-! ## Labels -/

/-- The text with numbered tags. -/
def lab (L : Nat) : Doc → Str
  | .nil => []
  | .chr c r => c :: lab L r
  | .tag n k r => openTag L ++ (n ++ ' ' :: (lab (L + 1) k ++ (closeTag L ++ lab L r)))

/-- As `Ok`, backslashes allowed. -/
def OkB (inTag : Bool) : Doc → Prop
  | .nil => True
  | .chr c r => (c ≠ '{' ∧ c ≠ '}' ∧ c ≠ ESC ∧ (inTag = true → c ≠ '\n')) ∧ OkB inTag r
  | .tag n k r =>
    (n ≠ [] ∧ (∀ c ∈ n, isTagChar c = true) ∧ n.map Char.toLower ≠ "reset".toList) ∧ OkB true k ∧ OkB inTag r

theorem okB {d : Doc} : ∀ {i : Bool}, Ok i d → OkB i d := by
  induction d with
  | nil => intro _ _; trivial
  | chr c r ih => intro i h; exact ⟨⟨h.1.1, h.1.2.1, h.1.2.2.2.1, h.1.2.2.2.2⟩, ih h.2⟩
  | tag n k r ihk ihr =>
    intro i h
    refine ⟨⟨h.1.1, ?_, h.1.2.2⟩, ihk h.2.1, ihr h.2.2⟩
    intro c hc
    have := h.1.2.1 c hc
    simpa [isTagChar] using this

theorem tagChar_ne (c : Char) (h : isTagChar c = true) : c ≠ '{' ∧ c ≠ '}' ∧ c ≠ ' ' ∧ c ≠ '%' ∧ c ≠ '\n' := by
  refine ⟨?_, ?_, ?_, ?_, ?_⟩ <;> (intro hc; subst hc; revert h; decide)

/-- Turns of the labelling loop. -/
def turns : Doc → Nat
  | .nil => 0
  | .chr _ r => 1 + turns r
  | .tag n k r => 1 + (1 + n.length + 1 + turns k) + 1 + turns r

theorem turns_le (d : Doc) : turns d ≤ (render d).length := by
  induction d with
  | nil => simp [turns]
  | chr c r ih => simp [turns, render]; omega
  | tag n k r ihk ihr => simp [turns, render]; omega

theorem label_plain (t : Str) (ht : ∀ c ∈ t, c ≠ '{' ∧ c ≠ '}') (fuel : Nat) (lv : Int) (T : Str) :
    labelLoop (t.length + fuel) lv (t ++ T) = (labelLoop fuel lv T).map (t ++ ·) := by
  induction t with
  | nil =>
    simp only [List.length_nil, Nat.zero_add, List.nil_append]
    cases labelLoop fuel lv T <;> rfl
  | cons c t ih =>
    have hc := ht c (List.mem_cons_self ..)
    rw [show (c :: t).length + fuel = (t.length + fuel) + 1 by simp; omega, List.cons_append, labelLoop,
      if_neg (by simp [hc.1]), if_neg (by simp [hc.2]), ih (fun x hx => ht x (List.mem_cons_of_mem _ hx))]
    cases labelLoop fuel lv T <;> rfl

theorem showInt_digit (L : Nat) (h : L < 10) : ∃ d, showInt (L : Int) = [d] ∧ showNat L = [d] := by
  have : ∀ L : Fin 10, showInt (L.val : Int) = showNat L.val ∧ (showNat L.val).length = 1 := by decide
  obtain ⟨h1, h2⟩ := this ⟨L, h⟩
  match hs : showNat L, h2 with
  | [d], _ => exact ⟨d, by rw [h1]; exact hs, rfl⟩

theorem label_doc (d : Doc) : ∀ (i : Bool) (L : Nat), OkB i d → L + depth d ≤ 10 → ∀ (fuel : Nat) (T : Str),
    labelLoop (turns d + fuel) (L : Int) (render d ++ T) = (labelLoop fuel (L : Int) T).map (lab L d ++ ·) := by
  induction d with
  | nil =>
    intro i L _ _ fuel T
    simp only [turns, Nat.zero_add, render, List.nil_append, lab]
    cases labelLoop fuel (L : Int) T <;> rfl
  | chr c r ih =>
    intro i L h hd fuel T
    have h1 := label_plain [c] (by simpa using ⟨h.1.1, h.1.2.1⟩) (turns r + fuel) L (render r ++ T)
    simp only [List.length_singleton, List.singleton_append] at h1
    rw [turns, Nat.add_assoc, render, List.cons_append, h1, ih i L h.2 hd]
    cases labelLoop fuel (L : Int) T <;> rfl
  | tag n k r ihk ihr =>
    intro i L h hd fuel T
    simp only [depth] at hd
    have hd1 : (L + 1) + depth k ≤ 10 := by omega
    have hd2 : L + depth r ≤ 10 := by omega
    obtain ⟨dg, hs1, hs2⟩ := showInt_digit L (by omega)
    obtain ⟨⟨_, hn, _⟩, hk, hr⟩ := h
    -- opening
    have e1 : turns (.tag n k r) + fuel = ((1 + n.length + 1) + (turns k + (1 + (turns r + fuel)))) + 1 := by
      simp only [turns]; omega
    have e2 : render (.tag n k r) ++ T = '{' :: ('{' :: '%' :: (n ++ ' ' :: (render k ++ ('}' :: '}' :: (render r ++ T))))) := by
      simp [render]
    rw [e1, e2, labelLoop, if_pos (by simp)]
    simp only [List.drop_succ_cons, List.drop_zero, if_true, hs1]
    have e3 : ((['{', '{'] ++ [dg] ++ ['{', '{'] ++ '%' :: (n ++ ' ' :: (render k ++ ('}' :: '}' :: (render r ++ T))))).drop 5) =
        ('%' :: n ++ [' ']) ++ (render k ++ ('}' :: '}' :: (render r ++ T))) := by simp
    have e4 : ((['{', '{'] ++ [dg] ++ ['{', '{'] ++ '%' :: (n ++ ' ' :: (render k ++ ('}' :: '}' :: (render r ++ T))))).take 5) =
        ['{', '{', dg, '{', '{'] := by simp
    rw [e3, e4]
    have hp := label_plain ('%' :: n ++ [' ']) (by
      intro c hc
      simp only [List.cons_append, List.mem_cons, List.mem_append, List.not_mem_nil, or_false] at hc
      rcases hc with rfl | hc | rfl
      · decide
      · have := tagChar_ne c (hn c hc); exact ⟨this.1, this.2.1⟩
      · decide) (turns k + (1 + (turns r + fuel))) ((L : Int) + 1) (render k ++ ('}' :: '}' :: (render r ++ T)))
    rw [show ('%' :: n ++ [' ']).length = 1 + n.length + 1 by simp; omega] at hp
    rw [hp]
    have hk' := ihk true (L + 1) hk hd1 (1 + (turns r + fuel)) ('}' :: '}' :: (render r ++ T))
    rw [show ((L + 1 : Nat) : Int) = (L : Int) + 1 by simp] at hk'
    rw [hk']
    -- closing
    have hc : labelLoop (1 + (turns r + fuel)) ((L : Int) + 1) ('}' :: '}' :: (render r ++ T)) =
        (labelLoop (turns r + fuel) (L : Int) (render r ++ T)).map (closeTag L ++ ·) := by
      rw [show 1 + (turns r + fuel) = (turns r + fuel) + 1 by omega, labelLoop, if_neg (by simp), if_pos (by simp),
        if_pos (by omega), show (L : Int) + 1 - 1 = L by omega, hs1]
      simp [closeTag, hs2]
    rw [hc, ihr i L hr hd2]
    cases labelLoop fuel (L : Int) T with
    | error e => rfl
    | ok t => simp [Except.map, lab, openTag, hs2]

/-! ## Levels -/

theorem levelAt_open (L : Nat) (X : Str) : levelAt (openTag L ++ X) = L := by
  have hd : ∀ c ∈ showNat L, Char.isDigit c = true := showNat_digit L
  have e : (openTag L ++ X) = '{' :: '{' :: (showNat L ++ '{' :: '{' :: '%' :: X) := by simp [openTag]
  have h1 : (showNat L ++ '{' :: '{' :: '%' :: X).takeWhile Char.isDigit = showNat L := by
    rw [List.takeWhile_append_of_pos hd]; simp
  have h2 : (showNat L ++ '{' :: '{' :: '%' :: X).dropWhile Char.isDigit = '{' :: '{' :: '%' :: X := by
    rw [List.dropWhile_append_of_pos hd]; simp
  rw [e, levelAt]
  simp only [List.drop_succ_cons, List.drop_zero, h1, h2]
  simp [List.isPrefixOf, showNat_ne_nil, parseNat_showNat]

theorem maxLevel_append (A B : Str) : maxLevel B ≤ maxLevel (A ++ B) := by
  induction A with
  | nil => exact Nat.le_refl _
  | cons c A ih => simp only [List.cons_append, maxLevel]; omega

theorem maxLevel_ge (s : Str) : levelAt s ≤ maxLevel s := by
  cases s with
  | nil => decide
  | cons c r => simp only [maxLevel]; omega

theorem maxLevel_doc (d : Doc) : ∀ (L : Nat) (T : Str), depth d = 0 ∨ L + depth d ≤ maxLevel (lab L d ++ T) + 1 := by
  induction d with
  | nil => intro L T; left; rfl
  | chr c r ih =>
    intro L T
    rcases ih L T with h | h
    · left; exact h
    · right; simp only [depth, lab, List.cons_append]
      have := maxLevel_append [c] (lab L r ++ T)
      simp only [List.singleton_append] at this; omega
  | tag n k r ihk ihr =>
    intro L T
    right
    have h1 : L ≤ maxLevel (lab L (.tag n k r) ++ T) := by
      have := maxLevel_ge (lab L (.tag n k r) ++ T)
      rw [lab, List.append_assoc, levelAt_open] at this
      rw [lab, List.append_assoc]; exact this
    have h2 : depth k = 0 ∨ L + 1 + depth k ≤ maxLevel (lab L (.tag n k r) ++ T) + 1 := by
      rcases ihk (L + 1) (closeTag L ++ lab L r ++ T) with h | h
      · left; exact h
      · right
        have := maxLevel_append (openTag L ++ (n ++ [' '])) (lab (L + 1) k ++ (closeTag L ++ lab L r ++ T))
        have e : lab L (.tag n k r) ++ T =
            openTag L ++ (n ++ [' ']) ++ (lab (L + 1) k ++ (closeTag L ++ lab L r ++ T)) := by simp [lab]
        rw [e]; omega
    have h3 : depth r = 0 ∨ L + depth r ≤ maxLevel (lab L (.tag n k r) ++ T) + 1 := by
      rcases ihr L T with h | h
      · left; exact h
      · right
        have := maxLevel_append (openTag L ++ (n ++ ' ' :: lab (L + 1) k) ++ closeTag L) (lab L r ++ T)
        have e : lab L (.tag n k r) ++ T =
            openTag L ++ (n ++ ' ' :: lab (L + 1) k) ++ closeTag L ++ (lab L r ++ T) := by simp [lab]
        rw [e]; omega
    simp only [depth]; omega

/-! ## One level -/

/-- The codes sent for a tag. -/
def codeTok (n : Str) : List Tok := match colors.lookup (n.map Char.toLower) with | some s => [.code s] | none => []

theorem flat_codeTok (n : Str) : flat (codeTok n) = codeOf n := by
  simp only [codeTok, codeOf]
  cases colors.lookup (n.map Char.toLower) <;> simp [flat, Tok.str]

/-- A reset inside a tag is followed by the code of the tag. -/
def expand (n : Str) (t : Tok) : List Tok := if t = .code reset then .code reset :: codeTok n else [t]

/-- The tokens of a tag with the given tokens inside. -/
def wrap (n : Str) (l : List Tok) : List Tok := (codeTok n ++ l).flatMap (expand n) ++ [.code reset]

/-- What is sent for a text. -/
def ansi : Doc → List Tok
  | .nil => []
  | .chr c r => .chr c :: ansi r
  | .tag n k r => wrap n (ansi k) ++ ansi r

theorem good_codeTok (n : Str) : Good (codeTok n) := by
  intro t ht
  simp only [codeTok] at ht
  split at ht
  · next s hs => simp only [List.mem_singleton] at ht; subst ht; exact lookup_mem _ _ hs
  · simp at ht

theorem good_wrap (n : Str) (l : List Tok) (h : Good l) : Good (wrap n l) := by
  intro t ht
  simp only [wrap, List.mem_append, List.mem_flatMap, List.mem_singleton] at ht
  rcases ht with ⟨u, hu, ht⟩ | rfl
  · simp only [expand] at ht
    split at ht
    · rcases List.mem_cons.1 ht with rfl | ht
      · exact reset_mem
      · exact good_codeTok n t ht
    · simp only [List.mem_singleton] at ht
      subst ht
      rcases hu with hu | hu
      · exact good_codeTok n _ hu
      · exact h _ hu
  · exact reset_mem

theorem good_ansi (d : Doc) : ∀ i, OkB i d → Good (ansi d) := by
  induction d with
  | nil => intro _ _ t ht; simp [ansi] at ht
  | chr c r ih =>
    intro i h t ht
    rcases List.mem_cons.1 ht with rfl | ht
    · exact h.1.2.2.1
    · exact ih i h.2 t ht
  | tag n k r ihk ihr =>
    intro i h t ht
    rcases List.mem_append.1 ht with ht | ht
    · exact good_wrap n _ (ihk true h.2.1) t ht
    · exact ihr i h.2.2 t ht

theorem repl_flat (n : Str) (l : List Tok) (h : Good l) : repl n (flat l) = flat (wrap n l) := by
  have hg : Good (codeTok n ++ l) := by
    intro t ht
    rcases List.mem_append.1 ht with ht | ht
    · exact good_codeTok n t ht
    · exact h t ht
  have := replaceAll_flat reset reset_mem (.code reset :: codeTok n) (codeTok n ++ l) hg
  rw [flat_cons, flat_codeTok, flat_append, flat_codeTok] at this
  rw [repl, show reset ++ codeOf n = (Tok.code reset).str ++ codeOf n from rfl, this, wrap, flat_append]
  rfl

/-- Tags from level `n` on as codes, those above with their numbers. -/
def mix (n L : Nat) : Doc → Str
  | .nil => []
  | .chr c r => c :: mix n L r
  | .tag m k r =>
    if L < n then openTag L ++ (m ++ ' ' :: (mix n (L + 1) k ++ (closeTag L ++ mix n L r)))
    else flat (wrap m (ansi k)) ++ mix n L r

theorem mix_ge (n : Nat) (d : Doc) : ∀ L, n ≤ L → mix n L d = flat (ansi d) := by
  induction d with
  | nil => intro _ _; rfl
  | chr c r ih => intro L h; simp [mix, ansi, flat_cons, Tok.str, ih L h]
  | tag m k r ihk ihr =>
    intro L h
    rw [mix, if_neg (by omega), ihr L h, ansi, flat_append]

theorem mix_lab (n : Nat) (d : Doc) : ∀ L, depth d = 0 ∨ L + depth d ≤ n → mix n L d = lab L d := by
  induction d with
  | nil => intro _ _; rfl
  | chr c r ih => intro L h; simp [mix, lab, ih L h]
  | tag m k r ihk ihr =>
    intro L h
    simp only [depth] at h
    rw [mix, if_pos (by omega), ihk (L + 1) (by omega), ihr L (by omega), lab]

/-- No tag of level `n` starts inside, whatever follows. -/
def NoOpen (n : Nat) (P : Str) : Prop := ∀ i, i < P.length → ∀ X, matchAt n (P.drop i ++ X) = none

theorem NoOpen.nil (n : Nat) : NoOpen n [] := fun i h => by simp at h

theorem NoOpen.append {n : Nat} {P Q : Str} (hP : NoOpen n P) (hQ : NoOpen n Q) : NoOpen n (P ++ Q) := by
  intro i hi X
  by_cases h : i < P.length
  · rw [List.drop_append_of_le_length (by omega), List.append_assoc]; exact hP i h _
  · rw [List.drop_append, List.drop_of_length_le (by omega), List.nil_append]
    exact hQ _ (by simp at hi; omega) X

theorem NoOpen.drop {n : Nat} {P : Str} (hP : NoOpen n P) (k : Nat) : NoOpen n (P.drop k) := by
  intro i hi X
  rw [List.drop_drop]; exact hP _ (by simp at hi; omega) X

theorem matchAt_head {n : Nat} {c : Char} (X : Str) (h : c ≠ '{') : matchAt n (c :: X) = none := by
  rw [matchAt, if_neg]
  simp [openTag, List.isPrefixOf, Ne.symm h]

theorem NoOpen.plain {n : Nat} {P : Str} (h : '{' ∉ P) : NoOpen n P := by
  intro i hi X
  have e : P.drop i = P[i] :: P.drop (i + 1) := List.drop_eq_getElem_cons hi
  rw [e, List.cons_append]
  exact matchAt_head _ (fun hc => h (hc ▸ List.getElem_mem hi))

theorem digits_prefix (a b : Str) (x y : Str) (ha : ∀ c ∈ a, Char.isDigit c = true) (hb : ∀ c ∈ b, Char.isDigit c = true)
    (h : (a ++ '{' :: x) <+: (b ++ '{' :: y)) : a = b := by
  induction a generalizing b with
  | nil =>
    cases b with
    | nil => rfl
    | cons d b =>
      simp only [List.nil_append, List.cons_append, List.cons_prefix_cons] at h
      have := hb d (List.mem_cons_self ..)
      rw [← h.1] at this; exact absurd this (by decide)
  | cons c a ih =>
    cases b with
    | nil =>
      simp only [List.nil_append, List.cons_append, List.cons_prefix_cons] at h
      have := ha c (List.mem_cons_self ..)
      rw [h.1] at this; exact absurd this (by decide)
    | cons d b =>
      simp only [List.cons_append, List.cons_prefix_cons] at h
      rw [h.1, ih b (fun z hz => ha z (List.mem_cons_of_mem _ hz)) (fun z hz => hb z (List.mem_cons_of_mem _ hz)) h.2]

theorem showNat_inj {a b : Nat} (h : showNat a = showNat b) : a = b := by
  have := parseNat_showNat a
  rw [h, parseNat_showNat b] at this
  exact (Option.some.inj this).symm

theorem showNat_head (n : Nat) : ∃ d ds, showNat n = d :: ds ∧ Char.isDigit d = true := by
  obtain ⟨d, ds, h⟩ := List.exists_cons_of_ne_nil (showNat_ne_nil n)
  exact ⟨d, ds, h, showNat_digit n d (by rw [h]; exact List.mem_cons_self ..)⟩

theorem NoOpen.other {n L : Nat} (h : L ≠ n) (hL : L < 10) : NoOpen n (openTag L) := by
  obtain ⟨dg, _, hs⟩ := showInt_digit L hL
  have hdg : Char.isDigit dg = true := showNat_digit L dg (by rw [hs]; exact List.mem_cons_self ..)
  have hdn : dg ≠ '{' := by intro hc; subst hc; revert hdg; decide
  obtain ⟨e, es, hn, he⟩ := showNat_head n
  have hen : e ≠ '%' := by intro hc; subst hc; revert he; decide
  have heb : e ≠ '{' := by intro hc; subst hc; revert he; decide
  have ho : openTag L = ['{', '{', dg, '{', '{', '%'] := by simp [openTag, hs]
  intro i hi X
  rw [matchAt, if_neg]
  rw [ho] at hi ⊢
  intro hp
  rw [List.isPrefixOf_iff_prefix, openTag, hn] at hp
  simp only [List.length_cons, List.length_nil] at hi
  match i, hi with
  | 0, _ =>
    have hpp : (showNat n ++ '{' :: '{' :: '%' :: []) <+: (showNat L ++ '{' :: '{' :: '%' :: X) := by
      rw [hn, hs]
      simpa using hp
    exact h (showNat_inj (digits_prefix _ _ _ _ (showNat_digit n) (showNat_digit L) hpp)).symm
  | 1, _ => simp [Ne.symm hdn] at hp
  | 2, _ => simp [Ne.symm hdn] at hp
  | 3, _ => simp [hen] at hp
  | 4, _ => simp at hp
  | 5, _ => simp at hp

theorem search_noOpen {n : Nat} {P : Str} (h : NoOpen n P) (X : Str) :
    search n (P ++ X) = (search n X).map (fun m => (P ++ m.1, m.2)) := by
  induction P with
  | nil => simp
  | cons c P ih =>
    have h0 := h 0 (by simp) X
    simp only [List.drop_zero, List.cons_append] at h0
    rw [List.cons_append, search, h0]
    have : NoOpen n P := by
      have := h.drop 1
      simpa using this
    rw [ih this]
    cases search n X <;> simp

theorem search_none {n : Nat} {P : Str} (h : NoOpen n P) : search n P = none := by
  have := search_noOpen h []
  simpa [search] using this

theorem lazyClose_plain (n : Nat) (K : Str) (h : ∀ c ∈ K, c ≠ '}' ∧ c ≠ '\n') (T : Str) :
    lazyClose n (K ++ (closeTag n ++ T)) = some (K, T) := by
  induction K with
  | nil =>
    have e : closeTag n ++ T = '}' :: ('}' :: (showNat n ++ ['}', '}']) ++ T) := by simp [closeTag]
    rw [List.nil_append, e, lazyClose, ← e, if_pos (isPrefixOf_append _ _), List.drop_left]
  | cons c K ih =>
    have hc := h c (List.mem_cons_self ..)
    rw [List.cons_append, lazyClose, if_neg, if_neg hc.2, ih (fun x hx => h x (List.mem_cons_of_mem _ hx))]
    · rfl
    · simp [closeTag, List.isPrefixOf, Ne.symm hc.1]

theorem matchAt_tag (n : Nat) (m K T : Str) (hm : m ≠ []) (hmc : ∀ c ∈ m, isTagChar c = true)
    (h : ∀ c ∈ K, c ≠ '}' ∧ c ≠ '\n') :
    matchAt n (openTag n ++ (m ++ ' ' :: (K ++ (closeTag n ++ T)))) = some (m, K, T) := by
  rw [matchAt, if_pos (isPrefixOf_append _ _), List.drop_left]
  have h1 : (m ++ ' ' :: (K ++ (closeTag n ++ T))).takeWhile isTagChar = m := by
    rw [List.takeWhile_append_of_pos hmc]; simp [isTagChar]
  have h2 : (m ++ ' ' :: (K ++ (closeTag n ++ T))).dropWhile isTagChar = ' ' :: (K ++ (closeTag n ++ T)) := by
    rw [List.dropWhile_append_of_pos hmc]; simp [isTagChar]
  simp only [h1, h2, hm, if_false, if_true, lazyClose_plain n K h T, Option.map_some]

theorem search_tag (n : Nat) (m K T : Str) (hm : m ≠ []) (hmc : ∀ c ∈ m, isTagChar c = true)
    (h : ∀ c ∈ K, c ≠ '}' ∧ c ≠ '\n') :
    search n (openTag n ++ (m ++ ' ' :: (K ++ (closeTag n ++ T)))) = some ([], m, K, T) := by
  have e : openTag n ++ (m ++ ' ' :: (K ++ (closeTag n ++ T))) =
      '{' :: (('{' :: (showNat n ++ ['{', '{', '%'])) ++ (m ++ ' ' :: (K ++ (closeTag n ++ T)))) := by simp [openTag]
  have hma := matchAt_tag n m K T hm hmc h
  rw [e] at hma ⊢
  rw [search, hma]

theorem levelLoop_step (n fuel pos : Nat) (P m K T : Str) (hP : NoOpen n P) (hpos : pos ≤ P.length) (hm : m ≠ [])
    (hmc : ∀ c ∈ m, isTagChar c = true) (h : ∀ c ∈ K, c ≠ '}' ∧ c ≠ '\n')
    (ht : template (repl m K) = some (repl m K)) :
    levelLoop n (fuel + 1) pos (P ++ (openTag n ++ (m ++ ' ' :: (K ++ (closeTag n ++ T))))) =
      levelLoop n fuel (P.length + 1) (P ++ repl m K ++ T) := by
  have hs := search_tag n m K T hm hmc h
  have hd : (P ++ (openTag n ++ (m ++ ' ' :: (K ++ (closeTag n ++ T))))).drop pos =
      P.drop pos ++ (openTag n ++ (m ++ ' ' :: (K ++ (closeTag n ++ T)))) := by
    rw [List.drop_append_of_le_length hpos]
  rw [levelLoop, hd, search_noOpen (hP.drop pos), search_noOpen hP, hs]
  simp only [Option.map_some, List.append_nil, ht]
  rw [if_neg (by simp [openTag]; omega)]
  rw [List.length_drop, show pos + (P.length - pos) = P.length by omega]

/-- Template condition: the replacement of each tag has no escapes that would be interpreted. -/
def Plain : Doc → Prop
  | .nil => True
  | .chr _ r => Plain r
  | .tag n k r => template (flat (wrap n (ansi k))) = some (flat (wrap n (ansi k))) ∧ Plain k ∧ Plain r

/-- Tags of level `n` in a text at level `L`. -/
def cnt (n L : Nat) : Doc → Nat
  | .nil => 0
  | .chr _ r => cnt n L r
  | .tag _ k r => (if L = n then 1 else cnt n (L + 1) k) + cnt n L r

theorem cnt_le (n : Nat) (d : Doc) : ∀ L, cnt n L d ≤ (render d).length := by
  induction d with
  | nil => intro L; simp [cnt]
  | chr c r ih => intro L; simp only [cnt, render, List.length_cons]; have := ih L; omega
  | tag m k r ihk ihr =>
    intro L
    have h1 := ihk (L + 1)
    have h2 := ihr L
    simp only [cnt, render, List.length_append, List.length_cons, List.length_nil]
    split <;> omega

theorem flat_chars (l : List Tok) (h : Good l) (p : Char → Prop) (hc : ∀ s ∈ colors.map (·.2), ∀ c ∈ s, p c)
    (hp : ∀ t ∈ l, match t with | .chr c => p c | .code _ => True) : ∀ c ∈ flat l, p c := by
  intro c hcf
  simp only [flat, List.mem_flatMap] at hcf
  obtain ⟨t, ht, hct⟩ := hcf
  have h1 := hp t ht
  have h2 := h t ht
  cases t with
  | chr d => simp only [Tok.str, List.mem_singleton] at hct; subst hct; exact h1
  | code s => exact hc s h2 c hct

theorem wrap_chars (n : Str) (l : List Tok) (p : Char → Prop)
    (h : ∀ t ∈ l, match t with | .chr c => p c | .code _ => True) :
    ∀ t ∈ wrap n l, match t with | .chr c => p c | .code _ => True := by
  have hct : ∀ t ∈ codeTok n, match t with | .chr c => p c | .code _ => True := by
    intro t ht
    simp only [codeTok] at ht
    split at ht
    · simp only [List.mem_singleton] at ht; subst ht; trivial
    · simp at ht
  intro t ht
  simp only [wrap, List.mem_append, List.mem_flatMap, List.mem_singleton] at ht
  rcases ht with ⟨u, hu, ht⟩ | rfl
  · simp only [expand] at ht
    split at ht
    · rcases List.mem_cons.1 ht with rfl | ht
      · trivial
      · exact hct t ht
    · simp only [List.mem_singleton] at ht
      subst ht
      rcases hu with hu | hu
      · exact hct _ hu
      · exact h _ hu
  · trivial

theorem ansi_chars (d : Doc) (p : Char → Prop) (hp : ∀ c, c ∈ plain d → p c) :
    ∀ t ∈ ansi d, match t with | .chr c => p c | .code _ => True := by
  induction d with
  | nil => intro t ht; simp [ansi] at ht
  | chr c r ih =>
    intro t ht
    rcases List.mem_cons.1 ht with rfl | ht
    · exact hp c (List.mem_cons_self ..)
    · exact ih (fun x hx => hp x (List.mem_cons_of_mem _ hx)) t ht
  | tag n k r ihk ihr =>
    intro t ht
    rcases List.mem_append.1 ht with ht | ht
    · exact wrap_chars n _ p (ihk (fun x hx => hp x (List.mem_append_left _ hx))) t ht
    · exact ihr (fun x hx => hp x (List.mem_append_right _ hx)) t ht

theorem plain_ok (d : Doc) : ∀ i, OkB i d → ∀ c ∈ plain d, c ≠ '{' ∧ c ≠ '}' ∧ (i = true → c ≠ '\n') := by
  induction d with
  | nil => intro i _ c hc; simp [plain] at hc
  | chr c r ih =>
    intro i h x hx
    rcases List.mem_cons.1 hx with rfl | hx
    · exact ⟨h.1.1, h.1.2.1, h.1.2.2.2⟩
    · exact ih i h.2 x hx
  | tag n k r ihk ihr =>
    intro i h x hx
    rcases List.mem_append.1 hx with hx | hx
    · have := ihk true h.2.1 x hx
      exact ⟨this.1, this.2.1, fun _ => this.2.2 rfl⟩
    · exact ihr i h.2.2 x hx

theorem code_chars (s : Str) (hs : s ∈ colors.map (·.2)) (c : Char) (hc : c ∈ s) :
    c ≠ '{' ∧ c ≠ '}' ∧ c ≠ '\\' ∧ c ≠ '\n' := by
  obtain ⟨_, h1, h2, h3, h4⟩ := codes_shape s hs
  exact ⟨fun h => h1 (h ▸ hc), fun h => h2 (h ▸ hc), fun h => h3 (h ▸ hc), fun h => h4 (h ▸ hc)⟩

/-- Inside a tag everything that is sent is free of braces and line ends. -/
theorem flat_ansi_ok (d : Doc) (h : OkB true d) : ∀ c ∈ flat (ansi d), c ≠ '{' ∧ c ≠ '}' ∧ c ≠ '\n' := by
  apply flat_chars _ (good_ansi d true h)
  · intro s hs c hc; have := code_chars s hs c hc; exact ⟨this.1, this.2.1, this.2.2.2⟩
  · apply ansi_chars
    intro c hc; have := plain_ok d true h c hc; exact ⟨this.1, this.2.1, this.2.2 rfl⟩

theorem flat_wrap_ok (n : Str) (d : Doc) (h : OkB true d) : '{' ∉ flat (wrap n (ansi d)) := by
  intro hc
  have := flat_chars _ (good_wrap n _ (good_ansi d true h)) (fun c => c ≠ '{')
    (fun s hs c hc => (code_chars s hs c hc).1)
    (wrap_chars n _ _ (ansi_chars d _ (fun c hc => (plain_ok d true h c hc).1))) _ hc
  exact this rfl

theorem level_doc (n : Nat) (d : Doc) : ∀ (i : Bool) (L : Nat), OkB i d → Plain d → L ≤ n → L + depth d ≤ 10 → ∀ (P T : Str) (fuel pos : Nat),
    NoOpen n P → pos ≤ P.length → ∃ pos', pos' ≤ (P ++ mix n L d).length ∧ NoOpen n (P ++ mix n L d) ∧
      levelLoop n (cnt n L d + fuel) pos (P ++ mix (n + 1) L d ++ T) = levelLoop n fuel pos' (P ++ mix n L d ++ T) := by
  induction d with
  | nil =>
    intro i L _ _ _ _ P T fuel pos hP hpos
    exact ⟨pos, by simpa [mix] using hpos, by simpa [mix] using hP, by simp [mix, cnt]⟩
  | chr c r ih =>
    intro i L h hp hL hd P T fuel pos hP hpos
    have hP' : NoOpen n (P ++ [c]) := hP.append (NoOpen.plain (by simpa using Ne.symm h.1.1))
    obtain ⟨pos', h1, h2, h3⟩ := ih i L h.2 hp hL hd (P ++ [c]) T fuel pos hP' (by simp; omega)
    refine ⟨pos', ?_, ?_, ?_⟩
    · simpa [mix] using h1
    · simpa [mix] using h2
    · simpa [mix, cnt] using h3
  | tag m k r ihk ihr =>
    intro i L h hp hL hd P T fuel pos hP hpos
    obtain ⟨⟨hm, hmc, _⟩, hk, hr⟩ := h
    simp only [depth] at hd
    by_cases hLn : L = n
    · subst hLn
      -- a tag of this level
      have e1 : mix (L + 1) L (.tag m k r) =
          openTag L ++ (m ++ ' ' :: (flat (ansi k) ++ (closeTag L ++ mix (L + 1) L r))) := by
        rw [mix, if_pos (by omega), mix_ge (L + 1) k (L + 1) (by omega)]
      have e2 : mix L L (.tag m k r) = flat (wrap m (ansi k)) ++ mix L L r := by
        rw [mix, if_neg (by omega)]
      have hrep : repl m (flat (ansi k)) = flat (wrap m (ansi k)) := repl_flat m _ (good_ansi k true hk)
      have hP' : NoOpen L (P ++ flat (wrap m (ansi k))) := hP.append (NoOpen.plain (flat_wrap_ok m k hk))
      have hlen : 1 ≤ (flat (wrap m (ansi k))).length := by
        rw [wrap, flat_append]; simp [flat, Tok.str, reset]; omega
      obtain ⟨pos', h1, h2, h3⟩ := ihr i L hr hp.2.2 hL (by omega) (P ++ flat (wrap m (ansi k))) T fuel (P.length + 1) hP'
        (by simp; omega)
      refine ⟨pos', ?_, ?_, ?_⟩
      · rw [e2, ← List.append_assoc]; exact h1
      · rw [e2, ← List.append_assoc]; exact h2
      · have hs := levelLoop_step L (cnt L L r + fuel) pos P m (flat (ansi k)) (mix (L + 1) L r ++ T) hP hpos hm hmc
          (fun c hc => ⟨(flat_ansi_ok k hk c hc).2.1, (flat_ansi_ok k hk c hc).2.2⟩)
          (by rw [hrep]; exact hp.1)
        rw [hrep] at hs
        rw [e1, e2, cnt, if_pos rfl, show 1 + cnt L L r + fuel = (cnt L L r + fuel) + 1 by omega]
        have ea : P ++ (openTag L ++ (m ++ ' ' :: (flat (ansi k) ++ (closeTag L ++ mix (L + 1) L r)))) ++ T =
            P ++ (openTag L ++ (m ++ ' ' :: (flat (ansi k) ++ (closeTag L ++ (mix (L + 1) L r ++ T))))) := by simp
        rw [ea, hs]
        rw [← List.append_assoc, h3, ← List.append_assoc]
    · -- a tag above
      have hlt : L < n := by omega
      have e1 : mix (n + 1) L (.tag m k r) =
          openTag L ++ (m ++ ' ' :: (mix (n + 1) (L + 1) k ++ (closeTag L ++ mix (n + 1) L r))) := by
        rw [mix, if_pos (by omega)]
      have e2 : mix n L (.tag m k r) =
          openTag L ++ (m ++ ' ' :: (mix n (L + 1) k ++ (closeTag L ++ mix n L r))) := by
        rw [mix, if_pos hlt]
      have hP1 : NoOpen n (P ++ (openTag L ++ (m ++ [' ']))) := by
        refine hP.append ((NoOpen.other hLn (by omega)).append (NoOpen.plain ?_))
        intro hc
        rcases List.mem_append.1 hc with hc | hc
        · exact (tagChar_ne _ (hmc _ hc)).1 rfl
        · revert hc; decide
      obtain ⟨p1, a1, a2, a3⟩ := ihk true (L + 1) hk hp.2.1 (by omega) (by omega) (P ++ (openTag L ++ (m ++ [' '])))
        (closeTag L ++ mix (n + 1) L r ++ T) (cnt n L r + fuel) pos hP1 (by simp; omega)
      have hclose : NoOpen n (closeTag L) := by
        apply NoOpen.plain
        intro hc
        simp only [closeTag, List.mem_append, List.mem_cons, List.not_mem_nil, or_false] at hc
        rcases hc with (hc | hc) | hc
        · revert hc; decide
        · exact absurd (showNat_digit L _ hc) (by decide)
        · revert hc; decide
      have hP2 := a2.append hclose
      obtain ⟨p2, b1, b2, b3⟩ := ihr i L hr hp.2.2 hL (by omega)
        (P ++ (openTag L ++ (m ++ [' '])) ++ mix n (L + 1) k ++ closeTag L) T fuel p1 hP2
        (by simp at a1 ⊢; omega)
      have e3 : P ++ mix n L (.tag m k r) =
          P ++ (openTag L ++ (m ++ [' '])) ++ mix n (L + 1) k ++ closeTag L ++ mix n L r := by
        rw [e2]; simp
      refine ⟨p2, ?_, ?_, ?_⟩
      · rw [e3]; exact b1
      · rw [e3]; exact b2
      · rw [e3, ← b3, cnt, if_neg hLn, e1]
        have ea : P ++ (openTag L ++ (m ++ ' ' :: (mix (n + 1) (L + 1) k ++ (closeTag L ++ mix (n + 1) L r)))) ++ T =
            P ++ (openTag L ++ (m ++ [' '])) ++ mix (n + 1) (L + 1) k ++ (closeTag L ++ mix (n + 1) L r ++ T) := by simp
        have eb : P ++ (openTag L ++ (m ++ [' '])) ++ mix n (L + 1) k ++ closeTag L ++ mix (n + 1) L r ++ T =
            P ++ (openTag L ++ (m ++ [' '])) ++ mix n (L + 1) k ++ (closeTag L ++ mix (n + 1) L r ++ T) := by simp
        rw [ea, eb, Nat.add_assoc, a3]

theorem level_all (n : Nat) (d : Doc) (i : Bool) (h : OkB i d) (hp : Plain d) (hd : depth d ≤ 10) (fuel : Nat)
    (hf : (render d).length < fuel) : levelLoop n fuel 0 (mix (n + 1) 0 d) = .ok (mix n 0 d) := by
  have hc := cnt_le n d 0
  obtain ⟨pos', h1, h2, h3⟩ := level_doc n d i 0 h hp (by omega) (by omega) [] [] (fuel - cnt n 0 d) 0 (NoOpen.nil n) (by simp)
  simp only [List.nil_append, List.append_nil] at h1 h2 h3
  rw [show cnt n 0 d + (fuel - cnt n 0 d) = fuel by omega] at h3
  rw [h3, show fuel - cnt n 0 d = (fuel - cnt n 0 d - 1) + 1 by omega, levelLoop, search_none (h2.drop pos')]

theorem levels_all (n : Nat) (d : Doc) (i : Bool) (h : OkB i d) (hp : Plain d) (hd : depth d ≤ 10) (fuel : Nat)
    (hf : (render d).length < fuel) : levels fuel n (mix (n + 1) 0 d) = .ok (flat (ansi d)) := by
  induction n with
  | zero => rw [levels, level_all 0 d i h hp hd fuel hf, mix_ge 0 d 0 (by omega)]
  | succ n ih =>
    rw [levels, level_all (n + 1) d i h hp hd fuel hf]
    exact ih

/-! ## The markup as a whole -/

theorem colorfy_doc (d : Doc) (i : Bool) (h : OkB i d) (hp : Plain d) (hd : depth d ≤ 10) (fuel : Nat)
    (hf : (render d).length < fuel) : colorfy fuel (render d) = .ok (flat (ansi d)) := by
  have ht := turns_le d
  have hl := label_doc d i 0 h (by omega) (fuel - turns d) []
  rw [show turns d + (fuel - turns d) = fuel by omega] at hl
  simp only [List.append_nil] at hl
  rw [show ((0 : Nat) : Int) = 0 from rfl] at hl
  have hz : labelLoop (fuel - turns d) 0 [] = .ok [] := by
    cases fuel - turns d <;> rfl
  rw [hz] at hl
  have hm := maxLevel_doc d 0 []
  simp only [List.append_nil] at hm
  have hml := mix_lab (maxLevel (lab 0 d) + 1) d 0 hm
  rw [colorfy, hl]
  show levels fuel (maxLevel (lab 0 d ++ [])) (lab 0 d ++ []) = _
  rw [List.append_nil]
  have hall := levels_all (maxLevel (lab 0 d)) d i h hp hd fuel hf
  rw [hml] at hall; exact hall

theorem template_plain (s : Str) (h : '\\' ∉ s) : template s = some s := by
  match s, h with
  | [], _ => rfl
  | [c], h => rw [template, if_neg (fun hc => h (by simp [hc]))]
  | c :: e :: r, h =>
    rw [template, if_neg (fun hc => h (by simp [hc])), template_plain (e :: r) (fun hc => h (List.mem_cons_of_mem _ hc))]
    rfl

theorem Ok.noBack (d : Doc) : ∀ i, Ok i d → ∀ c ∈ plain d, c ≠ '\\' := by
  induction d with
  | nil => intro i _ c hc; simp [plain] at hc
  | chr c r ih =>
    intro i h x hx
    rcases List.mem_cons.1 hx with rfl | hx
    · exact h.1.2.2.1
    · exact ih i h.2 x hx
  | tag n k r ihk ihr =>
    intro i h x hx
    rcases List.mem_append.1 hx with hx | hx
    · exact ihk true h.2.1 x hx
    · exact ihr i h.2.2 x hx

theorem Ok.plain (d : Doc) : ∀ i, Ok i d → Plain d := by
  induction d with
  | nil => intro _ _; trivial
  | chr c r ih => intro i h; exact ih i h.2
  | tag n k r ihk ihr =>
    intro i h
    refine ⟨template_plain _ ?_, ihk true h.2.1, ihr i h.2.2⟩
    intro hc
    exact flat_chars _ (good_wrap n _ (good_ansi k true (okB h.2.1))) (fun c => c ≠ '\\')
      (fun s hs c hc => (code_chars s hs c hc).2.2.1)
      (wrap_chars n _ _ (ansi_chars k _ (Ok.noBack k true h.2.1))) _ hc rfl

/-! ## What the terminal shows -/

/-- The active codes after a list of tokens. -/
def active : List Str → List Tok → List Str
  | st, [] => st
  | st, .chr _ :: l => active st l
  | st, .code s :: l => active (if s = reset then [] else st ++ [s]) l

theorem terminal_append (l m : List Tok) (st : List Str) :
    terminal st (l ++ m) = terminal st l ++ terminal (active st l) m := by
  induction l generalizing st with
  | nil => rfl
  | cons t l ih =>
    cases t with
    | chr c => simp [terminal, active, ih]
    | code s => simp only [List.cons_append, terminal, active, ih]; rfl

theorem active_append (l m : List Tok) (st : List Str) : active st (l ++ m) = active (active st l) m := by
  induction l generalizing st with
  | nil => rfl
  | cons t l ih => cases t <;> simp [active, ih]

/-- The codes of a tag. -/
def codes (n : Str) : List Str := match colors.lookup (n.map Char.toLower) with | some s => [s] | none => []

theorem codes_not_reset (n : Str) (h : n.map Char.toLower ≠ "reset".toList) : ∀ s ∈ codes n, s ≠ reset := by
  intro s hs hr
  simp only [codes] at hs
  split at hs
  · next s' hs' =>
    simp only [List.mem_singleton] at hs
    subst hs; subst hr
    exact h (lookup_reset _ hs')
  · simp at hs

theorem codeTok_run (n : Str) (h : n.map Char.toLower ≠ "reset".toList) (st : List Str) :
    terminal st (codeTok n) = [] ∧ active st (codeTok n) = st ++ codes n := by
  have h1 := codes_not_reset n h
  simp only [codeTok, codes] at h1 ⊢
  cases hl : colors.lookup (n.map Char.toLower) with
  | none => simp [terminal, active]
  | some s =>
    rw [hl] at h1
    simp [terminal, active, h1 s (by simp)]

theorem expand_codeTok (n : Str) (h : n.map Char.toLower ≠ "reset".toList) : (codeTok n).flatMap (expand n) = codeTok n := by
  have h1 := codes_not_reset n h
  simp only [codes] at h1
  simp only [codeTok]
  cases hl : colors.lookup (n.map Char.toLower) with
  | none => rfl
  | some s =>
    rw [hl] at h1
    simp [expand, h1 s (by simp)]

theorem expand_run (n : Str) (h : n.map Char.toLower ≠ "reset".toList) (l : List Tok) (st : List Str) :
    terminal (codes n ++ st) (l.flatMap (expand n)) = (terminal st l).map (fun x => (x.1, codes n ++ x.2)) ∧
    active (codes n ++ st) (l.flatMap (expand n)) = codes n ++ active st l := by
  induction l generalizing st with
  | nil => simp [terminal, active]
  | cons t l ih =>
    rw [List.flatMap_cons, terminal_append, active_append]
    cases t with
    | chr c =>
      have e : expand n (.chr c) = [.chr c] := by simp [expand]
      rw [e]
      simp [terminal, active, ih]
    | code s =>
      by_cases hs : s = reset
      · subst hs
        have e : expand n (.code reset) = .code reset :: codeTok n := by simp [expand]
        have hr : reset = [Char.ofNat 27, '[', '0', 'm'] := rfl
        obtain ⟨c1, c2⟩ := codeTok_run n h []
        have t1 : terminal (codes n ++ st) (.code reset :: codeTok n) = [] := by
          rw [terminal, if_pos hr]; exact c1
        have t2 : active (codes n ++ st) (.code reset :: codeTok n) = codes n := by
          rw [active, if_pos rfl, c2]; rfl
        rw [e, t1, t2]
        have := ih []
        rw [List.append_nil] at this
        rw [this.1, this.2, terminal, if_pos hr, active, if_pos rfl]
        simp
      · have e : expand n (.code s) = [.code s] := by simp [expand, hs]
        have hs' : ¬ s = [Char.ofNat 27, '[', '0', 'm'] := hs
        rw [e]
        simp only [terminal, active, hs, hs', if_false, List.nil_append]
        have := ih (st ++ [s])
        rw [← List.append_assoc] at this
        exact this

theorem ansi_run (d : Doc) : ∀ i, OkB i d → terminal [] (ansi d) = styled [] d ∧ active [] (ansi d) = [] := by
  have hst : ∀ (d : Doc) (p q : List Str), (styled q d).map (fun x => (x.1, p ++ x.2)) = styled (p ++ q) d := by
    intro d
    induction d with
    | nil => intro p q; rfl
    | chr c r ih => intro p q; simp [styled, ih]
    | tag n k r ihk ihr =>
      intro p q
      simp only [styled, List.map_append, ihk, ihr, List.append_assoc]
  induction d with
  | nil => intro _ _; exact ⟨rfl, rfl⟩
  | chr c r ih =>
    intro i h
    obtain ⟨h1, h2⟩ := ih i h.2
    exact ⟨by simp [ansi, terminal, styled, h1], by simp [ansi, active, h2]⟩
  | tag n k r ihk ihr =>
    intro i h
    obtain ⟨k1, k2⟩ := ihk true h.2.1
    obtain ⟨r1, r2⟩ := ihr i h.2.2
    have hn := h.1.2.2
    obtain ⟨c1, c2⟩ := codeTok_run n hn []
    obtain ⟨e1, e2⟩ := expand_run n hn (ansi k) []
    rw [List.append_nil] at e1 e2
    have hr : reset = [Char.ofNat 27, '[', '0', 'm'] := rfl
    have w1 : terminal [] (wrap n (ansi k)) = styled (codes n) k := by
      rw [wrap, List.flatMap_append, expand_codeTok n hn, terminal_append, terminal_append, c1, c2, List.nil_append,
        List.nil_append, e1, k1, hst, List.append_nil]
      simp [terminal]
    have w2 : active [] (wrap n (ansi k)) = [] := by
      rw [wrap, List.flatMap_append, expand_codeTok n hn, active_append]
      simp [active]
    refine ⟨?_, ?_⟩
    · rw [ansi, terminal_append, w1, w2, r1, styled]; rfl
    · rw [ansi, active_append, w2, r2]

theorem ansi_plain (d : Doc) : (ansi d).filterMap (fun t => match t with | .chr c => some c | .code _ => none) = plain d := by
  have hcode : ∀ n, (codeTok n).filterMap (fun t => match t with | .chr c => some c | .code _ => none) = [] := by
    intro n; simp only [codeTok]; split <;> rfl
  have hexp : ∀ n (l : List Tok), (l.flatMap (expand n)).filterMap (fun t => match t with | .chr c => some c | .code _ => none) =
      l.filterMap (fun t => match t with | .chr c => some c | .code _ => none) := by
    intro n l
    induction l with
    | nil => rfl
    | cons t l ih =>
      rw [List.flatMap_cons, List.filterMap_append, ih]
      simp only [expand]
      split
      · next ht => subst ht; simp [hcode]
      · cases t <;> rfl
  induction d with
  | nil => rfl
  | chr c r ih => simp [ansi, plain, ih]
  | tag n k r ihk ihr =>
    rw [ansi, List.filterMap_append, ihr, wrap, List.filterMap_append, hexp, List.filterMap_append, hcode, ihk, plain]
    simp

/-- C52: a text with tags nested up to ten deep is turned into tokens that the terminal shows as the text, each
character with the colours of exactly the tags around it. -/
theorem C52_display_partial (d : Doc) (h : Ok false d) (hd : depth d ≤ 10) (fuel : Nat) (hf : (render d).length < fuel) :
    ∃ toks, colorfy fuel (render d) = .ok (flat toks) ∧ terminal [] toks = styled [] d :=
  ⟨ansi d, colorfy_doc d false (okB h) (Ok.plain d false h) hd fuel hf, (ansi_run d false (okB h)).1⟩

/-- C52: without the codes it is the text, and removing the codes again changes nothing. -/
theorem C52_uncolor_partial (d : Doc) (h : Ok false d) (hd : depth d ≤ 10) (fuel : Nat) (hf : (render d).length < fuel) :
    ∃ t, colorfy fuel (render d) = .ok t ∧ uncolorfy t = plain d ∧ uncolorfy (uncolorfy t) = uncolorfy t := by
  have h1 := uncolorfy_flat (ansi d) (good_ansi d false (okB h))
  rw [ansi_plain] at h1
  refine ⟨_, colorfy_doc d false (okB h) (Ok.plain d false h) hd fuel hf, h1, ?_⟩
  rw [h1]
  -- the text itself has no codes
  have hesc : ∀ (d : Doc) (i : Bool), Ok i d → ∀ c ∈ plain d, c ≠ ESC := by
    intro d
    induction d with
    | nil => intro i _ c hc; simp [plain] at hc
    | chr c r ih =>
      intro i h x hx
      rcases List.mem_cons.1 hx with rfl | hx
      · exact h.1.2.2.2.1
      · exact ih i h.2 x hx
    | tag n k r ihk ihr =>
      intro i h x hx
      rcases List.mem_append.1 hx with hx | hx
      · exact ihk true h.2.1 x hx
      · exact ihr i h.2.2 x hx
  have h2 := uncolorfy_flat ((plain d).map Tok.chr) (by
    intro t ht
    obtain ⟨c, hc, rfl⟩ := List.mem_map.1 ht
    exact hesc d false h c hc)
  have e1 : flat ((plain d).map Tok.chr) = plain d := by
    simp [flat, List.flatMap_map, Tok.str]
  have e2 : ((plain d).map Tok.chr).filterMap (fun t => match t with | .chr c => some c | .code _ => none) = plain d := by
    rw [List.filterMap_map]; exact List.filterMap_some
  rw [e1, e2] at h2
  exact h2

/-- Text inside tags with a nested tag, an unknown tag and a second tag. -/
example : ∃ d, Ok false d ∧ depth d = 2 ∧ render d = "a{{%red b{{%Bold c}}d}}{{%x e}}".toList :=
  ⟨.chr 'a' (.tag "red".toList (.chr 'b' (.tag "Bold".toList (.chr 'c' .nil) (.chr 'd' .nil))) (.tag "x".toList (.chr 'e' .nil) .nil)),
    by
      simp only [Ok, Bool.false_eq_true, false_implies, true_implies]; decide, by decide, by decide⟩

/-! ## Where it fails -/

instance : DecidableEq (Except Err Str) := fun a b =>
  match a, b with
  | .ok x, .ok y => if h : x = y then isTrue (by rw [h]) else isFalse (fun e => h (Except.ok.inj e))
  | .error x, .error y => if h : x = y then isTrue (by rw [h]) else isFalse (fun e => h (Except.error.inj e))
  | .ok _, .error _ => isFalse (fun e => nomatch e)
  | .error _, .ok _ => isFalse (fun e => nomatch e)

/-- Eleven tags around a letter. -/
def nest : Nat → Doc
  | 0 => .chr 'x' .nil
  | n + 1 => .tag ['b'] (nest n) .nil

/-- C52: at eleven levels the text is damaged. -/
theorem C52_eleven : ∃ t, (colorfy 200 (render (nest 11))).map uncolorfy = .ok t ∧ '{' ∈ t ∧ t ≠ plain (nest 11) :=
  ⟨"{{9{{%b x}9}}}".toList, by decide +kernel⟩

/-- C52: from a hundred levels on the labelling never ends: the three digits and the braces of a label are taken
for the next opening. -/
theorem C52_hang (fuel : Nat) : ∀ (lv : Nat) (junk s : Str), 100 ≤ lv → (∀ c ∈ junk, Char.isDigit c = true) →
    labelLoop fuel lv (junk ++ ['{', '{', '%'] ++ s) = .error .outOfTurns := by
  induction fuel with
  | zero => intro lv junk s _ _; cases junk <;> rfl
  | succ fuel ih =>
    intro lv junk s hlv hj
    cases junk with
    | nil =>
      have hlen : 3 ≤ (showNat lv).length := by
        have := Nat.length_toDigits_le_iff (b := 10) (n := lv) (k := 2) (by decide) (by decide)
        have h2 : ¬ (showNat lv).length ≤ 2 := fun h => by have := this.1 h; omega
        omega
      have hs : showInt (lv : Int) = showNat lv := by rw [showInt, if_neg (by omega), Int.toNat_natCast]
      rw [show ([] ++ ['{', '{', '%'] ++ s) = '{' :: '{' :: '%' :: s by simp, labelLoop, if_pos (by simp)]
      simp only [List.drop_succ_cons, List.drop_zero, if_true, hs]
      have e : (['{', '{'] ++ showNat lv ++ ['{', '{'] ++ '%' :: s).drop 5 = (showNat lv).drop 3 ++ ['{', '{', '%'] ++ s := by
        simp only [List.append_assoc, List.cons_append, List.nil_append, List.drop_succ_cons]
        rw [List.drop_append_of_le_length hlen]
      rw [e]
      have := ih (lv + 1) ((showNat lv).drop 3) s (by omega) (fun c hc => showNat_digit lv c (List.mem_of_mem_drop hc))
      rw [show ((lv + 1 : Nat) : Int) = (lv : Int) + 1 by simp] at this
      rw [this]; rfl
    | cons c junk =>
      have hc := hj c (List.mem_cons_self ..)
      have h1 : c ≠ '{' := by intro h; subst h; exact absurd hc (by decide)
      have h2 : c ≠ '}' := by intro h; subst h; exact absurd hc (by decide)
      rw [List.cons_append, List.cons_append, labelLoop, if_neg (by simp [h1]), if_neg (by simp [h2]),
        ih lv junk s hlv (fun x hx => hj x (List.mem_cons_of_mem _ hx))]
      rfl

theorem hang_skip (c : Char) (lv : Int) (X : Str) (h1 : (c :: X).take 2 ≠ ['{', '{']) (h2 : (c :: X).take 2 ≠ ['}', '}'])
    (h : ∀ f, labelLoop f lv X = .error .outOfTurns) (f : Nat) : labelLoop f lv (c :: X) = .error .outOfTurns := by
  cases f with
  | zero => rfl
  | succ f => rw [labelLoop, if_neg h1, if_neg h2, h f]; rfl

/-- C52: so a text with 101 openings is never finished. -/
theorem C52_hang_text (s : Str) (k : Nat) : k ≤ 100 → ∀ f : Nat,
    labelLoop f ((100 - k : Nat) : Int) ((List.replicate (k + 1) ['{', '{', '%', 'b', ' ']).flatten ++ s) = .error .outOfTurns := by
  induction k with
  | zero =>
    intro _ f
    exact C52_hang f 100 [] (['b', ' '] ++ s) (by omega) (by simp)
  | succ k ih =>
    intro hk f
    cases f with
    | zero => rfl
    | succ f =>
      have ih' := ih (by omega)
      generalize hX : (List.replicate (k + 1) ['{', '{', '%', 'b', ' ']).flatten ++ s = X at ih'
      have e : (List.replicate (k + 1 + 1) ['{', '{', '%', 'b', ' ']).flatten ++ s =
          '{' :: '{' :: '%' :: 'b' :: ' ' :: X := by
        rw [List.replicate_succ, List.flatten_cons, ← hX]; simp
      rw [e, labelLoop, if_pos (by simp)]
      simp only [List.drop_succ_cons, List.drop_zero, if_true]
      rw [show ((100 - (k + 1) : Nat) : Int) + 1 = ((100 - k : Nat) : Int) by omega]
      have t1 := hang_skip ' ' _ X (by simp) (by simp) ih'
      have t2 := hang_skip 'b' _ _ (by simp) (by simp) t1
      have t3 := hang_skip '%' _ _ (by simp) (by simp) t2
      have t4 := hang_skip '{' _ _ (by simp) (by simp) t3
      have : ∀ L : Fin 100, (showInt (L.val : Int)).length = 1 ∨ (showInt (L.val : Int)).length = 2 := by decide +kernel
      have hd : ∀ g, labelLoop g ((100 - k : Nat) : Int)
          ((['{', '{'] ++ showInt ((100 - (k + 1) : Nat) : Int) ++ ['{', '{'] ++ '%' :: 'b' :: ' ' :: X).drop 5) =
            .error .outOfTurns := by
        intro g
        rcases this ⟨100 - (k + 1), by omega⟩ with h | h
        · match hs : showInt ((100 - (k + 1) : Nat) : Int), h with
          | [d], _ => exact t3 g
        · match hs : showInt ((100 - (k + 1) : Nat) : Int), h with
          | [d, d'], _ => exact t4 g
      rw [hd f]; rfl

/-- C52: a backslash in the text is read as an escape: `\n` becomes a line end, `\w` is an error. -/
theorem C52_backslash : colorfy 200 "{{%x a\\nb}}".toList = .ok ("a\nb".toList ++ reset) ∧
    colorfy 200 "{{%x C:\\w}}".toList = .error .badEscape := by decide +kernel

/-- C52: a line end inside a tag leaves the tag in the text, with its number. -/
theorem C52_newline : colorfy 200 "{{%red a\nb}}".toList = .ok "{{0{{%red a\nb}}0}}".toList := by decide +kernel

/-- C52: braces at the end are an error, a closing without opening spoils all that follows. -/
theorem C52_braces : colorfy 200 "a{{".toList = .error .indexError ∧
    colorfy 200 "a}} {{%red b}}".toList = .ok "a}} {{-1{{%red b}}".toList := by decide +kernel

/-- C52: removing the colours twice is not the same as once for any text. -/
theorem C52_not_idempotent : ∃ t, uncolorfy (uncolorfy t) ≠ uncolorfy t :=
  ⟨ESC :: "[3".toList ++ (ESC :: "[30m".toList) ++ "0m".toList, by decide +kernel⟩

end Verif.Color
