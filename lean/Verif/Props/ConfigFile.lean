import Verif.Model.ConfigFile
import Verif.Lemmas.Dec
/-!
# C36: saved settings are the settings loaded next time
-/
namespace Verif.ConfigFile
open Verif.Dec

/-! ### stripping -/

theorem rstrip_cons_ns (c : Char) (l : Text) (h : isSpace c = false) : rstrip (c :: l) = c :: rstrip l := by
  simp only [rstrip]
  cases rstrip l with
  | nil => simp [h]
  | cons x r => rfl

theorem rstrip_comm (l : Text) : rstrip (lstrip l) = lstrip (rstrip l) := by
  induction l with
  | nil => rfl
  | cons c l ih =>
    cases hc : isSpace c with
    | true =>
      simp only [lstrip, hc, if_true, rstrip]
      cases hr : rstrip l with
      | nil => rw [ih, hr]
      | cons x r => rw [ih, hr]; simp [lstrip, hc]
    | false =>
      rw [rstrip_cons_ns c l hc]
      simp only [lstrip, hc, Bool.false_eq_true, if_false]
      rw [rstrip_cons_ns c l hc]

theorem rstrip_rstrip (l : Text) : rstrip (rstrip l) = rstrip l := by
  induction l with
  | nil => rfl
  | cons c l ih =>
    cases hr : rstrip l with
    | nil =>
      simp only [rstrip, hr]
      cases hc : isSpace c <;> simp [rstrip, hc]
    | cons x r =>
      have h1 : rstrip (c :: l) = c :: x :: r := by simp only [rstrip, hr]
      rw [h1]
      rw [hr] at ih
      simp only [rstrip] at ih ⊢
      rw [ih]

theorem strip_rstrip (l : Text) : strip (rstrip l) = strip l := by
  unfold strip
  rw [rstrip_comm, rstrip_rstrip, rstrip_comm]

theorem strip_space (c : Char) (l : Text) (h : isSpace c = true) : strip (c :: l) = strip l := by
  simp [strip, lstrip, h]

theorem strip_cons_ns (c : Char) (l : Text) (h : isSpace c = false) : strip (c :: l) = c :: rstrip l := by
  simp only [strip, lstrip, h, Bool.false_eq_true, if_false]
  exact rstrip_cons_ns c l h

theorem rstrip_append_ns (a b : Text) (c : Char) (h : isSpace c = false) :
    rstrip (a ++ c :: b) = a ++ c :: rstrip b := by
  induction a with
  | nil => exact rstrip_cons_ns c b h
  | cons x a ih =>
    simp only [List.cons_append, rstrip]
    rw [ih]
    cases a <;> rfl

theorem rstrip_ns (a : Text) (h : ∀ c ∈ a, isSpace c = false) : rstrip a = a := by
  induction a with
  | nil => rfl
  | cons x a ih =>
    rw [rstrip_cons_ns x a (h x (by simp)), ih (fun c hc => h c (by simp [hc]))]

theorem strip_ns (a : Text) (h : ∀ c ∈ a, isSpace c = false) : strip a = a := by
  cases a with
  | nil => rfl
  | cons x a => rw [strip_cons_ns x a (h x (by simp)), rstrip_ns a (fun c hc => h c (by simp [hc]))]

/-! ### specification -/

/-- Names of the items: letters, digits, underscores. -/
def ItemOk (t : Text) : Prop := t ≠ [] ∧ ∀ c ∈ t, c.isAlphanum = true ∨ c = '_'

/-- Names of the sections: the same with points. -/
def SecOk (t : Text) : Prop := ∀ c ∈ t, c.isAlphanum = true ∨ c = '_' ∨ c = '.'

/-- Lines of help text are comments without a version. -/
def HelpOk (t : Text) : Prop := t.head? = some '#' ∧ '\n' ∉ t ∧ ¬ "LSL Version:".toList <:+: t

structure EntryOk (e : Entry) : Prop where
  item : ItemOk e.item
  sec : SecOk e.sec
  help : ∀ t ∈ e.help, HelpOk t
  line : '\n' ∉ e.value.show

/-- What the next session reads for a value written by this one. -/
def reread (default : Option V) (v : V) : Option V :=
  if v = .none then default else some (classify (strip v.show))

/-- The text of the value cannot be mistaken for something else. -/
def Faithful : V → Prop
  | .none => False
  | .bool _ => True
  | .int _ => True
  | .float t => strip t = t ∧ pyInt? t = none ∧ isFloat t = true
  | .str s => strip s = s ∧ s ≠ [] ∧ s ≠ "True".toList ∧ s ≠ "False".toList ∧ pyInt? s = none ∧ isFloat s = false

/-! ### lines -/

theorem name_chars : ∀ c : Char, (c.isAlphanum = true ∨ c = '_' ∨ c = '.') →
    isSpace c = false ∧ c ≠ '=' ∧ c ≠ '#' ∧ c ≠ '[' ∧ c ≠ ']' ∧ c ≠ ':' ∧ c ≠ '\n' := by
  intro c h
  have key : ∀ d : Char, d.isAlphanum = false → d ≠ '_' → d ≠ '.' → c ≠ d := by
    intro d h1 h2 h3 hcd
    subst hcd
    rcases h with h | h | h
    · rw [h1] at h; simp at h
    · exact h2 h
    · exact h3 h
  refine ⟨?_, key _ (by decide) (by decide) (by decide), key _ (by decide) (by decide) (by decide),
    key _ (by decide) (by decide) (by decide), key _ (by decide) (by decide) (by decide),
    key _ (by decide) (by decide) (by decide), key _ (by decide) (by decide) (by decide)⟩
  cases hs : isSpace c with
  | false => rfl
  | true =>
    unfold isSpace at hs
    simp only [Bool.or_eq_true, beq_iff_eq] at hs
    rcases hs with ((((((((h1 | h1) | h1) | h1) | h1) | h1) | h1) | h1) | h1) | h1 <;>
      exact absurd h1 (key _ (by decide) (by decide) (by decide))

theorem item_chars (t : Text) (h : ItemOk t) (c : Char) (hc : c ∈ t) :
    isSpace c = false ∧ c ≠ '=' ∧ c ≠ '#' ∧ c ≠ '[' ∧ c ≠ ']' ∧ c ≠ ':' ∧ c ≠ '\n' := by
  apply name_chars
  rcases h.2 c hc with h | h
  · exact Or.inl h
  · exact Or.inr (Or.inl h)

theorem loadLine_blank (ver : Text) (st : LState) : loadLine ver st [] = some st := by
  simp [loadLine, strip, lstrip, rstrip]

theorem after_infix (pat l r : Text) (h : after pat l = some r) : pat <:+: l := by
  induction l with
  | nil =>
    simp only [after] at h
    split at h
    · rename_i hp; subst hp; exact ⟨[], [], rfl⟩
    · simp at h
  | cons c l ih =>
    simp only [after] at h
    split at h
    · rename_i hp
      exact (List.isPrefixOf_iff_prefix.mp hp).isInfix
    · exact (ih h).trans (List.suffix_cons c l).isInfix

theorem lstrip_suffix (l : Text) : lstrip l <:+ l := by
  induction l with
  | nil => exact List.suffix_refl _
  | cons c l ih =>
    simp only [lstrip]
    split
    · exact ih.trans (List.suffix_cons c l)
    · exact List.suffix_refl _

theorem rstrip_prefix (l : Text) : rstrip l <+: l := by
  induction l with
  | nil => exact List.prefix_refl _
  | cons c l ih =>
    simp only [rstrip]
    cases hr : rstrip l with
    | nil =>
      simp only
      split
      · exact List.nil_prefix
      · exact ⟨l, rfl⟩
    | cons x r =>
      rw [hr] at ih
      simp only
      obtain ⟨t, ht⟩ := ih
      exact ⟨t, by rw [← ht]; rfl⟩

theorem strip_infix (l : Text) : strip l <:+: l :=
  (rstrip_prefix _).isInfix.trans (lstrip_suffix l).isInfix

theorem loadLine_comment (ver : Text) (st : LState) (t : Text) (h1 : t.head? = some '#')
    (h2 : ¬ "LSL Version:".toList <:+: t) : loadLine ver st t = some st := by
  cases t with
  | nil => simp at h1
  | cons c l =>
    simp only [List.head?_cons, Option.some.injEq] at h1
    subst h1
    have hs := strip_cons_ns '#' l (by decide)
    unfold loadLine
    simp only
    split
    · rfl
    · rw [hs]
      simp only [List.head?_cons, if_true]
      cases ha : after "LSL Version:".toList ('#' :: rstrip l) with
      | none => rfl
      | some r =>
        exfalso
        have := after_infix _ _ _ ha
        rw [← hs] at this
        exact h2 (this.trans (strip_infix _))

theorem filter_id {α : Type} (p : α → Bool) (l : List α) (h : ∀ x ∈ l, p x = true) : l.filter p = l :=
  List.filter_eq_self.mpr h

theorem sec_strip (s : Text) (h : SecOk s) : strip (' ' :: (s ++ [' '])) = s := by
  rw [strip_space _ _ (by decide)]
  have hns : ∀ c ∈ s, isSpace c = false := fun c hc => (name_chars c (h c hc)).1
  have h2 : rstrip (s ++ [' ']) = s := by
    clear h
    induction s with
    | nil => decide
    | cons x s ih =>
      simp only [List.cons_append]
      rw [rstrip_cons_ns x _ (hns x (by simp)), ih (fun c hc => hns c (by simp [hc]))]
  have := strip_rstrip (s ++ [' '])
  rw [h2] at this
  rw [← this]
  exact strip_ns s hns

theorem loadLine_section (ver : Text) (st : LState) (s : Text) (h : SecOk s) :
    loadLine ver st ("[ ".toList ++ s ++ " ]".toList) = some { st with sec := some s } := by
  have hl : strip ("[ ".toList ++ s ++ " ]".toList) = "[ ".toList ++ s ++ " ]".toList := by
    have : "[ ".toList ++ s ++ " ]".toList = '[' :: ((' ' :: s ++ [' ']) ++ ']' :: []) := by
      simp
    rw [this, strip_cons_ns _ _ (by decide), rstrip_append_ns _ _ _ (by decide)]
    rfl
  unfold loadLine
  simp only [hl]
  have hlen : ¬ ("[ ".toList ++ s ++ " ]".toList).length < 3 := by
    have e1 : "[ ".toList.length = 2 := rfl
    have e2 : " ]".toList.length = 2 := rfl
    rw [List.length_append, List.length_append, e1, e2]
    omega
  have hh : ("[ ".toList ++ s ++ " ]".toList).head? = some '[' := rfl
  rw [if_neg hlen, hh]
  simp only [Option.some.injEq]
  rw [if_neg (by decide), if_pos trivial]
  congr 2
  have hf : ((("[ ".toList ++ s ++ " ]".toList).filter (fun c => c != '[')).filter (fun c => c != ']')) =
      ' ' :: (s ++ [' ']) := by
    have hs1 : s.filter (fun c => c != '[') = s := filter_id _ _ (fun c hc => by
      simp [(name_chars c (h c hc)).2.2.2.1])
    have hs2 : s.filter (fun c => c != ']') = s := filter_id _ _ (fun c hc => by
      simp [(name_chars c (h c hc)).2.2.2.2.1])
    simp only [List.filter_append, hs1, hs2]
    simp
  rw [hf, sec_strip s h]

theorem splitFirst_item (a b : Text) (h : '=' ∉ a) : splitFirst (a ++ '=' :: b) = some (a, b) := by
  induction a with
  | nil => simp [splitFirst]
  | cons x a ih =>
    simp only [List.mem_cons, not_or] at h
    simp only [List.cons_append, splitFirst]
    rw [if_neg (Ne.symm h.1), ih h.2]
    rfl

theorem loadLine_value (ver : Text) (st : LState) (s item t : Text) (hi : ItemOk item) (hs : st.sec = some s) :
    loadLine ver st (item ++ " = ".toList ++ t) =
      some { st with params := assign st.params (s ++ '.' :: item) (classify (strip t)) } := by
  have hl : strip (item ++ " = ".toList ++ t) = (item ++ [' ']) ++ '=' :: rstrip (' ' :: t) := by
    have : item ++ " = ".toList ++ t = (item ++ [' ']) ++ '=' :: (' ' :: t) := by simp
    rw [this]
    have hne := hi.1
    cases hitem : item with
    | nil => exact absurd hitem hne
    | cons x r =>
      have hx := (item_chars item hi x (by rw [hitem]; simp)).1
      simp only [List.cons_append]
      rw [strip_cons_ns x _ hx, rstrip_append_ns _ _ _ (by decide)]
  have hns : ∀ c ∈ item, isSpace c = false := fun c hc => (item_chars item hi c hc).1
  have hstrip : strip (item ++ [' ']) = item := by
    have h2 : rstrip (item ++ [' ']) = item := by
      clear hl hi
      induction item with
      | nil => decide
      | cons x s ih =>
        simp only [List.cons_append]
        rw [rstrip_cons_ns x _ (hns x (by simp)), ih (fun c hc => hns c (by simp [hc]))]
    have := strip_rstrip (item ++ [' '])
    rw [h2] at this
    rw [← this]
    exact strip_ns item hns
  unfold loadLine
  simp only [hl]
  have hlen : ¬ ((item ++ [' ']) ++ '=' :: rstrip (' ' :: t)).length < 3 := by
    have : 0 < item.length := List.length_pos_iff.mpr hi.1
    simp only [List.length_append, List.length_cons, List.length_nil]
    omega
  rw [if_neg hlen]
  have hhead : ∃ x, ((item ++ [' ']) ++ '=' :: rstrip (' ' :: t)).head? = some x ∧ x ∈ item := by
    cases hitem : item with
    | nil => exact absurd hitem hi.1
    | cons x r => exact ⟨x, rfl, by simp⟩
  obtain ⟨x, hx, hxm⟩ := hhead
  obtain ⟨_, _, hx1, hx2, _⟩ := item_chars item hi x hxm
  rw [hx]
  rw [if_neg (by simpa using hx1), if_neg (by simpa using hx2)]
  have heq : '=' ∉ item ++ [' '] := by
    simp only [List.mem_append, List.mem_singleton, not_or]
    exact ⟨fun hm => (item_chars item hi '=' hm).2.1 rfl, by decide⟩
  rw [splitFirst_item _ _ heq]
  simp only [hs, hstrip, strip_rstrip]
  rw [strip_space ' ' t (by decide)]

theorem loadLines_append (ver : Text) (a b : List Text) : ∀ st,
    loadLines ver st (a ++ b) = (loadLines ver st a).bind (fun st' => loadLines ver st' b) := by
  induction a with
  | nil => intro st; rfl
  | cons x a ih =>
    intro st
    simp only [List.cons_append, loadLines]
    cases loadLine ver st x with
    | none => rfl
    | some st' => exact ih st'

theorem loadLines_help (ver : Text) (l : List Text) (h : ∀ t ∈ l, HelpOk t) : ∀ st,
    loadLines ver st l = some st := by
  induction l with
  | nil => intro st; rfl
  | cons x l ih =>
    intro st
    simp only [loadLines]
    obtain ⟨h1, _, h3⟩ := h x (by simp)
    rw [loadLine_comment ver st x h1 h3]
    exact ih (fun t ht => h t (by simp [ht])) st

/-- What reading an entry does. -/
def readEntry (ps : Params) (e : Entry) : Params :=
  if e.value = .none then ps else assign ps e.name (classify (strip e.value.show))

theorem item_no_version (item : Text) (h : ItemOk item) :
    ¬ "LSL Version:".toList <:+: ('#' :: item ++ " = ".toList) := by
  rintro ⟨a, b, hab⟩
  have hc : ':' ∈ '#' :: item ++ " = ".toList := by
    rw [← hab]
    simp
  simp only [List.cons_append, List.mem_cons, List.mem_append] at hc
  rcases hc with hc | hc | hc
  · exact absurd hc (by decide)
  · exact (item_chars item h ':' hc).2.2.2.2.2.1 rfl
  · exact absurd hc (by decide)

theorem loadLines_entry (ver : Text) (e : Entry) (h : EntryOk e) (st : LState) :
    loadLines ver st (entryLines st.sec e) =
      some { st with sec := some e.sec, params := readEntry st.params e } := by
  have hsec : ∃ st1, loadLines ver st (if st.sec ≠ some e.sec then [[], "[ ".toList ++ e.sec ++ " ]".toList] else []) =
      some st1 ∧ st1 = { st with sec := some e.sec } := by
    by_cases hs : st.sec = some e.sec
    · refine ⟨st, ?_, ?_⟩
      · rw [if_neg (by simp [hs])]; rfl
      · cases st; simp only at hs; rw [hs]
    · refine ⟨_, ?_, rfl⟩
      rw [if_pos hs]
      simp only [loadLines]
      rw [loadLine_blank]
      simp only
      rw [loadLine_section ver st e.sec h.sec]
  obtain ⟨st1, h1, rfl⟩ := hsec
  unfold entryLines paramLines
  rw [List.append_assoc (if st.sec ≠ some e.sec then _ else _), loadLines_append, h1]
  simp only [Option.bind_some]
  rw [List.append_assoc e.help, loadLines_append, loadLines_help ver e.help h.help]
  simp only [Option.bind_some]
  rw [loadLines_append]
  unfold readEntry
  by_cases hv : e.value = .none
  · simp only [hv, if_true, loadLines]
    rw [loadLine_comment ver _ _ (by simp) (item_no_version e.item h.item)]
    simp [loadLine_blank]
  · simp only [hv, if_false, loadLines]
    rw [loadLine_value ver _ e.sec e.item e.value.show h.item rfl]
    simp [loadLine_blank, Entry.name]

theorem loadLines_all (ver : Text) (l : List Entry) (h : ∀ e ∈ l, EntryOk e) : ∀ (st : LState),
    ∃ s, loadLines ver st (allLines st.sec l) = some ⟨s, l.foldl readEntry st.params, st.versionChanged⟩ := by
  induction l with
  | nil => intro st; exact ⟨st.sec, rfl⟩
  | cons e l ih =>
    intro st
    simp only [allLines, List.foldl_cons]
    rw [loadLines_append, loadLines_entry ver e (h e (by simp)) st]
    simp only [Option.bind_some]
    exact ih (fun x hx => h x (by simp [hx])) ⟨some e.sec, readEntry st.params e, st.versionChanged⟩

theorem splitOn_lines (ls : List Text) (h : ∀ l ∈ ls, '\n' ∉ l) :
    splitOn '\n' (ls.flatMap (fun x => x ++ ['\n'])) = ls ++ [[]] := by
  induction ls with
  | nil => rfl
  | cons x ls ih =>
    simp only [List.flatMap_cons, List.append_assoc, List.cons_append, List.nil_append]
    rw [splitOn_append '\n' x _ (h x (by simp)), ih (fun l hl => h l (by simp [hl]))]

theorem no_newline (l : List Entry) (h : ∀ e ∈ l, EntryOk e) : ∀ last, ∀ t ∈ allLines last l, '\n' ∉ t := by
  induction l with
  | nil => intro last t ht; simp [allLines] at ht
  | cons e l ih =>
    intro last t ht
    simp only [allLines, List.mem_append] at ht
    rcases ht with ht | ht
    · have he := h e (by simp)
      unfold entryLines paramLines at ht
      simp only [List.mem_append, List.mem_singleton] at ht
      have hsp : '\n' ∉ " = ".toList := by decide
      have hitem : '\n' ∉ e.item := fun hm => (item_chars e.item he.item _ hm).2.2.2.2.2.2 rfl
      rcases ht with (ht | ht | ht) | ht
      · split at ht
        · simp only [List.mem_cons, List.not_mem_nil, or_false] at ht
          rcases ht with rfl | rfl
          · simp
          · simp only [List.mem_append, not_or]
            refine ⟨⟨by decide, ?_⟩, by decide⟩
            exact fun hm => (name_chars _ (he.sec _ hm)).2.2.2.2.2.2 rfl
        · simp at ht
      · exact (he.help t ht).2.1
      · rw [ht]
        split
        · simp only [List.cons_append, List.mem_cons, List.mem_append, not_or]
          exact ⟨by decide, hitem, hsp⟩
        · simp only [List.mem_append, not_or]
          exact ⟨⟨hitem, hsp⟩, he.line⟩
      · rw [ht]; simp
    · exact ih (fun x hx => h x (by simp [hx])) _ t ht

theorem after_version (ver : Text) : after "LSL Version:".toList ('#' :: rstrip (" LSL Version: ".toList ++ ver)) =
    some (rstrip (' ' :: ver)) := by
  have : " LSL Version: ".toList ++ ver = " LSL Version".toList ++ ':' :: (' ' :: ver) := rfl
  rw [this, rstrip_append_ns _ _ _ (by decide)]
  have h2 : " LSL Version".toList = [' ', 'L', 'S', 'L', ' ', 'V', 'e', 'r', 's', 'i', 'o', 'n'] := rfl
  have h3 : "LSL Version:".toList = ['L', 'S', 'L', ' ', 'V', 'e', 'r', 's', 'i', 'o', 'n', ':'] := rfl
  rw [h2, h3]
  simp [after, List.isPrefixOf]

theorem load_fileText (ver wver : Text) (defaults : Params) (l : List Entry) (h : ∀ e ∈ l, EntryOk e)
    (hv : '\n' ∉ wver) :
    ∃ s, load ver defaults (fileText wver l) =
      some ⟨s, l.foldl readEntry defaults, decide (strip wver ≠ ver)⟩ := by
  unfold load fileText
  have hlines : ∀ t ∈ fileLines wver l, '\n' ∉ t := by
    intro t ht
    unfold fileLines at ht
    simp only [List.mem_cons] at ht
    rcases ht with rfl | rfl | ht
    · decide
    · simp only [List.mem_append, not_or]
      exact ⟨by decide, hv⟩
    · exact no_newline l h none t ht
  rw [splitOn_lines _ hlines, loadLines_append]
  have hc : loadLine ver ⟨none, defaults, false⟩ "# LSL Configuration File".toList = some ⟨none, defaults, false⟩ :=
    rfl
  have hver : loadLine ver ⟨none, defaults, false⟩ ("# LSL Version: ".toList ++ wver) =
      some ⟨none, defaults, decide (strip wver ≠ ver)⟩ := by
    have e1 : "# LSL Version: ".toList ++ wver = '#' :: (" LSL Version: ".toList ++ wver) := rfl
    have e2 := strip_cons_ns '#' (" LSL Version: ".toList ++ wver) (by decide)
    unfold loadLine
    simp only [e1, e2]
    have hlen : ¬ ('#' :: rstrip (" LSL Version: ".toList ++ wver)).length < 3 := by
      have : " LSL Version: ".toList ++ wver = " LSL Version".toList ++ ':' :: (' ' :: wver) := rfl
      rw [this, rstrip_append_ns _ _ _ (by decide)]
      have h2 : " LSL Version".toList.length = 12 := rfl
      rw [List.length_cons, List.length_append, h2]
      omega
    rw [if_neg hlen, after_version]
    simp only [List.head?_cons, if_true]
    rw [strip_rstrip, strip_space _ _ (by decide)]
    by_cases hvv : strip wver = ver <;> simp [hvv]
  unfold fileLines
  simp only [loadLines, hc, hver]
  obtain ⟨s, hs⟩ := loadLines_all ver l h ⟨none, defaults, decide (strip wver ≠ ver)⟩
  rw [hs]
  exact ⟨s, by simp [loadLine_blank]⟩

/-! ### values -/

theorem lookup_assign (ps : Params) (n m : Text) (v : V) :
    lookup (assign ps n v) m = if n = m then some v else lookup ps m := by
  induction ps with
  | nil => simp [assign, lookup]
  | cons x l ih =>
    obtain ⟨k, w⟩ := x
    simp only [assign]
    by_cases hk : k = n
    · subst hk
      by_cases hkm : k = m <;> simp [lookup, hkm]
    · simp only [hk, if_false, lookup, ih]
      by_cases hkm : k = m
      · subst hkm
        simp [Ne.symm hk]
      · simp [hkm]

theorem lookup_fold (l : List Entry) (hn : (l.map Entry.name).Nodup) : ∀ (ps : Params) (m : Text),
    lookup (l.foldl readEntry ps) m =
      match l.find? (fun e => decide (e.name = m)) with
      | some e => reread (lookup ps m) e.value
      | none => lookup ps m := by
  induction l with
  | nil => intro ps m; rfl
  | cons e l ih =>
    intro ps m
    simp only [List.map_cons, List.nodup_cons] at hn
    simp only [List.foldl_cons]
    rw [ih hn.2]
    by_cases he : e.name = m
    · have hnone : l.find? (fun e => decide (e.name = m)) = none := by
        rw [List.find?_eq_none]
        intro x hx
        simp only [decide_eq_true_eq]
        intro hxm
        exact hn.1 (by rw [he, ← hxm]; exact List.mem_map_of_mem hx)
      rw [hnone]
      simp only [List.find?_cons, he, decide_true]
      unfold readEntry reread
      by_cases hv : e.value = .none
      · simp [hv]
      · simp [hv, lookup_assign, he]
    · simp only [List.find?_cons, he, decide_false]
      have : lookup (readEntry ps e) m = lookup ps m := by
        unfold readEntry
        split
        · rfl
        · rw [lookup_assign, if_neg he]
      rw [this]

theorem natU_digits (l : Text) (h : '_' ∉ l) (hne : l ≠ []) : natU? l = parseNat? l := by
  unfold natU?
  rw [splitOn_not_mem '_' l h]
  simp [hne]

theorem pyInt_showInt (i : Int) : pyInt? (showInt i) = some i := by
  have h := parseInt_showInt i
  by_cases hi : i < 0
  · have hs : showInt i = '-' :: showNat (-i).toNat := by simp [showInt, hi]
    rw [hs] at h ⊢
    simp only [parseInt?, pyInt?] at h ⊢
    rw [natU_digits _ (not_mem_showNat _ _ (by decide)) (showNat_ne_nil _)]
    exact h
  · have hs : showInt i = showNat i.toNat := by simp [showInt, hi]
    rw [hs] at h ⊢
    have h2 := natU_digits (showNat i.toNat) (not_mem_showNat _ _ (by decide)) (showNat_ne_nil _)
    have hd := showNat_digit i.toNat
    cases hl : showNat i.toNat with
    | nil => exact absurd hl (showNat_ne_nil _)
    | cons x r =>
      rw [hl] at h h2 hd
      have hx := digit_not_minus x (hd x (by simp))
      have e1 : parseInt? (x :: r) = (parseNat? (x :: r)).map (fun n : Nat => (n : Int)) := by
        unfold parseInt?
        split
        · rename_i heq; injection heq with h1 _; exact absurd h1 hx.1
        · rename_i heq; injection heq with h1 _; exact absurd h1 hx.2.1
        · rfl
      have e2 : pyInt? (x :: r) = (natU? (x :: r)).map (fun n : Nat => (n : Int)) := by
        unfold pyInt?
        split
        · rename_i heq; injection heq with h1 _; exact absurd h1 hx.1
        · rename_i heq; injection heq with h1 _; exact absurd h1 hx.2.1
        · rfl
      rw [e2, h2, ← e1, h]

theorem showInt_ns (i : Int) : ∀ c ∈ showInt i, isSpace c = false := by
  intro c hc
  rcases showInt_chars i c hc with h | h
  · exact (name_chars c (Or.inl (by simp [Char.isAlphanum, h]))).1
  · subst h; decide

theorem classify_faithful (v : V) (h : Faithful v) : classify (strip v.show) = v := by
  cases v with
  | none => exact h.elim
  | bool b => cases b <;> rfl
  | int i =>
    simp only [V.show]
    rw [strip_ns _ (showInt_ns i)]
    have h1 : showInt i ≠ "True".toList := by
      intro he
      have := pyInt_showInt i
      rw [he] at this
      have h0 : ∀ j, pyInt? "True".toList ≠ some j := by intro j; rw [show pyInt? "True".toList = none by decide]; simp
      exact h0 _ this
    have h2 : showInt i ≠ "False".toList := by
      intro he
      have := pyInt_showInt i
      rw [he] at this
      have h0 : ∀ j, pyInt? "False".toList ≠ some j := by intro j; rw [show pyInt? "False".toList = none by decide]; simp
      exact h0 _ this
    unfold classify
    rw [if_neg h1, if_neg h2, pyInt_showInt]
  | float t =>
    obtain ⟨h1, h2, h3⟩ := h
    simp only [V.show, h1]
    have ht : t ≠ "True".toList := by rintro rfl; exact absurd h3 (by decide)
    have hf : t ≠ "False".toList := by rintro rfl; exact absurd h3 (by decide)
    unfold classify
    rw [if_neg ht, if_neg hf, h2]
    simp [h3]
  | str s =>
    obtain ⟨h1, h2, h3, h4, h5, h6⟩ := h
    simp only [V.show, h1]
    unfold classify
    rw [if_neg h3, if_neg h4, h5]
    simp [h6, h2]

/-! ### C36 -/

/-- What the next session reads, exactly: for every parameter the text of its value read again, and its
default for a parameter that was empty; the version flag is set when the versions differ. -/
theorem C36_reload (ver wver : Text) (defaults : Params) (l : List Entry) (h : ∀ e ∈ l, EntryOk e)
    (hn : (l.map Entry.name).Nodup) (hv : '\n' ∉ wver) :
    ∃ st, load ver defaults (fileText wver l) = some st ∧ (st.versionChanged = true ↔ strip wver ≠ ver) ∧
      (∀ e ∈ l, lookup st.params e.name = reread (lookup defaults e.name) e.value) ∧
      ∀ m, m ∉ l.map Entry.name → lookup st.params m = lookup defaults m := by
  obtain ⟨s, hs⟩ := load_fileText ver wver defaults l h hv
  refine ⟨_, hs, by simp, ?_, ?_⟩
  · intro e he
    simp only
    rw [lookup_fold l hn]
    have : l.find? (fun x => decide (x.name = e.name)) = some e := by
      clear hs h
      induction l with
      | nil => simp at he
      | cons x l ih =>
        simp only [List.map_cons, List.nodup_cons] at hn
        rcases List.mem_cons.mp he with rfl | he'
        · simp
        · have hne : x.name ≠ e.name := by
            intro hx
            exact hn.1 (by rw [hx]; exact List.mem_map_of_mem he')
          simp only [List.find?_cons, hne, decide_false]
          exact ih hn.2 he'
    rw [this]
  · intro m hm
    simp only
    rw [lookup_fold l hn]
    have : l.find? (fun x => decide (x.name = m)) = none := by
      rw [List.find?_eq_none]
      intro x hx
      simp only [decide_eq_true_eq]
      rintro rfl
      exact hm (List.mem_map_of_mem hx)
    rw [this]

/-- Values that cannot be mistaken, and empty parameters that are empty by default, come back. -/
theorem C36_roundtrip_partial (ver : Text) (defaults : Params) (l : List Entry) (h : ∀ e ∈ l, EntryOk e)
    (hn : (l.map Entry.name).Nodup) (hv : '\n' ∉ ver)
    (hf : ∀ e ∈ l, Faithful e.value ∨ (e.value = .none ∧ lookup defaults e.name = some .none)) :
    ∃ st, load ver defaults (fileText ver l) = some st ∧ ∀ e ∈ l, lookup st.params e.name = some e.value := by
  obtain ⟨st, h1, _, h3, _⟩ := C36_reload ver ver defaults l h hn hv
  refine ⟨st, h1, ?_⟩
  intro e he
  rw [h3 e he]
  unfold reread
  rcases hf e he with hh | ⟨hh, hd⟩
  · have : e.value ≠ .none := by
      intro hn; rw [hn] at hh; exact hh
    rw [if_neg this, classify_faithful _ hh]
  · rw [if_pos hh, hd, hh]

/-- Only these come back: any other string or empty value is read as something else. -/
theorem C36_only_faithful (default : Option V) (v : V) (h : reread default v = some v) :
    Faithful v ∨ (v = .none ∧ default = some .none) ∨ ∃ t, v = .float t := by
  unfold reread at h
  by_cases hv : v = .none
  · rw [if_pos hv] at h
    exact Or.inr (Or.inl ⟨hv, by rw [h, hv]⟩)
  · rw [if_neg hv] at h
    simp only [Option.some.injEq] at h
    cases v with
    | none => exact absurd rfl hv
    | bool b => exact Or.inl trivial
    | int i => exact Or.inl trivial
    | float t => exact Or.inr (Or.inr ⟨t, rfl⟩)
    | str s =>
      left
      simp only [V.show] at h
      unfold classify at h
      split at h
      · simp at h
      · split at h
        · simp at h
        · rename_i h1 h2
          split at h
          · simp at h
          · rename_i h3
            split at h
            · simp at h
            · split at h
              · simp at h
              · rename_i h4 h5
                injection h with h
                rw [h] at h1 h2 h3 h4 h5
                exact ⟨h, h5, h1, h2, h3, by simpa using h4⟩

/-- Strings of digits come back as integers. -/
theorem C36_digits (d : Option V) (n : Nat) : reread d (.str (showNat n)) = some (.int n) := by
  have h : showNat n = showInt n := by
    have : ¬ (n : Int) < 0 := by omega
    simp [showInt, this]
  have := classify_faithful (.int n) trivial
  simp only [V.show] at this
  unfold reread
  simp only [reduceCtorEq, if_false, V.show, h, this]

/-- An optional parameter with a default that is set to nothing comes back as the default. -/
theorem C36_none_default (d : V) : reread (some d) .none = some d := by simp [reread]

/-! ### python's texts of floats -/

def Digits (l : Text) : Prop := l ≠ [] ∧ ∀ c ∈ l, c.isDigit = true

/-- The texts `repr` gives for floats: an optional sign, then `inf`, `nan`, `12.5`, `1e-05` or `1.5e+16`. -/
def FloatRepr (t : Text) : Prop :=
  ∃ s m : Text, (s = [] ∨ s = ['-']) ∧ t = s ++ m ∧
    (m = "inf".toList ∨ m = "nan".toList ∨
     ∃ a b : Text, Digits a ∧ Digits b ∧
      (m = a ++ '.' :: b ∨
       ∃ (x : Char) (e : Text), (x = '+' ∨ x = '-') ∧ Digits e ∧
        (m = a ++ 'e' :: x :: e ∨ m = a ++ '.' :: b ++ 'e' :: x :: e)))

theorem mem_splitOn (c d : Char) (l : Text) (h : c ∈ l) (hne : c ≠ d) : c ∈ (splitOn d l).flatten := by
  induction l with
  | nil => exact absurd h (by simp)
  | cons x l ih =>
    simp only [splitOn]
    by_cases hx : x = d
    · rw [if_pos hx]
      rcases List.mem_cons.mp h with h | h
      · exact absurd (h.trans hx) hne
      · simpa using ih h
    · rw [if_neg hx]
      cases hs : splitOn d l with
      | nil => exact absurd hs (splitOn_ne_nil d l)
      | cons p ps =>
        rw [hs] at ih
        rcases List.mem_cons.mp h with h | h
        · subst h; simp
        · have := ih h
          simp only [List.flatten_cons, List.mem_append, List.cons_append, List.mem_cons] at this ⊢
          exact Or.inr this

theorem natU_none (l : Text) (c : Char) (h : c ∈ l) (hd : c.isDigit = false) (hu : c ≠ '_') : natU? l = none := by
  unfold natU?
  simp only
  split
  · unfold parseNat?
    rw [if_neg]
    rintro ⟨_, h2⟩
    have := List.all_eq_true.mp h2 c (mem_splitOn c '_' l h hu)
    rw [hd] at this
    exact absurd this (by decide)
  · rfl

theorem natU_some (l : Text) (h : Digits l) : (natU? l).isSome = true := by
  have h1 : '_' ∉ l := fun hm => absurd (h.2 '_' hm) (by decide)
  rw [natU_digits l h1 h.1]
  unfold parseNat?
  rw [if_pos ⟨h.1, by rw [List.all_eq_true]; exact h.2⟩]
  rfl

theorem digits_not_mem (l : Text) (h : Digits l) (c : Char) (hc : c.isDigit = false) : c ∉ l :=
  fun hm => by have := h.2 c hm; rw [hc] at this; exact absurd this (by decide)

theorem digit_lower : ∀ c : Char, c.isDigit = true → c.toLower = c := by
  intro c h
  unfold Char.toLower
  have hd : c.val ≥ 48 ∧ c.val ≤ 57 := by simpa [Char.isDigit] using h
  have hu : ¬ (c.val ≥ 65 ∧ c.val ≤ 90) := by
    rintro ⟨h1, _⟩
    have h3 := hd.2
    have : (65 : UInt32) ≤ 57 := UInt32.le_trans h1 h3
    exact absurd this (by decide)
  split
  · rename_i h1
    exact absurd h1 hu
  · rfl

theorem digits_lower (l : Text) (h : Digits l) : l.map Char.toLower = l := by
  have : l.map Char.toLower = l.map id := List.map_congr_left (fun c hc => digit_lower c (h.2 c hc))
  rw [this, List.map_id]

theorem pyInt_none (t : Text) (c : Char) (hs : c ≠ '-' ∧ c ≠ '+') (h : c ∈ t) (hd : c.isDigit = false) (hu : c ≠ '_') :
    pyInt? t = none := by
  unfold pyInt?
  split
  · rename_i l
    rw [natU_none l c (by rcases List.mem_cons.mp h with h | h; exact absurd h hs.1; exact h) hd hu]; rfl
  · rename_i l
    rw [natU_none l c (by rcases List.mem_cons.mp h with h | h; exact absurd h hs.2; exact h) hd hu]; rfl
  · rw [natU_none t c h hd hu]; rfl

theorem unsigned_sign (s m : Text) (hs : s = [] ∨ s = ['-']) (hm : ∀ c ∈ m.head?, c ≠ '-' ∧ c ≠ '+') :
    unsigned (s ++ m) = m := by
  rcases hs with rfl | rfl
  · cases m with
    | nil => rfl
    | cons x r =>
      have := hm x (by simp)
      simp only [List.nil_append]
      unfold unsigned
      split
      · rename_i heq; injection heq with h1 _; exact absurd h1 this.1
      · rename_i heq; injection heq with h1 _; exact absurd h1 this.2
      · rfl
  · rfl

theorem digits_head (a r : Text) (h : Digits a) : ∀ c ∈ (a ++ r).head?, c ≠ '-' ∧ c ≠ '+' := by
  intro c hc
  cases a with
  | nil => exact absurd rfl h.1
  | cons x a =>
    simp only [List.cons_append, List.head?_cons, Option.mem_def, Option.some.injEq] at hc
    subst hc
    have := digit_not_minus x (h.2 x (by simp))
    exact ⟨this.1, this.2.1⟩

theorem isMantissa_int (a : Text) (h : Digits a) : isMantissa a = true := by
  unfold isMantissa
  rw [splitOn_not_mem _ _ (digits_not_mem a h '.' (by decide))]
  exact natU_some a h

theorem isMantissa_frac (a b : Text) (ha : Digits a) (hb : Digits b) : isMantissa (a ++ '.' :: b) = true := by
  unfold isMantissa
  rw [splitOn_append _ _ _ (digits_not_mem a ha '.' (by decide)),
    splitOn_not_mem _ _ (digits_not_mem b hb '.' (by decide))]
  simp [natU_some a ha, natU_some b hb]

theorem isFloat_of (s m : Text) (hs : s = [] ∨ s = ['-']) (hm : ∀ c ∈ m.head?, c ≠ '-' ∧ c ≠ '+')
    (hl : m.map Char.toLower = m)
    (h : m = "inf".toList ∨ m = "nan".toList ∨
      (match splitOn 'e' m with
       | [m] => isMantissa m
       | [m, e] => isMantissa m && (natU? (unsigned e)).isSome
       | _ => false) = true) : isFloat (s ++ m) = true := by
  unfold isFloat
  simp only [unsigned_sign s m hs hm, hl]
  rcases h with rfl | rfl | h
  · rfl
  · rfl
  · rw [Bool.or_eq_true]; exact Or.inr h

theorem float_ns (s m : Text) (hs : s = [] ∨ s = ['-'])
    (hm : ∀ c ∈ m, c.isDigit = true ∨ c ∈ ".e+-infa".toList) : strip (s ++ m) = s ++ m := by
  refine strip_ns _ ?_
  intro c hc
  rcases List.mem_append.mp hc with hc | hc
  · rcases hs with rfl | rfl
    · exact absurd hc (by simp)
    · simp only [List.mem_singleton] at hc; subst hc; decide
  · rcases hm c hc with h | h
    · exact (name_chars c (Or.inl (by simp [Char.isAlphanum, h]))).1
    · have : ∀ c ∈ ".e+-infa".toList, isSpace c = false := by decide
      exact this c h

/-- Every float comes back with the same text. -/
theorem C36_float_repr (d : Option V) (t : Text) (h : FloatRepr t) : reread d (.float t) = some (.float t) := by
  have hF : Faithful (.float t) := by
    obtain ⟨s, m, hs, rfl, h⟩ := h
    have pre : ∀ c, c ∈ m → c ∈ s ++ m := fun c hc => List.mem_append.mpr (Or.inr hc)
    rcases h with rfl | rfl | ⟨a, b, ha, hb, h⟩
    · rcases hs with rfl | rfl <;> exact ⟨by decide, by decide, by decide⟩
    · rcases hs with rfl | rfl <;> exact ⟨by decide, by decide, by decide⟩
    · have ea := digits_not_mem a ha 'e' (by decide)
      have eb := digits_not_mem b hb 'e' (by decide)
      have lo : Char.toLower '.' = '.' := by decide
      have le : Char.toLower 'e' = 'e' := by decide
      rcases h with rfl | ⟨x, e, hx, he, rfl | rfl⟩
      · refine ⟨float_ns s _ hs ?_, pyInt_none _ '.' (by decide) (pre _ (by simp)) (by decide) (by decide),
          isFloat_of s _ hs (digits_head a _ ha) ?_ (Or.inr (Or.inr ?_))⟩
        · intro c hc
          simp only [List.mem_append, List.mem_cons] at hc
          rcases hc with hc | rfl | hc
          · exact Or.inl (ha.2 c hc)
          · exact Or.inr (by decide)
          · exact Or.inl (hb.2 c hc)
        · rw [List.map_append, List.map_cons, digits_lower a ha, digits_lower b hb, lo]
        · rw [splitOn_not_mem 'e' _ (by simp [ea, eb])]
          exact isMantissa_frac a b ha hb
      · have lx : Char.toLower x = x := by rcases hx with rfl | rfl <;> decide
        have un : unsigned (x :: e) = e := by rcases hx with rfl | rfl <;> rfl
        have ee : 'e' ∉ x :: e := by
          have := digits_not_mem e he 'e' (by decide)
          rcases hx with rfl | rfl <;> simp [this]
        refine ⟨float_ns s _ hs ?_, pyInt_none _ 'e' (by decide) (pre _ (by simp)) (by decide) (by decide),
          isFloat_of s _ hs (digits_head a _ ha) ?_ (Or.inr (Or.inr ?_))⟩
        · intro c hc
          simp only [List.mem_append, List.mem_cons] at hc
          rcases hc with hc | rfl | rfl | hc
          · exact Or.inl (ha.2 c hc)
          · exact Or.inr (by decide)
          · exact Or.inr (by rcases hx with rfl | rfl <;> decide)
          · exact Or.inl (he.2 c hc)
        · simp only [List.map_append, List.map_cons]
          rw [digits_lower a ha, digits_lower e he, le, lx]
        · rw [splitOn_append _ _ _ ea, splitOn_not_mem _ _ ee]
          simp [isMantissa_int a ha, un, natU_some e he]
      · have lx : Char.toLower x = x := by rcases hx with rfl | rfl <;> decide
        have un : unsigned (x :: e) = e := by rcases hx with rfl | rfl <;> rfl
        have ee : 'e' ∉ x :: e := by
          have := digits_not_mem e he 'e' (by decide)
          rcases hx with rfl | rfl <;> simp [this]
        refine ⟨float_ns s _ hs ?_, pyInt_none _ 'e' (by decide) (pre _ (by simp)) (by decide) (by decide),
          isFloat_of s _ hs ?_ ?_ (Or.inr (Or.inr ?_))⟩
        · intro c hc
          simp only [List.mem_append, List.mem_cons] at hc
          rcases hc with (hc | rfl | hc) | rfl | rfl | hc
          · exact Or.inl (ha.2 c hc)
          · exact Or.inr (by decide)
          · exact Or.inl (hb.2 c hc)
          · exact Or.inr (by decide)
          · exact Or.inr (by rcases hx with rfl | rfl <;> decide)
          · exact Or.inl (he.2 c hc)
        · rw [List.append_assoc]; exact digits_head a _ ha
        · simp only [List.map_append, List.map_cons]
          rw [digits_lower a ha, digits_lower b hb, digits_lower e he, lo, le, lx]
        · rw [splitOn_append 'e' (a ++ '.' :: b) _ (by simp [ea, eb]), splitOn_not_mem _ _ ee]
          simp [isMantissa_frac a b ha hb, un, natU_some e he]
  unfold reread
  rw [if_neg (by simp), classify_faithful _ hF]

example : FloatRepr "1e-05".toList ∧ FloatRepr "-1.5e+16".toList ∧ FloatRepr "0.25".toList := by
  refine ⟨⟨[], _, Or.inl rfl, rfl, Or.inr (Or.inr ⟨['1'], ['0'], ?_, ?_, Or.inr ⟨'-', ['0', '5'], Or.inr rfl, ?_, Or.inl rfl⟩⟩)⟩,
    ⟨['-'], _, Or.inr rfl, rfl, Or.inr (Or.inr ⟨['1'], ['5'], ?_, ?_, Or.inr ⟨'+', ['1', '6'], Or.inl rfl, ?_, Or.inr rfl⟩⟩)⟩,
    ⟨[], _, Or.inl rfl, rfl, Or.inr (Or.inr ⟨['0'], ['2', '5'], ?_, ?_, Or.inl rfl⟩)⟩⟩ <;>
    exact ⟨by simp, by decide⟩

/-! ### sessions -/

/-- A session that loaded an up-to-date file and changes parameters leaves a file with its values. -/
theorem C36_saved (ver : Text) (s : Session) (f : File) (now : Nat) (n : Text) (v : V)
    (hm : f.mtime ≤ s.loaded) :
    ((s.change n v).save ver (some f) now).2 = some ⟨now, fileText ver (setEntry s.entries n v)⟩ := by
  have : ¬ s.loaded < f.mtime := by omega
  simp [Session.save, Session.change, this]

/-- Missing from the full property: the changes of a second save in the same session are dropped, since
the time of loading is not brought up to date by the first. -/
theorem C36_second_save_lost (ver : Text) (s : Session) (f : Option File) (t1 t2 : Nat) (n m : Text) (v w : V)
    (hok : ∀ g, f = some g → g.mtime ≤ s.loaded) (ht : s.loaded < t1) :
    let r := (s.change n v).save ver f t1
    ((r.1.change m w).save ver r.2 t2).2 = r.2 := by
  simp only
  have h1 : (s.change n v).save ver f t1 =
      (⟨setEntry s.entries n v, s.loaded, false, false, false⟩,
        some ⟨t1, fileText ver (setEntry s.entries n v)⟩) := by
    cases f with
    | none => simp [Session.save, Session.change]
    | some g =>
      have : ¬ s.loaded < g.mtime := by have := hok g rfl; omega
      simp [Session.save, Session.change, this]
  rw [h1]
  simp [Session.save, Session.change, ht]

/-- When another session changed the file in between, the changes are dropped and its file is kept;
but when the version changed too, the "abandoned" values are written over it. -/
theorem C36_conflict (ver : Text) (s : Session) (f : File) (now : Nat) (n : Text) (v : V)
    (hm : s.loaded < f.mtime) :
    ((s.change n v).save ver (some f) now).2 =
      if s.versionChanged then some ⟨now, fileText ver (setEntry s.entries n v)⟩ else some f := by
  cases hv : s.versionChanged <;> simp [Session.save, Session.change, hm, hv]

/-- Without changes and with the same version nothing is written. -/
theorem C36_unchanged (ver : Text) (s : Session) (f : Option File) (now : Nat) (h : s.changed = false)
    (hp : s.pending = false) : (s.save ver f now) = (s, f) := by
  cases f <;> simp [Session.save, h, hp]

/-- A real section with a number, an address and an empty optional parameter. -/
def sample : List Entry :=
  [⟨"ldp".toList, "drx_buffer_size".toList, ["# DRX ring buffer size".toList], .int 20⟩,
   ⟨"ionosphere".toList, "igs_url".toList, [], .str "ftp://x/y=z#1".toList⟩,
   ⟨"ionosphere".toList, "max".toList, [], .float "1.5".toList⟩,
   ⟨"ionosphere".toList, "ustec_mirror".toList, ["# mirror".toList, "# more".toList], .none⟩]

theorem fileOf_ok (t : Text) (h : (decide (t ≠ []) && t.all (fun c => c.isAlphanum || c == '_')) = true) : ItemOk t := by
  simp only [Bool.and_eq_true, decide_eq_true_eq, List.all_eq_true, Bool.or_eq_true, beq_iff_eq] at h
  exact h

theorem secOf_ok (t : Text) (h : (t.all (fun c => c.isAlphanum || c == '_' || c == '.')) = true) : SecOk t := by
  simp only [List.all_eq_true, Bool.or_eq_true, beq_iff_eq] at h
  intro c hc
  rcases h c hc with (h | h) | h
  · exact Or.inl h
  · exact Or.inr (Or.inl h)
  · exact Or.inr (Or.inr h)

example : (∀ e ∈ sample, EntryOk e) ∧ (sample.map Entry.name).Nodup ∧
    (∀ e ∈ sample, Faithful e.value ∨ (e.value = .none ∧
      lookup [("ionosphere.ustec_mirror".toList, .none)] e.name = some .none)) := by
  have hno : ∀ t : Text, ':' ∉ t → ¬ "LSL Version:".toList <:+: t := by
    rintro t ht ⟨a, b, rfl⟩
    exact ht (by simp)
  refine ⟨?_, by decide, ?_⟩
  · intro e he
    simp only [sample, List.mem_cons, List.not_mem_nil, or_false] at he
    rcases he with rfl | rfl | rfl | rfl
    · exact ⟨fileOf_ok _ (by decide), secOf_ok _ (by decide), fun t ht => by
        simp only [List.mem_singleton] at ht; subst ht
        exact ⟨rfl, by decide, hno _ (by decide)⟩, by decide⟩
    · exact ⟨fileOf_ok _ (by decide), secOf_ok _ (by decide), fun t ht => by simp at ht, by decide⟩
    · exact ⟨fileOf_ok _ (by decide), secOf_ok _ (by decide), fun t ht => by simp at ht, by decide⟩
    · exact ⟨fileOf_ok _ (by decide), secOf_ok _ (by decide), fun t ht => by
        simp only [List.mem_cons, List.not_mem_nil, or_false] at ht
        rcases ht with rfl | rfl
        · exact ⟨rfl, by decide, hno _ (by decide)⟩
        · exact ⟨rfl, by decide, hno _ (by decide)⟩, by decide⟩
  · intro e he
    simp only [sample, List.mem_cons, List.not_mem_nil, or_false] at he
    rcases he with rfl | rfl | rfl | rfl
    · exact Or.inl trivial
    · exact Or.inl ⟨by decide, by decide, by decide, by decide, by decide, by decide⟩
    · exact Or.inl ⟨by decide, by decide, by decide⟩
    · exact Or.inr ⟨rfl, by decide⟩

end Verif.ConfigFile
