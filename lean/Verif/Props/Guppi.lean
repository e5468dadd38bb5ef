import Verif.Model.Guppi
import Verif.Lemmas.Dec

/-! C115: GUPPI headers. -/

namespace Verif.Guppi

theorem ws_blank : Char.isWhitespace ' ' = true := by decide

theorem dropWhile_blanks (n : Nat) (s : Str) (h : ∀ c, s.head? = some c → c.isWhitespace = false) :
    (List.replicate n ' ' ++ s).dropWhile Char.isWhitespace = s := by
  induction n with
  | zero =>
    cases s with
    | nil => rfl
    | cons a l => simp [List.dropWhile_cons, h a rfl]
  | succ n ih =>
    rw [List.replicate_succ, List.cons_append, List.dropWhile_cons, ws_blank]
    simpa using ih

/-- Blanks around a text are removed. -/
theorem strip_blanks (m n : Nat) (s : Str)
    (h1 : ∀ c, s.head? = some c → c.isWhitespace = false)
    (h2 : ∀ c, s.getLast? = some c → c.isWhitespace = false) :
    strip (List.replicate m ' ' ++ s ++ List.replicate n ' ') = s := by
  unfold strip
  cases s with
  | nil =>
    have e : List.replicate m ' ' ++ [] ++ List.replicate n ' ' =
        List.replicate (m + n) ' ' ++ [] := by simp [List.replicate_append_replicate]
    rw [e, dropWhile_blanks _ _ (by simp)]
    rfl
  | cons a l =>
    rw [List.append_assoc, dropWhile_blanks _ _ (by
      intro c hc
      exact h1 c (by simpa using hc))]
    rw [List.reverse_append, List.reverse_replicate, dropWhile_blanks _ _ (by
      intro c hc
      rw [List.head?_reverse] at hc
      exact h2 c hc)]
    simp

theorem strip_right (n : Nat) (s : Str) (h1 : ∀ c, s.head? = some c → c.isWhitespace = false)
    (h2 : ∀ c, s.getLast? = some c → c.isWhitespace = false) :
    strip (s ++ List.replicate n ' ') = s := by
  simpa using strip_blanks 0 n s h1 h2

/-! Values -/

theorem digit_ws (c : Char) (h : c.isDigit = true) : c.isWhitespace = false := by
  unfold Char.isDigit at h
  unfold Char.isWhitespace
  simp only [Bool.and_eq_true, decide_eq_true_eq] at h
  have h0 : (48 : Nat) ≤ c.val.toNat := by
    have := h.1
    rw [ge_iff_le, UInt32.le_iff_toNat_le] at this
    simpa using this
  simp only [Bool.or_eq_false_iff, beq_eq_false_iff_ne, ne_eq, decide_eq_false_iff_not]
  refine ⟨⟨⟨?_, ?_⟩, ?_⟩, ?_⟩ <;> (rintro rfl; revert h0; decide)

theorem int_ws (n : Int) (c : Char) (h : c ∈ Dec.showInt n) : c.isWhitespace = false := by
  rcases Dec.showInt_chars n c h with h | h
  · exact digit_ws c h
  · subst h; decide

/-- Integers are read as they were written, with blanks around them. -/
theorem C115_int (flt : Str → Option Rat) (i j : Nat) (n : Int) :
    convert flt (List.replicate i ' ' ++ Dec.showInt n ++ List.replicate j ' ') = .int n := by
  unfold convert
  rw [strip_blanks]
  · rw [Dec.parseInt_showInt]
  · intro c hc
    exact int_ws n c (List.mem_of_mem_head? hc)
  · intro c hc
    exact int_ws n c (List.mem_of_getLast? hc)

/-- Other numbers are those of Python's `float`. -/
theorem C115_float (flt : Str → Option Rat) (v : Str) (q : Rat)
    (h : Dec.parseInt? (strip v) = none) (hf : flt v = some q) : convert flt v = .float q := by
  unfold convert
  rw [h, hf]

theorem parse_quote (s : Str) : Dec.parseInt? ('\'' :: s) = none := by
  unfold Dec.parseInt?
  simp [Dec.parseNat?]

/-- Texts between quotes are read as they were written, unless they have quotes. -/
theorem C115_text_partial (flt : Str → Option Rat) (i j : Nat) (s : Str) (hs : '\'' ∉ s)
    (hf : flt (List.replicate i ' ' ++ quoted s ++ List.replicate j ' ') = none) :
    convert flt (List.replicate i ' ' ++ quoted s ++ List.replicate j ' ') = .text s := by
  have hst : strip (List.replicate i ' ' ++ quoted s ++ List.replicate j ' ') = quoted s := by
    apply strip_blanks
    · intro c hc
      simp only [quoted, List.cons_append, List.head?_cons, Option.some.injEq] at hc
      subst hc
      decide
    · intro c hc
      simp only [quoted, List.getLast?_append, List.getLast?_singleton, Option.some_or,
        Option.some.injEq] at hc
      subst hc
      decide
  unfold convert
  rw [hst, hf]
  have : Dec.parseInt? (quoted s) = none := parse_quote _
  rw [this]
  simp only
  congr 1
  unfold quoted
  rw [List.cons_append, List.filter_cons]
  simp only [bne_self_eq_false, Bool.false_eq_true, ↓reduceIte, List.filter_append]
  have : s.filter (· != '\'') = s := by
    rw [List.filter_eq_self]
    intro c hc
    simp only [bne_iff_ne, ne_eq]
    rintro rfl
    exact hs hc
  rw [this]
  simp

/-! Cards -/

theorem take_name (s t : Str) (p : Str) (n : Nat) (hp : p.length = n) :
    (s ++ t).take n = p → n ≤ s.length → p <+: s := by
  intro h hn
  rw [List.take_append_of_le_length hn] at h
  rw [← h]
  exact List.take_prefix _ _

theorem card_split (name text : Str) (h : IsName name) :
    splitEq (card name text) = some (padTo 8 name,
      ' ' :: text ++ List.replicate (80 - (padTo 8 name ++ ['=', ' '] ++ text).length) ' ') := by
  have hno : ∀ c ∈ padTo 8 name, (c != '=') = true := by
    intro c hc
    unfold padTo at hc
    rw [List.mem_append] at hc
    rcases hc with hc | hc
    · simpa using (h.2.1 c hc).2.1
    · rw [List.mem_replicate] at hc
      rw [hc.2]
      decide
  have e : card name text = padTo 8 name ++ '=' :: (' ' :: text ++
      List.replicate (80 - (padTo 8 name ++ ['=', ' '] ++ text).length) ' ') := by
    show _ ++ _ = _
    simp [List.append_assoc]
  generalize (80 - (padTo 8 name ++ ['=', ' '] ++ text).length) = k at *
  unfold splitEq
  rw [e, if_pos (by simp), List.takeWhile_append_of_pos hno, List.dropWhile_append_of_pos hno]
  simp

theorem name_strip (name : Str) (h : IsName name) : strip (padTo 8 name) = name := by
  unfold padTo
  apply strip_right
  · intro c hc
    exact (h.2.1 c (List.mem_of_mem_head? hc)).2.2
  · intro c hc
    exact (h.2.1 c (List.mem_of_getLast? hc)).2.2

theorem prefix_of_pad (p name : Str) (t : Str) (hp : ∀ c ∈ p, c ≠ ' ')
    (h : (padTo 8 name ++ t).take p.length = p) (h8 : p.length ≤ 8) : p <+: name := by
  have hlen : p.length ≤ (padTo 8 name).length := by
    unfold padTo
    simp
    omega
  rw [List.take_append_of_le_length hlen] at h
  unfold padTo at h
  by_cases hn : p.length ≤ name.length
  · rw [List.take_append_of_le_length hn] at h
    rw [← h]
    exact List.take_prefix _ _
  · exfalso
    have hlt : name.length < p.length := by omega
    have : ' ' ∈ p := by
      rw [← h, List.take_append]
      apply List.mem_append_right
      rw [List.take_replicate, List.mem_replicate]
      exact ⟨by omega, rfl⟩
    exact hp _ this rfl

theorem card_take (name text : Str) (p : Str) (hp : ∀ c ∈ p, c ≠ ' ') (h8 : p.length ≤ 8)
    (h : (card name text).take p.length = p) : p <+: name := by
  have e : card name text = padTo 8 name ++ (['=', ' '] ++ text ++
      List.replicate (80 - (padTo 8 name ++ ['=', ' '] ++ text).length) ' ') := by
    show _ ++ _ = _
    simp [List.append_assoc]
  rw [e] at h
  exact prefix_of_pad p name _ hp h h8

/-- The text of a value with what is around it in the card. -/
def around (name text : Str) : Str :=
  ' ' :: text ++ List.replicate (80 - (padTo 8 name ++ ['=', ' '] ++ text).length) ' '

theorem card_step (flt : Str → Option Rat) (name text : Str) (h : IsName name)
    (rest : List Str) (hd : Header) (last : Option (Str × Value)) :
    cards flt (card name text :: rest) hd last =
      cards flt rest (setKey hd name (convert flt (around name text)))
        (some (name, convert flt (around name text))) := by
  conv => lhs; unfold cards
  rw [if_neg, if_neg, card_split name text h]
  · simp only [name_strip name h]
    rfl
  · intro hc
    have hp := card_take name text "CONTINUE".toList (by decide) (by decide) hc
    obtain ⟨t, ht⟩ := hp
    apply h.2.2.2
    rw [← ht]
    rfl
  · intro hc
    exact h.2.2.1 (card_take name text ['E', 'N', 'D'] (by decide) (by decide) hc)

/-- The header of a list of names and texts: the last of every name. -/
def headerOf (flt : Str → Option Rat) : List (Str × Str) → Header → Header
  | [], h => h
  | (n, t) :: l, h => headerOf flt l (setKey h n (convert flt (around n t)))

/-- Cards of any number are read up to the last card and no further, and every name has
its value. -/
theorem C115_cards (flt : Str → Option Rat) (l : List (Str × Str)) (rest : List Str)
    (hl : ∀ p ∈ l, IsName p.1) : ∀ (h : Header) (last : Option (Str × Value)),
    cards flt (l.map (fun p => card p.1 p.2) ++ endCard :: rest) h last =
      .ok (headerOf flt l h, rest) := by
  induction l with
  | nil =>
    intro h last
    show cards flt (endCard :: rest) h last = _
    conv => lhs; unfold cards
    rw [if_pos (by decide)]
    rfl
  | cons p l ih =>
    intro h last
    rw [List.map_cons, List.cons_append, card_step _ _ _ (hl p (by simp))]
    exact ih (fun q hq => hl q (by simp [hq])) _ _

/-- Names that are there once have their own value. -/
theorem C115_value (flt : Str → Option Rat) (l : List (Str × Str)) (h : Header)
    (hn : (l.map Prod.fst).Nodup) (n t : Str) (hm : (n, t) ∈ l) :
    headerOf flt l h n = some (convert flt (around n t)) := by
  have keep : ∀ (l : List (Str × Str)) (h : Header) (n : Str), n ∉ l.map Prod.fst →
      headerOf flt l h n = h n := by
    intro l
    induction l with
    | nil => intro h n _; rfl
    | cons p l ih =>
      intro h n hn
      rw [List.map_cons, List.mem_cons, not_or] at hn
      show headerOf flt l (setKey h p.1 _) n = _
      rw [ih _ _ hn.2]
      simp [setKey, hn.1]
  induction l generalizing h with
  | nil => simp at hm
  | cons p l ih =>
    rw [List.map_cons, List.nodup_cons] at hn
    rw [List.mem_cons] at hm
    show headerOf flt l (setKey h p.1 _) n = _
    rcases hm with rfl | hm
    · rw [keep _ _ _ hn.1]
      simp [setKey]
    · exact ih _ hn.2 hm

/-- Integers in cards. -/
theorem C115_card_int (flt : Str → Option Rat) (name : Str) (n : Int) (k : Nat) :
    convert flt (around name (List.replicate k ' ' ++ Dec.showInt n)) = .int n := by
  unfold around
  generalize (80 - (padTo 8 name ++ ['=', ' '] ++ (List.replicate k ' ' ++ Dec.showInt n)).length)
    = j
  have : ' ' :: (List.replicate k ' ' ++ Dec.showInt n) ++ List.replicate j ' ' =
      List.replicate (k + 1) ' ' ++ Dec.showInt n ++ List.replicate j ' ' := by
    simp [List.replicate_succ]
  rw [this, C115_int]

/-- Texts in cards. -/
theorem C115_card_text_partial (flt : Str → Option Rat) (name s : Str) (hs : '\'' ∉ s)
    (hf : ∀ v, '\'' ∈ v → flt v = none) :
    convert flt (around name (quoted s)) = .text s := by
  unfold around
  generalize (80 - (padTo 8 name ++ ['=', ' '] ++ quoted s).length) = j
  have : ' ' :: quoted s ++ List.replicate j ' ' =
      List.replicate 1 ' ' ++ quoted s ++ List.replicate j ' ' := rfl
  rw [this, C115_text_partial _ _ _ _ hs (hf _ (by simp [quoted]))]

theorem continue_word (t : Str) (ht : ∀ c, t.head? = some c → c.isWhitespace = false)
    (hn : t ≠ []) (k : Nat) :
    afterWord ("CONTINUE  ".toList ++ t ++ List.replicate k ' ') =
      some (t ++ List.replicate k ' ') := by
  unfold afterWord
  cases t with
  | nil => exact absurd rfl hn
  | cons a l =>
    have ha : a.isWhitespace = false := ht a rfl
    have e : "CONTINUE  ".toList = ['C', 'O', 'N', 'T', 'I', 'N', 'U', 'E', ' ', ' '] := by decide
    rw [e]
    simp only [List.cons_append, List.nil_append, List.dropWhile_cons,
      show Char.isWhitespace 'C' = false by decide, show Char.isWhitespace 'O' = false by decide,
      show Char.isWhitespace 'N' = false by decide, show Char.isWhitespace 'T' = false by decide,
      show Char.isWhitespace 'I' = false by decide, show Char.isWhitespace 'U' = false by decide,
      show Char.isWhitespace 'E' = false by decide, ws_blank, Bool.not_false, Bool.not_true,
      Bool.false_eq_true, ↓reduceIte, ha]

/-- A text that is continued: the mark at its end is taken away and the rest put on. -/
theorem C115_continued_partial (flt : Str → Option Rat) (name a b : Str) (h : IsName name)
    (ha : '\'' ∉ a) (hb : '\'' ∉ b) (hf : ∀ v, '\'' ∈ v → flt v = none)
    (ha0 : ∀ c, a.head? = some c → c.isWhitespace = false ∧ c.isDigit = false ∧ c ≠ '-' ∧ c ≠ '+')
    (hne : a ≠ []) (hl : b.length < 67) (rest : List Str) (hd : Header)
    (last : Option (Str × Value)) :
    ∃ hd', cards flt (card name (quoted (a ++ ['&'])) :: continueCard (quoted b) :: endCard :: rest)
        hd last = .ok (hd', rest) ∧ hd' name = some (.text (a ++ b)) := by
  rw [card_step _ _ _ h, C115_card_text_partial _ _ _ (by simp [ha]) hf]
  conv => enter [1, hd', 1]; unfold cards
  obtain ⟨k, hk⟩ : ∃ k, continueCard (quoted b) =
      "CONTINUE  ".toList ++ quoted b ++ List.replicate (k + 1) ' ' := by
    refine ⟨80 - ("CONTINUE  ".toList ++ quoted b).length - 1, ?_⟩
    have : 80 - ("CONTINUE  ".toList ++ quoted b).length - 1 + 1 =
        80 - ("CONTINUE  ".toList ++ quoted b).length := by
      have : ("CONTINUE  ".toList ++ quoted b).length = 12 + b.length := by
        have e : ("CONTINUE  ".toList).length = 10 := by decide
        rw [List.length_append, e]
        simp [quoted]
        omega
      omega
    rw [this]
    rfl
  have hw := continue_word (quoted b) (by
    intro c hc
    simp only [quoted, List.cons_append, List.head?_cons, Option.some.injEq] at hc
    subst hc
    decide) (by simp [quoted]) (k + 1)
  have e3 : (continueCard (quoted b)).take 3 ≠ ['E', 'N', 'D'] := by
    rw [hk, List.append_assoc, List.take_append_of_le_length (by decide)]
    decide
  have e8 : (continueCard (quoted b)).take 8 = "CONTINUE".toList := by
    rw [hk, List.append_assoc, List.take_append_of_le_length (by decide)]
    decide
  rw [if_neg e3, if_pos e8, hk, hw]
  simp only [List.dropLast_concat]
  have hdl : (quoted b ++ List.replicate (k + 1) ' ').dropLast =
      quoted b ++ List.replicate k ' ' := by
    rw [List.replicate_succ', ← List.append_assoc, List.dropLast_concat]
  rw [hdl]
  have hc : convert flt (a ++ (quoted b ++ List.replicate k ' ')) = .text (a ++ b) := by
    have hst : strip (a ++ (quoted b ++ List.replicate k ' ')) = a ++ quoted b := by
      rw [← List.append_assoc]
      apply strip_right
      · intro c hc
        cases a with
        | nil => exact absurd rfl hne
        | cons x l => exact (ha0 c (by simpa using hc)).1
      · intro c hc
        have : (a ++ quoted b).getLast? = some '\'' := by
          unfold quoted
          rw [← List.append_assoc, List.getLast?_concat]
        rw [this] at hc
        cases hc
        decide
    unfold convert
    rw [hst, hf _ (by simp [quoted])]
    have hp : Dec.parseInt? (a ++ quoted b) = none := by
      cases a with
      | nil => exact absurd rfl hne
      | cons x l =>
        obtain ⟨-, hx, h1, h2⟩ := ha0 x rfl
        have e : Dec.parseInt? (x :: l ++ quoted b) =
            (Dec.parseNat? (x :: l ++ quoted b)).map (fun n : Nat => (n : Int)) := by
          rw [List.cons_append]
          unfold Dec.parseInt?
          split
          · rename_i heq; cases heq; exact absurd rfl h1
          · rename_i heq; cases heq; exact absurd rfl h2
          · rfl
        rw [e]
        simp [Dec.parseNat?, hx]
    rw [hp]
    simp only
    congr 1
    have nf : ∀ s : Str, '\'' ∉ s → s.filter (· != '\'') = s := by
      intro s hs
      rw [List.filter_eq_self]
      intro c hc
      simp only [bne_iff_ne, ne_eq]
      rintro rfl
      exact hs hc
    unfold quoted
    rw [List.filter_append, nf a ha, List.cons_append, List.filter_cons]
    simp only [bne_self_eq_false, Bool.false_eq_true, ↓reduceIte, List.filter_append, nf b hb]
    simp
  rw [hc]
  refine ⟨setKey (setKey hd name (.text (a ++ ['&']))) name (.text (a ++ b)), ?_, by simp [setKey]⟩
  conv => lhs; unfold cards
  rw [if_pos (by decide)]

/-- A header without a last card gives an error, whatever its cards. -/
theorem C115_no_end (flt : Str → Option Rat) (l : List (Str × Str)) (hl : ∀ p ∈ l, IsName p.1) :
    ∀ (h : Header) (last : Option (Str × Value)),
    cards flt (l.map fun p => card p.1 p.2) h last = .error .value := by
  induction l with
  | nil => intro h last; rfl
  | cons p l ih =>
    intro h last
    rw [List.map_cons, card_step _ _ _ (hl p (by simp))]
    exact ih (fun q hq => hl q (by simp [hq])) _ _

/-- Bandwidth and frequency are given in Hz. -/
theorem C115_hertz (h : Header) (k : Str) (n : Int) (hk : h k = some (.int n)) :
    ∃ h', million h k = .ok h' ∧ h' k = some (.float (n * 1000000)) ∧ ∀ j, j ≠ k → h' j = h j := by
  refine ⟨setKey h k (.float (n * 1000000)), by simp [million, hk], by simp [setKey], ?_⟩
  intro j hj
  simp [setKey, hj]

theorem C115_hertz_float (h : Header) (k : Str) (q : Rat) (hk : h k = some (.float q)) :
    ∃ h', million h k = .ok h' ∧ h' k = some (.float (q * 1000000)) ∧ ∀ j, j ≠ k → h' j = h j := by
  refine ⟨setKey h k (.float (q * 1000000)), by simp [million, hk], by simp [setKey], ?_⟩
  intro j hj
  simp [setKey, hj]

/-- A whole header with bandwidth and frequency in MHz: these are given in Hz, all other
values as they are, and the file is left after the last card. -/
theorem C115_read (flt : Str → Option Rat) (l : List (Str × Str)) (rest : List Str)
    (hl : ∀ p ∈ l, IsName p.1) (hn : (l.map Prod.fst).Nodup) (b f : Int) (i j : Nat)
    (hb : ("OBSBW".toList, List.replicate i ' ' ++ Dec.showInt b) ∈ l)
    (hf : ("OBSFREQ".toList, List.replicate j ' ' ++ Dec.showInt f) ∈ l) :
    ∃ h, readHeader flt (l.map (fun p => card p.1 p.2) ++ endCard :: rest) = .ok (h, rest) ∧
      h "OBSBW".toList = some (.float (b * 1000000)) ∧
      h "OBSFREQ".toList = some (.float (f * 1000000)) ∧
      ∀ n t, (n, t) ∈ l → n ≠ "OBSBW".toList → n ≠ "OBSFREQ".toList →
        h n = some (convert flt (around n t)) := by
  have hB := C115_value flt l (fun _ => none) hn _ _ hb
  have hF := C115_value flt l (fun _ => none) hn _ _ hf
  rw [C115_card_int] at hB hF
  have hc := C115_cards flt l rest hl (fun _ => none) none
  obtain ⟨h1, e1, e2, e3⟩ := C115_hertz _ _ _ hB
  have hne : "OBSFREQ".toList ≠ "OBSBW".toList := by decide
  have hF1 : h1 "OBSFREQ".toList = some (.int f) := by rw [e3 _ hne, hF]
  obtain ⟨h2, f1, f2, f3⟩ := C115_hertz _ _ _ hF1
  refine ⟨h2, ?_, ?_, f2, fun n t hm h3 h4 => ?_⟩
  · unfold readHeader
    rw [hc]
    simp only [bind, Except.bind, e1, f1, pure, Except.pure]
  · rw [f3 _ hne.symm, e2]
  · rw [f3 _ h4, e3 _ h3, C115_value flt l _ hn n t hm]

/-! Where it is not so -/

/-- No numbers with fractions, for the examples. -/
def noFloat : Str → Option Rat := fun _ => none

/-- A comment is taken to be part of the value, so that a number with one is a text. -/
theorem C115_not_comment :
    convert noFloat " 5 / number of beams ".toList = .text "5 / number of beams".toList := by
  decide +kernel

/-- The bandwidth with a comment raises `TypeError`; without a bandwidth it is
`KeyError`. -/
theorem C115_not_bandwidth :
    (readHeader noFloat [card "OBSBW".toList "64 / MHz".toList, endCard]).toOption.isNone = true ∧
    (cards noFloat [card "OBSBW".toList "64 / MHz".toList, endCard] (fun _ => none) none).toOption.isSome
      = true ∧
    (∀ h k s, h k = some (.text s) → million h k = .error .type) ∧
    (∀ h k, h k = none → million h k = .error .key) := by
  refine ⟨by decide +kernel, by decide +kernel, ?_, ?_⟩
  · intro h k s hk; simp [million, hk]
  · intro h k hk; simp [million, hk]

/-- A comment card, which has no `=`, raises `ValueError`. -/
theorem C115_not_comment_card (flt : Str → Option Rat) (rest : List Str) (h : Header)
    (last : Option (Str × Value)) :
    cards flt (padTo 80 "COMMENT made at the VLA".toList :: rest) h last = .error .value := by
  conv => lhs; unfold cards
  rw [if_neg (by decide +kernel), if_neg (by decide +kernel)]
  have : splitEq (padTo 80 "COMMENT made at the VLA".toList) = none := by decide +kernel
  rw [this]

/-- Any name that begins with END is the end of the header. -/
theorem C115_not_end (flt : Str → Option Rat) (name text : Str) (rest : List Str) (h : Header)
    (last : Option (Str × Value)) :
    cards flt (card ('E' :: 'N' :: 'D' :: name) text :: rest) h last = .ok (h, rest) := by
  conv => lhs; unfold cards
  rw [if_pos]
  simp [card, padTo]

/-- Blanks before the closing quote are kept, and quotes within a text are lost. -/
theorem C115_not_text :
    convert noFloat " '3C48    '".toList = .text "3C48    ".toList ∧
    convert noFloat " 'O''Neill'".toList = .text "ONeill".toList := by
  decide +kernel

/-- A number cannot be continued, and a text without a mark loses its last character. -/
theorem C115_not_continued :
    (∀ flt rest h name n, cards flt (continueCard (quoted ['x']) :: rest) h (some (name, .int n)) =
      .error .type) ∧
    (cards noFloat [card ['A'] (quoted "abc".toList), continueCard (quoted "def".toList), endCard]
      (fun _ => none) none).toOption.map (fun p => p.1 ['A']) =
      some (some (.text "abdef".toList)) := by
  constructor
  · intro flt rest h name n
    conv => lhs; unfold cards
    rw [if_neg (by decide +kernel), if_pos (by decide +kernel)]
    have : afterWord (continueCard (quoted ['x'])) =
        some (quoted ['x'] ++ List.replicate 67 ' ') := by decide +kernel
    rw [this]
  · decide +kernel

/-- A continuation without text raises `ValueError`. -/
theorem C115_not_empty (flt : Str → Option Rat) (rest : List Str) (h : Header)
    (last : Option (Str × Value)) :
    cards flt (continueCard [] :: rest) h last = .error .value := by
  conv => lhs; unfold cards
  rw [if_neg (by decide +kernel), if_pos (by decide +kernel)]
  have : afterWord (continueCard []) = none := by decide +kernel
  rw [this]

/-- Nothing can be continued at first. -/
theorem C115_not_first : cards noFloat [continueCard (quoted ['x']), endCard] (fun _ => none) none
    |>.toOption.isNone := by decide +kernel

example : (readHeader noFloat [card "OBSBW".toList "64".toList, card "OBSFREQ".toList "-1400".toList,
      card "TELESCOP".toList "'VLA'".toList, endCard, ['x']]).toOption.map
    (fun p => (p.1 "OBSBW".toList, p.1 "OBSFREQ".toList, p.1 "TELESCOP".toList, p.2)) =
    some (some (.float 64000000), some (.float (-1400000000)), some (.text "VLA".toList), [['x']]) := by
  decide +kernel

example : IsName "TELESCOP".toList :=
  ⟨by decide, by decide, by decide, by decide⟩

example : (card "OBSBW".toList "64".toList).length = 80 := by decide +kernel

end Verif.Guppi
