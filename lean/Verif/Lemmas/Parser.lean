import Verif.Model.Parser
import Verif.Lemmas.Dec
/-!
# Facts about stripping, cutting and numbers in text
-/
namespace Verif.Parser
open Dec

theorem dropWhile_blank_append (pre s : Str) (h : ∀ c ∈ pre, isBlank c = true) :
    (pre ++ s).dropWhile isBlank = s.dropWhile isBlank := by
  induction pre with
  | nil => rfl
  | cons c pre ih =>
    rw [List.cons_append, List.dropWhile_cons_of_pos (h c (List.mem_cons_self ..))]
    exact ih (fun x hx => h x (List.mem_cons_of_mem _ hx))

theorem dropWhile_all (s : Str) (h : ∀ c ∈ s, isBlank c = true) : s.dropWhile isBlank = [] := by
  have := dropWhile_blank_append s [] h
  simpa using this

theorem strip_pre (pre s : Str) (h : ∀ c ∈ pre, isBlank c = true) : strip (pre ++ s) = strip s := by
  unfold strip; rw [dropWhile_blank_append pre s h]

theorem dropWhile_append_some (s post : Str) (h : ∃ c ∈ s, isBlank c = false) :
    (s ++ post).dropWhile isBlank = s.dropWhile isBlank ++ post := by
  induction s with
  | nil => obtain ⟨c, hc, _⟩ := h; cases hc
  | cons x s ih =>
    by_cases hx : isBlank x = true
    · rw [List.cons_append, List.dropWhile_cons_of_pos hx, List.dropWhile_cons_of_pos hx]
      refine ih ?_
      obtain ⟨c, hc, hb⟩ := h
      rcases List.mem_cons.1 hc with rfl | hc
      · rw [hx] at hb; cases hb
      · exact ⟨c, hc, hb⟩
    · rw [List.cons_append, List.dropWhile_cons_of_neg hx, List.dropWhile_cons_of_neg hx]; rfl

theorem strip_post (s post : Str) (h : ∀ c ∈ post, isBlank c = true) : strip (s ++ post) = strip s := by
  unfold strip
  by_cases hs : ∃ c ∈ s, isBlank c = false
  · rw [dropWhile_append_some s post hs, List.reverse_append,
      dropWhile_blank_append post.reverse _ (fun c hc => h c (List.mem_reverse.1 hc))]
  · have hs' : ∀ c ∈ s, isBlank c = true := by
      intro c hc
      cases hb : isBlank c with
      | true => rfl
      | false => exact absurd ⟨c, hc, hb⟩ hs
    rw [dropWhile_blank_append s post hs', dropWhile_all post h, dropWhile_all s hs']

/-- Neither end is a blank. -/
def Tight (s : Str) : Prop := (∀ c, s.head? = some c → isBlank c = false) ∧ (∀ c, s.getLast? = some c → isBlank c = false)

theorem strip_tight (s : Str) (h : Tight s) : strip s = s := by
  unfold strip
  have h1 : s.dropWhile isBlank = s := by
    cases s with
    | nil => rfl
    | cons c s => rw [List.dropWhile_cons_of_neg (by rw [h.1 c rfl]; decide)]
  rw [h1]
  have h2 : s.reverse.dropWhile isBlank = s.reverse := by
    cases hr : s.reverse with
    | nil => rfl
    | cons c r =>
      have : s.getLast? = some c := by rw [List.getLast?_eq_head?_reverse, hr]; rfl
      rw [List.dropWhile_cons_of_neg (by rw [h.2 c this]; decide)]
  rw [h2, List.reverse_reverse]

theorem strip_mid (pre s post : Str) (h1 : ∀ c ∈ pre, isBlank c = true) (h2 : ∀ c ∈ post, isBlank c = true) :
    strip (pre ++ s ++ post) = strip s := by
  rw [strip_post _ _ h2, strip_pre _ _ h1]

theorem takeWhile_blank (s : Str) : ∀ c ∈ s.takeWhile isBlank, isBlank c = true := by
  intro c hc
  induction s with
  | nil => cases hc
  | cons x s ih =>
    rw [List.takeWhile_cons] at hc
    split at hc
    · rcases List.mem_cons.1 hc with rfl | hc
      · assumption
      · exact ih hc
    · cases hc

/-- A text is its stripped text among blanks. -/
theorem strip_split (s : Str) : ∃ pre post, s = pre ++ strip s ++ post ∧ (∀ c ∈ pre, isBlank c = true) ∧
    (∀ c ∈ post, isBlank c = true) := by
  refine ⟨s.takeWhile isBlank, ((s.dropWhile isBlank).reverse.takeWhile isBlank).reverse, ?_, takeWhile_blank s, ?_⟩
  · unfold strip
    have h := List.takeWhile_append_dropWhile (p := isBlank) (l := (s.dropWhile isBlank).reverse)
    have h' := congrArg List.reverse h
    rw [List.reverse_append, List.reverse_reverse] at h'
    rw [List.append_assoc, h', List.takeWhile_append_dropWhile]
  · intro c hc
    exact takeWhile_blank _ c (List.mem_reverse.1 hc)

theorem cut_none (c : Char) (s : Str) (h : c ∉ s) : cut c s = none := by
  induction s with
  | nil => rfl
  | cons x s ih =>
    have hx : ¬ x = c := fun hx => h (by simp [hx])
    simp [cut, hx, ih (fun hs => h (List.mem_cons_of_mem _ hs))]

theorem cut_append (c : Char) (a b : Str) (h : c ∉ a) : cut c (a ++ c :: b) = some (a, b) := by
  induction a with
  | nil => simp [cut]
  | cons x a ih =>
    have hx : ¬ x = c := fun hx => h (by simp [hx])
    simp [cut, hx, ih (fun hs => h (List.mem_cons_of_mem _ hs))]

theorem cut_some (c : Char) (s a b : Str) (h : cut c s = some (a, b)) : s = a ++ c :: b ∧ c ∉ a := by
  induction s generalizing a with
  | nil => cases h
  | cons x s ih =>
    rw [cut] at h
    split at h
    · next hx => cases h; subst hx; exact ⟨rfl, by simp⟩
    · next hx =>
      cases hc : cut c s with
      | none => rw [hc] at h; cases h
      | some p =>
        rw [hc] at h
        obtain ⟨a', b'⟩ := p
        simp only [Option.map_some, Option.some.injEq, Prod.mk.injEq] at h
        obtain ⟨rfl, rfl⟩ := h
        obtain ⟨h1, h2⟩ := ih a' hc
        refine ⟨by rw [h1]; rfl, ?_⟩
        intro hm
        rcases List.mem_cons.1 hm with h | h
        · exact hx h.symm
        · exact h2 h

theorem not_mem_of_cut_none (c : Char) (s : Str) (h : cut c s = none) : c ∉ s := by
  intro hc
  obtain ⟨a, b, hs, ha⟩ := List.eq_append_cons_of_mem hc
  rw [hs, cut_append c a b ha] at h
  cases h

theorem digit_not_blank (c : Char) (h : c.isDigit = true) : isBlank c = false := by
  simp only [Char.isDigit, Bool.and_eq_true, decide_eq_true_eq] at h
  have h1 : 48 ≤ c.toNat := h.1
  have ne : ∀ d : Char, d.toNat < 48 → (c == d) = false := by
    intro d hd
    cases hcd : c == d with
    | false => rfl
    | true => rw [beq_iff_eq.1 hcd] at h1; omega
  simp only [isBlank, ne ' ' (by decide), ne '\t' (by decide), ne '\n' (by decide), ne '\r' (by decide),
    ne (Char.ofNat 11) (by decide), ne (Char.ofNat 12) (by decide), Bool.or_self, Bool.false_or]
  have : ¬ c.toNat ≤ 31 := by omega
  simp [this]

theorem showInt_not_blank (n : Int) (c : Char) (h : c ∈ showInt n) : isBlank c = false := by
  rcases showInt_chars n c h with h | h
  · exact digit_not_blank c h
  · subst h; decide

theorem showInt_ne_nil (n : Int) : showInt n ≠ [] := by
  unfold showInt; split
  · simp
  · exact showNat_ne_nil _

theorem tight_of_all (s : Str) (h : ∀ c ∈ s, isBlank c = false) : Tight s :=
  ⟨fun c hc => h c (List.mem_of_head? hc), fun c hc => h c (List.mem_of_getLast? hc)⟩

theorem natText_showNat (n : Nat) : natText? (showNat n) = some n := by
  unfold natText?
  have h : splitOn '_' (showNat n) = [showNat n] := splitOn_not_mem _ _ (not_mem_showNat n '_' (by decide))
  simp only [h, List.all_cons, List.all_nil, List.flatten_cons, List.flatten_nil, List.append_nil, Bool.and_true]
  rw [if_pos ?_, parseNat_showNat]
  simp [showNat_ne_nil]
  exact showNat_digit n

theorem intText_of_strip (s t : Str) (h : strip s = strip t) : intText? s = intText? t := by
  unfold intText?; rw [h]

theorem intText_showInt (n : Int) : intText? (showInt n) = some n := by
  unfold intText?
  rw [strip_tight _ (tight_of_all _ (showInt_not_blank n))]
  by_cases h : n < 0
  · rw [show showInt n = '-' :: showNat (-n).toNat by unfold showInt; rw [if_pos h]]
    show (natText? (showNat (-n).toNat)).map _ = _
    rw [natText_showNat, Option.map_some]
    congr 1
    omega
  · rw [show showInt n = showNat n.toNat by unfold showInt; rw [if_neg h]]
    have hd := showNat_digit n.toNat
    split
    · next l e => rw [e] at hd; exact absurd (hd '-' (List.mem_cons_self ..)) (by decide)
    · next l e => rw [e] at hd; exact absurd (hd '+' (List.mem_cons_self ..)) (by decide)
    · rw [natText_showNat, Option.map_some]
      congr 1
      omega

theorem intText_pad (n : Int) (pre post : Str) (h1 : ∀ c ∈ pre, isBlank c = true) (h2 : ∀ c ∈ post, isBlank c = true) :
    intText? (pre ++ showInt n ++ post) = some n := by
  rw [intText_of_strip _ (showInt n) (strip_mid _ _ _ h1 h2), intText_showInt]

end Verif.Parser
