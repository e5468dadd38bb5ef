import Verif.Model.Nec
import Verif.Lemmas.Ionex
/-!
# C111: files of antenna simulations are read and changed as they are written
-/
namespace Verif.Nec
open Verif.Ionex (contains words splitBlank)
open Verif.Parser (isBlank)

/-! ## Looking for lines -/

def Free (p : Text) (ls : List Text) : Prop := ∀ l ∈ ls, contains p l = false

theorem seek_at (p : Text) (pre : List Text) (l : Text) (r : List Text) (h : Free p pre) (hl : contains p l = true) :
    seek p (pre ++ l :: r) = some (l, r) := by
  induction pre with
  | nil => simp [seek, hl]
  | cons x pre ih =>
    rw [List.cons_append]
    unfold seek
    rw [if_neg (by simp [h x (by simp)]), ih fun y hy => h y (by simp [hy])]

theorem seek_none (p : Text) (ls : List Text) (h : Free p ls) : seek p ls = none := by
  induction ls with
  | nil => rfl
  | cons x ls ih =>
    unfold seek
    rw [if_neg (by simp [h x (by simp)]), ih fun y hy => h y (by simp [hy])]

theorem left_at (p : Text) (pre : List Text) (l : Text) (r : List Text) (h : Free p pre) (hl : contains p l = true) : left p (pre ++ l :: r) = r := by
  simp [left, seek_at p pre l r h hl]

/-- A line with the frequency `x`, in either form. -/
def FreqLine (num : Text → Option Rat) (l : Text) (x : Rat) : Prop :=
  (contains sFreqEq l = true ∧ valueAt num '=' l = .ok x)
  ∨ (contains sFreqEq l = false ∧ contains sFreqColon l = true ∧ valueAt num ':' l = .ok x)

theorem freqAt_at (num : Text → Option Rat) (pre : List Text) (l : Text) (x : Rat) (r : List Text) (h1 : Free sFreqEq pre) (h2 : Free sFreqColon pre)
    (hl : FreqLine num l x) : freqAt num (pre ++ l :: r) = .ok (some (x, r)) := by
  induction pre with
  | nil =>
    rw [List.nil_append]
    unfold freqAt
    rcases hl with ⟨a, b⟩ | ⟨a, b, c⟩
    · rw [if_pos a, b]; rfl
    · rw [if_neg (by simp [a]), if_pos b, c]; rfl
  | cons y pre ih =>
    rw [List.cons_append]
    unfold freqAt
    rw [if_neg (by simp [h1 y (by simp)]), if_neg (by simp [h2 y (by simp)]), ih (fun z hz => h1 z (by simp [hz])) fun z hz => h2 z (by simp [hz])]

theorem freqAt_none (num : Text → Option Rat) (ls : List Text) (h1 : Free sFreqEq ls) (h2 : Free sFreqColon ls) : freqAt num ls = .ok none := by
  induction ls with
  | nil => rfl
  | cons y ls ih =>
    unfold freqAt
    rw [if_neg (by simp [h1 y (by simp)]), if_neg (by simp [h2 y (by simp)]), ih (fun z hz => h1 z (by simp [hz])) fun z hz => h2 z (by simp [hz])]

theorem after_at (c : Char) (pre l : Text) (h : ∀ x ∈ pre, x ≠ c) : after c (pre ++ c :: l) = l := by
  unfold after
  induction pre with
  | nil => simp
  | cons x pre ih =>
    rw [List.cons_append, List.dropWhile_cons_of_pos (by simp [h x (by simp)])]
    exact ih fun y hy => h y (by simp [hy])

/-- The value after the first sign: the first word there. -/
theorem C111_value (num : Text → Option Rat) (c : Char) (pre w rest : Text) (k : Nat) (x : Rat) (h : ∀ y ∈ pre, y ≠ c) (hw : w ≠ [])
    (ht : ∀ y ∈ w, isBlank y = false) (hr : rest = [] ∨ ∃ r, rest = ' ' :: r) (hx : num w = some x) :
    valueAt num c (pre ++ c :: (List.replicate k ' ' ++ (w ++ rest))) = .ok x := by
  unfold valueAt
  rw [after_at c pre _ h, Ionex.words_blanks, Ionex.words_word w rest hw ht hr]
  simp [hx]

/-- The frequency of an output file is the first one after the heading, and the file goes on after it. -/
theorem C111_open (num : Text → Option Rat) (pre : List Text) (s : Text) (j1 : List Text) (h : Text) (j2 : List Text) (f : Text) (x : Rat) (r : List Text)
    (hp : Free sSpec pre) (hs : contains sSpec s = true) (h1 : Free sFreq j1) (hh : contains sFreq h = true)
    (h2 : Free sFreqEq j2) (h3 : Free sFreqColon j2) (hf : FreqLine num f x) :
    openFreq num (pre ++ s :: (j1 ++ h :: (j2 ++ f :: r))) = .ok (x, r) := by
  unfold openFreq
  rw [seek_at _ _ _ _ hp hs]
  simp only
  rw [left_at _ _ _ _ h1 hh, freqAt_at num j2 f x r h2 h3 hf]

/-- Without the structure, or without a frequency, the file is refused. -/
theorem C111_open_none (num : Text → Option Rat) (ls : List Text) (h : Free sSpec ls) : openFreq num ls = .error .runtime := by
  unfold openFreq
  rw [seek_none _ _ h]

/-! ## Impedances -/

/-- A block is as it should be, and has this frequency and impedance. -/
structure Block.Good (num : Text → Option Rat) (b : Block) (f r x : Rat) : Prop where
  before : Free sFreq b.before
  heading : contains sFreq b.heading = true
  between : Free sFreqEq b.between
  between' : Free sFreqColon b.between
  freq : FreqLine num b.freq f
  gap : Free sAnt b.gap
  antenna : contains sAnt b.antenna = true
  gap2 : Free sImp b.gap2
  table : contains sImp b.table = true
  first : zOf num b.first = .ok (r, x)

theorem turn_block (num : Text → Option Rat) (b : Block) (f r x : Rat) (h : b.Good num f r x) (rest : List Text) :
    turn num (b.lines ++ rest) = .ok (some ((f, r, x), rest)) := by
  have e : b.lines ++ rest = b.before ++ b.heading :: (b.between ++ b.freq :: (b.gap ++ b.antenna :: (b.gap2 ++ b.table :: b.units :: b.first :: rest))) := by
    simp [Block.lines]
  unfold turn
  rw [e, left_at _ _ _ _ h.before h.heading, freqAt_at num _ _ f _ h.between h.between' h.freq]
  simp only
  rw [left_at _ _ _ _ h.gap h.antenna, seek_at _ _ _ _ h.gap2 h.table]
  simp only [twoLines, h.first]

theorem block_length (b : Block) : 0 < b.lines.length := by simp [Block.lines]; omega

/-- `NECImpedance` has the frequency and the impedance of every block of the file, in their order. -/
theorem C111_impedance (num : Text → Option Rat) (pre : List Text) (s : Text) (bs : List (Block × Rat × Rat × Rat)) (tail : List Text)
    (hp : Free sSpec pre) (hs : contains sSpec s = true) (hb : ∀ b ∈ bs, b.1.Good num b.2.1 b.2.2.1 b.2.2.2)
    (h1 : Free sFreqEq tail) (h2 : Free sFreqColon tail) :
    impedance num (pre ++ s :: (bs.flatMap (fun b => b.1.lines) ++ tail)) = .ok (bs.map (·.2)) := by
  unfold impedance
  rw [seek_at _ _ _ _ hp hs]
  simp only
  have hleft : ∀ (ls : List Text), ∀ l ∈ left sFreq ls, l ∈ ls := by
    intro ls
    induction ls with
    | nil => intro l h; simp [left, seek] at h
    | cons y ls ih =>
      intro l h
      unfold left seek at h
      split at h
      · simp only [Option.map_some, Option.getD_some] at h
        exact List.mem_cons_of_mem _ h
      · exact List.mem_cons_of_mem _ (ih l h)
  have key : ∀ (bs : List (Block × Rat × Rat × Rat)) (n : Nat), (∀ b ∈ bs, b.1.Good num b.2.1 b.2.2.1 b.2.2.2) → bs.length < n →
      turns num n (bs.flatMap (fun b => b.1.lines) ++ tail) = .ok (bs.map (·.2)) := by
    intro bs
    induction bs with
    | nil =>
      intro n _ hn
      obtain ⟨m, rfl⟩ : ∃ m, n = m + 1 := ⟨n - 1, by simp at hn; omega⟩
      have : turn num tail = .ok none := by
        unfold turn
        rw [freqAt_none num _ (fun l hl => h1 l (hleft _ l hl)) (fun l hl => h2 l (hleft _ l hl))]
      simp only [List.flatMap_nil, List.nil_append, turns, this, List.map_nil]
    | cons b bs ih =>
      intro n hb hn
      obtain ⟨m, rfl⟩ : ∃ m, n = m + 1 := ⟨n - 1, by simp at hn; omega⟩
      rw [List.flatMap_cons, List.append_assoc]
      unfold turns
      rw [turn_block num b.1 _ _ _ (hb b (by simp))]
      simp only
      rw [ih m (fun c hc => hb c (by simp [hc])) (by simp at hn; omega)]
      rfl
  apply key bs _ hb
  have : bs.length ≤ (bs.flatMap (fun b => b.1.lines)).length := by
    clear hb key
    induction bs with
    | nil => simp
    | cons b bs ih =>
      have := block_length b.1
      simp only [List.flatMap_cons, List.length_append, List.length_cons]
      omega
  simp only [List.length_append]
  omega

/-- A number as the simulation writes it: no blanks, `-` only at the beginning or after `E`, a digit at the end. -/
def Field (t : Text) : Prop := ∃ c m z, t = c :: (m ++ [z]) ∧ isBlank c = false ∧ (∀ x ∈ m, isBlank x = false) ∧ z.isDigit = true
  ∧ spaced t = t

theorem spaced_append (a b : Text) (z : Char) (hz : z.isDigit = true) (ha : spaced (a ++ [z]) = a ++ [z]) :
    spaced (a ++ z :: b) = a ++ z :: (if b.head? = some '-' then ' ' :: spaced b else spaced b) := by
  induction a with
  | nil =>
    simp only [List.nil_append, spaced, hz, true_and]
    split <;> rfl
  | cons c a ih =>
    have e : ((a ++ z :: b)).head? = (a ++ [z]).head? := by cases a <;> rfl
    simp only [List.cons_append, spaced] at ha ⊢
    rw [e]
    split at ha
    · rename_i h
      exfalso
      have hl := congrArg List.length ha
      have hlen : ∀ l : Text, l.length ≤ (spaced l).length := by
        intro l
        induction l with
        | nil => simp
        | cons x l ih => unfold spaced; split <;> simp <;> omega
      have := hlen (a ++ [z])
      simp only [List.length_cons] at hl
      omega
    · rename_i h
      rw [if_neg h, ih (List.cons.inj ha).2]

/-- Numbers each in 12 columns, those with a sign without a blank before, are parted as they should be. -/
theorem C111_fields (fs : List (Nat × Text)) (h : ∀ f ∈ fs, Field f.2 ∧ (f.1 = 0 → f.2.head? = some '-')) :
    words (spaced (fs.flatMap fun f => List.replicate f.1 ' ' ++ f.2)) = fs.map (·.2) := by
  have hb : isBlank ' ' = true := by decide +kernel
  have hsp : ∀ k l, spaced (List.replicate k ' ' ++ l) = List.replicate k ' ' ++ spaced l := by
    intro k l
    induction k with
    | zero => rfl
    | succ k ih =>
      rw [List.replicate_succ, List.cons_append, List.cons_append, ← ih]
      conv => lhs; unfold spaced
      rw [if_neg (by simp)]
  induction fs with
  | nil => exact Ionex.words_nil
  | cons f fs ih =>
    obtain ⟨⟨c, m, z, he, hc, hm, hz, hsf⟩, _⟩ := h f (by simp)
    rw [List.flatMap_cons, List.append_assoc, hsp, Ionex.words_blanks, List.map_cons]
    have e : f.2 = (c :: m) ++ [z] := by rw [he]; rfl
    generalize hrest : (fs.flatMap fun f => List.replicate f.1 ' ' ++ f.2) = rest at ih ⊢
    have hs2 : spaced (f.2 ++ rest) = f.2 ++ (if rest.head? = some '-' then ' ' :: spaced rest else spaced rest) := by
      have := spaced_append (c :: m) rest z hz (by rw [← e]; exact hsf)
      rw [e, List.append_assoc, List.singleton_append, this]
      simp
    rw [hs2]
    have hzb : isBlank z = false := Parser.digit_not_blank z hz
    have ht : ∀ y ∈ f.2, isBlank y = false := by
      intro y hy
      rw [e] at hy
      simp only [List.cons_append, List.mem_cons, List.mem_append, List.not_mem_nil, or_false] at hy
      rcases hy with rfl | hy | rfl
      · exact hc
      · exact hm y hy
      · exact hzb
    have hi := ih fun g hg => h g (by simp [hg])
    rw [Ionex.words_word f.2 _ (by rw [he]; simp) ht]
    · congr 1
      split
      · rw [Ionex.words_blank ' ' _ hb]; exact hi
      · exact hi
    · split
      · exact Or.inr ⟨_, rfl⟩
      · rename_i hne
        cases fs with
        | nil => left; rw [← hrest]; rfl
        | cons g gs =>
          right
          rw [← hrest] at hne ⊢
          rw [List.flatMap_cons] at hne ⊢
          by_cases hg : g.1 = 0
          · exfalso
            apply hne
            have := (h g (by simp)).2 hg
            rw [hg, List.replicate_zero, List.nil_append]
            cases hgt : g.2 with
            | nil => rw [hgt] at this; cases this
            | cons a b => rw [hgt] at this; exact this
          · obtain ⟨j, hj⟩ : ∃ j, g.1 = j + 1 := ⟨g.1 - 1, by omega⟩
            rw [hj, List.replicate_succ, List.cons_append, List.cons_append]
            exact ⟨spaced ((List.replicate j ' ' ++ g.2) ++ gs.flatMap fun f => List.replicate f.1 ' ' ++ f.2), by
              conv => lhs; unfold spaced
              rw [if_neg (by simp)]⟩

/-- The impedance is of the seventh and eighth numbers of the line. -/
theorem C111_z (num : Text → Option Rat) (fs : List (Nat × Text)) (h : ∀ f ∈ fs, Field f.2 ∧ (f.1 = 0 → f.2.head? = some '-')) (a b : Nat × Text)
    (ha : fs[6]? = some a) (hb : fs[7]? = some b) (r x : Rat) (hr : num a.2 = some r) (hx : num b.2 = some x) :
    zOf num (fs.flatMap fun f => List.replicate f.1 ' ' ++ f.2) = .ok (r, x) := by
  unfold zOf
  rw [C111_fields fs h]
  simp [ha, hb, hr, hx]

/-- A frequency without a table of impedances after it is refused. -/
theorem C111_no_impedance (num : Text → Option Rat) (pre : List Text) (s : Text) (j1 : List Text) (h : Text) (j2 : List Text) (f : Text) (x : Rat) (r : List Text)
    (hp : Free sSpec pre) (hs : contains sSpec s = true) (h1 : Free sFreq j1) (hh : contains sFreq h = true)
    (h2 : Free sFreqEq j2) (h3 : Free sFreqColon j2) (hf : FreqLine num f x) (hr : Free sImp r) :
    impedance num (pre ++ s :: (j1 ++ h :: (j2 ++ f :: r))) = .error .runtime := by
  have hl : Free sImp (left sAnt r) := by
    intro l hl
    apply hr l
    clear hr
    induction r with
    | nil => simp [left, seek] at hl
    | cons y r ih =>
      unfold left seek at hl
      split at hl
      · exact List.mem_cons_of_mem _ hl
      · exact List.mem_cons_of_mem _ (ih hl)
  unfold impedance
  rw [seek_at _ _ _ _ hp hs]
  simp only
  unfold turns turn
  rw [left_at _ _ _ _ h1 hh, freqAt_at num j2 f x r h2 h3 hf]
  simp only
  rw [seek_none _ _ hl]

theorem inv_nonneg (a : Rat) (h : 0 < a) : 0 ≤ a⁻¹ := Rat.le_of_lt (Rat.inv_pos.mpr h)

/-- What a line takes of the power of an antenna is `4 Z R / |Z + z|²`; between 0 and 1 for antennas that do not give power. -/
theorem C111_ime (z r x : Rat) (hz : 0 < z) (hr : 0 ≤ r) : ime z r x = matched z r x ∧ 0 ≤ ime z r x ∧ ime z r x ≤ 1 := by
  have hxx : 0 ≤ x * x := by
    rcases (by grind : 0 ≤ x ∨ 0 ≤ -x) with h | h
    · exact Rat.mul_nonneg h h
    · have := Rat.mul_nonneg h h; grind
  have hmm : 0 ≤ (z - r) * (z - r) := by
    rcases (by grind : 0 ≤ z - r ∨ 0 ≤ -(z - r)) with h | h
    · exact Rat.mul_nonneg h h
    · have := Rat.mul_nonneg h h; grind
  have hzr : 0 < (z + r) * (z + r) := Rat.mul_pos (by grind) (by grind)
  have hd : 0 < (z + r) * (z + r) + x * x := by grind
  have hne : (z + r) * (z + r) + x * x ≠ 0 := by grind
  have e : ime z r x = matched z r x := by
    unfold ime matched
    have : (z - r) * (z - r) + x * x = ((z + r) * (z + r) + x * x) - 4 * z * r := by grind
    rw [this]
    grind
  refine ⟨e, ?_, ?_⟩
  · rw [e]
    unfold matched
    rw [Rat.div_def]
    exact Rat.mul_nonneg (Rat.mul_nonneg (by grind) hr) ((inv_nonneg _ (by grind)))
  · unfold ime
    have : 0 ≤ ((z - r) * (z - r) + x * x) / ((z + r) * (z + r) + x * x) := by
      rw [Rat.div_def]
      exact Rat.mul_nonneg (by grind) ((inv_nonneg _ (by grind)))
    grind

example : ime 100 100 0 = 1 ∧ ime 100 0 50 = 0 := by decide +kernel

/-! ## Cards -/

/-- No separators in it. -/
def Plain (t : Text) : Prop := ∀ c ∈ t, c ≠ ',' ∧ c ≠ ' '

theorem split_ne (b : Bool) (l : Text) : splitCard b l ≠ [] := by
  induction l generalizing b with
  | nil => simp [splitCard]
  | cons c l ih =>
    unfold splitCard
    split
    · simp
    · split
      · split
        · exact ih true
        · simp
      · split <;> simp

theorem split_blanks (k : Nat) (l : Text) : splitCard true (List.replicate k ' ' ++ l) = splitCard true l := by
  induction k with
  | zero => rfl
  | succ k ih =>
    rw [List.replicate_succ, List.cons_append]
    conv => lhs; unfold splitCard
    simp [ih]

theorem split_true (t l : Text) (ht : Plain t) (h0 : t ≠ []) : splitCard true (t ++ l) = splitCard false (t ++ l) := by
  cases t with
  | nil => exact absurd rfl h0
  | cons c t =>
    have := ht c (by simp)
    rw [List.cons_append]
    unfold splitCard
    simp [this.1, this.2]

theorem split_plain (t l : Text) (ht : Plain t) : ∀ x xs, splitCard false l = x :: xs → splitCard false (t ++ l) = (t ++ x) :: xs := by
  intro x xs hx
  induction t with
  | nil => exact hx
  | cons c t ih =>
    have := ht c (by simp)
    rw [List.cons_append]
    unfold splitCard
    rw [if_neg this.1, if_neg this.2, ih fun y hy => ht y (by simp [hy])]
    rfl

/-- A card with one separator before each of its fields, a comma or any number of blanks, is parted into its fields. -/
theorem C111_card (first : Text) (rest : List (Sep × Text)) (hf : Plain first) (hr : ∀ x ∈ rest, Plain x.2 ∧ x.2 ≠ []) :
    splitCard false (cardText first rest) = first :: rest.map (·.2) := by
  unfold cardText
  induction rest generalizing first with
  | nil =>
    have := split_plain first [] hf [] [] rfl
    simpa using this
  | cons x rest ih =>
    obtain ⟨hx, hx0⟩ := hr x (by simp)
    have hi := ih x.2 hx fun y hy => hr y (by simp [hy])
    rw [List.flatMap_cons, List.map_cons]
    have hsep : splitCard false ((x.1.text ++ x.2) ++ rest.flatMap fun x => x.1.text ++ x.2) = [] :: x.2 :: rest.map (·.2) := by
      rw [List.append_assoc]
      obtain ⟨sep, t⟩ := x
      cases sep with
      | comma =>
        show splitCard false (',' :: _) = _
        unfold splitCard
        rw [if_pos rfl]
        exact congrArg ([] :: ·) hi
      | blanks k =>
        show splitCard false (List.replicate (k + 1) ' ' ++ _) = _
        rw [List.replicate_succ, List.cons_append]
        unfold splitCard
        rw [if_neg (by decide), if_pos rfl, if_neg (by decide), split_blanks, split_true t _ hx hx0, hi]
    have := split_plain first _ hf _ _ hsep
    simpa using this

theorem join_cons (a b : Text) (l : List Text) : join (a :: b :: l) = a ++ ' ' :: join (b :: l) := rfl

/-- Fields joined are a card of these fields. -/
theorem C111_join (first : Text) (l : List Text) : join (first :: l) = cardText first (l.map fun t => (Sep.blanks 0, t)) := by
  induction l generalizing first with
  | nil => simp [join, cardText]
  | cons a l ih =>
    rw [join_cons, ih]
    simp [cardText, Sep.text]

/-- An `FR` card with five fields or more before its end: its fields are as before, but the fifth is the frequency, and it ends with a
line end. -/
theorem C111_change (freq : Text) (first : Text) (rest : List (Sep × Text)) (hf : Plain first) (hr : ∀ x ∈ rest, Plain x.2 ∧ x.2 ≠ [])
    (h2 : first = ['F', 'R']) (h5 : 5 ≤ rest.length) (hq : Plain freq) (hq0 : freq ≠ []) :
    ∃ l, changeLine freq (cardText first rest) = .ok (ended l) ∧ splitCard false l = first :: (rest.map (·.2)).set 4 freq := by
  have ht : (cardText first rest).take 2 = ['F', 'R'] := by
    unfold cardText
    rw [h2]
    rfl
  refine ⟨join (first :: (rest.map (·.2)).set 4 freq), ?_, ?_⟩
  · unfold changeLine
    rw [if_pos ht, C111_card first rest hf hr, if_pos (by simp; omega)]
    rfl
  · rw [C111_join, C111_card first _ hf]
    · rw [List.map_map]
      simp only [Function.comp_def, List.map_id']
    · intro x hx
      obtain ⟨t, ht, rfl⟩ := List.mem_map.mp hx
      rcases List.mem_or_eq_of_mem_set ht with h | rfl
      · obtain ⟨y, hy, rfl⟩ := List.mem_map.mp h
        exact hr y hy
      · exact ⟨hq, hq0⟩

/-- The line end is there once. -/
theorem C111_ended (l : Text) : ended (ended l) = ended l ∧ (ended l).getLast? = some '\n' := by
  by_cases h : l.getLast? = some '\n'
  · simp [ended, h]
  · simp [ended, h]

/-- All `FR` cards change, other lines do not. -/
theorem C111_file (freq : Text) (ls out : List Text) (h : changeFreq freq ls = .ok out) :
    out.length = ls.length ∧ ∀ (i : Nat) (l : Text), ls[i]? = some l → ∃ m, out[i]? = some m ∧ changeLine freq l = .ok m ∧ (l.take 2 ≠ ['F', 'R'] → m = l) := by
  unfold changeFreq at h
  induction ls generalizing out with
  | nil =>
    simp only [List.mapM_nil] at h
    cases h
    exact ⟨rfl, by simp⟩
  | cons x ls ih =>
    rw [List.mapM_cons] at h
    cases hx : changeLine freq x with
    | error e => rw [hx] at h; cases h
    | ok y =>
      cases hs : ls.mapM (changeLine freq) with
      | error e => rw [hx, hs] at h; cases h
      | ok ys =>
        rw [hx, hs] at h
        cases h
        obtain ⟨h1, h2⟩ := ih ys hs
        refine ⟨by simp [h1], ?_⟩
        intro i l hl
        cases i with
        | zero =>
          simp only [List.getElem?_cons_zero, Option.some.injEq] at hl
          subst hl
          refine ⟨y, rfl, hx, ?_⟩
          intro hn
          unfold changeLine at hx
          rw [if_neg hn] at hx
          cases hx
          rfl
        | succ i => exact h2 i l (by simpa using hl)

example : (changeFreq "30.00".toList ["CE\n".toList, "FR 0,1  0 0 74. 1\n".toList, "EN".toList]).toOption
    = some ["CE\n".toList, "FR 0 1 0 0 30.00 1\n".toList, "EN".toList] := by decide +kernel

/-- A comma with a blank after it is two separators, so that another field is changed. -/
theorem C111_not_comma_blank : (changeLine "30.00".toList "FR 0, 1, 0, 0, 74., 0.\n".toList).toOption
    = some "FR 0  1  30.00  0  74.  0.\n".toList := by decide +kernel

/-- The step of the frequency is lost with its line end if it stands where the frequency should; a card of fewer fields raises. -/
theorem C111_not_short : (changeLine "30.00".toList "FR 0 1 74.\n".toList).toOption = none := by decide +kernel

/-! ## Patterns -/

theorem C111_close (x y : Rat) (hx : 0 < x) (hy : 0 < y) (eps : Rat) : closeTo x y eps = decide ((x - y).abs < eps * ((x + y) / 2)) := by
  unfold closeTo
  apply decide_eq_decide.mpr
  have hs : 0 < x + y := by grind
  rw [Rat.div_lt_iff hs]
  constructor <;> intro h <;> grind

/-- A file of the frequency is used, another one is not unless the simulation is run again. -/
theorem C111_action (f freq : Rat) (rerun : Bool) :
    action (some f) freq rerun = if closeTo f freq (5 / 1000) then .use else if rerun then .run else .fail .value := rfl

/-- Without an output file and without running again there is `NameError` in place of `ValueError`. -/
theorem C111_not_file (freq : Rat) : action none freq false = .fail .name := rfl

/-- A line of the table: at its azimuth and altitude there are its gain and phase, elsewhere nothing changes. -/
theorem C111_radiation (num : Text → Option Rat) (whole : Text → Option Int) (l : Text) (p : Pattern) (a b c d g e h : Text) (r : List Text)
    (hw : words l = a :: b :: c :: d :: g :: e :: h :: r) (t phi : Int) (x y : Rat)
    (ht : wholePart whole a = some t) (hp : wholePart whole b = some phi) (ht9 : 0 ≤ t ∧ t ≤ 90) (hp3 : 0 ≤ phi ∧ phi < 360)
    (hx : num g = some x) (hy : num h = some y) :
    ∃ q, radLine num whole l p = .ok (some q) ∧ q phi (90 - t) = some (x, y) ∧ ∀ u v, ¬ (u = phi ∧ v = 90 - t) → q u v = p u v := by
  refine ⟨setAt phi (90 - t) (x, y) p, ?_, ?_, ?_⟩
  · unfold radLine
    rw [hw]
    simp only [List.length_cons, ht, hp]
    rw [if_neg (by omega), if_neg (by omega)]
    simp only [List.getElem?_cons_succ, List.getElem?_cons_zero, hx, hy]
    rw [if_neg (by omega), if_neg (by omega)]
  · simp [setAt]
  · intro u v huv
    simp [setAt, huv]

/-- Angles are cut at the point. -/
theorem C111_angle (whole : Text → Option Int) (a r : Text) (h : ∀ c ∈ a, c ≠ '.') : wholePart whole (a ++ '.' :: r) = whole a := by
  unfold wholePart
  congr 1
  induction a with
  | nil => simp
  | cons c a ih => rw [List.cons_append, List.takeWhile_cons_of_pos (by simp [h c (by simp)]), ih fun d hd => h d (by simp [hd])]

/-- Directions below the horizon, and azimuths from 360 degrees on, are left out. -/
theorem C111_below (num : Text → Option Rat) (whole : Text → Option Int) (l : Text) (p : Pattern) (a b c d : Text) (r : List Text)
    (hw : words l = a :: b :: c :: d :: r) (t phi : Int) (ht : wholePart whole a = some t) (hp : wholePart whole b = some phi)
    (h : 90 < t ∨ t < 0 ∨ 360 ≤ phi) : radLine num whole l p = .ok (some p) := by
  unfold radLine
  rw [hw]
  simp only [List.length_cons, ht, hp]
  rw [if_neg (by omega), if_pos (by omega)]

/-- The table ends at the first line of fewer than four words. -/
theorem C111_table_end (num : Text → Option Rat) (whole : Text → Option Int) (l : Text) (ls : List Text) (p : Pattern) (h : (words l).length < 4) :
    radLines num whole (l :: ls) p = .ok p := by
  have : radLine num whole l p = .ok none := by
    unfold radLine
    split
    · rename_i a b c hw
      rw [hw] at h
      rw [if_pos (by simp at h; omega)]
    · rfl
  unfold radLines
  rw [this]

/-! ## Currents -/

/-- Records of 15 lines after a heading each: all are read if a line follows the last. -/
theorem C111_records_partial (num : Text → Option Rat) (recs : List (List Text × Text × (Int × Int × Rat × Rat))) (tail : List Text)
    (h15 : ∀ x ∈ recs, x.1.length = 15) (hx : ∀ x ∈ recs, record num (x.1 ++ [x.2.1]) = .ok x.2.2) (ht : tail.length < 16) :
    records num (recs.flatMap (fun x => x.1 ++ [x.2.1]) ++ tail) = .ok (recs.map (·.2.2)) := by
  induction recs with
  | nil =>
    rw [List.flatMap_nil, List.nil_append]
    unfold records
    rw [if_pos ht]
    rfl
  | cons x recs ih =>
    have hl : (x.1 ++ [x.2.1]).length = 16 := by simp [h15 x (by simp)]
    rw [List.flatMap_cons, List.append_assoc]
    unfold records
    rw [if_neg (by rw [List.length_append, hl]; omega), List.take_left' hl, List.drop_left' hl, hx x (by simp)]
    simp only
    rw [ih (fun y hy => h15 y (by simp [hy])) fun y hy => hx y (by simp [hy])]
    rfl

/-- The direction is of the fourth and seventh words of the second line, current and phase of the ninth and tenth of the twelfth. -/
theorem C111_record (num : Text → Option Rat) (ls : List Text) (a c : Text) (h1 : ls[1]? = some a) (h11 : ls[11]? = some c) (t p i h : Text) (vt vp vi vh : Rat)
    (ht : (words a)[3]? = some t) (hp : (words a)[6]? = some p) (hi : (words c)[8]? = some i) (hh : (words c)[9]? = some h)
    (ht' : num t = some vt) (hp' : num p = some vp) (hi' : num i = some vi) (hh' : num h = some vh) :
    record num ls = .ok (90 - trunc vt, trunc vp, vi, vh) := by
  unfold record
  simp only [h1, h11, ht, hp, hi, hh, ht', hp', hi', hh']

example : [trunc (17 / 2), trunc (-17 / 2), trunc 3] = [8, -8, 3] := by decide +kernel

/-- The last record is lost if nothing follows it. -/
theorem C111_not_last (num : Text → Option Rat) (ls : List Text) (h : ls.length = 15) : records num ls = .ok [] := by
  unfold records
  rw [if_pos (by omega)]

/-- Other lines after the records, if they are enough, raise `IndexError`. -/
theorem C111_not_more (num : Text → Option Rat) : records num (List.replicate 16 []) = .error .index := by
  unfold records
  rw [if_neg (by simp)]
  rfl

/-- Of a frequency without impedance the one of the next frequency is taken, which has none then. -/
theorem C111_not_impedance :
    (impedance (fun w => (Dec.parseNat? w).map fun n => (n : Rat)) (["STRUCTURE SPECIFICATION", "FREQUENCY", "FREQUENCY= 1", "FREQUENCY", "FREQUENCY= 2",
      "ANTENNA INPUT PARAMETERS", "IMPEDANCE", "OHMS", "1 1 0 0 0 0 50 7"].map String.toList)).toOption = some [(1, 50, 7)] := by decide +kernel

example : (impedance (fun w => (Dec.parseNat? w).map fun n => (n : Rat)) (["STRUCTURE SPECIFICATION", "FREQUENCY", "FREQUENCY= 1",
      "ANTENNA INPUT PARAMETERS", "IMPEDANCE", "OHMS", "1 1 0 0 0 0 50 7", "FREQUENCY", "FREQUENCY : 2 MHz", "ANTENNA INPUT PARAMETERS", "IMPEDANCE", "OHMS",
      "1 1 0 0 0 0 60 8", ""].map String.toList)).toOption = some [(1, 50, 7), (2, 60, 8)] := by decide +kernel

example : words (spaced " 1.2E+01-3.4E-02 5".toList) = ["1.2E+01".toList, "-3.4E-02".toList, "5".toList] := by decide +kernel

example : Field "-3.4E-02".toList := ⟨'-', "3.4E-0".toList, '2', by decide +kernel⟩

end Verif.Nec
