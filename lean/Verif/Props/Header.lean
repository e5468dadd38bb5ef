import Verif.Model.Header
import Verif.Props.ConfigFile
/-!
# C38: a structured header is read back as it was written
-/
namespace Verif.Header
open Verif.Dec Verif.ConfigFile

/-! ### specification -/

/-- Keys and names at the first level. -/
def keys {α : Type} : Tree α → List Text
  | .nil => []
  | .kv k _ r => k :: keys r
  | .sec k _ r => k :: keys r

/-- The expected dictionary: the same tree with decoded values. -/
def expected : Tree Text → Dict
  | .nil => .nil
  | .kv k v r => .kv k (.json v) (expected r)
  | .sec k b r => .sec k (expected b) (expected r)

/-- Keys and section names: not empty, no colon, comment character or line break, no blanks at the ends. -/
def KeyOk (k : Text) : Prop := k ≠ [] ∧ strip k = k ∧ ':' ∉ k ∧ '#' ∉ k ∧ '\n' ∉ k

/-- Values: JSON text (not empty, no blanks at the ends) without the comment character. -/
def ValueOk (isJson : Text → Bool) (v : Text) : Prop := v ≠ [] ∧ strip v = v ∧ '#' ∉ v ∧ isJson v = true ∧ '\n' ∉ v

/-- No sections at the first level. -/
def NoSec {α : Type} : Tree α → Prop
  | .nil => True
  | .kv _ _ r => NoSec r
  | .sec _ _ _ => False

/-- What can be read back: at each level different keys and the sections before the key/value pairs, no
empty section. -/
def TreeOk (isJson : Text → Bool) : Tree Text → Prop
  | .nil => True
  | .kv k v r => KeyOk k ∧ ValueOk isJson v ∧ k ∉ keys r ∧ NoSec r ∧ TreeOk isJson r
  | .sec k b r => KeyOk k ∧ k ∉ keys r ∧ b ≠ .nil ∧ TreeOk isJson b ∧ TreeOk isJson r

/-! ### texts -/

theorem rstrip_of_strip (k : Text) (h : strip k = k) : rstrip k = k := by
  have h1 := strip_rstrip k
  have h2 : strip (rstrip k) = rstrip (strip k) := by
    rw [h1]; unfold strip; rw [rstrip_rstrip]
  rw [h] at h2
  rw [h1, h] at h2
  exact h2.symm

theorem head_of_strip (k : Text) (h : strip k = k) (hne : k ≠ []) : ∃ c r, k = c :: r ∧ isSpace c = false := by
  cases k with
  | nil => exact absurd rfl hne
  | cons c r =>
    refine ⟨c, r, rfl, ?_⟩
    cases hc : isSpace c with
    | false => rfl
    | true =>
      exfalso
      rw [strip_space c r hc] at h
      have h1 : (strip r).length ≤ r.length := (strip_infix r).length_le
      rw [h] at h1
      simp at h1
      omega

theorem lstrip_spaces (n : Nat) (k : Text) : lstrip (spaces n ++ k) = lstrip k := by
  induction n with
  | zero => rfl
  | succ n ih =>
    simp only [spaces, List.replicate_succ, List.cons_append, lstrip]
    rw [if_pos (by decide)]
    exact ih

theorem rstrip_append_spaces (l : Text) (n : Nat) : rstrip (l ++ spaces n) = rstrip l := by
  induction l with
  | nil =>
    simp only [List.nil_append]
    induction n with
    | zero => rfl
    | succ n ih =>
      simp only [spaces, List.replicate_succ, rstrip]
      simp only [spaces] at ih
      rw [ih]
      simp [rstrip, isSpace]
  | cons c l ih =>
    simp only [List.cons_append, rstrip]
    rw [ih]

theorem rstrip_append_of (a b : Text) (h : rstrip b = b) (hne : b ≠ []) : rstrip (a ++ b) = a ++ b := by
  induction a with
  | nil => exact h
  | cons x a ih =>
    simp only [List.cons_append, rstrip]
    rw [ih]
    cases hab : a ++ b with
    | nil => simp at hab; exact absurd hab.2 hne
    | cons y r => rfl

theorem splitColon_first (a b : Text) (h : ':' ∉ a) : splitColon (a ++ ':' :: b) = some (a, b) := by
  induction a with
  | nil => simp [splitColon]
  | cons x a ih =>
    simp only [List.mem_cons, not_or] at h
    simp only [List.cons_append, splitColon]
    rw [if_neg (Ne.symm h.1), ih h.2]
    rfl

theorem strip_spaces (n : Nat) (k : Text) : strip (spaces n ++ k) = strip k := by
  unfold strip
  rw [lstrip_spaces]

theorem filter_hash (l : Text) (h : '#' ∉ l) : l.filter (fun c => c != '#') = l :=
  filter_id _ _ (fun c hc => by
    simp only [bne_iff_ne, ne_eq]
    rintro rfl
    exact h hc)

theorem hash_spaces (n : Nat) : '#' ∉ spaces n := by
  intro h
  have := List.eq_of_mem_replicate h
  exact absurd this (by decide)

theorem colon_spaces (n : Nat) : ':' ∉ spaces n := by
  intro h
  have := List.eq_of_mem_replicate h
  exact absurd this (by decide)

/-- What a written line is read as, with or without a box. -/
theorem tokenize_body (i : Nat) (k rest : Text) (hk : KeyOk k) (hr : '#' ∉ rest) (tail : Text)
    (ht : rstrip ((spaces i ++ k ++ ':' :: rest) ++ (tail.filter (fun c => c != '#'))) = spaces i ++ k ++ ':' :: rest) :
    tokenize ('#' :: ((spaces i ++ k ++ ':' :: rest) ++ tail)) = some (some ⟨i, k, strip rest⟩) := by
  obtain ⟨hne, hs, hc, hh, _⟩ := hk
  have hbody : (spaces i ++ k ++ ':' :: rest).filter (fun c => c != '#') = spaces i ++ k ++ ':' :: rest := by
    apply filter_hash
    simp only [List.mem_append, List.mem_cons, not_or]
    exact ⟨⟨hash_spaces i, hh⟩, by decide, hr⟩
  unfold tokenize
  rw [if_neg (by simp)]
  have h1 : ('#' :: ((spaces i ++ k ++ ':' :: rest) ++ tail)).filter (fun c => c != '#') =
      (spaces i ++ k ++ ':' :: rest) ++ tail.filter (fun c => c != '#') := by
    rw [List.filter_cons_of_neg (by simp), List.filter_append, hbody]
  simp only [h1, ht]
  rw [if_neg (by simp)]
  rw [splitColon_first (spaces i ++ k) rest (by
    simp only [List.mem_append, not_or]; exact ⟨colon_spaces i, hc⟩)]
  simp only
  have h2 : strip (spaces i ++ k) = k := by rw [strip_spaces, hs]
  have h3 : lstrip (spaces i ++ k ++ ':' :: rest) = k ++ ':' :: rest := by
    rw [List.append_assoc, lstrip_spaces]
    obtain ⟨c, r, rfl, hcs⟩ := head_of_strip k hs hne
    simp only [List.cons_append, lstrip, hcs, Bool.false_eq_true, if_false]
  rw [h2, h3]
  congr 3
  simp [spaces]

/-- The text of an entry. -/
def entryText (k : Text) (v : Option Text) : Text :=
  match v with
  | none => k ++ ":".toList
  | some v => k ++ ": ".toList ++ v

/-- Where the colon is. -/
def restText (v : Option Text) : Text :=
  match v with
  | none => []
  | some v => ' ' :: v

theorem entryText_eq (k : Text) (v : Option Text) : entryText k v = k ++ ':' :: restText v := by
  cases v <;> simp [entryText, restText]

/-- The value read from an entry. -/
def entryValue (v : Option Text) : Text := v.getD []

def EntryTextOk (v : Option Text) : Prop := ∀ w, v = some w → w ≠ [] ∧ strip w = w ∧ '#' ∉ w

theorem rest_ok (v : Option Text) (h : EntryTextOk v) :
    '#' ∉ restText v ∧ strip (restText v) = entryValue v ∧
    ∀ a, rstrip (a ++ ':' :: restText v) = a ++ ':' :: restText v := by
  cases v with
  | none =>
    refine ⟨by simp [restText], rfl, ?_⟩
    intro a
    rw [rstrip_append_ns _ _ _ (by decide)]
    rfl
  | some w =>
    obtain ⟨h1, h2, h3⟩ := h w rfl
    refine ⟨?_, ?_, ?_⟩
    · simp only [restText, List.mem_cons, not_or]; exact ⟨by decide, h3⟩
    · simp only [restText]; rw [strip_space _ _ (by decide), h2]; rfl
    · intro a
      have : a ++ ':' :: restText (some w) = (a ++ [':', ' ']) ++ w := by simp [restText]
      rw [this]
      exact rstrip_append_of _ _ (rstrip_of_strip w h2) h1

theorem tokenize_left (i : Nat) (k : Text) (v : Option Text) (hk : KeyOk k) (hv : EntryTextOk v) :
    tokenize (leftLine ⟨i, entryText k v⟩) = some (some ⟨i, k, entryValue v⟩) := by
  obtain ⟨h1, h2, h3⟩ := rest_ok v hv
  have := tokenize_body i k (restText v) hk h1 [] (by simp only [List.filter_nil, List.append_nil]; exact h3 _)
  simp only [List.append_nil] at this
  rw [h2] at this
  rw [← this]
  simp only [leftLine, entryText_eq, List.append_assoc]

theorem tokenize_box (w b i : Nat) (k : Text) (v : Option Text) (hk : KeyOk k) (hv : EntryTextOk v) :
    tokenize (boxLine w b ⟨i, entryText k v⟩) = some (some ⟨i, k, entryValue v⟩) := by
  obtain ⟨h1, h2, h3⟩ := rest_ok v hv
  have h4 : ∀ n m, (spaces n ++ spaces m ++ ['#']).filter (fun c => c != '#') = spaces (n + m) := by
    intro n m
    rw [List.filter_append, List.filter_append, filter_hash _ (hash_spaces n), filter_hash _ (hash_spaces m)]
    simp [spaces]
  have := tokenize_body i k (restText v) hk h1
    (spaces (w - 1 - i - (b + 1) - (entryText k v).length) ++ spaces b ++ ['#']) (by
      rw [h4, rstrip_append_spaces]; exact h3 _)
  rw [h2] at this
  rw [← this]
  simp only [boxLine, entryText_eq, List.append_assoc, List.cons_append]

theorem tokenize_bar (n : Nat) : tokenize (List.replicate n '#') = none := by
  unfold tokenize
  split
  · rfl
  · have : (List.replicate n '#').filter (fun c => c != '#') = [] := by
      rw [List.filter_eq_nil_iff]
      intro c hc
      rw [List.eq_of_mem_replicate hc]
      decide
    simp only [this]
    rfl

theorem tokenize_gap (n : Nat) : tokenize ('#' :: (spaces n ++ ['#'])) = none := by
  unfold tokenize
  rw [if_neg (by simp)]
  have : ('#' :: (spaces n ++ ['#'])).filter (fun c => c != '#') = spaces n := by
    rw [List.filter_cons_of_neg (by simp), List.filter_append, filter_hash _ (hash_spaces n)]
    simp
  have h2 : rstrip (spaces n) = [] := rstrip_append_spaces [] n
  simp only [this, h2, if_true]

/-! ### dictionaries -/

def append {α : Type} : Tree α → Tree α → Tree α
  | .nil, t => t
  | .kv k v r, t => .kv k v (append r t)
  | .sec k b r, t => .sec k b (append r t)

theorem append_assoc {α : Type} (a b c : Tree α) : append (append a b) c = append a (append b c) := by
  induction a with
  | nil => rfl
  | kv k v r ih => simp [append, ih]
  | sec k b r _ ih => simp [append, ih]

theorem append_nil {α : Type} (a : Tree α) : append a .nil = a := by
  induction a with
  | nil => rfl
  | kv k v r ih => simp [append, ih]
  | sec k b r _ ih => simp [append, ih]

theorem keys_append {α : Type} (a b : Tree α) : keys (append a b) = keys a ++ keys b := by
  induction a with
  | nil => rfl
  | kv k v r ih => simp [append, keys, ih]
  | sec k b r _ ih => simp [append, keys, ih]

theorem keys_expected (t : Tree Text) : keys (expected t) = keys t := by
  induction t with
  | nil => rfl
  | kv k v r ih => simp [expected, keys, ih]
  | sec k b r _ ih => simp [expected, keys, ih]

theorem assignKv_new (d : Dict) (k : Text) (v : PV) (h : k ∉ keys d) :
    assignKv d k v = append d (.kv k v .nil) := by
  induction d with
  | nil => rfl
  | kv k' v' r ih =>
    simp only [keys, List.mem_cons, not_or] at h
    simp only [assignKv, append, if_neg (Ne.symm h.1), ih h.2]
  | sec k' b r _ ih =>
    simp only [keys, List.mem_cons, not_or] at h
    simp only [assignKv, append, if_neg (Ne.symm h.1), ih h.2]

theorem assignSec_new (d : Dict) (k : Text) (b : Dict) (h : k ∉ keys d) :
    assignSec d k b = append d (.sec k b .nil) := by
  induction d with
  | nil => rfl
  | kv k' v' r ih =>
    simp only [keys, List.mem_cons, not_or] at h
    simp only [assignSec, append, if_neg (Ne.symm h.1), ih h.2]
  | sec k' b' r _ ih =>
    simp only [keys, List.mem_cons, not_or] at h
    simp only [assignSec, append, if_neg (Ne.symm h.1), ih h.2]

theorem assignSec_again (d : Dict) (k : Text) (b : Dict) (h : k ∉ keys d) :
    assignSec (assignSec d k .nil) k b = append d (.sec k b .nil) := by
  rw [assignSec_new d k .nil h]
  induction d with
  | nil => simp [append, assignSec]
  | kv k' v' r ih =>
    simp only [keys, List.mem_cons, not_or] at h
    simp only [assignSec, append, if_neg (Ne.symm h.1), ih h.2]
  | sec k' b' r _ ih =>
    simp only [keys, List.mem_cons, not_or] at h
    simp only [assignSec, append, if_neg (Ne.symm h.1), ih h.2]

/-! ### the parser -/

theorem popN_succ (n : Nat) (a : Active) : Active.popN (n + 1) a = (Active.popN n a).pop := by
  induction n generalizing a with
  | zero => rfl
  | succ n ih =>
    show Active.popN (n + 1) a.pop = _
    rw [ih]
    rfl

theorem popN_add (n m : Nat) (a : Active) : Active.popN (n + m) a = Active.popN m (Active.popN n a) := by
  induction n generalizing a with
  | zero => simp [Active.popN]
  | succ n ih =>
    rw [Nat.add_right_comm]
    show Active.popN (n + m) a.pop = Active.popN m (Active.popN n a.pop)
    exact ih a.pop

/-- The parser is about to read a line at indent `i`, in a dictionary with entries `done`. -/
inductive Entry' (b : Nat) (s : PState) (i : Nat) (a : Active) : Nat → Prop
  | first : s.curr = none → i = b → s.active = a → Entry' b s i a 1
  | deeper (c : Nat) : s.curr = some c → c < i → s.base = some b → s.active = a → Entry' b s i a 1
  | back (m : Nat) : s.curr = some (i + b * m) → s.base = some b → Active.popN m s.active = a → Entry' b s i a m

theorem step_kv (isJson : Text → Bool) (b : Nat) (hb : 0 < b) (s : PState) (i : Nat) (a : Active) (m : Nat)
    (k v : Text) (hv : v ≠ []) (h : Entry' b s i a m) :
    stepTok isJson s ⟨i, k, v⟩ = ⟨some i, some b, ⟨assignKv a.cur k (decode isJson v), a.frames⟩⟩ := by
  cases h with
  | first h1 h2 h3 => subst h2 h3; simp [stepTok, h1, hv]
  | deeper c h1 h2 h3 h4 => subst h4; simp [stepTok, h1, h2, h3, hv]
  | back m h1 h2 h3 =>
    subst h3
    by_cases hm : m = 0
    · subst hm
      simp [stepTok, h1, h2, Active.popN]
    · have h5 : ¬ i + b * m < i := by omega
      have hpos : 0 < b * m := Nat.mul_pos hb (Nat.pos_of_ne_zero hm)
      have h6 : i < i + b * m := by omega
      have h7 : (i + b * m - i) / b = m := by
        rw [Nat.add_sub_cancel_left, Nat.mul_div_cancel_left _ hb]
      rw [Nat.add_sub_cancel_left] at h7
      simp [stepTok, h1, h2, h5, h7, hv, hpos]

theorem step_sec (isJson : Text → Bool) (b : Nat) (hb : 0 < b) (s : PState) (i : Nat) (a : Active) (m : Nat)
    (k : Text) (hm : m ≠ 0) (h : Entry' b s i a m) :
    stepTok isJson s ⟨i, k, []⟩ = ⟨some i, some b, a.push k⟩ := by
  cases h with
  | first h1 h2 h3 => subst h2 h3; simp [stepTok, h1]
  | deeper c h1 h2 h3 h4 => subst h4; simp [stepTok, h1, h2, h3]
  | back m h1 h2 h3 =>
    subst h3
    have hpos : 0 < b * m := Nat.mul_pos hb (Nat.pos_of_ne_zero hm)
    have h7 : (i + b * m - i) / b = m := by
      rw [Nat.add_sub_cancel_left, Nat.mul_div_cancel_left _ hb]
    have h5 : ¬ i + b * m < i := by omega
    rw [Nat.add_sub_cancel_left] at h7
    simp [stepTok, h1, h2, h5, h7, hpos]

theorem parseLines_append (isJson : Text → Bool) (x y : List Text) : ∀ s,
    parseLines isJson s (x ++ y) = (parseLines isJson s x).bind (fun s' => parseLines isJson s' y) := by
  induction x with
  | nil => intro s; rfl
  | cons a x ih =>
    intro s
    simp only [List.cons_append, parseLines]
    cases tokenize a with
    | none => exact ih s
    | some o =>
      cases o with
      | none => rfl
      | some t => exact ih _

/-- The way a line is put into the file; tokens come out. -/
def Renders (f : Line → Text) : Prop := ∀ i k v, KeyOk k → EntryTextOk v →
  tokenize (f ⟨i, entryText k v⟩) = some (some ⟨i, k, entryValue v⟩)

theorem parse_tree (isJson : Text → Bool) (b : Nat) (hb : 0 < b) (f : Line → Text) (hf : Renders f) (t : Tree Text) :
    ∀ (s : PState) (i : Nat) (a : Active) (m : Nat), TreeOk isJson t → t ≠ .nil → (m = 0 → NoSec t) →
    (∀ k ∈ keys t, k ∉ keys a.cur) → Entry' b s i a m →
    ∃ s' m', parseLines isJson s ((contents b i t).map f) = some s' ∧
      s'.curr = some (i + b * m') ∧ s'.base = some b ∧
      Active.popN m' s'.active = ⟨append a.cur (expected t), a.frames⟩ := by
  induction t with
  | nil => intro s i a m _ h; exact absurd rfl h
  | kv k v rest ih =>
    intro s i a m hok _ _ hnew he
    obtain ⟨hk, hv, hkr, hns, hok⟩ := hok
    have htok : tokenize (f ⟨i, k ++ ": ".toList ++ v⟩) = some (some ⟨i, k, v⟩) :=
      hf i k (some v) hk (fun w hw => by injection hw with hw; subst hw; exact ⟨hv.1, hv.2.1, hv.2.2.1⟩)
    simp only [contents, List.map_cons, parseLines, htok]
    rw [step_kv isJson b hb s i a m k v hv.1 he]
    have hdec : decode isJson v = .json v := by simp [decode, hv.2.2.2.1]
    rw [hdec, assignKv_new _ _ _ (hnew k (by simp [keys]))]
    by_cases hr : rest = .nil
    · subst hr
      exact ⟨_, 0, rfl, by simp, rfl, rfl⟩
    · obtain ⟨s', m', h1, h2, h3, h4⟩ := ih
        ⟨some i, some b, ⟨append a.cur (.kv k (.json v) .nil), a.frames⟩⟩ i
        ⟨append a.cur (.kv k (.json v) .nil), a.frames⟩ 0 hok hr (fun _ => hns) (by
          intro x hx
          simp only [keys_append, keys, List.mem_append, List.mem_singleton, not_or]
          exact ⟨hnew x (by simp [keys, hx]), fun e => hkr (e ▸ hx)⟩)
        (.back 0 (by simp) rfl rfl)
      refine ⟨s', m', h1, h2, h3, ?_⟩
      rw [h4, append_assoc]
      rfl
  | sec k body rest ihb ihr =>
    intro s i a m hok _ hm hnew he
    obtain ⟨hk, hkr, hne, hokb, hokr⟩ := hok
    have hm0 : m ≠ 0 := fun e => hm e
    have htok : tokenize (f ⟨i, k ++ ":".toList⟩) = some (some ⟨i, k, []⟩) :=
      hf i k none hk (fun w hw => by simp at hw)
    simp only [contents, List.map_cons, parseLines, htok]
    rw [step_sec isJson b hb s i a m k hm0 he]
    rw [List.map_append, parseLines_append]
    have hknew : k ∉ keys a.cur := hnew k (by simp [keys])
    obtain ⟨s1, m1, h1, h2, h3, h4⟩ := ihb ⟨some i, some b, a.push k⟩ (i + b) (a.push k) 1 hokb hne
      (fun e => by simp at e) (by intro x _; simp [Active.push, keys]) (.deeper i rfl (by omega) rfl rfl)
    rw [h1]
    simp only [Option.bind_some]
    have hpop : Active.popN (m1 + 1) s1.active = ⟨append a.cur (.sec k (expected body) .nil), a.frames⟩ := by
      rw [popN_succ, h4]
      simp only [Active.push, Active.pop, append]
      rw [assignSec_again _ _ _ hknew]
    have hcurr : s1.curr = some (i + b * (m1 + 1)) := by
      rw [h2]
      congr 1
      rw [Nat.mul_succ]
      omega
    by_cases hr : rest = .nil
    · subst hr
      exact ⟨s1, m1 + 1, rfl, hcurr, h3, hpop⟩
    · obtain ⟨s', m', g1, g2, g3, g4⟩ := ihr s1 i ⟨append a.cur (.sec k (expected body) .nil), a.frames⟩ (m1 + 1)
        hokr hr (fun e => by simp at e) (by
          intro x hx
          simp only [keys_append, keys, List.mem_append, List.mem_singleton, not_or]
          exact ⟨hnew x (by simp [keys, hx]), fun e => hkr (e ▸ hx)⟩)
        (.back (m1 + 1) hcurr h3 hpop)
      refine ⟨s', m', g1, g2, g3, ?_⟩
      rw [g4, append_assoc]
      rfl

theorem popN_frames_length (n : Nat) (a : Active) : (Active.popN n a).frames.length = a.frames.length - n := by
  induction n generalizing a with
  | zero => simp [Active.popN]
  | succ n ih =>
    show (Active.popN n a.pop).frames.length = _
    rw [ih]
    have : a.pop.frames.length = a.frames.length - 1 := by
      unfold Active.pop
      cases hf : a.frames with
      | nil => simp [hf]
      | cons x l => obtain ⟨d, k⟩ := x; simp
    omega

theorem pop_nil (a : Active) (h : a.frames = []) : a.pop = a := by
  unfold Active.pop; rw [h]

theorem popN_nil (n : Nat) (a : Active) (h : a.frames = []) : Active.popN n a = a := by
  induction n generalizing a with
  | zero => rfl
  | succ n ih =>
    show Active.popN n a.pop = a
    rw [pop_nil a h]
    exact ih a h

/-- Popping any number of times that reaches the outermost dictionary gives the whole. -/
theorem root_of_popN (a : Active) (m : Nat) (d : Dict) (h : Active.popN m a = ⟨d, []⟩) : a.root = d := by
  have hl : a.frames.length ≤ m := by
    have := popN_frames_length m a
    rw [h] at this
    simp at this
    omega
  have h2 : (Active.popN a.frames.length a).frames = [] := by
    have := popN_frames_length a.frames.length a
    rw [Nat.sub_self] at this
    exact List.eq_nil_of_length_eq_zero this
  have h3 : Active.popN m a = Active.popN a.frames.length a := by
    obtain ⟨k, rfl⟩ := Nat.exists_eq_add_of_le hl
    rw [popN_add, popN_nil k _ h2]
  unfold Active.root
  rw [← h3, h]

theorem parse_rendered (isJson : Text → Bool) (b : Nat) (hb : 0 < b) (f : Line → Text) (hf : Renders f)
    (t : Tree Text) (h : TreeOk isJson t) :
    ∃ s, parseLines isJson ⟨none, none, ⟨.nil, []⟩⟩ ((contents b b t).map f) = some s ∧ s.active.root = expected t := by
  by_cases ht : t = .nil
  · subst ht
    exact ⟨_, rfl, rfl⟩
  · obtain ⟨s, m, h1, _, _, h4⟩ := parse_tree isJson b hb f hf t ⟨none, none, ⟨.nil, []⟩⟩ b ⟨.nil, []⟩ 1 h ht
      (fun e => by simp at e) (by intro x _; simp [keys]) (.first rfl rfl rfl)
    exact ⟨s, h1, root_of_popN _ m _ h4⟩

/-! ### C38 -/

/-- For any nesting, a header written with comment lines is parsed to the same nested structure and
values, whatever the (nonzero) indent.  Missing from the full property: sections after key/value pairs
of the same level (`C38_section_after_key`), empty sections (`C38_empty_section`) and the comment
character in values (`C38_comment_removed`). -/
theorem C38_roundtrip_partial (isJson : Text → Bool) (b : Nat) (hb : 0 < b) (t : Tree Text) (h : TreeOk isJson t) :
    parse isJson (writeLeft b t) = some (expected t) := by
  obtain ⟨s, h1, h2⟩ := parse_rendered isJson b hb leftLine (fun i k v hk hv => tokenize_left i k v hk hv) t h
  simp [parse, writeLeft, h1, h2]

theorem contents_nl (isJson : Text → Bool) (b : Nat) (t : Tree Text) : ∀ i, TreeOk isJson t →
    ∀ l ∈ contents b i t, '\n' ∉ l.text := by
  induction t with
  | nil => intro i _ l hl; simp [contents] at hl
  | kv k v r ih =>
    intro i h l hl
    obtain ⟨hk, hv, _, _, hr⟩ := h
    simp only [contents, List.mem_cons] at hl
    rcases hl with rfl | hl
    · simp only [List.mem_append, not_or]
      exact ⟨⟨hk.2.2.2.2, by decide⟩, hv.2.2.2.2⟩
    · exact ih i hr l hl
  | sec k b' r ihb ihr =>
    intro i h l hl
    obtain ⟨hk, _, _, hb, hr⟩ := h
    simp only [contents, List.mem_cons, List.mem_append] at hl
    rcases hl with rfl | hl | hl
    · simp only [List.mem_append, not_or]
      exact ⟨hk.2.2.2.2, by decide⟩
    · exact ihb _ hb l hl
    · exact ihr _ hr l hl

theorem parse_snoc_blank (isJson : Text → Bool) (ls : List Text) : parse isJson (ls ++ [[]]) = parse isJson ls := by
  unfold parse
  rw [parseLines_append]
  cases parseLines isJson ⟨none, none, ⟨.nil, []⟩⟩ ls with
  | none => rfl
  | some s => simp [parseLines, tokenize]

/-- The same starting from the text. -/
theorem C38_text_partial (isJson : Text → Bool) (b : Nat) (hb : 0 < b) (t : Tree Text) (h : TreeOk isJson t) :
    parseText isJson (text (writeLeft b t)) = some (expected t) := by
  unfold parseText text
  rw [splitOn_lines, parse_snoc_blank, C38_roundtrip_partial isJson b hb t h]
  intro l hl
  simp only [writeLeft, List.mem_map] at hl
  obtain ⟨x, hx, rfl⟩ := hl
  have := contents_nl isJson b t b h x hx
  simp only [leftLine, List.mem_cons, List.mem_append, not_or]
  exact ⟨by decide, fun e => absurd (List.eq_of_mem_replicate e) (by decide), this⟩

/-- The same for a header in a box. -/
theorem C38_box_partial (isJson : Text → Bool) (b : Nat) (hb : 0 < b) (t : Tree Text) (h : TreeOk isJson t) :
    parse isJson (writeBox b t) = some (expected t) := by
  unfold writeBox
  simp only
  split
  · rename_i hc
    cases t with
    | nil => rfl
    | kv k v r => simp [contents] at hc
    | sec k b' r => simp [contents] at hc
  · obtain ⟨s, h1, h2⟩ := parse_rendered isJson b hb (boxLine (boxWidth b (contents b b t)) b)
      (fun i k v hk hv => tokenize_box _ b i k v hk hv) t h
    simp only [parse, parseLines, tokenize_bar, tokenize_gap]
    rw [parseLines_append, h1]
    simp [parseLines, tokenize_bar, tokenize_gap, h2]

/-- The lines of a box all have the same length, given room for the content. -/
theorem C38_box_width (b : Nat) (t : Tree Text) : ∀ x ∈ writeBox b t, x.length = boxWidth b (contents b b t) := by
  intro x hx
  unfold writeBox at hx
  simp only at hx
  split at hx
  · simp at hx
  · have hw : 2 ≤ boxWidth b (contents b b t) := by unfold boxWidth; omega
    have hgap : ('#' :: (spaces (boxWidth b (contents b b t) - 2) ++ ['#'])).length = boxWidth b (contents b b t) := by
      simp only [List.length_cons, List.length_append, spaces, List.length_replicate, List.length_nil]
      omega
    simp only [List.mem_cons, List.mem_append, List.mem_map, List.not_mem_nil, or_false] at hx
    rcases hx with rfl | rfl | ⟨l, hl, rfl⟩ | rfl | rfl
    · simp
    · exact hgap
    · have hmax : ∀ (ls : List Line) (z : Nat), z ≤ (ls.map (fun l => l.text.length + l.indent)).foldl max z ∧
          ∀ l ∈ ls, l.text.length + l.indent ≤ (ls.map (fun l => l.text.length + l.indent)).foldl max z := by
        intro ls
        induction ls with
        | nil => intro z; simp
        | cons y ls ih =>
          intro z
          simp only [List.map_cons, List.foldl_cons]
          have := ih (max z (y.text.length + y.indent))
          refine ⟨by omega, ?_⟩
          intro l hl
          rcases List.mem_cons.mp hl with rfl | hl
          · omega
          · exact this.2 l hl
      have hle := (hmax (contents b b t) 0).2 l hl
      have hbw : boxWidth b (contents b b t) =
          ((contents b b t).map (fun l => l.text.length + l.indent)).foldl max 0 + 1 + 2 * b + 1 := rfl
      simp only [boxLine, List.length_cons, List.length_append, spaces, List.length_replicate, List.length_nil]
      omega
    · exact hgap
    · simp

theorem tok_kv (i : Nat) (k v : Text) (hk : KeyOk k) (hv : v ≠ [] ∧ strip v = v ∧ '#' ∉ v) :
    tokenize (leftLine ⟨i, k ++ ": ".toList ++ v⟩) = some (some ⟨i, k, v⟩) :=
  tokenize_left i k (some v) hk (fun w hw => by injection hw with hw; subst hw; exact hv)

theorem tok_sec (i : Nat) (k : Text) (hk : KeyOk k) :
    tokenize (leftLine ⟨i, k ++ ":".toList⟩) = some (some ⟨i, k, []⟩) :=
  tokenize_left i k none hk (fun w hw => by simp at hw)

/-- A section that follows a key/value pair of its level is lost: its name becomes a key with empty text
and its entries end up one level higher. -/
theorem C38_section_after_key (isJson : Text → Bool) (b : Nat) (hb : 0 < b) (k v n k2 v2 : Text) (hk : KeyOk k)
    (hn : KeyOk n) (hk2 : KeyOk k2) (hv : ValueOk isJson v) (hv2 : ValueOk isJson v2) (hj : isJson [] = false)
    (h1 : k ≠ n) (h2 : k ≠ k2) (h3 : n ≠ k2) :
    parse isJson (writeLeft b (.kv k v (.sec n (.kv k2 v2 .nil) .nil))) =
      some (.kv k (.json v) (.kv n (.raw []) (.kv k2 (.json v2) .nil))) := by
  simp only [parse, writeLeft, contents, List.map_cons, List.map_nil, List.cons_append, List.nil_append, parseLines,
    tok_kv b k v hk ⟨hv.1, hv.2.1, hv.2.2.1⟩, tok_sec b n hn, tok_kv (b + b) k2 v2 hk2 ⟨hv2.1, hv2.2.1, hv2.2.2.1⟩]
  have e1 : stepTok isJson ⟨none, none, ⟨.nil, []⟩⟩ ⟨b, k, v⟩ = ⟨some b, some b, ⟨.kv k (.json v) .nil, []⟩⟩ := by
    simp [stepTok, hv.1, decode, hv.2.2.2.1, assignKv]
  have e2 : stepTok isJson ⟨some b, some b, ⟨.kv k (.json v) .nil, []⟩⟩ ⟨b, n, []⟩ =
      ⟨some b, some b, ⟨.kv k (.json v) (.kv n (.raw []) .nil), []⟩⟩ := by
    simp [stepTok, decode, hj, assignKv, h1]
  have e3 : stepTok isJson ⟨some b, some b, ⟨.kv k (.json v) (.kv n (.raw []) .nil), []⟩⟩ ⟨b + b, k2, v2⟩ =
      ⟨some (b + b), some b, ⟨.kv k (.json v) (.kv n (.raw []) (.kv k2 (.json v2) .nil)), []⟩⟩ := by
    simp [stepTok, decode, hv2.1, hv2.2.2.2.1, assignKv, h2, h3, hb]
  rw [e1, e2, e3]
  rfl

/-- A key/value pair after an empty section is put into it. -/
theorem C38_empty_section (isJson : Text → Bool) (b : Nat) (_hb : 0 < b) (n k v : Text) (hn : KeyOk n)
    (hk : KeyOk k) (hv : ValueOk isJson v) :
    parse isJson (writeLeft b (.sec n .nil (.kv k v .nil))) = some (.sec n (.kv k (.json v) .nil) .nil) := by
  simp only [parse, writeLeft, contents, List.map_cons, List.map_nil, List.nil_append, parseLines,
    tok_kv b k v hk ⟨hv.1, hv.2.1, hv.2.2.1⟩, tok_sec b n hn]
  simp [stepTok, Active.push, assignSec, assignKv, decode, hv.2.2.2.1, Active.root, Active.popN, Active.pop]

/-- Every comment character inside a value is removed. -/
theorem C38_comment_removed (isJson : Text → Bool) (b : Nat) (k v : Text) (hk : KeyOk k)
    (hv : ValueOk isJson (v.filter (fun c => c != '#'))) :
    parse isJson (writeLeft b (.kv k v .nil)) = some (.kv k (.json (v.filter (fun c => c != '#'))) .nil) := by
  have htok : tokenize (leftLine ⟨b, k ++ ": ".toList ++ v⟩) = some (some ⟨b, k, v.filter (fun c => c != '#')⟩) := by
    rw [← tok_kv b k (v.filter (fun c => c != '#')) hk ⟨hv.1, hv.2.1, hv.2.2.1⟩]
    have : (leftLine ⟨b, k ++ ": ".toList ++ v⟩).filter (fun c => c != '#') =
        (leftLine ⟨b, k ++ ": ".toList ++ v.filter (fun c => c != '#')⟩).filter (fun c => c != '#') := by
      simp only [leftLine]
      rw [List.filter_cons_of_neg (by simp), List.filter_cons_of_neg (by simp)]
      simp only [List.filter_append, List.filter_filter, Bool.and_self]
    unfold tokenize
    rw [this]
    rfl
  simp only [parse, writeLeft, contents, List.map_cons, List.map_nil, parseLines, htok]
  simp [stepTok, hv.1, decode, hv.2.2.2.1, assignKv, Active.root, Active.popN]

/-- Two nested sections and values. -/
def sample : Tree Text :=
  .sec "Parameters".toList
    (.sec "inner".toList (.kv "x".toList "[1, 2]".toList .nil) (.kv "freq".toList "3.8e7".toList .nil))
    (.kv "LSL Version".toList "\"4.0\"".toList .nil)

theorem key_ok (k : Text) (h : (decide (k ≠ []) && decide (strip k = k) && !(k.contains ':') && !(k.contains '#') && !(k.contains '\n')) = true) :
    KeyOk k := by
  simp only [Bool.and_eq_true, decide_eq_true_eq, Bool.not_eq_true', List.contains_eq_mem,
    decide_eq_false_iff_not] at h
  exact ⟨h.1.1.1.1, h.1.1.1.2, h.1.1.2, h.1.2, h.2⟩

theorem value_ok (v : Text) (h : (decide (v ≠ []) && decide (strip v = v) && !(v.contains '#') && !(v.contains '\n')) = true) :
    ValueOk (fun t => decide (t ≠ [])) v := by
  simp only [Bool.and_eq_true, decide_eq_true_eq, Bool.not_eq_true', List.contains_eq_mem,
    decide_eq_false_iff_not] at h
  exact ⟨h.1.1.1, h.1.1.2, h.1.2, by simpa using h.1.1.1, h.2⟩

example : TreeOk (fun t => decide (t ≠ [])) sample := by
  refine ⟨key_ok _ (by decide), by decide, by decide, ⟨key_ok _ (by decide), by decide, by decide,
    ⟨key_ok _ (by decide), value_ok _ (by decide), by decide, trivial, trivial⟩,
    ⟨key_ok _ (by decide), value_ok _ (by decide), by decide, trivial, trivial⟩⟩,
    ⟨key_ok _ (by decide), value_ok _ (by decide), by decide, trivial, trivial⟩⟩

end Verif.Header
