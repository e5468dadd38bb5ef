import Verif.Lemmas.Ssmif
/-!
# Lemmas on the lines of station files
-/
namespace Verif.Ssmif
open Dec Parser Spec

theorem key_char (c : Char) (h : isKey c = true) : isBlank c = false ∧ c ≠ '#' ∧ c ≠ '\n' ∧ c ≠ '\r' := by
  have h1 : (65 ≤ c.toNat ∧ c.toNat ≤ 90) ∨ (48 ≤ c.toNat ∧ c.toNat ≤ 57) ∨ c.toNat = 95 := by
    simp only [isKey, Bool.or_eq_true, beq_iff_eq] at h
    rcases h with (h | h) | h
    · left
      simp only [Char.isUpper, ge_iff_le, decide_eq_true_eq, UInt32.le_iff_toNat_le] at h
      exact h
    · right; left
      simp only [Char.isDigit, ge_iff_le, Bool.and_eq_true, decide_eq_true_eq, UInt32.le_iff_toNat_le] at h
      exact h
    · right; right; subst h; rfl
  have hne : ∀ d : Char, d.toNat ≠ c.toNat → c ≠ d := fun d hd hc => hd (by rw [hc])
  refine ⟨?_, hne _ ?_, hne _ ?_, hne _ ?_⟩
  · simp only [isBlank, Bool.or_eq_false_iff, beq_eq_false_iff_ne, Bool.and_eq_false_iff, decide_eq_false_iff_not]
    refine ⟨⟨⟨⟨⟨⟨hne _ ?_, hne _ ?_⟩, hne _ ?_⟩, hne _ ?_⟩, hne _ ?_⟩, hne _ ?_⟩, ?_⟩
    · show (32 : Nat) ≠ _; omega
    · show (9 : Nat) ≠ _; omega
    · show (10 : Nat) ≠ _; omega
    · show (13 : Nat) ≠ _; omega
    · show (11 : Nat) ≠ _; omega
    · show (12 : Nat) ≠ _; omega
    · omega
  · show (35 : Nat) ≠ _; omega
  · show (10 : Nat) ≠ _; omega
  · show (13 : Nat) ≠ _; omega

theorem digit_key (c : Char) (h : c.isDigit = true) : isKey c = true := by simp [isKey, h]

/-- The second number in brackets. -/
def index2 : Option Nat → Str
  | none => []
  | some j => '[' :: (showNat j ++ [']'])

/-- `KEY[i]` or `KEY[i][j]`. -/
def head (key : Str) (i : Nat) (j : Option Nat) : Str := key ++ '[' :: (showNat i ++ ']' :: index2 j)

theorem head_chars (key : Str) (i : Nat) (j : Option Nat) (hk : ∀ c ∈ key, isKey c = true) (c : Char)
    (h : c ∈ head key i j) : isBlank c = false ∧ c ≠ '\n' ∧ c ≠ '\r' := by
  have hd : ∀ n : Nat, c ∈ showNat n → isBlank c = false ∧ c ≠ '\n' ∧ c ≠ '\r' := fun n hc => by
    have := key_char c (digit_key c (showNat_digit n c hc)); exact ⟨this.1, this.2.2.1, this.2.2.2⟩
  have hb : isBlank '[' = false ∧ '[' ≠ '\n' ∧ '[' ≠ '\r' := by decide
  have hb' : isBlank ']' = false ∧ ']' ≠ '\n' ∧ ']' ≠ '\r' := by decide
  rw [head] at h
  rcases List.mem_append.1 h with h | h
  · have := key_char c (hk c h); exact ⟨this.1, this.2.2.1, this.2.2.2⟩
  · rcases List.mem_cons.1 h with rfl | h
    · exact hb
    · rcases List.mem_append.1 h with h | h
      · exact hd i h
      · rcases List.mem_cons.1 h with rfl | h
        · exact hb'
        · cases j with
          | none => cases h
          | some j =>
            rcases List.mem_cons.1 h with rfl | h
            · exact hb
            · rcases List.mem_append.1 h with h | h
              · exact hd j h
              · rcases List.mem_cons.1 h with rfl | h
                · exact hb'
                · cases h

theorem takeWhile_append_stop {α : Type} (f : α → Bool) (a b : List α) (ha : ∀ x ∈ a, f x = true)
    (hb : ∀ x, b.head? = some x → f x = false) : (a ++ b).takeWhile f = a := by
  induction a with
  | nil =>
    cases b with
    | nil => rfl
    | cons x b => simp [hb x rfl]
  | cons x a ih =>
    simp only [List.cons_append, List.takeWhile_cons, ha x List.mem_cons_self, if_true]
    rw [ih (fun y hy => ha y (List.mem_cons_of_mem _ hy))]

theorem index_bracket (i : Nat) (r : Str) : index? ('[' :: (showNat i ++ ']' :: r)) = some (i, r) := by
  have h := cut_append ']' (showNat i) r (not_mem_showNat i ']' (by decide))
  simp only [index?, h, parseNat_showNat, Option.map_some]

theorem keyword_head (key : Str) (i : Nat) (j : Option Nat) (hk : ∀ c ∈ key, isKey c = true) (hne : key ≠ []) :
    keyword? (head key i j) = some (String.ofList key, (i : Int), match j with | none => -1 | some j => (j : Int)) := by
  have ht : (head key i j).takeWhile isKey = key := by
    rw [head]
    apply takeWhile_append_stop _ _ _ hk
    intro x hx
    simp at hx; subst hx; decide
  have hd : (head key i j).drop key.length =
      '[' :: (showNat i ++ ']' :: index2 j) := by
    rw [head, List.drop_append]; simp
  simp only [keyword?, ht, if_neg hne, hd, index_bracket]
  cases j with
  | none => rfl
  | some j => simp only [index2, index_bracket]

theorem twoParts_line (a b : Str) (g : Nat) (ha : ∀ c ∈ a, isBlank c = false) (hne : a ≠ [])
    (hb : ∃ c r, b = c :: r ∧ isBlank c = false) : twoParts (a ++ (List.replicate (g + 1) ' ' ++ b)) = some (a, b) := by
  obtain ⟨c, r, rfl, hc⟩ := hb
  have h0 : (a ++ (List.replicate (g + 1) ' ' ++ c :: r)).dropWhile isBlank = a ++ (List.replicate (g + 1) ' ' ++ c :: r) := by
    cases a with
    | nil => exact absurd rfl hne
    | cons x a => simp [ha x List.mem_cons_self]
  have h1 : (a ++ (List.replicate (g + 1) ' ' ++ c :: r)).takeWhile (fun c => !isBlank c) = a := by
    apply takeWhile_append_stop
    · intro x hx; simp [ha x hx]
    · intro x hx
      simp [List.replicate_succ] at hx; subst hx; decide
  have h2 : (a ++ (List.replicate (g + 1) ' ' ++ c :: r)).drop a.length = List.replicate (g + 1) ' ' ++ c :: r := by
    rw [List.drop_append]; simp
  have h3 : (List.replicate (g + 1) ' ' ++ c :: r).dropWhile isBlank = c :: r := by
    rw [dropWhile_blank_append _ _ (by intro x hx; rw [(List.mem_replicate.1 hx).2]; decide)]
    simp [hc]
  simp only [twoParts, h0, h1, h2, h3]
  simp [hne]

theorem uncomment_line (v : Str) (c : Option Str) (h : '#' ∉ v) :
    uncomment (v ++ ending c) = v := by
  cases c with
  | none => simp only [ending, List.append_nil, uncomment, cut_none '#' v h]
  | some c => simp only [ending, uncomment, cut_append '#' v c h]

/-- The second number of a setting, when there is one. -/
def Spec.Setting.second (s : Setting) (k : Kind) : Option Nat := if k = .cell then some s.j else none

theorem text_eq (s : Setting) (k : Kind) : s.text k = head s.key.toList s.i (s.second k) ++
    (List.replicate (s.gap + 1) ' ' ++ (s.value ++ ending s.comment)) := by
  unfold Setting.text head Setting.second
  by_cases h : k = .cell
  · simp [h, index2]
  · simp [h, index2]

/-- A setting line is read as its keyword, numbers and value. -/
theorem step_setting (fl : Str → Option Rat) (e : Env) (s : Setting) (k : Kind) (a : Act) (hc : s.Clean)
    (hk : ∀ c ∈ s.key.toList, isKey c = true) (hne : s.key.toList ≠ []) (ha : acts.lookup s.key = some a) :
    step fl e (s.text k) = a.run fl e s.i (match s.second k with | none => -1 | some j => (j : Int)) s.value := by
  obtain ⟨hv, hh, hn, hr, hcm⟩ := hc
  obtain ⟨x, ks, hx⟩ := List.exists_cons_of_ne_nil hne
  have hxk := key_char x (hk x (by rw [hx]; exact List.mem_cons_self))
  have hfil : (s.text k).filter (fun c => c ≠ '\n' ∧ c ≠ '\r') = s.text k := by
    rw [List.filter_eq_self]
    intro c hc
    rw [text_eq] at hc
    have : c ≠ '\n' ∧ c ≠ '\r' := by
      rcases List.mem_append.1 hc with hc | hc
      · have := head_chars _ _ _ hk c hc; exact ⟨this.2.1, this.2.2⟩
      · rcases List.mem_append.1 hc with hc | hc
        · rw [(List.mem_replicate.1 hc).2]; decide
        · rcases List.mem_append.1 hc with hc | hc
          · exact ⟨fun h' => hn (h' ▸ hc), fun h' => hr (h' ▸ hc)⟩
          · cases hco : s.comment with
            | none => rw [hco, ending] at hc; cases hc
            | some d =>
              rw [hco, ending] at hc
              rcases List.mem_cons.1 hc with rfl | hc
              · decide
              · have := hcm d hco
                exact ⟨fun h' => this.1 (h' ▸ hc), fun h' => this.2 (h' ▸ hc)⟩
    simp [this]
  have hcons : ∃ r, s.text k = x :: r := by
    rw [text_eq, head, hx]; exact ⟨_, rfl⟩
  obtain ⟨r, hr'⟩ := hcons
  have hall : (s.text k).all isBlank = false := by rw [hr']; simp [hxk.1]
  have hhead : ¬ (s.text k).head? = some '#' := by rw [hr']; simp; exact hxk.2.1
  have h2 : twoParts (s.text k) = some (head s.key.toList s.i (s.second k),
      s.value ++ ending s.comment) := by
    rw [text_eq]
    refine twoParts_line _ _ _ (fun c hc => (head_chars _ _ _ hk c hc).1) ?_ ?_
    · rw [head, hx]; simp
    · obtain ⟨c, q, hq, hb⟩ := hv
      exact ⟨c, _, by rw [hq]; rfl, hb⟩
  have h3 := keyword_head s.key.toList s.i (s.second k) hk hne
  simp only [step, hfil, hall, hhead, h2, h3, String.ofList_toList, ha, uncomment_line s.value s.comment hh]
  simp

/-! ## Assignments -/

theorem put_same (e : Env) (x : String) (v : Var) : (e.put x v) x = some v := by simp [Env.put]

theorem put_other (e : Env) (x y : String) (v : Var) (h : y ≠ x) : (e.put x v) y = e y := by simp [Env.put, h]

theorem setAt_in {α : Type} (l : List α) (i : Nat) (v : α) (h1 : 1 ≤ i) (h2 : i ≤ l.length) :
    setAt l ((i : Int) - 1) v = some (l.set (i - 1) v) := by
  have h : ((i : Int) - 1).toNat = i - 1 := by omega
  rw [setAt, pyIdx_in _ _ (by omega) (by omega), Option.map_some, h]

theorem setEntry_only (e : Env) (x : String) (l : List Val) (i : Nat) (v : Val) (h : e x = some (.list l)) (h1 : 1 ≤ i)
    (h2 : i ≤ l.length) : ∃ e', e.setEntry x ((i : Int) - 1) v = some e' ∧ OnlyAt e e' x (i - 1) none v := by
  refine ⟨e.put x (.list (l.set (i - 1) v)), ?_, ?_, ?_, ?_, ?_, ?_⟩
  · simp only [Env.setEntry, h, setAt_in l i v h1 h2, Option.map_some]
  · rw [put_same]; simp only [valueAt]; rw [List.getElem?_set_self (by omega)]
  · intro p q hpq
    rw [put_same, h]
    cases q with
    | none =>
      simp only [valueAt]
      rw [List.getElem?_set_ne (by intro hh; exact hpq (by rw [hh]))]
    | some q => rfl
  · intro y hy _; exact put_other e x y _ hy
  · intro m hm
    rw [h] at hm; cases hm
    exact ⟨_, put_same _ _ _, by simp⟩
  · intro t ht; rw [h] at ht; cases ht

theorem setCell_only (e : Env) (x : String) (t : List (List Val)) (r : List Val) (i k : Nat) (j : Int) (v : Val)
    (h : e x = some (.table t)) (h1 : 1 ≤ i) (hr : t[i - 1]? = some r) (hj : pyIdx r.length j = some k) :
    ∃ e', e.setCell x ((i : Int) - 1) j v = some e' ∧ OnlyAt e e' x (i - 1) (some k) v := by
  have hi : i - 1 < t.length := by
    rcases Nat.lt_or_ge (i - 1) t.length with h' | h'
    · exact h'
    · rw [List.getElem?_eq_none h'] at hr; cases hr
  have hk := pyIdx_lt _ _ _ hj
  have hii : ((i : Int) - 1).toNat = i - 1 := by omega
  refine ⟨e.put x (.table (t.set (i - 1) (r.set k v))), ?_, ?_, ?_, ?_, ?_, ?_⟩
  · simp only [Env.setCell, h, Ssmif.setCell, pyIdx_in t.length i (by omega) (by omega), hii, hr, setAt, hj,
      Option.map_some]
  · rw [put_same]; simp only [valueAt]
    rw [List.getElem?_set_self hi]
    simp only [Option.bind_some]
    rw [List.getElem?_set_self hk]
  · intro p q hpq
    rw [put_same, h]
    cases q with
    | none => rfl
    | some q =>
      simp only [valueAt]
      by_cases hp : i - 1 = p
      · subst hp
        rw [List.getElem?_set_self hi, hr]
        simp only [Option.bind_some]
        rw [List.getElem?_set_ne (by intro hh; exact hpq (by rw [hh]))]
      · rw [List.getElem?_set_ne hp]
  · intro y hy _; exact put_other e x y _ hy
  · intro m hm; rw [h] at hm; cases hm
  · intro m hm
    rw [h] at hm; cases hm
    refine ⟨_, put_same _ _ _, ?_⟩
    apply List.ext_getElem?
    intro p
    rw [List.getElem?_map, List.getElem?_map]
    by_cases hp : i - 1 = p
    · subst hp
      rw [List.getElem?_set_self hi, hr]; simp
    · rw [List.getElem?_set_ne hp]

/-- Entry `i` (and column) is there. -/
def Spec.Setting.Fits (s : Setting) (e : Env) (k : Kind) (x : String) : Prop :=
  1 ≤ s.i ∧
  match k with
  | .entry => ∃ l, e x = some (.list l) ∧ s.i ≤ l.length
  | .cell => 1 ≤ s.j ∧ ∃ t r, e x = some (.table t) ∧ t[s.i - 1]? = some r ∧ s.j ≤ r.length
  | .axis c => ∃ t r, e x = some (.table t) ∧ t[s.i - 1]? = some r ∧ c < r.length

def Conv.type : Conv → Type'
  | .int => .int
  | .flt => .flt
  | .str => .str
  | .intOrStr => .slot

/-- What an action changes. -/
def Act.target : Act → Option (Kind × String × Type')
  | .entry x c => some (.entry, x, c.type)
  | .entryOrAll x _ c => some (.entry, x, c.type)
  | .cell x c => some (.cell, x, c.type)
  | .axis k => some (.axis k, "stdPos", .flt)
  | .asp tmp arr src => if tmp = src ∧ tmp ∈ scratch ∧ arr ∉ scratch then some (.entry, arr, .int) else none
  | _ => none

theorem conv_means (fl : Str → Option Rat) (c : Conv) (s : Str) : c.run fl s = means fl c.type s := by cases c <;> rfl

theorem target_run (fl : Str → Option Rat) (e : Env) (s : Setting) (a : Act) (k : Kind) (x : String) (ty : Type')
    (v : Val) (ht : a.target = some (k, x, ty)) (hf : s.Fits e k x) (hv : means fl ty s.value = some v) :
    ∃ e', a.run fl e s.i (match s.second k with | none => -1 | some j => (j : Int)) s.value = some e' ∧
      OnlyAt e e' x (s.i - 1) (s.column k) v := by
  obtain ⟨h1, hf⟩ := hf
  cases a with
  | version => simp [Act.target] at ht
  | scalar y c => simp [Act.target] at ht
  | size y n => simp [Act.target] at ht
  | size2 y o n => simp [Act.target] at ht
  | entry y c =>
    simp only [Act.target, Option.some.injEq, Prod.mk.injEq] at ht
    obtain ⟨rfl, rfl, rfl⟩ := ht
    obtain ⟨l, hl, h2⟩ := hf
    have := setEntry_only e y l s.i v hl h1 h2
    simp only [Act.run, conv_means, hv, Option.bind_some]
    exact this
  | entryOrAll y n c =>
    simp only [Act.target, Option.some.injEq, Prod.mk.injEq] at ht
    obtain ⟨rfl, rfl, rfl⟩ := ht
    obtain ⟨l, hl, h2⟩ := hf
    have := setEntry_only e y l s.i v hl h1 h2
    simp only [Act.run, conv_means, hv, Option.bind_some]
    rw [if_neg (by omega)]
    exact this
  | cell y c =>
    simp only [Act.target, Option.some.injEq, Prod.mk.injEq] at ht
    obtain ⟨rfl, rfl, rfl⟩ := ht
    obtain ⟨hj, t, r, h2, h3, h4⟩ := hf
    have hjj : ((s.j : Int) - 1).toNat = s.j - 1 := by omega
    have hp := pyIdx_in r.length s.j (by omega) (by omega)
    rw [hjj] at hp
    have := setCell_only e y t r s.i (s.j - 1) ((s.j : Int) - 1) v h2 h1 h3 hp
    simp only [Act.run, conv_means, hv, Option.bind_some, Setting.second, if_true]
    exact this
  | axis c =>
    simp only [Act.target, Option.some.injEq, Prod.mk.injEq] at ht
    obtain ⟨rfl, rfl, rfl⟩ := ht
    obtain ⟨t, r, h2, h3, h4⟩ := hf
    have hp : pyIdx r.length (c : Int) = some c := by unfold pyIdx; rw [if_pos (by omega), if_pos (by omega)]; simp
    have := setCell_only e "stdPos" t r s.i c c v h2 h1 h3 hp
    have hm : Conv.flt.run fl s.value = some v := hv
    simp only [Act.run, hm, Option.bind_some]
    exact this
  | asp tmp arr src =>
    simp only [Act.target] at ht
    split at ht
    · rename_i hs
      obtain ⟨hs1, hs2, hs3⟩ := hs
      simp only [Option.some.injEq, Prod.mk.injEq] at ht
      obtain ⟨rfl, rfl, rfl⟩ := ht
      subst hs1
      obtain ⟨l, hl, h2⟩ := hf
      have hne : arr ≠ tmp := fun h => hs3 (h ▸ hs2)
      simp only [means] at hv
      cases hn : intText? s.value with
      | none => rw [hn] at hv; cases hv
      | some n =>
        rw [hn] at hv
        simp only [Option.map_some, Option.some.injEq] at hv
        subst hv
        obtain ⟨e', h5, h6⟩ := setEntry_only (e.put tmp (.one (.int n))) arr l s.i (.int n)
          (by rw [put_other _ _ _ _ hne]; exact hl) h1 h2
        refine ⟨e', ?_, h6.new, ?_, ?_, ?_⟩
        · simp only [Act.run, hn, put_same]
          rw [if_neg (by omega)]
          exact h5
        · intro p q hpq; rw [h6.rest p q hpq, put_other _ _ _ _ hne]
        · intro y hy hys
          rw [h6.others y hy hys, put_other _ _ _ _ (fun h : y = tmp => hys (by rw [h]; exact hs2))]
        · have := h6.shape; rw [put_other _ _ _ _ hne] at this; exact this
    · cases ht

end Verif.Ssmif
