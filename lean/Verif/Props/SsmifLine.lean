import Verif.Lemmas.SsmifLine
import Verif.Props.Ssmif
/-!
# C48: the lines of station files
-/
namespace Verif.Ssmif
open Dec Parser Spec

/-- The keywords whose lines go astray. -/
def astray : List String := ["ARB_PORT", "ASP_AT3"]

theorem own_acts : ∀ r ∈ own, r.1 ∉ astray → (acts.lookup r.1).bind Act.target = some r.2 := by decide +kernel

theorem own_keys : ∀ r ∈ own, (r.1.toList.all isKey && !r.1.toList.isEmpty) = true := by decide +kernel

/-- C48: every setting line of every keyword but two changes its own entry to its own value and nothing else. -/
theorem C48_line_partial (fl : Str → Option Rat) (e : Env) (s : Setting) (k : Kind) (x : String) (ty : Type') (v : Val)
    (ho : (s.key, k, x, ty) ∈ own) (ha : s.key ∉ astray) (hc : s.Clean) (hf : s.Fits e k x)
    (hv : means fl ty s.value = some v) :
    ∃ e', step fl e (s.text k) = some e' ∧ OnlyAt e e' x (s.i - 1) (s.column k) v := by
  have h1 := own_acts _ ho ha
  have h2 := own_keys _ ho
  simp only [Bool.and_eq_true, List.all_eq_true, Bool.not_eq_true', List.isEmpty_eq_false_iff] at h2
  cases hl : acts.lookup s.key with
  | none => rw [hl] at h1; cases h1
  | some a =>
    rw [hl] at h1
    rw [step_setting fl e s k a hc h2.1 h2.2 hl]
    exact target_run fl e s a k x ty v h1 hf hv

/-! ## Whole files -/

/-- A setting with the kind, list and value it has. -/
structure Line where
  s : Setting
  kind : Kind
  arr : String
  type : Type'
  v : Val

/-- Where a line writes. -/
def Line.At (l : Line) (x : String) (p : Nat) (q : Option Nat) : Bool :=
  l.arr == x && l.s.i == p + 1 && l.s.column l.kind == q

/-- The value of the last line for an entry. -/
def lastFor (ls : List Line) (x : String) (p : Nat) (q : Option Nat) : Option Val :=
  (ls.filter (fun l => l.At x p q)).getLast?.map Line.v

def Line.Good (fl : Str → Option Rat) (e : Env) (l : Line) : Prop :=
  (l.s.key, l.kind, l.arr, l.type) ∈ own ∧ l.s.key ∉ astray ∧ l.s.Clean ∧ l.s.Fits e l.kind l.arr ∧
  means fl l.type l.s.value = some l.v

theorem own_scratch : ∀ r ∈ own, r.2.2.1 ∉ scratch := by decide +kernel

/-- Lists stay lists, of the same length; tables stay tables, with rows of the same lengths. -/
def SameShape (a b : Option Var) : Prop :=
  (∀ l, a = some (.list l) → ∃ l', b = some (.list l') ∧ l'.length = l.length) ∧
  (∀ t, a = some (.table t) → ∃ t', b = some (.table t') ∧ t'.map List.length = t.map List.length)

theorem SameShape.refl (a : Option Var) : SameShape a a := ⟨fun l h => ⟨l, h, rfl⟩, fun t h => ⟨t, h, rfl⟩⟩

theorem SameShape.trans {a b c : Option Var} (h1 : SameShape a b) (h2 : SameShape b c) : SameShape a c := by
  constructor
  · intro l hl
    obtain ⟨l', h3, h4⟩ := h1.1 l hl
    obtain ⟨l'', h5, h6⟩ := h2.1 l' h3
    exact ⟨l'', h5, by omega⟩
  · intro t ht
    obtain ⟨t', h3, h4⟩ := h1.2 t ht
    obtain ⟨t'', h5, h6⟩ := h2.2 t' h3
    exact ⟨t'', h5, by rw [h6, h4]⟩

theorem row_length {t t' : List (List Val)} (h : t'.map List.length = t.map List.length) (p : Nat) (r : List Val)
    (hr : t[p]? = some r) : ∃ r', t'[p]? = some r' ∧ r'.length = r.length := by
  have : (t'.map List.length)[p]? = (t.map List.length)[p]? := by rw [h]
  rw [List.getElem?_map, List.getElem?_map, hr] at this
  cases hp : t'[p]? with
  | none => rw [hp] at this; cases this
  | some r' =>
    rw [hp] at this
    exact ⟨r', rfl, by simpa using this⟩

theorem fits_shape (s : Setting) (e e' : Env) (k : Kind) (x : String) (h : SameShape (e x) (e' x)) (hf : s.Fits e k x) :
    s.Fits e' k x := by
  obtain ⟨h1, hf⟩ := hf
  refine ⟨h1, ?_⟩
  cases k with
  | entry =>
    obtain ⟨l, hl, h2⟩ := hf
    obtain ⟨l', h3, h4⟩ := h.1 l hl
    exact ⟨l', h3, by omega⟩
  | cell =>
    obtain ⟨hj, t, r, h2, h3, h4⟩ := hf
    obtain ⟨t', h5, h6⟩ := h.2 t h2
    obtain ⟨r', h7, h8⟩ := row_length h6 _ r h3
    exact ⟨hj, t', r', h5, h7, by omega⟩
  | axis c =>
    obtain ⟨t, r, h2, h3, h4⟩ := hf
    obtain ⟨t', h5, h6⟩ := h.2 t h2
    obtain ⟨r', h7, h8⟩ := row_length h6 _ r h3
    exact ⟨t', r', h5, h7, by omega⟩

theorem only_shape {e e' : Env} {x : String} {p : Nat} {q : Option Nat} {v : Val} (h : OnlyAt e e' x p q v) (y : String)
    (hy : y ∉ scratch) : SameShape (e y) (e' y) := by
  by_cases hyx : y = x
  · subst hyx; exact h.shape
  · rw [h.others y hyx hy]; exact SameShape.refl _

/-- C48: after any number of setting lines, every entry has the value of the last line about it, or the one it had. -/
theorem C48_file_partial (fl : Str → Option Rat) (e : Env) (ls : List Line) (h : ∀ l ∈ ls, l.Good fl e) :
    ∃ e', parseText fl e (ls.map (fun l => l.s.text l.kind)) = some e' ∧
      (∀ x, x ∉ scratch → SameShape (e x) (e' x)) ∧
      (∀ x, x ∉ scratch → ∀ p q, valueAt (e' x) p q = (lastFor ls x p q).or (valueAt (e x) p q)) ∧
      (∀ x, x ∉ scratch → x ∉ ls.map Line.arr → e' x = e x) := by
  induction ls generalizing e with
  | nil => exact ⟨e, rfl, fun x _ => SameShape.refl _, fun x _ p q => by simp [lastFor], fun x _ _ => rfl⟩
  | cons l ls ih =>
    obtain ⟨g1, g2, g3, g4, g5⟩ := h l List.mem_cons_self
    obtain ⟨e1, s1, s2⟩ := C48_line_partial fl e l.s l.kind l.arr l.type l.v g1 g2 g3 g4 g5
    obtain ⟨e', t1, t2, t3, t4⟩ := ih e1 (by
      intro m hm
      obtain ⟨k1, k2, k3, k4, k5⟩ := h m (List.mem_cons_of_mem _ hm)
      exact ⟨k1, k2, k3, fits_shape _ _ _ _ _ (only_shape s2 _ (own_scratch _ k1)) k4, k5⟩)
    refine ⟨e', ?_, ?_, ?_, ?_⟩
    · rw [List.map_cons, parseText, s1]; exact t1
    · intro x hx; exact (only_shape s2 x hx).trans (t2 x hx)
    · intro x hx p q
      rw [t3 x hx p q]
      have hi : 1 ≤ l.s.i := g4.1
      by_cases hat : l.At x p q = true
      · simp only [Line.At, Bool.and_eq_true, beq_iff_eq] at hat
        obtain ⟨⟨rfl, ha2⟩, rfl⟩ := hat
        have hp : l.s.i - 1 = p := by omega
        subst hp
        rw [s2.new]
        simp only [lastFor, List.filter_cons]
        rw [if_pos (by simp [Line.At]; omega)]
        cases hf : ls.filter (fun m => m.At l.arr (l.s.i - 1) (l.s.column l.kind)) with
        | nil => simp
        | cons m ms => rw [List.getLast?_cons_cons]; cases hg : (m :: ms).getLast? with
          | none => simp at hg
          | some z => rfl
      · have hl : lastFor (l :: ls) x p q = lastFor ls x p q := by
          simp only [lastFor, List.filter_cons, if_neg hat]
        rw [hl]
        congr 1
        by_cases hxa : x = l.arr
        · subst hxa
          apply s2.rest
          intro hpq
          simp only [Prod.mk.injEq] at hpq
          apply hat
          simp [Line.At, hpq.2]; omega
        · rw [s2.others x hxa hx]
    · intro x hx hn
      simp only [List.map_cons, List.mem_cons, not_or] at hn
      rw [t4 x hx hn.2, s2.others x hn.1 hx]

end Verif.Ssmif
