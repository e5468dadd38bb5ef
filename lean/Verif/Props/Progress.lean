import Verif.Model.Progress
import Verif.Lemmas.Float64Mono
import Verif.Props.Color
/-!
# C50 progress bars
-/
namespace Verif.Progress
open Dec Color Color.Spec

/-- A bar within its range. -/
def InRange (b : Bar) : Prop := 0 ≤ b.amount ∧ b.amount ≤ b.max ∧ 0 < b.max

theorem fl64_int (n : Int) (h0 : 0 ≤ n) (h : n ≤ 2 ^ 53) : fl64 (n : Rat) = (n : Rat) := by
  have := fl64_nat n.toNat (by omega)
  rw [← Rat.intCast_natCast, show ((n.toNat : Nat) : Int) = n by omega] at this
  exact this

theorem frac_range (b : Bar) (h : InRange b) : 0 ≤ frac b ∧ frac b ≤ 1 := by
  obtain ⟨h0, h1, h2⟩ := h
  have a0 : (0 : Rat) ≤ (b.amount : Rat) := by exact_mod_cast h0
  have a1 : (b.amount : Rat) ≤ (b.max : Rat) := by exact_mod_cast h1
  have a2 : (0 : Rat) < (b.max : Rat) := by exact_mod_cast h2
  have f1 := fl64_mono a0 a1
  have f0 := fl64_nonneg a0
  have f2 := fl64_pos a2
  have hi := Rat.inv_pos.mpr f2
  have hc : fl64 b.max * (fl64 b.max)⁻¹ = 1 := Rat.mul_inv_cancel _ (by grind)
  have q0 : 0 ≤ fl64 b.amount / fl64 b.max := by
    rw [Rat.div_def]; exact Rat.mul_nonneg f0 (Rat.le_of_lt hi)
  have q1 : fl64 b.amount / fl64 b.max ≤ 1 := by
    rw [Rat.div_def, ← hc]; exact Rat.mul_le_mul_of_nonneg_right f1 (Rat.le_of_lt hi)
  refine ⟨fl64_nonneg q0, ?_⟩
  have := fl64_mono q0 q1
  rw [show fl64 1 = 1 from by decide +kernel] at this
  exact this

theorem nMarks_range (b : Bar) (h : InRange b) (w : Int) (h0 : 0 ≤ w) (hw : w ≤ 2 ^ 53) :
    0 ≤ nMarks b w ∧ nMarks b w ≤ w := by
  obtain ⟨f0, f1⟩ := frac_range b h
  have w0 : (0 : Rat) ≤ (w : Rat) := by exact_mod_cast h0
  unfold nMarks
  rw [fl64_int w h0 hw]
  have p0 : 0 ≤ frac b * w := Rat.mul_nonneg f0 w0
  have p1 : frac b * w ≤ w := by
    have := Rat.mul_le_mul_of_nonneg_right f1 w0
    rw [Rat.one_mul] at this; exact this
  refine ⟨fl64_nonneg p0, ?_⟩
  have := fl64_mono p0 p1
  rw [fl64_int w h0 hw] at this
  exact this

theorem mark_index (b : Bar) (h : InRange b) (w : Int) (h0 : 0 ≤ w) (hw : w ≤ 2 ^ 53) :
    0 ≤ pyInt (nMarks b w) ∧ pyInt (nMarks b w) ≤ w ∧
    0 ≤ pyInt (fl64 (fl64 (nMarks b w - pyInt (nMarks b w)) * 5)) ∧
    pyInt (fl64 (fl64 (nMarks b w - pyInt (nMarks b w)) * 5)) < 5 := by
  obtain ⟨m0, m1⟩ := nMarks_range b h w h0 hw
  obtain ⟨p1, p2⟩ := (pyInt_bounds (nMarks b w)).1 m0
  have i0 : 0 ≤ pyInt (nMarks b w) := by
    unfold pyInt
    rw [if_pos m0]
    have := floor_bounds (nMarks b w)
    have h2 : ((-1 : Int) : Rat) < ((nMarks b w).floor : Rat) := by
      have : ((-1 : Int) : Rat) = -1 := rfl
      grind
    have := Rat.intCast_lt_intCast.mp h2
    omega
  have i1 : pyInt (nMarks b w) ≤ w := intCast_le_of (by grind)
  refine ⟨i0, i1, ?_⟩
  have f0 : 0 ≤ frac b * fl64 w := by
    obtain ⟨f0, _⟩ := frac_range b h
    rw [fl64_int w h0 hw]
    exact Rat.mul_nonneg f0 (by exact_mod_cast h0)
  -- the fraction is below one by at least 2^-53
  have hgap : nMarks b w - pyInt (nMarks b w) ≤ 1 - pow2 (-53) := by
    have hn : ((pyInt (nMarks b w)).toNat : Rat) = (pyInt (nMarks b w) : Rat) := by
      rw [← Rat.intCast_natCast, show (((pyInt (nMarks b w)).toNat : Nat) : Int) = pyInt (nMarks b w) by omega]
    have := fl64_gap f0 (pyInt (nMarks b w)).toNat (by rw [hn]; exact p2)
    rw [hn] at this
    have e : fl64 (frac b * fl64 w) = nMarks b w := rfl
    rw [e] at this
    grind
  have d0 : 0 ≤ nMarks b w - pyInt (nMarks b w) := by grind
  generalize nMarks b w - pyInt (nMarks b w) = d at hgap d0
  have g1 := fl64_mono d0 hgap
  rw [show fl64 (1 - pow2 (-53)) = 1 - pow2 (-53) from by decide +kernel] at g1
  have g0 := fl64_nonneg d0
  have k0 : 0 ≤ fl64 d * 5 := Rat.mul_nonneg g0 (by decide)
  have k1 : fl64 d * 5 ≤ (1 - pow2 (-53)) * 5 := Rat.mul_le_mul_of_nonneg_right g1 (by decide)
  have l0 := fl64_nonneg k0
  have l1 := fl64_mono k0 k1
  have l2 : fl64 ((1 - pow2 (-53)) * 5) < 5 := by decide +kernel
  obtain ⟨q1, q2⟩ := (pyInt_bounds (fl64 (fl64 d * 5))).1 l0
  refine ⟨?_, ?_⟩
  · have : ((-1 : Int) : Rat) < (pyInt (fl64 (fl64 d * 5)) : Rat) := by
      have : ((-1 : Int) : Rat) = -1 := rfl
      grind
    have := Rat.intCast_lt_intCast.mp this
    omega
  · have : (pyInt (fl64 (fl64 d * 5)) : Rat) < ((5 : Int) : Rat) := by
      have : ((5 : Int) : Rat) = 5 := rfl
      grind
    exact Rat.intCast_lt_intCast.mp this

theorem times_length (s : Str) (n : Int) (hs : s.length = 1) (hn : 0 ≤ n) : ((times s n).length : Int) = n := by
  simp only [times, List.length_flatten, List.map_replicate, hs, List.sum_replicate_nat]
  omega

/-- The mark after the full ones is one of the five. -/
theorem inside_form (b : Bar) (h : InRange b) (w : Int) (h0 : 0 ≤ w) (hw : w ≤ 2 ^ 53) (cl : Bool) (hs : b.sym.length = 1) :
    ∃ full m k, inside b w cl = some (times b.sym full ++ m ++ times [' '] k) ∧ 0 ≤ full ∧ 0 ≤ k ∧
      full + m.length + k = w ∧ (m = [] ∨ m ∈ rotations b) ∧ full = pyInt (nMarks b w) := by
  obtain ⟨i0, i1, j0, j1⟩ := mark_index b h w h0 hw
  have hfull : (if cl then min (pyInt (nMarks b w)) w else pyInt (nMarks b w)) = pyInt (nMarks b w) := by
    split <;> omega
  unfold inside
  simp only [hfull]
  by_cases hlt : pyInt (nMarks b w) < w
  · rw [if_pos hlt]
    generalize pyInt (fl64 (fl64 (nMarks b w - pyInt (nMarks b w)) * 5)) = i at j0 j1
    have hget : ∃ m, pyGet (rotations b) i = some m ∧ m ∈ rotations b ∧ m.length = 1 := by
      have hl : (rotations b).length = 5 := rfl
      have hi : i.toNat < (rotations b).length := by rw [hl]; omega
      refine ⟨(rotations b)[i.toNat], ?_, List.getElem_mem hi, ?_⟩
      · simp only [pyGet, show ¬ i < 0 by omega, if_false, hl, j0, true_and]
        rw [if_pos (by simpa using j1), List.getElem?_eq_getElem hi]
      · have : ∀ m ∈ rotations b, m.length = 1 := by
          intro m hm
          simp only [rotations, List.mem_cons, List.not_mem_nil, or_false] at hm
          rcases hm with rfl | rfl | rfl | rfl | rfl <;> first | rfl | exact hs
        exact this _ (List.getElem_mem hi)
    obtain ⟨m, hm, hmem, hml⟩ := hget
    refine ⟨_, m, _, by rw [hm]; rfl, i0, ?_, ?_, Or.inr hmem, rfl⟩
    · rw [hml]; omega
    · omega
  · rw [if_neg hlt]
    refine ⟨_, [], _, rfl, i0, ?_, ?_, Or.inl rfl, rfl⟩
    · simp; omega
    · simp; omega

theorem inside_length (b : Bar) (h : InRange b) (w : Int) (h0 : 0 ≤ w) (hw : w ≤ 2 ^ 53) (cl : Bool) (hs : b.sym.length = 1) :
    ∃ s, inside b w cl = some s ∧ (s.length : Int) = w := by
  obtain ⟨full, m, k, h1, h2, h3, h4, _⟩ := inside_form b h w h0 hw cl hs
  refine ⟨_, h1, ?_⟩
  have t1 := times_length b.sym full hs h2
  have t2 := times_length [' '] k rfl h3
  rw [List.length_append, List.length_append]
  omega

theorem fmt51_length (v : Rat) (h0 : 0 ≤ v) (h1 : v ≤ 999) : (fmt51 v).length = 5 := by
  have hv : ¬ v < 0 := by grind
  have r1 : roundHalfEven (v * 10) ≤ 9990 := by
    have e : ((9990 : Int) : Rat) = 9990 := rfl
    have := roundHalfEven_mono (show v * 10 ≤ ((9990 : Int) : Rat) by rw [e]; grind)
    rw [round_int] at this; exact this
  simp only [fmt51, hv, if_false, List.nil_append]
  generalize ht : (roundHalfEven (v * 10)).toNat = t
  have htb : t ≤ 9990 := by omega
  have hd : (showNat (t % 10)).length ≤ 1 := (Nat.length_toDigits_le_iff (b := 10) (n := t % 10) (k := 1) (by decide) (by decide)).mpr (by omega)
  have hd1 : 0 < (showNat (t % 10)).length := List.length_pos_iff.2 (showNat_ne_nil _)
  have ha : (showNat (t / 10)).length ≤ 3 := (Nat.length_toDigits_le_iff (b := 10) (n := t / 10) (k := 3) (by decide) (by decide)).mpr (by omega)
  simp only [List.length_append, List.length_replicate, List.length_cons]
  omega

theorem nte_length (b : Bar) (h : InRange b) : (nte b).length = 6 := by
  obtain ⟨f0, f1⟩ := frac_range b h
  have p0 : 0 ≤ frac b * 100 := Rat.mul_nonneg f0 (by decide)
  have p1 : frac b * 100 ≤ 100 := by
    have := Rat.mul_le_mul_of_nonneg_right f1 (show (0 : Rat) ≤ 100 by decide)
    rw [Rat.one_mul] at this; exact this
  have q0 := fl64_nonneg p0
  have q1 := fl64_mono p0 p1
  rw [show fl64 100 = 100 from by decide +kernel] at q1
  simp only [nte, List.length_append, List.length_singleton]
  rw [fmt51_length _ q0 (by grind)]

/-- C50: without colour the text is as wide as asked for, for every amount from 0 to the maximum. -/
theorem C50_width_partial (b : Bar) (h : InRange b) (hs : b.sym.length = 1) (hc : b.color = none)
    (hspan : (if b.percent then 9 else 2) ≤ b.span) (hbig : b.span ≤ 2 ^ 53) :
    ∃ s, «show» b = .ok s ∧ (s.length : Int) = b.span := by
  unfold «show»
  by_cases hp : b.percent = true
  · rw [if_pos hp] at hspan ⊢
    obtain ⟨s, h1, h2⟩ := inside_length b h (b.span - 9) (by omega) (by omega) false hs
    rw [h1, withBar, dress, hc]
    refine ⟨_, rfl, ?_⟩
    have := nte_length b h
    simp only [List.length_append, List.length_cons, List.length_nil]
    omega
  · rw [if_neg hp] at hspan ⊢
    obtain ⟨s, h1, h2⟩ := inside_length b h (b.span - 2) (by omega) (by omega) false hs
    rw [h1, withBar, dress, hc]
    refine ⟨_, rfl, ?_⟩
    simp only [List.length_append, List.length_cons, List.length_nil]
    omega

/-- The bar of the examples: 37 of 100, 70 wide. -/
def sample : Bar := { amount := 37, max := 100, span := 70, sym := ['='], percent := true, color := none }

example : InRange sample ∧ sample.sym.length = 1 ∧ sample.color = none := by
  refine ⟨⟨by decide, by decide, by decide⟩, rfl, rfl⟩

/-- C50: narrower than its own ends the bar is wider than asked for. -/
theorem C50_narrow : «show» { sample with span := 3 } = .ok "[]  37.0%".toList := by decide +kernel

/-! ## Counting -/

inductive Op
  | inc (a : Int)
  | dec (a : Int)

def Op.arg : Op → Int
  | .inc a => a
  | .dec a => a

def apply (b : Bar) : Op → Bar
  | .inc a => inc b a
  | .dec a => dec b a

/-- C50: no sequence of steps by amounts that are not negative takes the amount below zero. -/
theorem C50_nonneg_partial (ops : List Op) (b : Bar) (h : 0 ≤ b.amount) (ha : ∀ o ∈ ops, 0 ≤ o.arg) :
    0 ≤ (ops.foldl apply b).amount := by
  induction ops generalizing b with
  | nil => exact h
  | cons o ops ih =>
    refine ih (apply b o) ?_ (fun x hx => ha x (List.mem_cons_of_mem _ hx))
    have h1 := ha o (List.mem_cons_self ..)
    cases o with
    | inc a => simp only [Op.arg] at h1; simp only [apply, inc]; omega
    | dec a => 
      simp only [apply, dec]
      split
      · show 0 ≤ b.amount - a; omega
      · exact h

/-- C50: a step that fits changes the amount by exactly the step; one that does not leaves it. -/
theorem C50_steps (b : Bar) (a : Int) : (inc b a).amount = b.amount + a ∧
    (a ≤ b.amount → (dec b a).amount = b.amount - a) ∧ (b.amount < a → (dec b a).amount = b.amount) := by
  refine ⟨rfl, ?_, ?_⟩ <;> intro h <;> simp only [dec]
  · rw [if_pos h]
  · rw [if_neg (by omega)]

theorem C50_negative_step : (inc sample (-38)).amount = -1 := by decide

/-! ## Growth -/

/-- C50: a larger amount never has fewer marks, and the full amount fills the bar. -/
theorem C50_growth (b b' : Bar) (h : InRange b) (h' : InRange b') (hm : b'.max = b.max) (hle : b.amount ≤ b'.amount)
    (w : Int) (h0 : 0 ≤ w) (hw : w ≤ 2 ^ 53) : pyInt (nMarks b w) ≤ pyInt (nMarks b' w) ∧
      (b'.amount = b'.max → pyInt (nMarks b' w) = w) := by
  have a0 : (0 : Rat) ≤ (b.amount : Rat) := by exact_mod_cast h.1
  have a1 : (b.amount : Rat) ≤ (b'.amount : Rat) := by exact_mod_cast hle
  have a2 : (0 : Rat) < (b.max : Rat) := by exact_mod_cast h.2.2
  have w0 : (0 : Rat) ≤ (w : Rat) := by exact_mod_cast h0
  have f2 := fl64_pos a2
  have hi := Rat.inv_pos.mpr f2
  have q0 : 0 ≤ fl64 b.amount / fl64 b.max := by
    rw [Rat.div_def]; exact Rat.mul_nonneg (fl64_nonneg a0) (Rat.le_of_lt hi)
  have q : fl64 b.amount / fl64 b.max ≤ fl64 b'.amount / fl64 b'.max := by
    rw [hm, Rat.div_def, Rat.div_def]; exact Rat.mul_le_mul_of_nonneg_right (fl64_mono a0 a1) (Rat.le_of_lt hi)
  have qf : frac b ≤ frac b' := fl64_mono q0 q
  have hn : nMarks b w ≤ nMarks b' w := by
    unfold nMarks
    rw [fl64_int w h0 hw]
    exact fl64_mono (Rat.mul_nonneg (frac_range b h).1 w0) (Rat.mul_le_mul_of_nonneg_right qf w0)
  obtain ⟨m0, _⟩ := nMarks_range b h w h0 hw
  obtain ⟨m0', m1'⟩ := nMarks_range b' h' w h0 hw
  obtain ⟨p1, p2⟩ := (pyInt_bounds (nMarks b w)).1 m0
  obtain ⟨p1', p2'⟩ := (pyInt_bounds (nMarks b' w)).1 m0'
  refine ⟨intCast_le_of (by grind), ?_⟩
  intro hfull
  have hf : frac b' = 1 := by
    unfold frac
    rw [hfull]
    have : fl64 b'.max / fl64 b'.max = 1 := by
      rw [Rat.div_def]; exact Rat.mul_inv_cancel _ (by rw [hm]; grind)
    rw [this]; decide +kernel
  have : nMarks b' w = w := by
    unfold nMarks
    rw [hf, Rat.one_mul, fl64_int w h0 hw, fl64_int w h0 hw]
  rw [this, pyInt_int]

/-! ## Colour -/

/-- A mark and a colour that do not interfere with the markup. -/
def Tame (b : Bar) (c : Str) : Prop :=
  b.color = some c ∧ c ≠ [] ∧ (∀ x ∈ c, x.isAlpha = true ∨ x = '-') ∧ c.map Char.toLower ≠ "reset".toList ∧
  ∀ x ∈ b.sym, x ≠ '{' ∧ x ≠ '}' ∧ x ≠ '\\' ∧ x ≠ '\n' ∧ x ≠ Char.ofNat 27

/-- A text as a document. -/
def chars (s : Str) (r : Doc) : Doc := s.foldr Doc.chr r

theorem render_chars (s : Str) (r : Doc) : render (chars s r) = s ++ render r := by
  induction s with
  | nil => rfl
  | cons c s ih => show render (Doc.chr c (chars s r)) = _; rw [render, ih]; rfl

theorem plain_chars (s : Str) (r : Doc) : plain (chars s r) = s ++ plain r := by
  induction s with
  | nil => rfl
  | cons c s ih => show plain (Doc.chr c (chars s r)) = _; rw [plain, ih]; rfl

theorem depth_chars (s : Str) (r : Doc) : depth (chars s r) = depth r := by
  induction s with
  | nil => rfl
  | cons c s ih => show depth (Doc.chr c (chars s r)) = _; rw [depth, ih]

theorem okB_chars (s : Str) (r : Doc) (i : Bool) (hs : ∀ c ∈ s, c ≠ '{' ∧ c ≠ '}' ∧ c ≠ ESC ∧ c ≠ '\n') (hr : OkB i r) :
    OkB i (chars s r) := by
  induction s with
  | nil => exact hr
  | cons c s ih =>
    have hc := hs c (List.mem_cons_self ..)
    exact ⟨⟨hc.1, hc.2.1, hc.2.2.1, fun _ => hc.2.2.2⟩, ih (fun x hx => hs x (List.mem_cons_of_mem _ hx))⟩

theorem plainT_chars (s : Str) (r : Doc) (hr : Plain r) : Plain (chars s r) := by
  induction s with
  | nil => exact hr
  | cons c s ih => exact ih

theorem ansi_chars' (s : Str) (r : Doc) : ansi (chars s r) = s.map Tok.chr ++ ansi r := by
  induction s with
  | nil => rfl
  | cons c s ih => show ansi (Doc.chr c (chars s r)) = _; rw [ansi, ih]; rfl

theorem template_append (P X : Str) (h : '\\' ∉ P) : template (P ++ X) = (template X).map (P ++ ·) := by
  induction P with
  | nil => simp
  | cons c P ih =>
    have hc : c ≠ '\\' := fun hc => h (by simp [hc])
    have ih := ih (fun hm => h (List.mem_cons_of_mem _ hm))
    cases hPX : P ++ X with
    | nil =>
      have hX : X = [] := (List.append_eq_nil_iff.1 hPX).2
      have hP : P = [] := (List.append_eq_nil_iff.1 hPX).1
      subst hX; subst hP
      simp [template, hc]
    | cons d r =>
      rw [List.cons_append, hPX, template, if_neg hc, ← hPX, ih]
      cases template X <;> simp

theorem digit_facts (d : Char) (h : d.isDigit = true) : d ≠ '{' ∧ d ≠ '}' ∧ d ≠ ESC ∧ d ≠ '\n' := by
  refine ⟨?_, ?_, ?_, ?_⟩ <;> (intro hc; subst hc; exact absurd h (by decide))

/-- Texts without braces, escape characters and line ends. -/
def Quiet (s : Str) : Prop := ∀ c ∈ s, c ≠ '{' ∧ c ≠ '}' ∧ c ≠ ESC ∧ c ≠ '\n'

theorem Quiet.append {s t : Str} (hs : Quiet s) (ht : Quiet t) : Quiet (s ++ t) := by
  intro c hc
  rcases List.mem_append.1 hc with h | h
  · exact hs c h
  · exact ht c h

theorem Quiet.showNat (n : Nat) : Quiet (showNat n) := fun c hc => digit_facts c (showNat_digit n c hc)

theorem Quiet.replicate (n : Nat) (c : Char) (h : c ≠ '{' ∧ c ≠ '}' ∧ c ≠ ESC ∧ c ≠ '\n') : Quiet (List.replicate n c) := by
  intro x hx; rw [List.eq_of_mem_replicate hx]; exact h

theorem Quiet.lit (s : Str) (h : (s.all (fun c => c ≠ '{' && c ≠ '}' && c ≠ ESC && c ≠ '\n')) = true) : Quiet s := by
  intro c hc
  have := List.all_eq_true.1 h c hc
  simpa [and_assoc] using this

theorem Quiet.fmt51 (v : Rat) : Quiet (fmt51 v) := by
  unfold Progress.fmt51
  refine (Quiet.replicate _ _ (by decide)).append ?_
  refine Quiet.append (Quiet.append ?_ (Quiet.showNat _)) ?_
  · split
    · exact Quiet.lit _ (by decide)
    · exact Quiet.lit _ (by decide)
  · exact Quiet.append (s := ['.']) (Quiet.lit _ (by decide)) (Quiet.showNat _)

theorem Quiet.nte (b : Bar) : Quiet (nte b) := (Quiet.fmt51 _).append (Quiet.lit _ (by decide))

theorem Quiet.showInt (n : Int) : Quiet (showInt n) := by
  intro c hc
  rcases showInt_chars n c hc with h | h
  · exact digit_facts c h
  · subst h; decide

theorem Quiet.pprintTime (v : Rat) : Quiet (pprintTime v) := by
  unfold Progress.pprintTime
  exact ((((Quiet.replicate _ _ (by decide)).append (Quiet.showInt _)).append (Quiet.lit _ (by decide))).append
    (Quiet.replicate _ _ (by decide))).append (Quiet.showInt _) |>.append (Quiet.lit _ (by decide))

theorem Quiet.cteTime (b : Bar) (t : Option Rat) : Quiet (cteTime b t) := by
  unfold Progress.cteTime
  split
  · exact Quiet.lit _ (by decide)
  · split
    · exact Quiet.lit _ (by decide)
    · split
      · exact Quiet.pprintTime _
      · split
        · exact Quiet.lit _ (by decide)
        · exact Quiet.pprintTime _

theorem Quiet.pprintRate (v : Rat) (d : Bool) : Quiet (pprintRate v d) := by
  unfold Progress.pprintRate
  have ht : Quiet (if d then [' ', ' '] else ['/', 's']) := by
    split <;> exact Quiet.lit _ (by decide)
  simp only
  split
  · exact ((Quiet.fmt51 _).append (Quiet.lit _ (by decide))).append ht
  · split
    · exact ((Quiet.fmt51 _).append (Quiet.lit _ (by decide))).append ht
    · split
      · exact ((Quiet.fmt51 _).append (Quiet.lit _ (by decide))).append ht
      · exact ((Quiet.fmt51 _).append (Quiet.lit _ (by decide))).append ht

theorem Quiet.cteRate (b : Bar) (t : Option Rat) : Quiet (cteRate b t) := by
  unfold Progress.cteRate
  split
  · exact Quiet.lit _ (by decide)
  · split
    · exact Quiet.lit _ (by decide)
    · split
      · exact Quiet.pprintRate _ _
      · split
        · exact Quiet.lit _ (by decide)
        · exact Quiet.pprintRate _ _

theorem expand_chars (c s : Str) : (s.map Tok.chr).flatMap (expand c) = s.map Tok.chr := by
  induction s with
  | nil => rfl
  | cons x s ih => rw [List.map_cons, List.flatMap_cons, ih]; rfl

/-- Colouring a bar does not change what is left when the colours are removed. -/
theorem dress_color (b : Bar) (c : Str) (hc : Tame b c) (h : InRange b) (w : Int) (h0 : 0 ≤ w) (hw : w ≤ 2 ^ 53) (cl : Bool)
    (hs : b.sym.length = 1) (tail : Str) (ht : Quiet tail) :
    ∃ s t, inside b w cl = some s ∧ dress b s tail = .ok t ∧ uncolorfy t = ['['] ++ s ++ [']'] ++ tail := by
  obtain ⟨full, m, k, h1, h2, h3, h4, h5, _⟩ := inside_form b h w h0 hw cl hs
  obtain ⟨c1, c2, c3, c4, c5⟩ := hc
  generalize hbar : times b.sym full ++ m ++ times [' '] k = bar at h1
  refine ⟨bar, ?_⟩
  have hsym : Quiet (times b.sym full) ∧ '\\' ∉ times b.sym full := by
    have : ∀ x ∈ times b.sym full, x ∈ b.sym := by
      intro x hx
      simp only [times, List.mem_flatten, List.mem_replicate] at hx
      obtain ⟨l, ⟨_, rfl⟩, hx⟩ := hx
      exact hx
    refine ⟨fun x hx => ?_, fun hx => (c5 _ (this _ hx)).2.2.1 rfl⟩
    have := c5 x (this x hx)
    exact ⟨this.1, this.2.1, this.2.2.2.2, this.2.2.2.1⟩
  have hsp : Quiet (times [' '] k) ∧ '\\' ∉ times [' '] k := by
    have : ∀ x ∈ times [' '] k, x = ' ' := by
      intro x hx
      simp only [times, List.mem_flatten, List.mem_replicate] at hx
      obtain ⟨l, ⟨_, rfl⟩, hx⟩ := hx
      simpa using hx
    refine ⟨fun x hx => by rw [this x hx]; decide, fun hx => absurd (this _ hx) (by decide)⟩
  have hm : Quiet m ∧ ('\\' ∉ m ∨ m = ['\\']) := by
    rcases h5 with rfl | h5
    · exact ⟨Quiet.lit _ (by decide), Or.inl (by simp)⟩
    · simp only [rotations, List.mem_cons, List.not_mem_nil, or_false] at h5
      rcases h5 with rfl | rfl | rfl | rfl | rfl
      · exact ⟨Quiet.lit _ (by decide), Or.inl (by decide)⟩
      · exact ⟨Quiet.lit _ (by decide), Or.inr rfl⟩
      · exact ⟨Quiet.lit _ (by decide), Or.inl (by decide)⟩
      · exact ⟨Quiet.lit _ (by decide), Or.inl (by decide)⟩
      · refine ⟨fun x hx => ?_, Or.inl (fun hx => (c5 _ hx).2.2.1 rfl)⟩
        have := c5 x hx
        exact ⟨this.1, this.2.1, this.2.2.2.2, this.2.2.2.1⟩
  have hq : Quiet bar := by rw [← hbar]; exact (hsym.1.append hm.1).append hsp.1
  -- the document
  let d : Doc := .chr '[' (.tag c (chars bar .nil) (chars (']' :: tail) .nil))
  have hkids : OkB true (chars bar .nil) := okB_chars bar .nil true hq trivial
  have hok : OkB false d := by
    refine ⟨⟨by decide, by decide, by decide, by intro h; cases h⟩, ⟨c2, ?_, c4⟩, hkids, ?_⟩
    · intro x hx
      have := c3 x hx
      simpa [isTagChar] using this
    · exact okB_chars (']' :: tail) .nil false ((Quiet.lit [']'] (by decide)).append ht) trivial
  have hansi : ansi (chars bar .nil) = bar.map Tok.chr := by rw [ansi_chars']; simp [ansi]
  have hwrap : flat (wrap c (bar.map Tok.chr)) = codeOf c ++ (bar ++ reset) := by
    rw [← repl_flat c _ (by rw [← hansi]; exact good_ansi _ true hkids)]
    have e1 : flat (bar.map Tok.chr) = bar := by simp [flat, List.flatMap_map, Tok.str]
    rw [e1, repl]
    have h2 := replaceAll_flat reset reset_mem (.code reset :: codeTok c) (codeTok c ++ bar.map Tok.chr) (by
      intro t ht
      rcases List.mem_append.1 ht with ht | ht
      · exact good_codeTok c t ht
      · obtain ⟨x, hx, rfl⟩ := List.mem_map.1 ht
        exact (hq x hx).2.2.1)
    rw [flat_cons, flat_codeTok, flat_append, flat_codeTok, e1] at h2
    rw [show reset ++ codeOf c = (Tok.code reset).str ++ codeOf c from rfl, h2]
    have h3 : (codeTok c ++ bar.map Tok.chr).flatMap (fun t => if t = .code reset then .code reset :: codeTok c else [t]) =
        codeTok c ++ bar.map Tok.chr := by
      rw [List.flatMap_append]
      have := expand_codeTok c c4
      have e : (fun t => if t = Tok.code reset then Tok.code reset :: codeTok c else [t]) = expand c := by
        funext t; rfl
      rw [e, this]
      rw [expand_chars]
    rw [h3, flat_append, flat_codeTok, e1, List.append_assoc]
  have hplain : Plain d := by
    refine ⟨?_, plainT_chars _ _ trivial, plainT_chars _ _ trivial⟩
    rw [hansi, hwrap]
    have hcode : '\\' ∉ codeOf c := by
      intro hx
      simp only [codeOf] at hx
      cases hl : colors.lookup (c.map Char.toLower) with
      | none => rw [hl] at hx; simp at hx
      | some s => rw [hl] at hx; exact (code_chars s (lookup_mem _ _ hl) _ hx).2.2.1 rfl
    have hreset : '\\' ∉ reset := by decide
    rw [template_append _ _ hcode]
    rcases hm.2 with hmn | rfl
    · have : '\\' ∉ bar ++ reset := by
        rw [← hbar]
        simp only [List.mem_append, not_or]
        exact ⟨⟨⟨hsym.2, hmn⟩, hsp.2⟩, hreset⟩
      rw [template_plain _ this]; rfl
    · have e : bar ++ reset = times b.sym full ++ ('\\' :: (times [' '] k ++ reset)) := by rw [← hbar]; simp
      rw [e, template_append _ _ hsym.2]
      have hrest : template ('\\' :: (times [' '] k ++ reset)) = some ('\\' :: (times [' '] k ++ reset)) := by
        have hno : '\\' ∉ times [' '] k ++ reset := by
          simp only [List.mem_append, not_or]; exact ⟨hsp.2, hreset⟩
        have hhead : ∃ x r, times [' '] k ++ reset = x :: r ∧ (x = ' ' ∨ x = ESC) := by
          cases hkk : times [' '] k with
          | nil => exact ⟨ESC, ['[', '0', 'm'], rfl, Or.inr rfl⟩
          | cons y r =>
            refine ⟨y, r ++ reset, rfl, Or.inl ?_⟩
            have : y ∈ times [' '] k := by rw [hkk]; exact List.mem_cons_self ..
            simp only [times, List.mem_flatten, List.mem_replicate] at this
            obtain ⟨l, ⟨_, rfl⟩, hx⟩ := this
            simpa using hx
        obtain ⟨x, r, hxr, hx⟩ := hhead
        rw [hxr] at hno ⊢
        have hr : template r = some r := template_plain r (fun h => hno (List.mem_cons_of_mem _ h))
        rcases hx with rfl | rfl
        · rw [template]; simp [hr]
        · rw [template, hr]; simp [ESC, Char.isAlphanum, Char.isAlpha, Char.isDigit, Char.isUpper, Char.isLower]
      rw [hrest]; rfl
  have hrender : render d = ['[', '{', '{', '%'] ++ c ++ [' '] ++ bar ++ ['}', '}', ']'] ++ tail := by
    show render (Doc.chr '[' (.tag c (chars bar .nil) (chars (']' :: tail) .nil))) = _
    rw [render, render, render_chars, render_chars]
    simp [render]
  have hdepth : depth d ≤ 10 := by
    show depth (Doc.chr '[' (.tag c (chars bar .nil) (chars (']' :: tail) .nil))) ≤ 10
    rw [depth, depth, depth_chars, depth_chars]; decide
  have hcol := colorfy_doc d false hok hplain hdepth ((render d).length + 1) (by omega)
  refine ⟨flat (ansi d), h1, ?_, ?_⟩
  · rw [dress, c1]
    simp only
    rw [← hrender]; exact hcol
  · rw [uncolorfy_flat _ (good_ansi d false hok), ansi_plain]
    show plain (Doc.chr '[' (.tag c (chars bar .nil) (chars (']' :: tail) .nil))) = _
    rw [plain, plain, plain_chars, plain_chars]
    simp [plain]

/-- C50: with a colour the text is as wide as asked for when the colour codes are removed. -/
theorem C50_color_width_partial (b : Bar) (h : InRange b) (hs : b.sym.length = 1) (c : Str) (hc : Tame b c)
    (hspan : (if b.percent then 9 else 2) ≤ b.span) (hbig : b.span ≤ 2 ^ 53) :
    ∃ s, «show» b = .ok s ∧ ((uncolorfy s).length : Int) = b.span := by
  unfold «show»
  by_cases hp : b.percent = true
  · rw [if_pos hp] at hspan ⊢
    obtain ⟨s, t, h1, h2, h3⟩ := dress_color b c hc h (b.span - 9) (by omega) (by omega) false hs ([' '] ++ nte b)
      ((Quiet.lit _ (by decide)).append (Quiet.nte b))
    obtain ⟨s', h1', hl⟩ := inside_length b h (b.span - 9) (by omega) (by omega) false hs
    rw [h1] at h1'; cases h1'
    rw [h1, withBar]
    refine ⟨t, h2, ?_⟩
    have := nte_length b h
    rw [h3]
    simp only [List.length_append, List.length_cons, List.length_nil]
    omega
  · rw [if_neg hp] at hspan ⊢
    obtain ⟨s, t, h1, h2, h3⟩ := dress_color b c hc h (b.span - 2) (by omega) (by omega) false hs [] (Quiet.lit _ (by decide))
    obtain ⟨s', h1', hl⟩ := inside_length b h (b.span - 2) (by omega) (by omega) false hs
    rw [h1] at h1'; cases h1'
    rw [h1, withBar]
    refine ⟨t, h2, ?_⟩
    rw [h3]
    simp only [List.length_append, List.length_cons, List.length_nil]
    omega

example : Tame { sample with color := some "green".toList } "green".toList := by
  refine ⟨rfl, by decide, by decide, by decide, by decide⟩

/-! ## Timing and download bars -/

/-- C50: the bar with a time is nine characters wider than asked for (times below 10000 minutes). -/
theorem C50_plus_width_partial (b : Bar) (h : InRange b) (hs : b.sym.length = 1) (hc : b.color = none) (t : Option Rat)
    (hspan : (if b.percent then 9 else 2) ≤ b.span) (hbig : b.span ≤ 2 ^ 53) (hcte : (cteTime b t).length = 8) :
    ∃ s, showPlus b t = .ok s ∧ (s.length : Int) = b.span + 9 := by
  unfold showPlus
  by_cases hp : b.percent = true
  · rw [if_pos hp] at hspan ⊢
    obtain ⟨s, h1, h2⟩ := inside_length b h (b.span - 9) (by omega) (by omega) false hs
    rw [h1, withBar, dress, hc]
    refine ⟨_, rfl, ?_⟩
    have := nte_length b h
    simp only [List.length_append, List.length_cons, List.length_nil]
    omega
  · rw [if_neg hp] at hspan ⊢
    obtain ⟨s, h1, h2⟩ := inside_length b h (b.span - 2) (by omega) (by omega) true hs
    rw [h1, withBar, dress, hc]
    refine ⟨_, rfl, ?_⟩
    simp only [List.length_append, List.length_cons, List.length_nil]
    omega

/-- C50: so is the download bar. -/
theorem C50_down_width_partial (b : Bar) (h : InRange b) (hs : b.sym.length = 1) (hc : b.color = none) (t : Option Rat)
    (hspan : (if b.percent then 10 else 3) ≤ b.span) (hbig : b.span ≤ 2 ^ 53) (hcte : (cteRate b t).length = 9) :
    ∃ s, showDown b t = .ok s ∧ (s.length : Int) = b.span + 9 := by
  unfold showDown
  by_cases hp : b.percent = true
  · rw [if_pos hp] at hspan ⊢
    obtain ⟨s, h1, h2⟩ := inside_length b h (b.span - 10) (by omega) (by omega) true hs
    have hlt : ¬ b.max < b.amount := by have := h.2.1; omega
    simp only [h1, withBar, dress, hc, hlt, if_false]
    refine ⟨_, rfl, ?_⟩
    have := nte_length b h
    simp only [List.length_append, List.length_cons, List.length_nil]
    omega
  · rw [if_neg hp] at hspan ⊢
    obtain ⟨s, h1, h2⟩ := inside_length b h (b.span - 3) (by omega) (by omega) false hs
    rw [h1, withBar, dress, hc]
    refine ⟨_, rfl, ?_⟩
    simp only [List.length_append, List.length_cons, List.length_nil]
    omega

theorem pprintTime_length (v : Rat) (h0 : 0 ≤ v) (h1 : v < 600000) : (pprintTime v).length = 8 := by
  have hv : 0 ≤ v / 60 := by grind
  obtain ⟨f1, f2⟩ := floor_bounds (v / 60)
  have hm : pyInt (v / 60) = (v / 60).floor := by unfold pyInt; rw [if_pos hv]
  have m0 : 0 ≤ (v / 60).floor := by
    have : ((-1 : Int) : Rat) < ((v / 60).floor : Rat) := by
      have : ((-1 : Int) : Rat) = -1 := rfl
      grind
    have := Rat.intCast_lt_intCast.mp this
    omega
  have m1 : (v / 60).floor < 10000 := by
    have : ((v / 60).floor : Rat) < ((10000 : Int) : Rat) := by
      have : ((10000 : Int) : Rat) = 10000 := rfl
      grind
    exact Rat.intCast_lt_intCast.mp this
  have s0 : 0 ≤ v - 60 * ((v / 60).floor : Int) := by grind
  have s1 : v - 60 * ((v / 60).floor : Int) < 60 := by grind
  obtain ⟨g1, g2⟩ := (pyInt_bounds (v - 60 * ((v / 60).floor : Int))).1 s0
  unfold pprintTime
  simp only [hm]
  generalize v - 60 * ((v / 60).floor : Int) = x at s0 s1 g1 g2 ⊢
  have x0 : 0 ≤ pyInt x := by
    have : ((-1 : Int) : Rat) < (pyInt x : Rat) := by
      have : ((-1 : Int) : Rat) = -1 := rfl
      grind
    have := Rat.intCast_lt_intCast.mp this
    omega
  have x1 : pyInt x < 60 := by
    have : (pyInt x : Rat) < ((60 : Int) : Rat) := by
      have : ((60 : Int) : Rat) = 60 := rfl
      grind
    exact Rat.intCast_lt_intCast.mp this
  have len : ∀ (n : Int) (k : Nat), 0 ≤ n → n < 10 ^ k → 0 < k → (showInt n).length ≤ k := by
    intro n k h0 h1 hk
    rw [showInt, if_neg (by omega)]
    refine (Nat.length_toDigits_le_iff (b := 10) (by decide) hk).mpr ?_
    have : (n.toNat : Int) < ((10 ^ k : Nat) : Int) := by rw [Int.toNat_of_nonneg h0]; push_cast; exact h1
    exact_mod_cast this
  have l1 := len _ 4 m0 (by omega) (by decide)
  have l2 := len _ 2 x0 (by omega) (by decide)
  simp only [List.length_append, List.length_replicate, List.length_cons, List.length_nil]
  omega

/-- The condition on the time of `C50_plus_width_partial` holds at the start and when the work took less than
10000 minutes. -/
theorem C50_plus_time (b : Bar) (t : Rat) (h0 : 0 ≤ t) (h1 : t < 600000) (h : InRange b)
    (h2 : b.amount = 0 ∨ b.amount = b.max ∨ t < 1 / 5 ∨ ((b.max - b.amount : Int) : Rat) * t / b.amount < 600000) :
    (cteTime b (some t)).length = 8 ∧ (cteTime b none).length = 8 := by
  have hd : ("----m--s".toList).length = 8 := by decide
  refine ⟨?_, by unfold cteTime; exact hd⟩
  unfold cteTime
  simp only
  by_cases ha : b.amount = 0
  · rw [if_pos ha]; exact hd
  rw [if_neg ha]
  by_cases hm : b.max ≤ b.amount
  · rw [if_pos hm]; exact pprintTime_length t h0 h1
  rw [if_neg hm]
  by_cases ht : t < 1 / 5
  · rw [if_pos ht]; exact hd
  rw [if_neg ht]
  have hv : ((b.max - b.amount : Int) : Rat) * t / b.amount < 600000 := by
    rcases h2 with h2 | h2 | h2 | h2
    · exact absurd h2 ha
    · omega
    · exact absurd h2 ht
    · exact h2
  refine pprintTime_length _ ?_ hv
  have p1 : (0 : Rat) ≤ ((b.max - b.amount : Int) : Rat) := by
    have : (0 : Int) ≤ b.max - b.amount := by omega
    exact_mod_cast this
  have p2 : (0 : Rat) < (b.amount : Rat) := by
    have : (0 : Int) < b.amount := by have := h.1; omega
    exact_mod_cast this
  rw [Rat.div_def]
  exact Rat.mul_nonneg (Rat.mul_nonneg p1 h0) (Rat.le_of_lt (Rat.inv_pos.mpr p2))

end Verif.Progress
