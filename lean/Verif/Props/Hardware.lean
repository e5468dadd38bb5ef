import Verif.Spec.Hardware
import Mathlib.Tactic.Ring
import Mathlib.Tactic.Linarith
import Mathlib.Tactic.FieldSimp
import Mathlib.Tactic.Positivity
import Mathlib.Tactic.NormNum
/-! # C103: cables, filters of ARX boards and the order of antennas -/
namespace Verif.Hardware
open Spec

/-! ## Decibels -/

theorem C103_dB_round (d : ℝ) : toDB (fromDB d) = d := by
  unfold toDB fromDB
  rw [Real.logb_rpow (by norm_num) (by norm_num)]
  ring

theorem C103_dB_back (x : ℝ) (h : 0 < x) : fromDB (toDB x) = x := by
  unfold toDB fromDB
  rw [mul_div_cancel_left₀ _ (by norm_num : (10:ℝ) ≠ 0), Real.rpow_logb (by norm_num) (by norm_num) h]

theorem toDB_mul (x y : ℝ) (hx : 0 < x) (hy : 0 < y) : toDB (x * y) = toDB x + toDB y := by
  unfold toDB
  rw [Real.logb_mul hx.ne' hy.ne']
  ring

/-! ## Cables -/

theorem loss_pos (c : Cable) (f : ℝ) (asp : Bool) : 0 < c.loss f asp := by
  unfold Cable.loss
  cases asp
  · exact Real.exp_pos _
  · exact mul_pos (Real.exp_pos _) (Real.rpow_pos_of_pos (by norm_num) _)

theorem delay_some (light : ℝ) (c : Cable) (f : ℝ) (ns : Bool) (d : ℝ) :
    c.delay light f ns = some d ↔ c.vf * light ≠ 0 ∧ 0 < f / c.refFreq ∧ d = (if ns then c.total light f * 10 ^ 9 else c.total light f) := by
  unfold Cable.delay
  split
  · rename_i h
    constructor
    · intro k; cases k
    · intro k
      rcases h with h | h
      · exact absurd h k.1
      · exact absurd k.2.1 (not_lt.2 h)
  · rename_i h
    rw [not_or, not_le] at h
    simp only [Option.some.injEq, h.1, h.2, ne_eq, not_false_eq_true, true_and]
    exact eq_comm

/-- Two cables of the same kind in a row: the delays add.  The clock offset is that of the digitizer and counts once. -/
theorem C103_delay_adds (light : ℝ) (c : Cable) (f l1 l2 d1 d2 : ℝ) (ns : Bool) (hc : c.clock = 0)
    (h1 : (ofLength c l1).delay light f ns = some d1) (h2 : (ofLength c l2).delay light f ns = some d2) :
    (ofLength c (l1 + l2)).delay light f ns = some (d1 + d2) := by
  rw [delay_some] at h1 h2 ⊢
  refine ⟨h1.1, h1.2.1, ?_⟩
  rw [h1.2.2, h2.2.2]
  have e : (ofLength c (l1 + l2)).total light f = (ofLength c l1).total light f + (ofLength c l2).total light f := by
    simp only [Cable.total, ofLength, hc]; ring
  rw [e]
  cases ns
  · rfl
  · simp only [if_true]; ring

/-- A stretched cable is one with the length it is stretched to. -/
theorem C103_stretch (light : ℝ) (c : Cable) (f : ℝ) (b b' : Bool) :
    c.delay light f b = ({ c with length := c.length * c.stretch, stretch := 1 } : Cable).delay light f b ∧
    c.attenuation f b b' = ({ c with length := c.length * c.stretch, stretch := 1 } : Cable).attenuation f b b' := by
  constructor
  · simp only [Cable.delay, Cable.total, mul_one]
  · simp only [Cable.attenuation, Cable.loss, mul_one]
    rw [show 2 * c.a0 * (c.length * c.stretch) = 2 * c.a0 * c.length * c.stretch by ring,
      show c.a1 * (c.length * c.stretch) = c.a1 * c.length * c.stretch by ring]

/-- Nanoseconds. -/
theorem C103_delay_ns (light : ℝ) (c : Cable) (f : ℝ) : c.delay light f true = (c.delay light f false).map (· * 10 ^ 9) := by
  unfold Cable.delay
  split <;> rfl

/-- The delay is at least that of light in the cable, is less at higher frequencies, and differs from light's by the dispersive
delay per 100 m at the reference frequency. -/
theorem C103_delay_dispersion (light : ℝ) (c : Cable) (f g : ℝ) (hl : 0 < light) (hv : 0 < c.vf) (hr : 0 < c.refFreq) (hf : 0 < f) (hg : f ≤ g)
    (hd : 0 ≤ c.dd) (hL : 0 ≤ c.length) (hs : 0 ≤ c.stretch) :
    ∃ a b, c.delay light f false = some a ∧ c.delay light g false = some b ∧ b ≤ a ∧ c.length * c.stretch / (c.vf * light) + c.clock ≤ b ∧
      c.delay light c.refFreq false = some (c.length * c.stretch / (c.vf * light) + c.dd * (c.length * c.stretch / 100) + c.clock) := by
  have n0 : c.vf * light ≠ 0 := (mul_pos hv hl).ne'
  refine ⟨c.length * c.stretch / (c.vf * light) + c.dd * (c.length * c.stretch / 100) / Real.sqrt (f / c.refFreq) + c.clock,
    c.length * c.stretch / (c.vf * light) + c.dd * (c.length * c.stretch / 100) / Real.sqrt (g / c.refFreq) + c.clock, ?_, ?_, ?_, ?_, ?_⟩
  · exact (delay_some _ _ _ _ _).2 ⟨n0, div_pos hf hr, rfl⟩
  · exact (delay_some _ _ _ _ _).2 ⟨n0, div_pos (lt_of_lt_of_le hf hg) hr, rfl⟩
  · have : c.dd * (c.length * c.stretch / 100) / Real.sqrt (g / c.refFreq) ≤ c.dd * (c.length * c.stretch / 100) / Real.sqrt (f / c.refFreq) :=
      div_le_div_of_nonneg_left (by positivity) (Real.sqrt_pos.2 (div_pos hf hr)) (Real.sqrt_le_sqrt (div_le_div_of_nonneg_right hg hr.le))
    linarith
  · have : 0 ≤ c.dd * (c.length * c.stretch / 100) / Real.sqrt (g / c.refFreq) := by positivity
    linarith
  · refine (delay_some _ _ _ _ _).2 ⟨n0, div_pos hr hr, ?_⟩
    simp only [Bool.false_eq_true, if_false, Cable.total, div_self hr.ne', Real.sqrt_one, div_one]

/-- An antenna without a cable has no delay: dividing by its velocity factor of 0 is an error. -/
theorem C103_not_no_cable (light f : ℝ) (ns : Bool) : Cable.none.delay light f ns = none := by
  simp [Cable.delay, Cable.none, Cable.new]

/-- What comes out of a cable is the gain times what goes in, and going in is the attenuation times coming out. -/
theorem C103_gain (c : Cable) (f : ℝ) (asp : Bool) :
    c.gain f false asp * c.attenuation f false asp = 1 ∧ c.gain f true asp = -c.attenuation f true asp := by
  have h := loss_pos c f asp
  constructor
  · simp only [Cable.gain, Cable.attenuation, Bool.false_eq_true, if_false]
    field_simp
  · simp only [Cable.gain, Cable.attenuation, Bool.false_eq_true, if_false, if_true, toDB, one_div, Real.logb_inv]
    ring

/-- Decibels say the same as factors. -/
theorem C103_atten_dB (c : Cable) (f : ℝ) (asp : Bool) : fromDB (c.attenuation f true asp) = c.attenuation f false asp ∧
    fromDB (c.gain f true asp) = c.gain f false asp := by
  constructor
  · exact C103_dB_back _ (loss_pos c f asp)
  · exact C103_dB_back _ (one_div_pos.2 (loss_pos c f asp))

/-- The attenuation in dB: proportional to the length, with terms for the square root of the frequency and for the frequency, and the
attenuator adds what it is set to. -/
theorem C103_atten_formula (c : Cable) (f : ℝ) :
    c.attenuation f true false = 10 / Real.log 10 * (c.length * c.stretch) * (2 * c.a0 * Real.sqrt (f / c.refFreq) + c.a1 * (f / c.refFreq)) ∧
    c.attenuation f true true = c.attenuation f true false + c.asp := by
  have e : c.attenuation f true false = 10 / Real.log 10 * (c.length * c.stretch) * (2 * c.a0 * Real.sqrt (f / c.refFreq) + c.a1 * (f / c.refFreq)) := by
    simp only [Cable.attenuation, Cable.loss, if_true, Bool.false_eq_true, if_false, toDB, Real.logb, Real.log_exp]
    ring
  refine ⟨e, ?_⟩
  have h : c.loss f true = c.loss f false * fromDB c.asp := by simp [Cable.loss, fromDB]
  simp only [Cable.attenuation, if_true]
  rw [h, toDB_mul _ (fromDB c.asp) (loss_pos c f false) (Real.rpow_pos_of_pos (by norm_num) _), C103_dB_round]

/-- Two cables of the same kind in a row: the factors multiply. -/
theorem C103_atten_multiplies (c : Cable) (f l1 l2 : ℝ) :
    (ofLength c (l1 + l2)).attenuation f false false = (ofLength c l1).attenuation f false false * (ofLength c l2).attenuation f false false := by
  simp only [Cable.attenuation, Cable.loss, ofLength, Bool.false_eq_true, if_false]
  rw [← Real.exp_add]
  congr 1
  ring

/-- The loss is one (a gain nowhere), and grows with the frequency. -/
theorem C103_atten_grows (c : Cable) (f g : ℝ) (hr : 0 < c.refFreq) (hf : 0 ≤ f) (hg : f ≤ g) (h0 : 0 ≤ c.a0) (h1 : 0 ≤ c.a1) (hL : 0 ≤ c.length)
    (hs : 0 ≤ c.stretch) : 1 ≤ c.attenuation f false false ∧ c.attenuation f false false ≤ c.attenuation g false false := by
  have hq : f / c.refFreq ≤ g / c.refFreq := div_le_div_of_nonneg_right hg hr.le
  have hq0 : 0 ≤ f / c.refFreq := div_nonneg hf hr.le
  have hw := Real.sqrt_le_sqrt hq
  simp only [Cable.attenuation, Cable.loss, Bool.false_eq_true, if_false]
  constructor
  · exact Real.one_le_exp (by positivity)
  · apply Real.exp_le_exp.2
    have a : 0 ≤ 2 * c.a0 * c.length * c.stretch := by positivity
    have b : 0 ≤ c.a1 * c.length * c.stretch := by positivity
    exact add_le_add (mul_le_mul_of_nonneg_left hw a) (mul_le_mul_of_nonneg_left hq b)

/-- The response is the attenuation at 10, 20, … 100 MHz. -/
theorem C103_response (c : Cable) (dB : Bool) (i : ℕ) (h : i < 10) :
    (c.response dB)[i]? = some ((10 * (i + 1) : ℝ) * 10 ^ 6, c.attenuation ((10 * (i + 1) : ℝ) * 10 ^ 6) dB true) ∧ (c.response dB).length = 10 := by
  simp [Cable.response, h]

/-- A copy of a cable has everything but the clock offset and the setting of the attenuator. -/
theorem C103_copy_partial (c : Cable) (light f : ℝ) (b : Bool) (hc : c.clock = 0) :
    c.copy.delay light f b = c.delay light f b ∧ c.copy.attenuation f b false = c.attenuation f b false := by
  constructor
  · have e : c.copy.total light f = c.total light f := by simp only [Cable.total, hc]; rfl
    unfold Cable.delay
    rw [e]
    rfl
  · rfl

/-- Any other cable has another delay after a copy, and another attenuation. -/
theorem C103_not_copy (c : Cable) (light f d : ℝ) (h : c.delay light f false = some d) :
    c.copy.delay light f false = some (d - c.clock) ∧ c.copy.attenuation f true true = c.attenuation f true true - c.asp := by
  constructor
  · rw [delay_some] at h ⊢
    refine ⟨h.1, h.2.1, ?_⟩
    rw [h.2.2]
    show _ = c.length * c.stretch / (c.vf * light) + c.dd * (c.length * c.stretch / 100) / Real.sqrt (f / c.refFreq) + 0
    simp only [Bool.false_eq_true, if_false, Cable.total]
    ring
  · have e : c.copy.attenuation f true false = c.attenuation f true false := rfl
    rw [(C103_atten_formula c.copy f).2, (C103_atten_formula c f).2, e]
    have : c.copy.asp = 0 := rfl
    rw [this]; ring

example : ∃ c : Cable, c.delay 300000000 10000000 false = some 1 ∧ c.copy.delay 300000000 10000000 false = some 0 := by
  refine ⟨{ Cable.new "a" 0 1 0 0 0 10000000 1 with clock := 1 }, ?_, ?_⟩ <;> norm_num [Cable.delay, Cable.total, Cable.copy, Cable.new]

/-! ## Filters -/

/-- The filter of a board of revision I has the column with its high and low pass filters, for all but filter 7. -/
theorem C103_filter_partial (id : Int) (h : revision id = "I") (k : Nat) (hk : k < 7) :
    ∃ c, column id (.num k) = .ok c ∧ columns[c]? = some (passes k) := by
  have cases : ∃ c, column 300 (.num k) = .ok c ∧ columns[c]? = some (passes k) := by
    have : k = 0 ∨ k = 1 ∨ k = 2 ∨ k = 3 ∨ k = 4 ∨ k = 5 ∨ k = 6 := by omega
    rcases this with rfl | rfl | rfl | rfl | rfl | rfl | rfl <;> exact ⟨_, rfl, rfl⟩
  obtain ⟨c, a, b⟩ := cases
  refine ⟨c, ?_, b⟩
  rw [← a]
  have e : revision 300 = "I" := by decide
  unfold column
  rw [h, e]

/-- Filter 7, which passes 20 to 73 MHz, is given the column of filter 4, which passes 20 to 83 MHz. -/
theorem C103_not_filter_7 (id : Int) (h : revision id = "I") :
    column id (.num 7) = column id (.num 4) ∧ column id (.num 7) = .ok 2 ∧ passes 7 ≠ passes 4 ∧ columns[2]? = some (passes 4) := by
  have e : revision 300 = "I" := by decide
  have key (f : Filter) : column id f = column 300 f := by unfold column; rw [h, e]
  rw [key, key]
  decide

/-- And no filter is given the column it should have. -/
theorem C103_not_column_6 (id : Int) (f : Filter) : column id f ≠ .ok 6 := by
  unfold column
  cases slot f with
  | none => simp
  | some k =>
    simp only
    intro h
    split at h
    · cases h
    · rename_i c hc
      cases h
      unfold mapper at hc
      split at hc
      · revert hc
        simp only [List.lookup]
        repeat' split
        all_goals simp
      · revert hc
        simp only [List.lookup]
        repeat' split
        all_goals simp

/-- Names are other words for numbers. -/
theorem C103_filter_names (id : Int) : column id (.name "split") = column id (.num 0) ∧ column id (.name "full") = column id (.num 1) ∧
    column id (.name "reduced") = column id (.num 2) ∧ column id (.name "split@3MHz") = column id (.num 4) ∧
    column id (.name "full@3MHz") = column id (.num 5) := by
  refine ⟨rfl, rfl, rfl, rfl, rfl⟩

/-- Boards of other revisions have filters 0, 1, 2 and 4, each with its own column, and an error for all others. -/
theorem C103_filter_other (id : Int) (h : revision id ≠ "I") (n : Int) :
    column id (.num n) = (if n = 0 then .ok 0 else if n = 1 then .ok 1 else if n = 2 then .ok 2 else if n = 4 then .ok 3 else .error .value) := by
  have key : mapper (revision id) = [(0, 0), (1, 1), (2, 2), (4, 3)] := if_neg h
  unfold column slot
  rw [key]
  by_cases hn : 0 ≤ n ∧ n ≤ 7
  · have : n = 0 ∨ n = 1 ∨ n = 2 ∨ n = 3 ∨ n = 4 ∨ n = 5 ∨ n = 6 ∨ n = 7 := by omega
    rcases this with rfl | rfl | rfl | rfl | rfl | rfl | rfl | rfl <;> rfl
  · simp only [if_neg hn]
    rw [if_neg (by omega), if_neg (by omega), if_neg (by omega), if_neg (by omega)]

/-- Unknown filters are an error for all boards. -/
theorem C103_filter_unknown (id : Int) (n : Int) (h : n < 0 ∨ 7 < n) : column id (.num n) = .error .value := by
  unfold column slot
  simp only [if_neg (show ¬ (0 ≤ n ∧ n ≤ 7) by omega)]

/-- A response in dB is the column of the filter for the channel, and otherwise its factors. -/
theorem C103_arx_response (id : Int) (ch : Nat) (t : Table) (f : Filter) (data : List (List ℝ)) (c : Nat) (col : List ℝ)
    (h1 : t.lookup ch = some data) (h2 : column id f = .ok c) (h3 : data[c]? = some col) :
    arxResponse id ch t f true = .ok col ∧ arxResponse id ch t f false = .ok (col.map fromDB) := by
  simp [arxResponse, h1, h2, h3]

/-- Each number of a board belongs to one revision: the ranges do not overlap. -/
theorem C103_revision (id : Int) :
    (revision id = "D" ↔ 100 ≤ id ∧ id < 200) ∧ (revision id = "G" ↔ 200 ≤ id ∧ id < 300) ∧ (revision id = "I" ↔ 300 ≤ id ∧ id < 500) ∧
    (revision id = "H" ↔ 8200 ≤ id ∧ id ≤ 8300) := by
  unfold revision
  refine ⟨?_, ?_, ?_, ?_⟩ <;> repeat' split
  all_goals first | (constructor <;> intro h <;> first | omega | exact absurd h (by decide) | rfl) 

/-! ## Order -/

/-- Of two antennas exactly one is before, the same as, or after the other, and the order is that of a chain. -/
theorem C103_order (a b c : Ant) :
    ((a.lt b = true ∧ a.eq b = false ∧ a.gt b = false) ∨ (a.lt b = false ∧ a.eq b = true ∧ a.gt b = false) ∨ (a.lt b = false ∧ a.eq b = false ∧ a.gt b = true)) ∧
    a.gt b = b.lt a ∧ (a.lt b = true → b.lt c = true → a.lt c = true) ∧ (a.le b = true ↔ a.id ≤ b.id) := by
  refine ⟨?_, ?_, ?_, ?_⟩
  · rcases lt_trichotomy a.id b.id with h | h | h
    · left; simp [Ant.lt, Ant.eq, Ant.gt, h, h.ne]
    · right; left; simp [Ant.lt, Ant.eq, Ant.gt, h]
    · right; right; simp [Ant.lt, Ant.eq, Ant.gt, h.le, h.ne']
  · rw [Bool.eq_iff_iff]; simp [Ant.lt, Ant.eq, Ant.gt]; omega
  · simp [Ant.lt]; omega
  · simp [Ant.le, Ant.lt, Ant.eq]; omega

/-- Antennas with the same hash are equal, but equal antennas may have other hashes. -/
theorem C103_not_hash : (∀ a b : Ant, a.hashed = b.hashed → a.eq b = true) ∧ ∃ a b : Ant, a.eq b = true ∧ a.hashed ≠ b.hashed := by
  refine ⟨?_, ⟨1, 1, 1, 1⟩, ⟨1, 2, 1, 1⟩, by decide, by decide⟩
  intro a b h
  have := congrArg Prod.fst h
  simpa [Ant.eq, Ant.hashed] using this

theorem digit_some (l : List Ant) : sortBy "digitizer" l = some (l.mergeSort fun a b => a.digitizer ≤ b.digitizer) := by
  simp [sortBy, attrOf]

/-- A new station, and one with new antennas, has all of them in the order of the digitizers, and those with the same digitizer in the
order given. -/
theorem C103_station_order (l : List Ant) :
    ∃ s, Station.new l = some s ∧ s.order = "digitizer" ∧ s.antennas.Perm l ∧ s.antennas.Pairwise (fun a b => a.digitizer ≤ b.digitizer) ∧
      (∀ d, s.antennas.filter (fun a => a.digitizer == d) = l.filter (fun a => a.digitizer == d)) ∧
      ∀ s', s'.order = "digitizer" → Station.set s' l = some s := by
  refine ⟨⟨l.mergeSort fun a b => a.digitizer ≤ b.digitizer, "digitizer"⟩, ?_, rfl, List.mergeSort_perm _ _, ?_, ?_, ?_⟩
  · simp [Station.new, Station.sortAnts, digit_some]
  · have := List.pairwise_mergeSort (le := fun (a b : Ant) => decide (a.digitizer ≤ b.digitizer)) (by simp; omega) (by simp; omega) l
    exact this.imp (by simp)
  · intro d
    have hs : (l.filter (fun a => a.digitizer == d)).Sublist (l.mergeSort fun a b => decide (a.digitizer ≤ b.digitizer)) := by
      apply List.sublist_mergeSort (by simp; omega) (by simp; omega) _ List.filter_sublist
      rw [List.pairwise_filter]
      refine List.pairwise_of_forall ?_
      intro x y hx hy
      simp only [beq_iff_eq] at hx hy
      simp [hx, hy]
    have h2 := hs.filter (fun a => a.digitizer == d)
    rw [List.filter_filter] at h2
    simp only [Bool.and_self] at h2
    refine (h2.eq_of_length ?_).symm
    exact ((List.mergeSort_perm l _).filter _).length_eq.symm
  · intro s' h
    simp [Station.set, h, Station.sortAnts, digit_some]

/-- Putting an antenna into its place leaves the order as it is: the antennas need not be in the order of the digitizers. -/
theorem C103_not_put_order : ∃ s s' a, Station.new [⟨1, 1, 0, 0⟩, ⟨2, 2, 0, 0⟩] = some s ∧ Station.put s 0 a = some s' ∧
    s'.antennas.map Ant.digitizer = [3, 2] := by
  refine ⟨⟨[⟨1, 1, 0, 0⟩, ⟨2, 2, 0, 0⟩], "digitizer"⟩, ⟨[⟨3, 3, 0, 0⟩, ⟨2, 2, 0, 0⟩], "digitizer"⟩, ⟨3, 3, 0, 0⟩, ?_, ?_, ?_⟩
  · simp [Station.new, Station.sortAnts, digit_some, List.mergeSort, List.MergeSort.Internal.splitInTwo]
  · simp [Station.put]
  · rfl

/-! ## Stands -/

/-- Subtracting what was added gives back the position. -/
theorem C103_stand_sub (x y z : ℝ) (o : Operand) (a b c : ℝ) (h : standOp (· + ·) x y z o = some (a, b, c)) :
    standOp (· - ·) a b c o = some (x, y, z) := by
  cases o with
  | stand p q r => simp only [standOp, Option.some.injEq, Prod.mk.injEq] at h ⊢; refine ⟨?_, ?_, ?_⟩ <;> linarith [h.1, h.2.1, h.2.2]
  | seq l =>
    match l with
    | [] | [_] | [_, _] => cases h
    | p :: q :: r :: _ => simp only [standOp, Option.some.injEq, Prod.mk.injEq] at h ⊢; refine ⟨?_, ?_, ?_⟩ <;> linarith [h.1, h.2.1, h.2.2]
  | float v => simp only [standOp, Option.some.injEq, Prod.mk.injEq] at h ⊢; refine ⟨?_, ?_, ?_⟩ <;> linarith [h.1, h.2.1, h.2.2]
  | numpy v => cases h

/-- A number of numpy is not taken where one of Python is. -/
theorem C103_not_numpy (op : ℝ → ℝ → ℝ) (x y z v : ℝ) : standOp op x y z (.numpy v) = none ∧ standOp op x y z (.float v) = some (op x v, op y v, op z v) :=
  ⟨rfl, rfl⟩

/-- Both statuses can be read off the combined one. -/
theorem C103_combined (a f a' f' : Nat) (h : f < 10) (h' : f' < 10) (e : combinedStatus a f = combinedStatus a' f') : a = a' ∧ f = f' := by
  unfold combinedStatus at e
  omega

end Verif.Hardware
