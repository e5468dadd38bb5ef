import Verif.Spec.Gridder
import Verif.Lemmas.FEngine
import Verif.Lemmas.CMem
/-!
# Lemmas for the gridder
-/
namespace Verif.Gridder
open Verif.CMem
open Lean.Grind (CommRing)
open Verif.FEngine (lround)

/-! ### planes -/

theorem two_le : 1 < maxPlanes := by decide

attribute [local irreducible] maxPlanes

/-- An array of which the first entries are written. -/
def pad (l : List Nat) : List Nat := l ++ List.replicate (maxPlanes - l.length) 0

theorem pad_length (l : List Nat) (h : l.length ≤ maxPlanes) : (pad l).length = maxPlanes := by
  unfold pad; rw [List.length_append, List.length_replicate]; omega

theorem pad_wr (l : List Nat) (x : Nat) (h : l.length < maxPlanes) : wr (pad l) ((l.length : Int), x) = .ok (pad (l ++ [x])) := by
  unfold wr
  simp only
  rw [if_pos ⟨by omega, by rw [pad_length l (by omega)]; omega⟩]
  congr 1
  unfold pad
  rw [Int.toNat_natCast, List.set_append_right _ _ (Nat.le_refl _), Nat.sub_self]
  obtain ⟨k, hk⟩ : ∃ k, maxPlanes - l.length = k + 1 := ⟨maxPlanes - l.length - 1, by omega⟩
  rw [hk, List.replicate_succ, List.set_cons_zero, List.length_append, List.append_assoc]
  rw [show maxPlanes - (l.length + [x].length) = k from by simp; omega]
  rfl

theorem pad_wr_ub (l : List Nat) (x : Nat) (h : l.length = maxPlanes) : wr (pad l) ((l.length : Int), x) = .error .ub := by
  unfold wr
  simp only
  rw [if_neg (by rw [pad_length l (by omega)]; omega)]

theorem pad_rd (l : List Nat) (i : Nat) (h : i < l.length) : rd (pad l) (i : Int) = .ok (l.getD i 0) := by
  rw [rd_ok _ _ 0 (by omega) (by unfold pad; rw [List.length_append]; omega), Int.toNat_natCast]
  congr 1
  unfold pad
  rw [List.getD, List.getElem?_append_left h]
  rfl

/-- The variables after some cuts. -/
def st (cs : List Nat) (p : Rat) : Planes := ⟨cs.length, pad (0 :: cs), pad cs, p⟩

/-- The value the last plane began with. -/
def lastP (wRes : Rat) : Rat → List Rat → Rat
  | p, [] => p
  | p, x :: l => if p + wRes ≤ x then lastP wRes x l else lastP wRes p l

theorem fold_error {σ : Type} (l : List Nat) (f : σ → Nat → Run σ) (x : Fault) :
    l.foldl (fun (acc : Run σ) i => acc.bind fun s => f s i) (.error x) = .error x := by
  induction l with
  | nil => rfl
  | cons a l ih => rw [List.foldl_cons]; exact ih

theorem loop_eq (wRes : Rat) (sw : List Rat) (l : List Rat) (i : Nat) (cs : List Nat) (p : Rat) (hl : sw.drop i = l)
    (hc : cs.length < maxPlanes) :
    (List.range' i l.length).foldl (fun (acc : Run Planes) i => acc.bind fun s => planeStep wRes sw s i) (.ok (st cs p)) =
      if (cs ++ Spec.breaks wRes p i l).length < maxPlanes then .ok (st (cs ++ Spec.breaks wRes p i l) (lastP wRes p l))
      else .error .ub := by
  induction l generalizing i cs p with
  | nil =>
    simp only [Spec.breaks, List.append_nil, List.length_nil, List.range'_zero, List.foldl_nil, lastP]
    rw [if_pos hc]
  | cons x l ih =>
    have hi : i < sw.length := by
      have := congrArg List.length hl
      rw [List.length_drop, List.length_cons] at this; omega
    have hx : sw.getD i 0 = x := by
      have := List.drop_eq_getElem_cons hi
      rw [hl] at this
      rw [List.getD, List.getElem?_eq_getElem hi]
      exact (List.cons.inj this).1.symm
    have ht : sw.drop (i + 1) = l := by
      have := List.drop_eq_getElem_cons hi
      rw [hl] at this
      exact (List.cons.inj this).2.symm
    rw [List.length_cons, List.range'_succ, List.foldl_cons]
    have hstep : ((Except.ok (st cs p) : Run Planes).bind fun s => planeStep wRes sw s i) =
        if p + wRes ≤ x then (if cs.length + 1 < maxPlanes then .ok (st (cs ++ [i]) x) else .error .ub) else .ok (st cs p) := by
      show planeStep wRes sw (st cs p) i = _
      unfold planeStep
      rw [rd_ok sw _ 0 (by omega) (by omega), Int.toNat_natCast, hx]
      show (if p + wRes ≤ x then _ else _) = _
      by_cases h : p + wRes ≤ x
      · rw [if_pos h, if_pos h]
        show (wr (pad cs) ((cs.length : Int), i)).bind _ = _
        rw [pad_wr cs i hc]
        show (wr (pad (0 :: cs)) (((cs.length + 1 : Nat) : Int), i)).map _ = _
        by_cases h2 : cs.length + 1 < maxPlanes
        · rw [if_pos h2]
          have := pad_wr (0 :: cs) i (by simpa using h2)
          rw [List.length_cons] at this
          rw [this]
          unfold st
          simp [Except.map]
        · rw [if_neg h2]
          have := pad_wr_ub (0 :: cs) i (by simp; omega)
          rw [List.length_cons] at this
          rw [this]
          rfl
      · rw [if_neg h, if_neg h]
    rw [hstep]
    by_cases h : p + wRes ≤ x
    · rw [if_pos h]
      simp only [Spec.breaks, lastP, if_pos h]
      by_cases h2 : cs.length + 1 < maxPlanes
      · rw [if_pos h2, ih (i + 1) (cs ++ [i]) x ht (by simp; omega), List.append_assoc]
        rfl
      · rw [if_neg h2, fold_error, if_neg (by rw [List.length_append, List.length_cons]; omega)]
    · rw [if_neg h]
      simp only [Spec.breaks, lastP, if_neg h]
      exact ih (i + 1) cs p ht hc

theorem breaks_bounds (wRes p : Rat) (i : Nat) (l : List Rat) :
    (∀ b ∈ Spec.breaks wRes p i l, i ≤ b ∧ b < i + l.length) ∧ (Spec.breaks wRes p i l).Pairwise (· < ·) := by
  induction l generalizing i p with
  | nil => exact ⟨by simp [Spec.breaks], by simp [Spec.breaks]⟩
  | cons x l ih =>
    simp only [Spec.breaks]
    by_cases h : p + wRes ≤ x
    · rw [if_pos h]
      obtain ⟨h1, h2⟩ := ih x (i + 1)
      refine ⟨?_, ?_⟩
      · intro b hb
        rcases List.mem_cons.mp hb with rfl | hb
        · simp
        · have := h1 b hb; simp; omega
      · rw [List.pairwise_cons]
        exact ⟨fun b hb => by have := h1 b hb; omega, h2⟩
    · rw [if_neg h]
      obtain ⟨h1, h2⟩ := ih p (i + 1)
      exact ⟨fun b hb => by have := h1 b hb; simp; omega, h2⟩

/-- The whole function: undefined without a value, with one plane, and with more than 1024 planes. -/
theorem computePlanes_eq (wRes : Rat) (sw : List Rat) :
    computePlanes sw.length wRes sw =
      if sw ≠ [] ∧ Spec.cuts wRes sw ≠ [] ∧ (Spec.cuts wRes sw).length < maxPlanes then .ok (Spec.planes sw.length (Spec.cuts wRes sw))
      else .error .ub := by
  unfold computePlanes
  have h0 : wr (List.replicate maxPlanes 0) (0, 0) = .ok (pad [0]) := by
    have := pad_wr [] 0 (by have := two_le; simp; omega)
    simpa [pad] using this
  rw [h0]
  show (rd sw 0).bind _ = _
  cases sw with
  | nil => rw [if_neg (by simp)]; rfl
  | cons x l =>
    have hr : rd (x :: l) 0 = .ok x := rfl
    rw [hr]
    show (List.foldl _ (Except.ok (st [] x) : Run Planes) _).bind _ = _
    rw [show (List.range ((x :: l).length - 1)).map (· + 1) = List.range' 1 l.length from by
      rw [List.length_cons, Nat.add_sub_cancel, List.range'_eq_map_range]
      apply List.map_congr_left; intro a _; omega]
    rw [loop_eq wRes (x :: l) l 1 [] x rfl (by have := two_le; simp; omega)]
    have hcuts : Spec.cuts wRes (x :: l) = Spec.breaks wRes x 1 l := rfl
    rw [List.nil_append, hcuts]
    obtain ⟨cs, hcs⟩ : ∃ cs, Spec.breaks wRes x 1 l = cs := ⟨_, rfl⟩
    rw [hcs]
    have hb := (breaks_bounds wRes x 1 l).1
    rw [hcs] at hb
    by_cases h : cs.length < maxPlanes
    · rw [if_pos h]
      show (planeEnd _ (st cs _)).bind _ = _
      unfold planeEnd
      show ((rd (pad cs) ((cs.length : Int) - 1)).bind _).bind _ = _
      by_cases hne : cs = []
      · rw [if_neg (by simp [hne]), hne]
        rw [rd_ub _ _ (by left; simp)]
        rfl
      · have hl : 0 < cs.length := List.length_pos_iff.mpr hne
        rw [if_pos ⟨by simp, hne, h⟩]
        rw [show ((cs.length : Int) - 1) = ((cs.length - 1 : Nat) : Int) from by omega, pad_rd cs _ (by omega)]
        show ((if cs.getD (cs.length - 1) 0 < (x :: l).length then _ else _) : Run Planes).bind _ = _
        have hlast : cs.getD (cs.length - 1) 0 ∈ cs := by
          rw [List.getD, List.getElem?_eq_getElem (by omega)]
          exact List.getElem_mem _
        rw [if_pos (by have := hb _ hlast; rw [List.length_cons]; omega)]
        show ((wr (pad cs) ((cs.length : Int), (x :: l).length)).map _).bind _ = _
        rw [pad_wr cs _ h]
        show all (fun (j : Nat) => (rd (pad (0 :: cs)) (j : Int)).bind fun a => (rd (pad (cs ++ [(x :: l).length])) (j : Int)).map fun b => (a, b))
          (List.range (cs.length + 1)) = _
        rw [all_ok _ (fun j => ((0 :: cs).getD j 0, (cs ++ [(x :: l).length]).getD j 0)) _ (by
          intro j hj
          have hj := List.mem_range.mp hj
          rw [pad_rd _ _ (by simpa using hj), pad_rd _ _ (by simpa using hj)]
          rfl)]
        congr 1
        unfold Spec.planes
        apply List.ext_getElem?
        intro q
        by_cases hq : q < cs.length + 1
        · rw [List.getElem?_map, List.getElem?_range hq, Option.map_some]
          exact ((List.getElem?_zip_eq_some (z := ((0 :: cs).getD q 0, (cs ++ [(x :: l).length]).getD q 0))).mpr
            ⟨by rw [List.getD, List.getElem?_eq_getElem (by simpa using hq)]; rfl,
             by show _ = some ((cs ++ [(x :: l).length]).getD q 0); rw [List.getD, List.getElem?_eq_getElem (by simpa using hq)]; rfl⟩).symm
        · rw [List.getElem?_eq_none (by simp; omega), List.getElem?_eq_none (by simp; omega)]
    · rw [if_neg h, if_neg (by intro hh; exact h hh.2.2)]
      rfl

theorem zip_cover (n : Nat) (cs : List Nat) (a : Nat) (h : (a :: cs).Pairwise (· < ·)) (hn : ∀ b ∈ a :: cs, b < n) :
    (((a :: cs).zip (cs ++ [n])).map fun p => List.range' p.1 (p.2 - p.1)).flatten = List.range' a (n - a) ∧
    ∀ p ∈ (a :: cs).zip (cs ++ [n]), a ≤ p.1 ∧ p.1 < p.2 ∧ p.2 ≤ n := by
  induction cs generalizing a with
  | nil => simpa using hn
  | cons b cs ih =>
    obtain ⟨h1, h2⟩ := List.pairwise_cons.mp h
    obtain ⟨i1, i2⟩ := ih b h2 (fun x hx => hn x (by simp [hx]))
    have hab := h1 b (by simp)
    have hbn := hn b (by simp)
    constructor
    · rw [List.cons_append, List.zip_cons_cons, List.map_cons, List.flatten_cons, i1]
      show List.range' a (b - a) ++ _ = _
      have := @List.range'_append_1 a (b - a) (n - b)
      rw [show a + (b - a) = b from by omega] at this
      rw [this]
      congr 1; omega
    · intro p hp
      rw [List.cons_append, List.zip_cons_cons] at hp
      rcases List.mem_cons.mp hp with rfl | hp
      · exact ⟨Nat.le_refl _, hab, Nat.le_of_lt hbn⟩
      · have := i2 p hp; omega

/-- The values of a plane lie below its first value plus the resolution, and the next plane begins above. -/
theorem breaks_width (wRes : Rat) (hw : 0 < wRes) (sw : List Rat) (l : List Rat) (a i : Nat) (hl : sw.drop i = l) (hai : a ≤ i)
    (ha : a < sw.length) (hlow : ∀ k, a ≤ k → k < i → sw.getD k 0 < sw.getD a 0 + wRes) :
    (∀ p ∈ (a :: Spec.breaks wRes (sw.getD a 0) i l).zip (Spec.breaks wRes (sw.getD a 0) i l ++ [sw.length]),
      ∀ k, p.1 ≤ k → k < p.2 → sw.getD k 0 < sw.getD p.1 0 + wRes) ∧
    (∀ p ∈ (a :: Spec.breaks wRes (sw.getD a 0) i l).zip (Spec.breaks wRes (sw.getD a 0) i l), sw.getD p.1 0 + wRes ≤ sw.getD p.2 0) := by
  induction l generalizing i a with
  | nil =>
    simp only [Spec.breaks]
    refine ⟨?_, by simp⟩
    intro p hp k h1 h2
    have : sw.length ≤ i := List.drop_eq_nil_iff.mp hl
    simp at hp
    subst hp
    exact hlow k h1 (by simp at h2; omega)
  | cons x l ih =>
    have hi : i < sw.length := by
      have := congrArg List.length hl
      rw [List.length_drop, List.length_cons] at this; omega
    have hx : sw.getD i 0 = x := by
      have := List.drop_eq_getElem_cons hi
      rw [hl] at this
      rw [List.getD, List.getElem?_eq_getElem hi]
      exact (List.cons.inj this).1.symm
    have ht : sw.drop (i + 1) = l := by
      have := List.drop_eq_getElem_cons hi
      rw [hl] at this
      exact (List.cons.inj this).2.symm
    simp only [Spec.breaks]
    by_cases h : sw.getD a 0 + wRes ≤ x
    · rw [if_pos h]
      have hii : ∀ k, i ≤ k → k < i + 1 → sw.getD k 0 < sw.getD i 0 + wRes := by
        intro k h1 h2
        have : k = i := by omega
        subst this; grind
      obtain ⟨i1, i2⟩ := ih i (i + 1) ht (by omega) hi hii
      rw [hx] at i1 i2
      constructor
      · intro p hp
        rw [List.cons_append, List.zip_cons_cons] at hp
        rcases List.mem_cons.mp hp with rfl | hp
        · intro k h1 h2; exact hlow k h1 h2
        · exact i1 p hp
      · intro p hp
        rw [List.zip_cons_cons] at hp
        rcases List.mem_cons.mp hp with rfl | hp
        · show sw.getD a 0 + wRes ≤ sw.getD i 0
          rw [hx]; exact h
        · exact i2 p hp
    · rw [if_neg h]
      apply ih a (i + 1) ht (by omega) ha
      intro k h1 h2
      by_cases hk : k < i
      · exact hlow k h1 hk
      · have : k = i := by omega
        subst this
        rw [hx]; exact Rat.not_le.mp h

/-! ### rounding -/

theorem near (x : Rat) : (lround x : Rat) - x ≤ 1 / 2 ∧ x - (lround x : Rat) ≤ 1 / 2 := by
  unfold lround
  split
  · have h1 := Rat.floor_le (x + 1 / 2)
    have h2 := @Rat.lt_floor (x + 1 / 2)
    grind
  · have h1 := Rat.floor_le (-x + 1 / 2)
    have h2 := @Rat.lt_floor (-x + 1 / 2)
    rw [Rat.intCast_neg]
    grind

theorem lround_bounds (n : Nat) (c : Rat) (h0 : 0 ≤ c) (h : c < n) : 0 ≤ lround c ∧ lround c ≤ n := by
  obtain ⟨h1, h2⟩ := near c
  constructor
  · have : (-1 : Rat) < (lround c : Rat) := by grind
    have : ((-1 : Int) : Rat) < (lround c : Rat) := by simpa using this
    have := Rat.intCast_lt_intCast.mp this
    omega
  · have : (lround c : Rat) < ((n + 1 : Int) : Rat) := by
      rw [Rat.intCast_add]
      have : ((n : Int) : Rat) = (n : Rat) := Rat.intCast_natCast n
      rw [this]
      have : ((1 : Int) : Rat) = 1 := rfl
      grind
    have := Rat.intCast_lt_intCast.mp this
    omega

theorem floor_nonneg {x : Rat} (h : 0 ≤ x) : 0 ≤ x.floor := Rat.le_floor_iff.mpr (by simpa using h)

theorem floor_le_of {x : Rat} {n : Int} (h : x ≤ n) : x.floor ≤ n := by
  have := Rat.floor_le x
  have : (x.floor : Rat) ≤ (n : Rat) := Rat.le_trans this h
  exact Rat.intCast_le_intCast.mp this

theorem tap_eq (c : Rat) (p : Int) : tap c p = (Spec.steps c p : Int) := by
  unfold tap trunc Spec.steps
  simp only
  by_cases h : c - (p : Rat) < 0
  · have h64 : ¬ (0 : Rat) ≤ (c - p) * 64 := by grind
    have e : (-((c - (p : Rat)) * 64)) = ((p : Rat) - c) * 64 := by grind
    have hf := floor_nonneg (x := ((p : Rat) - c) * 64) (by grind)
    rw [if_neg h64, if_pos h, e]
    split <;> omega
  · have h64 : (0 : Rat) ≤ (c - p) * 64 := by grind
    have hf := floor_nonneg h64
    rw [if_pos h64, if_neg h, if_neg (by omega)]
    omega

theorem steps_lt (c : Rat) (m : Int) (h1 : -3 ≤ m) (h2 : m ≤ 3) : Spec.steps c (lround c + m) < 225 := by
  unfold Spec.steps
  obtain ⟨n1, n2⟩ := near c
  have m1 : (-3 : Rat) ≤ (m : Rat) := by
    have := Rat.intCast_le_intCast.mpr h1; simpa using this
  have m2 : (m : Rat) ≤ 3 := by
    have := Rat.intCast_le_intCast.mpr h2; simpa using this
  have hb : ((if c - ((lround c + m : Int) : Rat) < 0 then ((lround c + m : Int) : Rat) - c else c - ((lround c + m : Int) : Rat)) * 64) ≤ ((224 : Int) : Rat) := by
    rw [Rat.intCast_add]
    have : ((224 : Int) : Rat) = 224 := rfl
    split <;> grind
  have := floor_le_of hb
  omega

theorem wrap_eq (n : Nat) (p : Int) (h0 : -(n : Int) ≤ p) (h : p < 2 * n) : wrap n p = p % (n : Int) ∧ 0 ≤ wrap n p ∧ wrap n p < n := by
  have key : 0 ≤ wrap n p ∧ wrap n p < n ∧ ∃ k : Int, p = wrap n p + n * k := by
    unfold wrap
    by_cases h1 : p < 0
    · rw [if_pos h1]; exact ⟨by omega, by omega, -1, by omega⟩
    · rw [if_neg h1]
      by_cases h2 : (n : Int) ≤ p
      · rw [if_pos h2]; exact ⟨by omega, by omega, 1, by omega⟩
      · rw [if_neg h2]; exact ⟨by omega, by omega, 0, by omega⟩
  obtain ⟨k1, k2, k, hk⟩ := key
  refine ⟨?_, k1, k2⟩
  have : p % (n : Int) = wrap n p % (n : Int) := by
    conv => lhs; rw [hk]
    exact Int.add_mul_emod_self_left ..
  rw [this, Int.emod_eq_of_lt k1 k2]

theorem place_eq (n : Nat) (hn : 0 < n) (x res : Rat) (h0 : -(n : Rat) ≤ x / res) (h : x / res < n) :
    place n x res = Spec.around n (x / res) ∧ 0 ≤ place n x res ∧ place n x res < n := by
  have hn' : (0 : Rat) < n := by exact_mod_cast hn
  unfold place Spec.around
  obtain ⟨c, hc⟩ : ∃ c, x / res = c := ⟨_, rfl⟩
  rw [hc] at h0 h ⊢
  have e : c / (n : Rat) * n = c := by grind
  by_cases hneg : c < 0
  · rw [if_pos hneg]
    have hfl : (c / (n : Rat)).floor = -1 := by
      have a1 : (c / (n : Rat)).floor ≤ -1 := by
        have : (c / (n : Rat)) < ((0 : Int) : Rat) := by
          apply Classical.byContradiction
          intro hh
          have hh : (0 : Rat) ≤ c / n := by simpa using Rat.not_lt.mp hh
          have := Rat.mul_nonneg hh (Rat.le_of_lt hn')
          grind
        have := Rat.floor_lt_iff.mpr this
        omega
      have a2 : -1 ≤ (c / (n : Rat)).floor := by
        apply Rat.le_floor_iff.mpr
        apply Classical.byContradiction
        intro hh
        have hh := Rat.not_le.mp hh
        have h1 : 0 < (-1 : Rat) - c / n := by
          have : ((-1 : Int) : Rat) = -1 := rfl
          grind
        have := Rat.mul_pos h1 hn'
        grind
      omega
    rw [hfl]
    have : ((-1 : Int) : Rat) = -1 := rfl
    grind
  · rw [if_neg hneg]
    have hfl : (c / (n : Rat)).floor = 0 := by
      have a1 : (c / (n : Rat)).floor < 1 := by
        apply Rat.floor_lt_iff.mpr
        apply Classical.byContradiction
        intro hh
        have hh := Rat.not_lt.mp hh
        have h1 : 0 ≤ c / n - 1 := by
          have : ((1 : Int) : Rat) = 1 := rfl
          grind
        have := Rat.mul_nonneg h1 (Rat.le_of_lt hn')
        grind
      have a2 : 0 ≤ (c / (n : Rat)).floor := by
        apply floor_nonneg
        apply Classical.byContradiction
        intro hh
        have hh := Rat.not_le.mp hh
        have h1 : 0 < - (c / n) := by grind
        have := Rat.mul_pos h1 hn'
        grind
      omega
    rw [hfl]
    have : ((0 : Int) : Rat) = 0 := rfl
    grind

/-! ### sums -/

section
variable {C : Type} [CommRing C]

theorem foldl_sumL (l : List C) (z : C) : l.foldl (· + ·) z = z + Spec.sumL l := by
  induction l generalizing z with
  | nil => simp only [List.foldl_nil, Spec.sumL]; grind
  | cons x l ih => rw [List.foldl_cons, ih]; simp only [Spec.sumL]; grind

theorem sumL_append (l k : List C) : Spec.sumL (l ++ k) = Spec.sumL l + Spec.sumL k := by
  induction l with
  | nil => simp only [List.nil_append, Spec.sumL]; grind
  | cons x l ih => simp only [List.cons_append, Spec.sumL, ih]; grind

theorem sumL_range (n : Nat) (f : Nat → C) : Spec.sumL ((List.range n).map f) = sumN n f := by
  induction n with
  | zero => rfl
  | succ n ih => rw [List.range_succ, List.map_append, sumL_append, ih]; simp only [List.map_cons, List.map_nil, Spec.sumL, sumN]; grind

theorem sumL_range' (a n : Nat) (f : Nat → C) : Spec.sumL ((List.range' a n).map f) = sumN n fun k => f (a + k) := by
  rw [List.range'_eq_map_range, List.map_map]
  exact sumL_range n _

theorem sumL_mul (c : C) {α : Type} (l : List α) (f : α → C) : Spec.sumL (l.map fun a => c * f a) = c * Spec.sumL (l.map f) := by
  induction l with
  | nil => simp only [List.map_nil, Spec.sumL]; grind
  | cons x l ih => simp only [List.map_cons, Spec.sumL, ih]; grind

theorem sumL_flatten {α : Type} (l : List (List α)) (f : α → C) :
    Spec.sumL (l.flatten.map f) = Spec.sumL (l.map fun k => Spec.sumL (k.map f)) := by
  induction l with
  | nil => rfl
  | cons k l ih => rw [List.flatten_cons, List.map_append, sumL_append, ih]; rfl

theorem sumL_sumN {α : Type} (n : Nat) (l : List α) (f : α → Nat → C) :
    sumN n (fun i => Spec.sumL (l.map fun a => f a i)) = Spec.sumL (l.map fun a => sumN n (f a)) := by
  induction l with
  | nil => simp only [List.map_nil, Spec.sumL]; exact sumN_zero n
  | cons x l ih => simp only [List.map_cons, Spec.sumL]; rw [sumN_add, ih]

/-! ### additions to cells -/

/-- The sum of what is added to cell `q`. -/
def total (ops : List (Int × C)) (q : Int) : C := Spec.sumL (ops.map fun op => if op.1 = q then op.2 else 0)

theorem accs_ok (ops : List (Int × C)) (m : List C) (h : ∀ op ∈ ops, 0 ≤ op.1 ∧ op.1 < m.length) :
    accs m ops = .ok ((List.range m.length).map fun q => m.getD q 0 + total ops (q : Nat)) := by
  induction ops generalizing m with
  | nil =>
    simp only [accs]
    congr 1
    apply List.ext_getElem?
    intro q
    by_cases hq : q < m.length
    · rw [List.getElem?_map, List.getElem?_range hq, List.getElem?_eq_getElem hq]
      simp only [Option.map_some, total, List.map_nil, Spec.sumL, List.getD, List.getElem?_eq_getElem hq, Option.getD_some]
      congr 1; grind
    · rw [List.getElem?_eq_none (by omega), List.getElem?_eq_none (by simp; omega)]
  | cons op ops ih =>
    obtain ⟨h0, h1⟩ := h op (by simp)
    have hacc : acc m op = .ok (m.set op.1.toNat (m.getD op.1.toNat 0 + op.2)) := by
      unfold acc wr
      rw [rd_ok m op.1 0 h0 (by omega)]
      simp only [Except.bind]
      rw [if_pos ⟨h0, h1⟩]
    show (acc m op).bind _ = _
    rw [hacc]
    show accs _ ops = _
    rw [ih _ (by intro op' hop; have := h op' (by simp [hop]); simpa using this)]
    congr 1
    rw [List.length_set]
    apply List.map_congr_left
    intro q hq
    have hq := List.mem_range.mp hq
    unfold total
    simp only [List.map_cons, Spec.sumL]
    by_cases e : op.1 = (q : Int)
    · rw [if_pos e]
      have : op.1.toNat = q := by omega
      rw [this, List.getD, List.getElem?_set_self hq]
      simp only [Option.getD_some]
      grind
    · rw [if_neg e]
      have : op.1.toNat ≠ q := by omega
      rw [List.getD, List.getElem?_set_ne this]
      show m.getD q 0 + _ = _
      grind

/-- The cells and products of a visibility. -/
def cellsOf (n : Nat) (res : Rat) (kernel : List C) (u v : Rat) : List (Int × C) :=
  (offsets.map fun m => offsets.map fun l =>
    let ci := place n v (-res)
    let cj := place n u res
    ((n : Int) * wrap n (lround ci + m) + wrap n (lround cj + l),
      kernel.getD (Spec.steps ci (lround ci + m)) 0 * kernel.getD (Spec.steps cj (lround cj + l)) 0)).flatten

theorem offset_bounds {m : Int} (h : m ∈ offsets) : -3 ≤ m ∧ m ≤ 3 := by
  simp [offsets] at h; omega

theorem cells_ok (n : Nat) (res : Rat) (kernel : List C) (hk : kernel.length = 225) (u v : Rat) :
    cells n res kernel u v = .ok (cellsOf n res kernel u v) := by
  unfold cells cellsOf
  simp only
  rw [all_ok _ (fun m => offsets.map fun l =>
    ((n : Int) * wrap n (lround (place n v (-res)) + m) + wrap n (lround (place n u res) + l),
      kernel.getD (Spec.steps (place n v (-res)) (lround (place n v (-res)) + m)) 0 *
        kernel.getD (Spec.steps (place n u res) (lround (place n u res) + l)) 0)) offsets (by
    intro m hm
    have hm := offset_bounds hm
    have := steps_lt (place n v (-res)) m hm.1 hm.2
    rw [tap_eq, rd_ok kernel _ 0 (by omega) (by omega)]
    simp only [Except.bind]
    apply all_ok
    intro l hl
    have hl := offset_bounds hl
    have := steps_lt (place n u res) l hl.1 hl.2
    rw [tap_eq, rd_ok kernel _ 0 (by omega) (by omega)]
    rfl)]
  rfl

theorem seven (f : Int → C) : Spec.sumL (offsets.map f) = sumN 7 fun m => f (-3 + m) := by
  simp only [offsets, List.map_cons, List.map_nil, Spec.sumL, sumN]
  show _ = 0 + f (-3) + f (-2) + f (-1) + f 0 + f 1 + f 2 + f 3
  grind

theorem wrap_place (n : Nat) (hn : 4 ≤ n) (c : Rat) (h0 : 0 ≤ c) (h : c < n) (m : Int) (hm : -3 ≤ m ∧ m ≤ 3) :
    wrap n (lround c + m) = (lround c + m) % (n : Int) ∧ 0 ≤ wrap n (lround c + m) ∧ wrap n (lround c + m) < n := by
  have := lround_bounds n c h0 h
  exact wrap_eq n _ (by omega) (by omega)

/-- The additions of a visibility are the products of two weights. -/
theorem total_cells (n : Nat) (hn : 4 ≤ n) (res : Rat) (kernel : List C) (u v : Rat)
    (hu : -(n : Rat) ≤ u / res ∧ u / res < n) (hv : -(n : Rat) ≤ v / -res ∧ v / -res < n) (row col : Nat) (hr : row < n)
    (hc : col < n) :
    total (cellsOf n res kernel u v) ((n * row + col : Nat) : Int) =
      Spec.weight n kernel (Spec.around n (v / -res)) row * Spec.weight n kernel (Spec.around n (u / res)) col := by
  obtain ⟨ei, i0, i1⟩ := place_eq n (by omega) v (-res) hv.1 hv.2
  obtain ⟨ej, j0, j1⟩ := place_eq n (by omega) u res hu.1 hu.2
  unfold total cellsOf
  simp only
  rw [ei] at i0 i1 ⊢
  rw [ej] at j0 j1 ⊢
  obtain ⟨ci, hci⟩ : ∃ c, Spec.around n (v / -res) = c := ⟨_, rfl⟩
  obtain ⟨cj, hcj⟩ : ∃ c, Spec.around n (u / res) = c := ⟨_, rfl⟩
  rw [hci] at i0 i1 ⊢
  rw [hcj] at j0 j1 ⊢
  rw [sumL_flatten, List.map_map, seven]
  have inner : ∀ m : Int, -3 ≤ m ∧ m ≤ 3 →
      ((fun k => Spec.sumL (List.map (fun (op : Int × C) => if op.1 = ((n * row + col : Nat) : Int) then op.2 else 0) k)) ∘ fun m =>
        offsets.map fun l => ((n : Int) * wrap n (lround ci + m) + wrap n (lround cj + l),
          kernel.getD (Spec.steps ci (lround ci + m)) 0 * kernel.getD (Spec.steps cj (lround cj + l)) 0)) m =
      (if (lround ci + m) % (n : Int) = row then kernel.getD (Spec.steps ci (lround ci + m)) 0 else 0) * Spec.weight n kernel cj col := by
    intro m hm
    obtain ⟨w1, w2, w3⟩ := wrap_place n hn ci i0 i1 m hm
    simp only [Function.comp]
    rw [List.map_map, seven]
    unfold Spec.weight
    rw [← sumN_mul]
    apply sumN_congr
    intro t ht
    obtain ⟨x1, x2, x3⟩ := wrap_place n hn cj j0 j1 (-3 + (t : Int)) (by omega)
    simp only [Function.comp]
    rw [show lround cj + (-3 + (t : Int)) = lround cj - 3 + t from by omega] at x1 x2 x3 ⊢
    have hiff : ((n : Int) * wrap n (lround ci + m) + wrap n (lround cj - 3 + t) = ((n * row + col : Nat) : Int)) ↔
        (lround ci + m) % (n : Int) = row ∧ (lround cj - 3 + t) % (n : Int) = col := by
      rw [← w1, ← x1]
      constructor
      · intro h
        push_cast at h
        have h2 := congrArg (· / (n : Int)) h
        rw [Int.mul_add_ediv_left _ _ (by omega), Int.mul_add_ediv_left _ _ (by omega), Int.ediv_eq_zero_of_lt x2 x3,
          Int.ediv_eq_zero_of_lt (by omega) (by omega)] at h2
        have h3 : wrap n (lround ci + m) = row := by omega
        rw [h3] at h
        exact ⟨h3, by omega⟩
      · rintro ⟨h1, h2⟩
        rw [h1, h2]; push_cast; rfl
    by_cases h1 : (lround ci + m) % (n : Int) = row
    · by_cases h2 : (lround cj - 3 + t) % (n : Int) = col
      · rw [if_pos (hiff.mpr ⟨h1, h2⟩), if_pos h1, if_pos h2]
      · rw [if_neg (fun h => h2 (hiff.mp h).2), if_neg h2]; grind
    · rw [if_neg (fun h => h1 (hiff.mp h).1), if_neg h1]; grind
  conv => rhs; unfold Spec.weight
  rw [show ∀ x y : C, x * y = y * x from by intro x y; grind]
  rw [← sumN_mul]
  apply sumN_congr
  intro t ht
  have := inner (-3 + (t : Int)) (by omega)
  rw [this]
  simp only
  rw [show lround ci + (-3 + (t : Int)) = lround ci - 3 + t from by omega]
  show _ * Spec.weight n kernel cj col = Spec.weight n kernel cj col * _
  grind

/-- The positions of a visibility are inside of the plane. -/
theorem cells_inside (n : Nat) (hn : 4 ≤ n) (res : Rat) (kernel : List C) (u v : Rat)
    (hu : -(n : Rat) ≤ u / res ∧ u / res < n) (hv : -(n : Rat) ≤ v / -res ∧ v / -res < n) :
    ∀ c ∈ cellsOf n res kernel u v, 0 ≤ c.1 ∧ c.1 < ((n * n : Nat) : Int) := by
  obtain ⟨ei, i0, i1⟩ := place_eq n (by omega) v (-res) hv.1 hv.2
  obtain ⟨ej, j0, j1⟩ := place_eq n (by omega) u res hu.1 hu.2
  intro c hc
  unfold cellsOf at hc
  simp only [List.mem_flatten, List.mem_map] at hc
  obtain ⟨_, ⟨m, hm, rfl⟩, hc⟩ := hc
  obtain ⟨l, hl, rfl⟩ := List.mem_map.mp hc
  obtain ⟨-, a0, a1⟩ := wrap_place n hn _ i0 i1 m (offset_bounds hm)
  obtain ⟨-, b0, b1⟩ := wrap_place n hn _ j0 j1 l (offset_bounds hl)
  simp only
  generalize wrap n (lround (place n v (-res)) + m) = p at *
  generalize wrap n (lround (place n u res) + l) = q at *
  have h1 : (n : Int) * p ≤ (n : Int) * (n - 1) := Int.mul_le_mul_of_nonneg_left (by omega) (by omega)
  have h2 : 0 ≤ (n : Int) * p := Int.mul_nonneg (by omega) a0
  rw [Int.mul_sub] at h1
  push_cast
  omega

theorem total_scale (z : C) (cs : List (Int × C)) (q : Int) :
    total (cs.map fun c => (c.1, z * c.2)) q = z * total cs q := by
  unfold total
  rw [List.map_map, ← sumL_mul]
  congr 1
  apply List.map_congr_left
  intro c _
  simp only [Function.comp]
  by_cases h : c.1 = q
  · rw [if_pos h, if_pos h]
  · rw [if_neg h, if_neg h]; grind

theorem mem_getD {α : Type} (l : List α) (i : Nat) (d : α) (h : i < l.length) : l.getD i d ∈ l := by
  rw [List.getD, List.getElem?_eq_getElem h, Option.getD_some]
  exact List.getElem_mem h

/-- Gridding of a plane. -/
theorem gridPlane_ok (a : Args C) (h : Spec.Fits a) (kernel : List C) (hk : kernel.length = 225) (x : List C)
    (hx : x.length = a.u.length) (pl : Nat × Nat) (hpl : pl.2 ≤ a.u.length) :
    gridPlane a kernel x pl = .ok ((List.range (a.n * a.n)).map fun q => Spec.grid a kernel x pl (q / a.n) (q % a.n)) := by
  have hu : ∀ k, k < pl.2 - pl.1 → -(a.n : Rat) ≤ a.u.getD (pl.1 + k) 0 / a.res ∧ a.u.getD (pl.1 + k) 0 / a.res < a.n :=
    fun k hk => h.urange _ (mem_getD _ _ _ (by omega))
  have hv : ∀ k, k < pl.2 - pl.1 → -(a.n : Rat) ≤ a.v.getD (pl.1 + k) 0 / -a.res ∧ a.v.getD (pl.1 + k) 0 / -a.res < a.n :=
    fun k hk => h.vrange _ (mem_getD _ _ _ (by have := h.v; omega))
  have hn := h.size
  unfold gridPlane
  simp only
  rw [all_ok _ (fun k => (cellsOf a.n a.res kernel (a.u.getD (pl.1 + k) 0) (a.v.getD (pl.1 + k) 0)).map fun c =>
    (c.1, x.getD (pl.1 + k) 0 * c.2)) _ (by
      intro k hk'
      have hk' := List.mem_range.mp hk'
      have := h.v
      rw [rd_ok a.v _ 0 (by omega) (by omega)]
      simp only [Except.bind]
      rw [rd_ok a.u _ 0 (by omega) (by omega)]
      simp only [Except.bind]
      rw [cells_ok _ _ _ hk]
      simp only [Except.bind]
      rw [rd_ok x _ 0 (by omega) (by omega)]
      rfl)]
  simp only [Except.bind]
  rw [accs_ok _ _ (by
    intro op hop
    rw [List.length_replicate]
    simp only [List.mem_flatten, List.mem_map] at hop
    obtain ⟨_, ⟨k, hk', rfl⟩, hop⟩ := hop
    obtain ⟨c, hc, rfl⟩ := List.mem_map.mp hop
    have hk' := List.mem_range.mp hk'
    exact cells_inside a.n hn a.res kernel _ _ (hu k hk') (hv k hk') c hc)]
  rw [List.length_replicate]
  congr 1
  apply List.map_congr_left
  intro q hq
  have hq := List.mem_range.mp hq
  have hz : (List.replicate (a.n * a.n) (0 : C)).getD q 0 = 0 := by
    rw [List.getD, List.getElem?_replicate, if_pos hq]; rfl
  rw [hz]
  unfold total
  rw [sumL_flatten, List.map_map, sumL_range]
  unfold Spec.grid
  have hmod : q % a.n < a.n := Nat.mod_lt _ (by omega)
  have hdiv : q / a.n < a.n := (Nat.div_lt_iff_lt_mul (by omega)).mpr hq
  have := sumN_congr (n := pl.2 - pl.1)
    (f := fun k => ((fun k => Spec.sumL (List.map (fun (op : Int × C) => if op.1 = ((q : Nat) : Int) then op.2 else 0) k)) ∘ fun k =>
      (cellsOf a.n a.res kernel (a.u.getD (pl.1 + k) 0) (a.v.getD (pl.1 + k) 0)).map fun c => (c.1, x.getD (pl.1 + k) 0 * c.2)) k)
    (g := fun k => x.getD (pl.1 + k) 0 * Spec.weight2 a kernel (pl.1 + k) (q / a.n) (q % a.n)) (by
      intro k hk'
      show total (List.map _ _) _ = _
      rw [total_scale]
      congr 1
      have := total_cells a.n hn a.res kernel (a.u.getD (pl.1 + k) 0) (a.v.getD (pl.1 + k) 0) (hu k hk') (hv k hk') _ _ hdiv hmod
      rw [Nat.div_add_mod] at this
      exact this)
  rw [show ∀ z : C, 0 + z = z from by intro z; grind]
  exact this

theorem all_rd {α : Type} (x : List α) (d : α) (a k : Nat) (h : a + k ≤ x.length) :
    all (fun (j : Nat) => rd x ((a + j : Nat) : Int)) (List.range k) = .ok ((x.drop a).take k) := by
  rw [all_ok _ (fun j => x.getD (a + j) d) _ (by
    intro j hj
    have hj := List.mem_range.mp hj
    rw [rd_ok x _ d (by omega) (by omega)]
    rfl)]
  congr 1
  apply List.ext_getElem?
  intro q
  by_cases hq : q < k
  · rw [List.getElem?_map, List.getElem?_range hq, List.getElem?_take_of_lt hq, List.getElem?_drop,
      List.getElem?_eq_getElem (by omega)]
    simp only [Option.map_some, List.getD, List.getElem?_eq_getElem (show a + q < x.length by omega), Option.getD_some]
  · rw [List.getElem?_eq_none (by simp; omega), List.getElem?_eq_none (by simp; omega)]

theorem avgW_ok (a : Args C) (h : Spec.Fits a) (pl : Nat × Nat) (h1 : pl.1 ≤ pl.2) (h2 : pl.2 ≤ a.u.length) :
    avgW a pl = .ok (Spec.meanW a.w pl) := by
  have := h.w
  unfold avgW Spec.meanW
  rw [all_rd a.w 0 _ _ (by omega)]
  rfl

/-! ### transforms -/

theorem dft2_congr (e : Rat → C) (s : Rat) (n : Nat) (x y : Nat → Nat → C) (h : ∀ a b, a < n → b < n → x a b = y a b) (i j : Nat) :
    dft2 e s n x i j = dft2 e s n y i j := by
  unfold dft2
  apply sumN_congr; intro a ha
  apply sumN_congr; intro b hb
  rw [h a b ha hb]

theorem dft2_sumL {α : Type} (e : Rat → C) (s : Rat) (n : Nat) (l : List α) (x : α → Nat → Nat → C) (i j : Nat) :
    dft2 e s n (fun a b => Spec.sumL (l.map fun t => x t a b)) i j = Spec.sumL (l.map fun t => dft2 e s n (x t) i j) := by
  unfold dft2
  have h1 : ∀ a b, Spec.sumL (l.map fun t => x t a b) * e (s * (((i * a : Nat) : Rat) / n) + s * (((j * b : Nat) : Rat) / n)) =
      Spec.sumL (l.map fun t => x t a b * e (s * (((i * a : Nat) : Rat) / n) + s * (((j * b : Nat) : Rat) / n))) := by
    intro a b
    rw [show ∀ x y : C, x * y = y * x from by intro x y; grind, ← sumL_mul]
    congr 1
    apply List.map_congr_left
    intro t _
    grind
  simp only [h1]
  rw [← sumL_sumN]
  apply sumN_congr
  intro a _
  rw [← sumL_sumN]

/-- Orthogonality. -/
theorem ortho (n : Nat) (e : Rat → C) (h : Spec.Roots n e) (a c : Nat) (ha : a < n) (hc : c < n) :
    sumN n (fun b => e (-1 * (((a * b : Nat) : Rat) / n)) * e (1 * (((b * c : Nat) : Rat) / n))) =
      if c = a then sumN n (fun _ => 1) else 0 := by
  have := h.sum ((c : Int) - a)
  have e1 : sumN n (fun b => e (-1 * (((a * b : Nat) : Rat) / n)) * e (1 * (((b * c : Nat) : Rat) / n))) =
      sumN n (fun b => e ((((c : Int) - a : Int) : Rat) * ((b : Rat) / n))) := by
    apply sumN_congr
    intro b _
    rw [← h.add]
    congr 1
    push_cast
    grind
  rw [e1, this]
  by_cases e2 : c = a
  · rw [if_pos e2, if_pos (by rw [e2]; simp)]
  · rw [if_neg e2, if_neg]
    intro hd
    obtain ⟨k, hk⟩ := hd
    rcases Int.lt_trichotomy k 0 with h0 | h0 | h0
    · have : (n : Int) * k ≤ n * (-1) := Int.mul_le_mul_of_nonneg_left (by omega) (by omega)
      omega
    · subst h0; omega
    · have : (n : Int) * 1 ≤ n * k := Int.mul_le_mul_of_nonneg_left (by omega) (by omega)
      omega

theorem sumN_pick (n : Nat) (a : Nat) (ha : a < n) (f : Nat → C) (N : C) :
    sumN n (fun c => f c * (if c = a then N else 0)) = f a * N := by
  induction n with
  | zero => omega
  | succ n ih =>
    show sumN n (fun c => f c * (if c = a then N else 0)) + f n * (if n = a then N else 0) = _
    by_cases h : n = a
    · subst h
      rw [if_pos rfl]
      have : sumN n (fun c => f c * (if c = n then N else 0)) = sumN n (fun _ => 0) := by
        apply sumN_congr
        intro c hc
        rw [if_neg (by omega)]; grind
      rw [this, sumN_zero]; grind
    · rw [ih (by omega), if_neg h]; grind

/-- A transform and the transform back. -/
theorem inversion (n : Nat) (e : Rat → C) (h : Spec.Roots n e) (y : Nat → Nat → C) (i j : Nat) (hi : i < n) (hj : j < n) :
    dft2 e (-1) n (dft2 e 1 n y) i j = sumN n (fun _ => 1) * sumN n (fun _ => 1) * y i j := by
  unfold dft2
  have h1 : ∀ a b, sumN n (fun c => sumN n fun d => y c d * e (1 * (((a * c : Nat) : Rat) / n) + 1 * (((b * d : Nat) : Rat) / n))) *
        e (-1 * (((i * a : Nat) : Rat) / n) + -1 * (((j * b : Nat) : Rat) / n)) =
      sumN n fun c => sumN n fun d => y c d * (e (-1 * (((i * a : Nat) : Rat) / n)) * e (1 * (((a * c : Nat) : Rat) / n))) *
        (e (-1 * (((j * b : Nat) : Rat) / n)) * e (1 * (((b * d : Nat) : Rat) / n))) := by
    intro a b
    rw [show ∀ x y : C, x * y = y * x from by intro x y; grind, ← sumN_mul]
    apply sumN_congr
    intro c _
    rw [← sumN_mul]
    apply sumN_congr
    intro d _
    rw [h.add, h.add]
    grind
  have h2 : ∀ a, sumN n (fun b => sumN n fun c => sumN n fun d =>
        y c d * (e (-1 * (((i * a : Nat) : Rat) / n)) * e (1 * (((a * c : Nat) : Rat) / n))) *
        (e (-1 * (((j * b : Nat) : Rat) / n)) * e (1 * (((b * d : Nat) : Rat) / n)))) =
      sumN n fun c => y c j * sumN n (fun _ => 1) * (e (-1 * (((i * a : Nat) : Rat) / n)) * e (1 * (((a * c : Nat) : Rat) / n))) := by
    intro a
    rw [sumN_comm]
    apply sumN_congr
    intro c _
    rw [sumN_comm]
    have : ∀ d, d < n → sumN n (fun b =>
        y c d * (e (-1 * (((i * a : Nat) : Rat) / n)) * e (1 * (((a * c : Nat) : Rat) / n))) *
        (e (-1 * (((j * b : Nat) : Rat) / n)) * e (1 * (((b * d : Nat) : Rat) / n)))) =
        y c d * (e (-1 * (((i * a : Nat) : Rat) / n)) * e (1 * (((a * c : Nat) : Rat) / n))) * (if d = j then sumN n (fun _ => 1) else 0) := by
      intro d hd
      rw [sumN_mul, ortho n e h j d hj hd]
    rw [sumN_congr n _ _ this, sumN_pick n j hj (fun d => y c d * (e (-1 * (((i * a : Nat) : Rat) / n)) * e (1 * (((a * c : Nat) : Rat) / n))))]
    grind
  simp only [h1, h2]
  rw [sumN_comm]
  have : ∀ c, c < n → sumN n (fun a => y c j * sumN n (fun _ => 1) *
      (e (-1 * (((i * a : Nat) : Rat) / n)) * e (1 * (((a * c : Nat) : Rat) / n)))) =
      y c j * sumN n (fun _ => 1) * (if c = i then sumN n (fun _ => 1) else 0) := by
    intro c hc
    rw [sumN_mul, ortho n e h i c hi hc]
  rw [sumN_congr n _ _ this, sumN_pick n i hi (fun c => y c j * sumN n (fun _ => 1))]
  grind

/-- Orthogonality, the other way. -/
theorem ortho' (n : Nat) (e : Rat → C) (h : Spec.Roots n e) (a c : Nat) (ha : a < n) (hc : c < n) :
    sumN n (fun b => e (1 * (((a * b : Nat) : Rat) / n)) * e (-1 * (((b * c : Nat) : Rat) / n))) =
      if c = a then sumN n (fun _ => 1) else 0 := by
  have := ortho n e h c a hc ha
  have e1 : sumN n (fun b => e (1 * (((a * b : Nat) : Rat) / n)) * e (-1 * (((b * c : Nat) : Rat) / n))) =
      sumN n (fun b => e (-1 * (((c * b : Nat) : Rat) / n)) * e (1 * (((b * a : Nat) : Rat) / n))) := by
    apply sumN_congr
    intro b _
    rw [Nat.mul_comm a b, Nat.mul_comm b c]; grind
  rw [e1, this]
  by_cases h : a = c
  · rw [if_pos h, if_pos h.symm]
  · rw [if_neg h, if_neg (fun x => h x.symm)]

theorem inversion' (n : Nat) (e : Rat → C) (h : Spec.Roots n e) (y : Nat → Nat → C) (i j : Nat) (hi : i < n) (hj : j < n) :
    dft2 e 1 n (dft2 e (-1) n y) i j = sumN n (fun _ => 1) * sumN n (fun _ => 1) * y i j := by
  have hr : Spec.Roots n (fun x => e (-x)) := by
    constructor
    · intro x y; rw [← h.add]; congr 1; grind
    · intro m
      have := h.sum (-m)
      have e1 : sumN n (fun b => e (-((m : Rat) * ((b : Rat) / n)))) = sumN n (fun b => e (((-m : Int) : Rat) * ((b : Rat) / n))) := by
        apply sumN_congr; intro b _; congr 1; push_cast; grind
      rw [e1, this]
      by_cases hd : (n : Int) ∣ m
      · rw [if_pos hd, if_pos (Int.dvd_neg.mpr hd)]
      · rw [if_neg hd, if_neg (fun x => hd (Int.dvd_neg.mp x))]
  have := inversion n (fun x => e (-x)) hr y i j hi hj
  rw [← this]
  have flip : ∀ s t : Rat, s = -t → ∀ (z : Nat → Nat → C) a b, dft2 e s n z a b = dft2 (fun x => e (-x)) t n z a b := by
    intro s t hs z a b
    unfold dft2
    apply sumN_congr; intro c _
    apply sumN_congr; intro d _
    congr 2
    rw [hs]; grind
  rw [flip 1 (-1) (by decide)]
  apply dft2_congr
  intro a b _ _
  exact flip (-1) 1 (by decide) _ _ _

/-- What a projection does to the image. -/
theorem project_image (n : Nat) (e : Rat → C) (h : Spec.Roots n e) (norm : C) (kern x : Nat → Nat → C) (i j : Nat) (hi : i < n) (hj : j < n) :
    dft2 e (-1) n (project e norm n kern x) i j =
      sumN n (fun _ => 1) * sumN n (fun _ => 1) * norm * (kern i j * dft2 e (-1) n x i j) := by
  unfold project
  rw [show (fun i j => dft2 e 1 n (fun a b => dft2 e (-1) n x a b * (kern a b * norm)) i j) =
    dft2 e 1 n (fun a b => dft2 e (-1) n x a b * (kern a b * norm)) from rfl, inversion n e h _ i j hi hj]
  grind

/-! ### all planes -/

theorem gridAll_ok (f : Fns C) (a : Args C) (h : Spec.Fits a) (hk : f.kernel.length = 225) (norm : C) (planes : List (Nat × Nat))
    (hp : ∀ pl ∈ planes, pl.1 ≤ pl.2 ∧ pl.2 ≤ a.u.length) (x : List C) (hx : x.length = a.u.length) :
    ∃ g, gridAll f a norm planes x = .ok g ∧ g.length = a.n * a.n ∧ ∀ i j, i < a.n → j < a.n → square a.n g i j =
      Spec.sumL (planes.map fun pl => project f.e norm a.n (wKernel f.ph a.n a.res (Spec.meanW a.w pl)) (Spec.grid a f.kernel x pl) i j) := by
  unfold gridAll
  rw [all_ok _ (fun pl => (Spec.meanW a.w pl,
      (List.range (a.n * a.n)).map fun q => Spec.grid a f.kernel x pl (q / a.n) (q % a.n))) _ (by
    intro pl hpl
    obtain ⟨h1, h2⟩ := hp pl hpl
    rw [avgW_ok a h pl h1 h2]
    simp only [Except.bind]
    rw [gridPlane_ok a h _ hk x hx pl h2]
    rfl)]
  refine ⟨_, rfl, by simp, ?_⟩
  intro i j hi hj
  have hn := h.size
  have hq : a.n * i + j < a.n * a.n := by
    have : a.n * (i + 1) ≤ a.n * a.n := Nat.mul_le_mul_left _ hi
    rw [Nat.mul_add] at this
    omega
  unfold square
  rw [List.getD, List.getElem?_map, List.getElem?_range hq]
  simp only [Option.map_some, Option.getD_some]
  rw [foldl_sumL, List.map_map, Nat.mul_add_div (by omega), Nat.mul_add_mod, Nat.div_eq_of_lt hj, Nat.mod_eq_of_lt hj, Nat.add_zero]
  rw [show ∀ z : C, 0 + z = z from by intro z; grind]
  congr 1
  apply List.map_congr_left
  intro pl _
  simp only [Function.comp]
  unfold project
  apply dft2_congr
  intro a' b' _ _
  congr 1
  apply dft2_congr
  intro c d hc hd
  have hq : a.n * c + d < a.n * a.n := by
    have : a.n * (c + 1) ≤ a.n * a.n := Nat.mul_le_mul_left _ hc
    rw [Nat.mul_add] at this
    omega
  rw [List.getD, List.getElem?_map, List.getElem?_range hq]
  simp only [Option.map_some, Option.getD_some]
  rw [Nat.mul_add_div (by omega), Nat.mul_add_mod, Nat.div_eq_of_lt hd, Nat.mod_eq_of_lt hd, Nat.add_zero]

/-- The image of the sum of the planes. -/
theorem image (n : Nat) (e : Rat → C) (h : Spec.Roots n e) (norm : C) (planes : List (Nat × Nat)) (kern x : Nat × Nat → Nat → Nat → C)
    (g : Nat → Nat → C) (hg : ∀ i j, i < n → j < n → g i j = Spec.sumL (planes.map fun pl => project e norm n (kern pl) (x pl) i j))
    (i j : Nat) (hi : i < n) (hj : j < n) :
    dft2 e (-1) n g i j = sumN n (fun _ => 1) * sumN n (fun _ => 1) * norm *
      Spec.sumL (planes.map fun pl => kern pl i j * dft2 e (-1) n (x pl) i j) := by
  rw [dft2_congr e (-1) n _ _ hg, dft2_sumL, ← sumL_mul]
  congr 1
  apply List.map_congr_left
  intro pl _
  have := project_image n e h norm (kern pl) (x pl) i j hi hj
  exact this

/-! ### correction -/

theorem corrFull_ok (kernel : List C) (hk : kernel.length = 225) (n : Nat) :
    corrFull kernel n = .ok ((List.range (n * 64)).map fun i =>
      if i < 224 then kernel.getD i 0 else if n * 64 - i < 224 then kernel.getD (n * 64 - i) 0 else 0) := by
  unfold corrFull
  apply all_ok
  intro i hi
  by_cases h1 : i < 224
  · rw [if_pos h1, if_pos h1, rd_ok kernel _ 0 (by omega) (by omega)]; rfl
  · rw [if_neg h1, if_neg h1]
    by_cases h2 : n * 64 - i < 224
    · rw [if_pos h2, if_pos h2, rd_ok kernel _ 0 (by omega) (by omega)]; rfl
    · rw [if_neg h2, if_neg h2]

theorem sumN_trim (n m : Nat) (f : Nat → C) (h : ∀ t, n ≤ t → t < n + m → f t = 0) : sumN (n + m) f = sumN n f := by
  induction m with
  | zero => rfl
  | succ m ih =>
    show sumN (n + m) f + f (n + m) = _
    rw [ih (fun t h1 h2 => h t h1 (by omega)), h _ (by omega) (by omega)]
    grind

/-- The transform in the correction is the transform of the kernel at half a pixel more. -/
theorem redft01_eq (co : Rat → C) (kernel : List C) (n : Nat) (hn : 7 ≤ n) (k : Nat) :
    redft01 co (n * 64 / 2) (fun j => ((List.range (n * 64)).map fun i =>
      if i < 224 then kernel.getD i 0 else if n * 64 - i < 224 then kernel.getD (n * 64 - i) 0 else 0).getD j 0) k =
    Spec.kernelTransform co kernel n ((k : Rat) + 1 / 2) := by
  have hget : ∀ j, j < n * 64 / 2 → ((List.range (n * 64)).map fun i =>
      if i < 224 then kernel.getD i 0 else if n * 64 - i < 224 then kernel.getD (n * 64 - i) 0 else 0).getD j 0 =
      if j < 224 then kernel.getD j 0 else 0 := by
    intro j hj
    rw [List.getD, List.getElem?_map, List.getElem?_range (by omega)]
    simp only [Option.map_some, Option.getD_some]
    by_cases h1 : j < 224
    · rw [if_pos h1, if_pos h1]
    · rw [if_neg h1, if_neg h1, if_neg (by omega)]
  unfold redft01 Spec.kernelTransform
  have hm : n * 64 / 2 = n * 32 := by omega
  simp only
  rw [hget 0 (by omega), if_pos (by omega)]
  congr 1
  rw [show n * 64 / 2 - 1 = 223 + (n * 64 / 2 - 1 - 223) from by omega]
  rw [sumN_trim 223 _ _ (by
    intro t h1 h2
    rw [hget (t + 1) (by omega), if_neg (by omega)]
    grind)]
  apply sumN_congr
  intro t ht
  rw [hget (t + 1) (by omega), if_pos (by omega)]
  congr 2
  rw [hm]
  have h0 : (n : Rat) ≠ 0 := by
    intro hc
    have := (Rat.natCast_inj (a := n) (b := 0)).mp hc
    omega
  push_cast
  grind

/-- What is kept of the transform. -/
def pickOf (co r : Rat → C) (kernel : List C) (n i : Nat) : C :=
  ((List.range (n * 64)).map fun k => if k < n * 64 / 2 then
    redft01 co (n * 64 / 2) (fun j => ((List.range (n * 64)).map fun i =>
      if i < 224 then kernel.getD i 0 else if n * 64 - i < 224 then kernel.getD (n * 64 - i) 0 else 0).getD j 0) k
    else ((List.range (n * 64)).map fun i =>
      if i < 224 then kernel.getD i 0 else if n * 64 - i < 224 then kernel.getD (n * 64 - i) 0 else 0).getD k 0).getD
    (if i < n / 2 then i else n - i) 0 * r (1 / 64)

theorem correction_ok (co r : Rat → C) (kernel : List C) (hk : kernel.length = 225) (n : Nat) :
    correction co r kernel n = .ok ((List.range n).map fun i => (List.range n).map fun j =>
      pickOf co r kernel n i * pickOf co r kernel n j).flatten := by
  unfold correction
  rw [corrFull_ok kernel hk n]
  simp only [Except.bind]
  have hp : ∀ i, i < n → ∀ y : List C, y.length = n * 64 →
      Except.map (fun t => t * r (1 / 64)) (rd y (((if i < n / 2 then i else n - i) : Nat) : Int)) =
      .ok (y.getD (if i < n / 2 then i else n - i) 0 * r (1 / 64)) := by
    intro i hi y hy
    rw [rd_ok y _ 0 (by omega) (by split <;> omega), Int.toNat_natCast]
    rfl
  rw [all_ok _ (fun i => (List.range n).map fun j => pickOf co r kernel n i * pickOf co r kernel n j) _ (by
    intro i hi
    have hi := List.mem_range.mp hi
    rw [hp i hi _ (by simp)]
    simp only
    apply all_ok
    intro j hj
    have hj := List.mem_range.mp hj
    rw [hp j hj _ (by simp)]
    rfl)]
  rfl

theorem correction_some (co r : Rat → C) (kernel : List C) (hk : kernel.length = 225) (n : Nat) :
    ∃ corr, correction co r kernel n = .ok corr := ⟨_, correction_ok co r kernel hk n⟩

theorem pickOf_eq (co r : Rat → C) (kernel : List C) (n : Nat) (hn : 7 ≤ n) (i : Nat) :
    pickOf co r kernel n i = Spec.kernelTransform co kernel n ((((if i < n / 2 then i else n - i) : Nat) : Rat) + 1 / 2) * r (1 / 64) := by
  unfold pickOf
  have hlt : (if i < n / 2 then i else n - i) < n * 64 / 2 := by split <;> omega
  generalize (if i < n / 2 then i else n - i) = k at *
  rw [List.getD, List.getElem?_map, List.getElem?_range (by omega)]
  simp only [Option.map_some, Option.getD_some]
  rw [if_pos hlt, redft01_eq co kernel n hn k]

omit [CommRing C] in
theorem flat_square_length (n : Nat) (f : Nat → Nat → C) :
    ((List.range n).map fun i => (List.range n).map fun j => f i j).flatten.length = n * n := by
  rw [List.length_flatten, List.map_map]
  have : (List.length ∘ fun i => (List.range n).map fun j => f i j) = fun _ => n := by funext i; simp
  rw [this, List.map_const', List.sum_replicate_nat, List.length_range]

theorem flat_square_get (n : Nat) (f : Nat → Nat → C) (i j : Nat) (hi : i < n) (hj : j < n) :
    ((List.range n).map fun i => (List.range n).map fun j => f i j).flatten.getD (n * i + j) 0 = f i j := by
  have := FEngine.flat_get n n (fun i j => f i j) i j hi hj
  rw [List.flatMap_def] at this
  rw [List.getD, this]; rfl

end

end Verif.Gridder
