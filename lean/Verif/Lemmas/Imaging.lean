import Verif.Spec.Imaging
import Verif.Lemmas.Gridder
/-!
# Lemmas for images
-/
namespace Verif.Imaging
open Verif.CMem
open Verif.Gridder (Args Fns wProjection)
open Verif.Gridder.Spec (sumL)
open Lean.Grind (CommRing)
open Verif.FEngine (lround)

theorem pick_ok {α : Type} (l : List α) (i : Nat) (d : α) (h : i < l.length) : pick l i = .ok (l.getD i d) := by
  unfold pick
  rw [List.getElem?_eq_getElem h, List.getD, List.getElem?_eq_getElem h]; rfl

theorem self_map {α : Type} (l : List α) (d : α) (n : Nat) (h : l.length = n) : (List.range n).map (fun i => l.getD i d) = l := by
  apply List.ext_getElem?
  intro i
  by_cases hi : i < n
  · have : i < l.length := by omega
    simp only [List.getElem?_map, List.getElem?_range hi, List.getD, List.getElem?_eq_getElem this, Option.map_some, Option.getD_some]
  · rw [List.getElem?_eq_none (by simp; omega), List.getElem?_eq_none (by omega)]

/-- Baseline and channel, in the order of the arrays. -/
def pairs (nb nc : Nat) (chan : Option (List Nat)) : List (Nat × Nat) :=
  ((List.range nb).map fun b => (chan.getD (List.range nc)).map fun c => (b, c)).flatten

theorem pairs_map {α : Type} (nb nc : Nat) (chan : Option (List Nat)) (f : Nat → Nat → α) :
    ((List.range nb).map fun b => (chan.getD (List.range nc)).map fun c => f b c).flatten = (pairs nb nc chan).map fun x => f x.1 x.2 := by
  unfold pairs
  rw [List.map_flatten, List.map_map]
  congr 1
  apply List.map_congr_left
  intro b _
  simp only [Function.comp, List.map_map]
  rfl

theorem channels_ok {α : Type} (d : α) (nb nc : Nat) (chan : Option (List Nat)) (hc : ∀ cs, chan = some cs → ∀ c ∈ cs, c < nc)
    (rows : List (List α)) (h : rows.length = nb ∧ ∀ r ∈ rows, r.length = nc) :
    ∃ m, channels chan rows = .ok m ∧ m.flatten = (pairs nb nc chan).map fun x => Spec.at2 d rows x.1 x.2 := by
  refine ⟨(List.range nb).map fun b => (chan.getD (List.range nc)).map fun c => Spec.at2 d rows b c, ?_, pairs_map nb nc chan _⟩
  have e : (List.range nb).map (fun b => (chan.getD (List.range nc)).map fun c => Spec.at2 d rows b c) =
      rows.map fun r => (chan.getD (List.range nc)).map fun c => r.getD c d := by
    conv => rhs; rw [← self_map rows [] nb h.1]
    rw [List.map_map]; rfl
  rw [e]
  unfold channels
  cases chan with
  | none =>
    simp only [Option.getD_none]
    congr 1
    conv => lhs; rw [← List.map_id rows]
    apply List.map_congr_left
    intro r hr
    exact (self_map r d nc (h.2 r hr)).symm
  | some cs =>
    simp only [Option.getD_some]
    apply all_ok
    intro r hr
    apply all_ok
    intro c hc'
    exact pick_ok r c d (by rw [h.2 r hr]; exact hc cs rfl c hc')

section
variable {C : Type} [CommRing C]

theorem sumL_perm {l k : List C} (h : l.Perm k) : sumL l = sumL k := by
  induction h with
  | nil => rfl
  | cons x _ ih => simp only [sumL, ih]
  | swap x y l => simp only [sumL]; grind
  | trans _ _ h1 h2 => rw [h1, h2]

instance : Inhabited (Spec.Point C) := ⟨⟨0, 0, 0, 0, 0⟩⟩

omit [CommRing C] in
theorem all_pick {α : Type} [Inhabited (Spec.Point C)] (H : List (Spec.Point C)) (g : Spec.Point C → α) (o : List Nat) (ho : ∀ i ∈ o, i < H.length) :
    all (pick (H.map g)) o = .ok ((o.map fun i => H.getD i default).map g) := by
  rw [List.map_map]
  apply all_ok
  intro i hi
  have := ho i hi
  unfold pick
  rw [List.getElem?_map, List.getElem?_eq_getElem this]
  simp only [Function.comp, Option.map_some, List.getD, List.getElem?_eq_getElem this, Option.getD_some]

/-- The points and their mirror images. -/
def both (conj : C → C) (pts : List (Spec.Point C)) : List (Spec.Point C) := pts ++ pts.map (Spec.mirror conj)

theorem prepare_ok (conj : C → C) (order : List Rat → List Nat) (ho : Spec.Sorts order) (pol : String) (ds : DataSet C) (p : Pol C)
    (hp : ∃ name, ds.pols.find? (fun p => p.1 = pol) = some (name, p)) (nb nc : Nat) (h : Spec.Shape nb nc ds p) (chan : Option (List Nat))
    (hc : ∀ cs, chan = some cs → ∀ c ∈ cs, c < nc) :
    ∃ S : List (Spec.Point C), S.Perm (both conj (Spec.points nb nc chan ds p)) ∧ (S.map (·.w)).Pairwise (· ≤ ·) ∧
      prepare conj order pol chan ds = .ok (S.map (fun x => (x.u, x.v, x.w)), S.map (·.vis), S.map (·.wgt)) := by
  obtain ⟨name, hp⟩ := hp
  obtain ⟨m1, e1, f1⟩ := channels_ok (0, 0, 0) nb nc chan hc ds.uvw h.uvw
  obtain ⟨m2, e2, f2⟩ := channels_ok (0 : C) nb nc chan hc p.data h.data
  obtain ⟨m3, e3, f3⟩ := channels_ok (0 : C) nb nc chan hc p.weight h.weight
  have hpts : Spec.points nb nc chan ds p = (pairs nb nc chan).map fun x => Spec.point ds p x.1 x.2 := pairs_map nb nc chan _
  let H := both conj (Spec.points nb nc chan ds p)
  have u1 : m1.flatten ++ m1.flatten.map (fun x => (-x.1, -x.2.1, -x.2.2)) = H.map fun x => (x.u, x.v, x.w) := by
    simp only [H, both]
    rw [f1, hpts, List.map_append, List.map_map, List.map_map, List.map_map, List.map_map]
    rfl
  have u2 : m2.flatten ++ m2.flatten.map conj = H.map (·.vis) := by
    simp only [H, both]
    rw [f2, hpts, List.map_append, List.map_map, List.map_map, List.map_map, List.map_map]
    rfl
  have u3 : m3.flatten ++ m3.flatten = H.map (·.wgt) := by
    simp only [H, both]
    rw [f3, hpts, List.map_append, List.map_map, List.map_map, List.map_map]
    rfl
  have hw : (H.map fun x => (x.u, x.v, x.w)).map (fun x => x.2.2) = H.map (·.w) := by rw [List.map_map]; rfl
  obtain ⟨o1, o2⟩ := ho (H.map (·.w))
  rw [List.length_map] at o1
  have hlt : ∀ i ∈ order (H.map (·.w)), i < H.length := fun i hi => List.mem_range.mp (o1.mem_iff.mp hi)
  refine ⟨(order (H.map (·.w))).map fun i => H.getD i default, ?_, ?_, ?_⟩
  · have := o1.map (fun i => H.getD i default)
    rw [self_map H default H.length rfl] at this
    exact this
  · rw [List.map_map]
    have : (order (H.map (·.w))).map ((·.w) ∘ fun i => H.getD i default) = (order (H.map (·.w))).map fun i => (H.map (·.w)).getD i 0 := by
      apply List.map_congr_left
      intro i hi
      have := hlt i hi
      simp only [Function.comp, List.getD, List.getElem?_map, List.getElem?_eq_getElem this, Option.map_some, Option.getD_some]
    rw [this]
    exact o2
  · unfold prepare
    rw [hp]
    simp only
    rw [e1]
    simp only [Except.bind]
    rw [e2]
    simp only
    rw [e3]
    simp only
    rw [u1, u2, u3, hw, all_pick H _ _ hlt]
    simp only
    rw [all_pick H _ _ hlt]
    simp only
    rw [all_pick H _ _ hlt]
    rfl

/-- The sum over the arrays is the sum over the points. -/
theorem sum_points (k : Keys) (kernel : List C) (S : List (Spec.Point C)) (g : Spec.Point C → C) (i j : Nat) :
    let a := args k (S.map (fun x => (x.u, x.v, x.w)), S.map (·.vis), S.map (·.wgt))
    sumN a.u.length (fun q => (S.map g).getD q 0 * Gridder.Spec.weight2 a kernel q i j) =
      sumL (S.map fun x => g x * Spec.spot a.n k.res kernel i j x.u x.v) := by
  intro a
  have hu : a.u = S.map (·.u) := by simp only [a, args, List.map_map]; rfl
  have hv : a.v = S.map (·.v) := by simp only [a, args, List.map_map]; rfl
  rw [hu, List.length_map, ← Gridder.sumL_range]
  apply congrArg
  conv => rhs; rw [← self_map S default S.length rfl]
  rw [List.map_map]
  apply List.map_congr_left
  intro q hq
  have hq := List.mem_range.mp hq
  simp only [Function.comp]
  unfold Gridder.Spec.weight2 Spec.spot
  rw [hu, hv]
  simp only [List.getD, List.getElem?_map, List.getElem?_eq_getElem hq, Option.map_some, Option.getD_some]
  rfl

/-! ### mirror images -/

theorem lround_unique (x : Rat) (hx : Spec.OffHalf x) (r : Int) (h1 : (r : Rat) - x ≤ 1 / 2) (h2 : x - (r : Rat) ≤ 1 / 2) : lround x = r := by
  obtain ⟨n1, n2⟩ := Gridder.near x
  have a1 := hx (lround x)
  have a2 := hx (lround x - 1)
  have a3 := hx r
  have a4 := hx (r - 1)
  push_cast at a2 a4
  have b1 : (lround x : Rat) - (r : Rat) < 1 := by grind
  have b2 : (r : Rat) - (lround x : Rat) < 1 := by grind
  have c1 : ((lround x - r : Int) : Rat) < ((1 : Int) : Rat) := by push_cast; exact b1
  have c2 : ((r - lround x : Int) : Rat) < ((1 : Int) : Rat) := by push_cast; exact b2
  have := Rat.intCast_lt_intCast.mp c1
  have := Rat.intCast_lt_intCast.mp c2
  omega

theorem offHalf_add (x : Rat) (hx : Spec.OffHalf x) (m : Int) : Spec.OffHalf (x + m) := by
  intro k hk
  apply hx (k - m)
  push_cast; grind

theorem offHalf_neg (x : Rat) (hx : Spec.OffHalf x) : Spec.OffHalf (-x) := by
  intro k hk
  apply hx (-k - 1)
  push_cast; grind

theorem lround_add (x : Rat) (hx : Spec.OffHalf x) (m : Int) : lround (x + m) = lround x + m := by
  obtain ⟨n1, n2⟩ := Gridder.near x
  apply lround_unique _ (offHalf_add x hx m)
  · push_cast; grind
  · push_cast; grind

theorem lround_neg (x : Rat) (hx : Spec.OffHalf x) : lround (-x) = -lround x := by
  obtain ⟨n1, n2⟩ := Gridder.near x
  apply lround_unique _ (offHalf_neg x hx)
  · push_cast; grind
  · push_cast; grind

theorem steps_add (x : Rat) (p m : Int) : Gridder.Spec.steps (x + m) (p + m) = Gridder.Spec.steps x p := by
  unfold Gridder.Spec.steps
  have e1 : (x + (m : Rat)) - ((p + m : Int) : Rat) = x - p := by push_cast; grind
  have e2 : ((p + m : Int) : Rat) - (x + (m : Rat)) = p - x := by push_cast; grind
  rw [e1, e2]

theorem steps_neg (x : Rat) (p : Int) : Gridder.Spec.steps (-x) (-p) = Gridder.Spec.steps x p := by
  unfold Gridder.Spec.steps
  have e1 : (-x) - ((-p : Int) : Rat) = p - x := by push_cast; grind
  have e2 : ((-p : Int) : Rat) - (-x) = x - p := by push_cast; grind
  rw [e1, e2]
  by_cases h1 : (p : Rat) - x < 0
  · rw [if_pos h1, if_neg (by grind)]
  · by_cases h2 : x - (p : Rat) < 0
    · rw [if_neg h1, if_pos h2]
    · have : (p : Rat) - x = x - p := by grind
      rw [if_neg h1, if_neg h2, this]

theorem weight_add (n : Nat) (kernel : List C) (x : Rat) (hx : Spec.OffHalf x) (m : Int) (a : Nat) :
    Gridder.Spec.weight n kernel (x + (((n : Int) * m : Int) : Rat)) a = Gridder.Spec.weight n kernel x a := by
  unfold Gridder.Spec.weight
  apply sumN_congr
  intro t _
  simp only
  rw [lround_add x hx, show lround x + (n : Int) * m - 3 + t = (lround x - 3 + t) + n * m from by omega, steps_add, Int.add_mul_emod_self_left]

theorem weight_neg (n : Nat) (hn : 0 < n) (kernel : List C) (x : Rat) (hx : Spec.OffHalf x) (a : Nat) (ha : a < n) :
    Gridder.Spec.weight n kernel (-x) ((n - a) % n) = Gridder.Spec.weight n kernel x a := by
  have key : ∀ p : Int, ((-p) % (n : Int) = (((n - a) % n : Nat) : Int)) ↔ (p % (n : Int) = a) := by
    intro p
    have h0 := Int.emod_nonneg p (show (n : Int) ≠ 0 by omega)
    have h1 := Int.emod_lt_of_pos p (show 0 < (n : Int) by omega)
    have hp := Int.mul_ediv_add_emod p n
    by_cases hz : p % (n : Int) = 0
    · have e : (-p) % (n : Int) = 0 := Int.emod_eq_zero_of_dvd (Int.dvd_neg.mpr (Int.dvd_of_emod_eq_zero hz))
      rw [e, hz]
      by_cases ha0 : a = 0
      · subst ha0; rw [Nat.sub_zero, Nat.mod_self]
      · rw [Nat.mod_eq_of_lt (by omega)]; omega
    · have e : (-p) % (n : Int) = n - p % n := by
        have : -p = (n - p % (n : Int)) + n * (-(p / n) - 1) := by
          rw [Int.mul_sub, Int.mul_neg]; omega
        rw [this, Int.add_mul_emod_self_left]
        exact Int.emod_eq_of_lt (by omega) (by omega)
      rw [e]
      by_cases ha0 : a = 0
      · subst ha0; rw [Nat.sub_zero, Nat.mod_self]; omega
      · rw [Nat.mod_eq_of_lt (by omega)]; omega
  have term : ∀ t : Nat, t < 7 →
      (if (lround (-x) - 3 + (t : Int)) % (n : Int) = (((n - a) % n : Nat) : Int) then kernel.getD (Gridder.Spec.steps (-x) (lround (-x) - 3 + (t : Int))) 0 else 0) =
      (if (lround x - 3 + ((6 - t : Nat) : Int)) % (n : Int) = a then kernel.getD (Gridder.Spec.steps x (lround x - 3 + ((6 - t : Nat) : Int))) 0 else 0) := by
    intro t ht
    rw [lround_neg x hx]
    rw [show -lround x - 3 + (t : Int) = -(lround x - 3 + ((6 - t : Nat) : Int)) from by omega, steps_neg]
    simp only [key]
  unfold Gridder.Spec.weight
  rw [sumN_congr 7 _ _ term]
  simp only [sumN]
  grind

/-- The weights of a point on the torus and those of its mirror image. -/
theorem weight_mirror (n : Nat) (hn : 0 < n) (kernel : List C) (x : Rat) (hx : Spec.OffHalf x) (a : Nat) (ha : a < n) :
    Gridder.Spec.weight n kernel (Gridder.Spec.around n (-x)) ((n - a) % n) = Gridder.Spec.weight n kernel (Gridder.Spec.around n x) a := by
  have h1 : ∀ y, ∃ m : Int, Gridder.Spec.around n y = y + (((n : Int) * m : Int) : Rat) := by
    intro y
    refine ⟨-(y / (n : Rat)).floor, ?_⟩
    unfold Gridder.Spec.around
    push_cast; grind
  obtain ⟨m1, e1⟩ := h1 (-x)
  obtain ⟨m2, e2⟩ := h1 x
  rw [e1, e2, weight_add n kernel _ (offHalf_neg x hx), weight_add n kernel _ hx, weight_neg n hn kernel x hx a ha]

theorem sumN_rev (n : Nat) (f : Nat → C) : sumN n (fun t => f (n - 1 - t)) = sumN n f := by
  induction n with
  | zero => rfl
  | succ n ih =>
    rw [sumN_front]
    show f (n + 1 - 1 - 0) + _ = sumN n f + f n
    have : sumN n (fun t => f (n + 1 - 1 - (t + 1))) = sumN n (fun t => f (n - 1 - t)) := by
      apply sumN_congr
      intro t ht
      congr 1
      omega
    rw [this, ih]
    simp only [Nat.add_sub_cancel, Nat.sub_zero]
    grind

theorem sumN_mirror (n : Nat) (f : Nat → C) : sumN n (fun a => f ((n - a) % n)) = sumN n f := by
  cases n with
  | zero => rfl
  | succ n =>
    rw [sumN_front, sumN_front]
    simp only [Nat.sub_zero, Nat.mod_self]
    congr 1
    rw [← sumN_rev n (fun t => f (t + 1))]
    apply sumN_congr
    intro t ht
    congr 1
    rw [Nat.mod_eq_of_lt (by omega)]
    omega

theorem conj_sumN (conj : C → C) (h : Spec.Conj conj) (n : Nat) (f : Nat → C) : conj (sumN n f) = sumN n fun t => conj (f t) := by
  induction n with
  | zero => exact h.zero
  | succ n ih => show conj (sumN n f + f n) = _; rw [h.add, ih]; rfl

theorem conj_sumL (conj : C → C) (h : Spec.Conj conj) {α : Type} (l : List α) (f : α → C) :
    conj (sumL (l.map f)) = sumL (l.map fun x => conj (f x)) := by
  induction l with
  | nil => exact h.zero
  | cons x l ih => simp only [List.map_cons, sumL]; rw [h.add, ih]

end

end Verif.Imaging
