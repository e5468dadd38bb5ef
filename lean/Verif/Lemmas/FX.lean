import Verif.Spec.FX
import Verif.Props.Baselines
import Verif.Props.XEngine
/-!
# Lemmas for the correlator front ends
-/
namespace Verif.FX
open Verif.Baselines (getBaselines collect pick indexPairs offset collect_some)

/-! ### lists -/

theorem filter_range (m n : Nat) : (List.range n).filter (fun j => decide (m ≤ j)) = List.range' m (n - m) := by
  induction n with
  | zero => simp
  | succ n ih =>
    rw [List.range_succ, List.filter_append, ih]
    by_cases h : m ≤ n
    · rw [show n + 1 - m = (n - m) + 1 from by omega, List.range'_concat]
      simp [h]
    · rw [show n + 1 - m = n - m from by omega]
      simp [h]

theorem pairs_eq (n : Nat) (auto : Bool) : Spec.pairs n auto = indexPairs n (offset auto) := by
  unfold Spec.pairs indexPairs
  congr 1
  funext i
  unfold Baselines.row
  rw [← filter_range, ← List.filterMap_eq_filter, List.map_filterMap]
  congr 1
  funext j
  cases auto
  · by_cases h : i < j
    · rw [if_pos (Or.inl h)]
      simp [Option.guard, offset]; omega
    · rw [if_neg (by simp; omega)]
      simp [Option.guard, offset]; omega
  · by_cases h : i ≤ j
    · rw [if_pos (by simp; omega)]
      simp [Option.guard, offset]; omega
    · rw [if_neg (by simp; omega)]
      simp [Option.guard, offset]; omega

theorem cross_eq (n : Nat) : (indexPairs n 0).filter (fun p => p.1 != p.2) = indexPairs n 1 := by
  have h0 : indexPairs n 0 = Spec.pairs n true := (pairs_eq n true).symm
  have h1 : indexPairs n 1 = Spec.pairs n false := (pairs_eq n false).symm
  rw [h0, h1]
  unfold Spec.pairs
  rw [List.filter_flatMap]
  congr 1
  funext i
  rw [List.filter_filterMap]
  congr 1
  funext j
  by_cases h : i < j
  · simp [h, Option.filter]; omega
  · by_cases e : i = j
    · simp [e, Option.filter]
    · simp [h, e]

theorem prune_map {β γ δ : Type} (keep : δ → Bool) (cond : β → Bool) (p : β → Option γ) (q : β → Option δ) :
    ∀ (P : List β) (out : List γ) (full : List δ), out.map some = P.map p → full.map some = P.map q →
      (∀ x ∈ P, ∀ d, q x = some d → keep d = cond x) →
      (((out.zip full).filter fun z => keep z.2).map (·.1)).map some = (P.filter cond).map p := by
  intro P
  induction P with
  | nil => intro out full ho hf _; simp at ho hf; subst ho; simp
  | cons x P ih =>
    intro out full ho hf hc
    cases out with
    | nil => simp at ho
    | cons o out =>
      cases full with
      | nil => simp at hf
      | cons d full =>
        simp only [List.map_cons, List.cons.injEq] at ho hf
        have hk := hc x (by simp) d hf.1.symm
        have := ih out full ho.2 hf.2 (fun y hy => hc y (by simp [hy]))
        by_cases hx : cond x
        · simp only [List.zip_cons_cons, List.filter_cons, hk, hx, if_true, List.map_cons]
          rw [this, ho.1]
        · simp only [List.zip_cons_cons, List.filter_cons, hk, hx]
          simpa using this

theorem get_of_map {β γ : Type} {P : List β} {l : List γ} {p : β → Option γ} (h : l.map some = P.map p) (k : Nat) :
    l[k]? = (P[k]?).bind p := by
  have := congrArg (fun z => z[k]?) h
  simp only [List.getElem?_map] at this
  cases hl : l[k]? <;> cases hP : P[k]? <;> simp_all

/-! ### selection -/

theorem placed_get (p : Nat) : ∀ (as : List Ant) (k i : Nat) (a : Ant) (q : Nat),
    ((as.zipIdx k).filter (·.1.pol == p))[i]? = some (a, q) →
    k ≤ q ∧ Spec.Place as p i (q - k) a := by
  intro as
  induction as with
  | nil => intro k i a q h; simp at h
  | cons x as ih =>
    intro k i a q h
    rw [List.zipIdx_cons, List.filter_cons] at h
    by_cases hx : (x.pol == p) = true
    · rw [if_pos hx] at h
      cases i with
      | zero =>
        simp at h
        obtain ⟨rfl, rfl⟩ := h
        simp at hx
        exact ⟨Nat.le_refl _, by unfold Spec.Place; simp [hx]⟩
      | succ i =>
        rw [List.getElem?_cons_succ] at h
        obtain ⟨h1, h2, h3, h4⟩ := ih (k + 1) i a q h
        refine ⟨by omega, ?_, h3, ?_⟩
        · rw [show q - k = (q - (k + 1)) + 1 from by omega, List.getElem?_cons_succ]; exact h2
        · rw [show q - k = (q - (k + 1)) + 1 from by omega, List.take_succ_cons, List.countP_cons, if_pos hx, h4]
    · rw [if_neg hx] at h
      obtain ⟨h1, h2, h3, h4⟩ := ih (k + 1) i a q h
      refine ⟨by omega, ?_, h3, ?_⟩
      · rw [show q - k = (q - (k + 1)) + 1 from by omega, List.getElem?_cons_succ]; exact h2
      · rw [show q - k = (q - (k + 1)) + 1 from by omega, List.take_succ_cons, List.countP_cons, if_neg hx, h4]; omega

theorem sel_eq (p : Nat) (as : List Ant) : sel p as = (as.zipIdx.filter (·.1.pol == p)).map (·.1) := by
  unfold sel
  have : as = as.zipIdx.map (·.1) := by simp
  conv => lhs; rw [this]
  rw [List.filter_map]
  rfl

theorem selIdx_length (p : Nat) (as : List Ant) : (selIdx p as).length = (sel p as).length := by
  rw [sel_eq]; simp [selIdx]

theorem sel_place (p : Nat) (as : List Ant) (i : Nat) (hi : i < (sel p as).length) :
    ∃ a q, (sel p as)[i]? = some a ∧ (selIdx p as)[i]? = some q ∧ Spec.Place as p i q a := by
  rw [sel_eq, List.length_map] at hi
  obtain ⟨⟨a, q⟩, hz⟩ : ∃ z, (as.zipIdx.filter (·.1.pol == p))[i]'hi = z := ⟨_, rfl⟩
  have h : (as.zipIdx.filter (·.1.pol == p))[i]? = some (a, q) := by rw [List.getElem?_eq_getElem hi, hz]
  refine ⟨a, q, ?_, ?_, ?_⟩
  · rw [sel_eq, List.getElem?_map, h]; rfl
  · unfold selIdx; rw [List.getElem?_map, h]; rfl
  · have := (placed_get p as 0 i a q h).2
    simpa using this

theorem place_lt {as : List Ant} {p i q : Nat} {a : Ant} (h : Spec.Place as p i q a) : q < as.length :=
  (List.getElem?_eq_some_iff.mp h.1).1

theorem selIdx_all (p : Nat) (as : List Ant) (h : (sel p as).length = as.length) : selIdx p as = List.range as.length := by
  have hall : ∀ a ∈ as, (a.pol == p) = true := by
    unfold sel at h
    rw [List.length_filter_eq_length_iff] at h
    exact h
  unfold selIdx
  rw [List.filter_eq_self.mpr]
  · apply List.ext_getElem? ; intro i; simp only [List.getElem?_map, List.getElem?_zipIdx]
    by_cases hi : i < as.length
    · simp [hi]
    · simp [hi]
  · rintro ⟨a, q⟩ hm
    have := List.mem_zipIdx hm
    apply hall
    rw [this.2.2]; exact List.getElem_mem _

variable {R S V : Type}

theorem rowsAt_ok (sig : List R) (as : List Ant) (hs : sig.length = as.length) (p : Nat) :
    ∃ rs, rowsAt sig (selIdx p as) = .ok rs ∧ rs.length = (sel p as).length ∧
      ∀ (i q : Nat), (selIdx p as)[i]? = some q → rs[i]? = sig[q]? := by
  have hlt : ∀ q ∈ selIdx p as, q < sig.length := by
    intro q hq
    obtain ⟨i, hi, rfl⟩ := List.mem_iff_getElem.mp hq
    have hi' : i < (sel p as).length := by rw [← selIdx_length]; exact hi
    obtain ⟨a, q', _, h2, h3⟩ := sel_place p as i hi'
    rw [List.getElem?_eq_getElem hi] at h2
    have := place_lt h3
    injection h2 with h2
    omega
  obtain ⟨rs, hr⟩ := Baselines.collect_exists ((selIdx p as).map fun i => sig[i]?) (by
    intro x hx
    obtain ⟨q, hq, rfl⟩ := List.mem_map.mp hx
    have := hlt q hq
    simp [this])
  refine ⟨rs, by unfold rowsAt; rw [hr]; rfl, ?_, ?_⟩
  · have := congrArg List.length ((collect_some _ _).mp hr)
    simp only [List.length_map] at this
    rw [← this, selIdx_length]
  · intro i q hq
    have := get_of_map ((collect_some _ _).mp hr).symm i
    rw [this, hq]; rfl

theorem rows1_ok (sig : List R) (as : List Ant) (hs : sig.length = as.length) (p : Nat) :
    (if sig.length ≠ (selIdx p as).length then rowsAt sig (selIdx p as) else .ok sig) = rowsAt sig (selIdx p as) := by
  by_cases h : sig.length = (selIdx p as).length
  · rw [if_neg (by simp [h])]
    have ha : selIdx p as = List.range as.length := selIdx_all p as (by rw [← selIdx_length]; omega)
    unfold rowsAt
    have : collect ((selIdx p as).map fun i => sig[i]?) = some sig := by
      rw [collect_some, ha, ← hs]
      apply List.ext_getElem?; intro i
      simp only [List.getElem?_map]
      by_cases hi : i < sig.length
      · simp [hi]
      · simp [hi]
    rw [this]; rfl
  · rw [if_pos h]

theorem rowsAt_length (sig : List R) (idx : List Nat) (rs : List R) (h : rowsAt sig idx = .ok rs) : rs.length = idx.length := by
  unfold rowsAt at h
  cases hc : collect (idx.map fun i => sig[i]?) with
  | none => rw [hc] at h; simp [need] at h
  | some l =>
    rw [hc] at h
    simp [need] at h
    subst h
    have := congrArg List.length ((collect_some _ _).mp hc)
    simpa using this.symm

/-! ### the loop over the output -/

theorem step_ok (bls : List (Ant × Ant)) (f : Ant → Ant → V → Except Err V) (rows : List V) (k : Nat) (a b : Ant) (v w : V)
    (hb : bls[k]? = some (a, b)) (hv : rows[k]? = some v) (hf : f a b v = .ok w) :
    step bls f rows k = .ok (rows.set k w) := by
  unfold step
  rw [hb, hv]
  simp only [need, Except.bind]
  rw [hf]; rfl

theorem loop_succ (bls : List (Ant × Ant)) (f : Ant → Ant → V → Except Err V) (n : Nat) (rows : List V) :
    loop bls f (n + 1) rows = (loop bls f n rows).bind fun r => step bls f r n := by
  unfold loop
  rw [List.range_succ, List.foldl_append]
  rfl

/-- The first `n` rows are changed, each with the baseline of the same number. -/
theorem loop_ok (bls : List (Ant × Ant)) (f : Ant → Ant → V → Except Err V) (w : Ant → Ant → V → V) (rows : List V) :
    ∀ n, n ≤ rows.length → n ≤ bls.length →
    (∀ k a b v, k < n → bls[k]? = some (a, b) → rows[k]? = some v → f a b v = .ok (w a b v)) →
    ∃ out, loop bls f n rows = .ok out ∧ out.length = rows.length ∧
      (∀ k, n ≤ k → out[k]? = rows[k]?) ∧
      ∀ k a b v, k < n → bls[k]? = some (a, b) → rows[k]? = some v → out[k]? = some (w a b v) := by
  intro n
  induction n with
  | zero => intro _ _ _; exact ⟨rows, rfl, rfl, fun _ _ => rfl, fun k _ _ _ hk => absurd hk (by omega)⟩
  | succ n ih =>
    intro h1 h2 hf
    obtain ⟨out, hl, hlen, hrest, hdone⟩ := ih (by omega) (by omega) (fun k a b v hk => hf k a b v (by omega))
    obtain ⟨⟨a, b⟩, hab⟩ : ∃ z, bls[n]'(by omega) = z := ⟨_, rfl⟩
    have hb : bls[n]? = some (a, b) := by rw [List.getElem?_eq_getElem (by omega), hab]
    have hv : rows[n]? = some (rows[n]'(by omega)) := List.getElem?_eq_getElem (by omega)
    refine ⟨out.set n (w a b (rows[n]'(by omega))), ?_, by simp [hlen], ?_, ?_⟩
    · rw [loop_succ, hl]
      exact step_ok bls f out n a b _ _ hb (by rw [hrest n (Nat.le_refl _), hv]) (hf n a b _ (by omega) hb hv)
    · intro k hk
      rw [List.getElem?_set_ne (by omega), hrest k (by omega)]
    · intro k a' b' v' hk hb' hv'
      by_cases hkn : k = n
      · subst hkn
        rw [hb] at hb'; rw [hv] at hv'
        simp only [Option.some.injEq, Prod.mk.injEq] at hb' hv'
        rw [List.getElem?_set_self (by omega), hb'.1, hb'.2, hv']
      · rw [List.getElem?_set_ne (by omega)]
        exact hdone k a' b' v' (by omega) hb' hv'

theorem loop_error (bls : List (Ant × Ant)) (f : Ant → Ant → V → Except Err V) (rows : List V) (n m : Nat) (e : Err)
    (h : loop bls f n rows = .error e) (hm : n ≤ m) : loop bls f m rows = .error e := by
  induction m with
  | zero => rw [show n = 0 from by omega] at h; exact h
  | succ m ih =>
    by_cases hn : n = m + 1
    · rw [← hn]; exact h
    · rw [loop_succ, ih (by omega)]; rfl

/-! ### the X engine -/

theorem pick_ok {α : Type} (as bs : List α) (i j : Nat) (hi : i < as.length) (hj : j < bs.length) :
    pick as bs (i, j) = some (as[i], bs[j]) := by
  unfold pick
  simp [hi, hj]

theorem collect_pick {α : Type} (as bs : List α) (n off : Nat) (ha : as.length = n) (hb : bs.length = n) :
    ∃ l, collect ((indexPairs n off).map (pick as bs)) = some l ∧ l.map some = (indexPairs n off).map (pick as bs) := by
  obtain ⟨l, hl⟩ := Baselines.collect_exists ((indexPairs n off).map (pick as bs)) (by
    intro x hx
    obtain ⟨⟨i, j⟩, hp, rfl⟩ := List.mem_map.mp hx
    rw [Baselines.mem_indexPairs] at hp
    rw [pick_ok as bs i j (by omega) (by omega)]
    simp)
  exact ⟨l, hl, ((collect_some _ _).mp hl).symm⟩

theorem xengine_ok (prod : S → S → V) (w : Nat) (x y : List S) (h : y.length = x.length) :
    ∃ out, xengine prod (w, x) (w, y) = .ok out ∧
      out.map some = (indexPairs x.length 0).map fun p => (pick x y p).map fun q => prod q.1 q.2 := by
  obtain ⟨l, h1, h2⟩ := collect_pick x y x.length 0 rfl h
  refine ⟨l.map fun p => prod p.1 p.2, ?_, ?_⟩
  · unfold xengine
    rw [if_neg (by simp [h])]
    rw [XEngine.mapper_eq]
    show (need Err.index (collect ((indexPairs x.length 0).map (pick x y)))).map _ = _
    rw [h1]; rfl
  · rw [List.map_map]
    have := congrArg (List.map (Option.map fun q : S × S => prod q.1 q.2)) h2
    rw [List.map_map, List.map_map] at this
    exact this

theorem xengine3_ok (prod4 : S × S → S × S → V) (w : Nat) (x y : List S) (h : y.length = x.length) :
    ∃ out, xengine3 prod4 (w, x) (w, y) = .ok out ∧
      out.map some = (indexPairs x.length 0).map fun p => (pick (x.zip y) (x.zip y) p).map fun q => prod4 q.1 q.2 := by
  obtain ⟨l, h1, h2⟩ := collect_pick (x.zip y) (x.zip y) x.length 0 (by simp [h]) (by simp [h])
  refine ⟨l.map fun p => prod4 p.1 p.2, ?_, ?_⟩
  · unfold xengine3
    rw [if_neg (by simp [h])]
    rw [XEngine.mapper_eq]
    show (need Err.index (collect ((indexPairs x.length 0).map (pick (x.zip y) (x.zip y))))).map _ = _
    rw [h1]; rfl
  · rw [List.map_map]
    have := congrArg (List.map (Option.map fun q : (S × S) × (S × S) => prod4 q.1 q.2)) h2
    rw [List.map_map, List.map_map] at this
    exact this

theorem prune_ok (as1 as2 : List Ant) (hm : Spec.Match as1 as2) (auto : Bool) (out : List V) (p : Nat × Nat → Option V)
    (ho : out.map some = (indexPairs as1.length 0).map p) :
    ∃ rows, prune as1 as2 auto out = .ok rows ∧ rows.map some = (Spec.pairs as1.length auto).map p := by
  cases auto with
  | true => exact ⟨out, rfl, by rw [pairs_eq]; exact ho⟩
  | false =>
    obtain ⟨full, h1, h2⟩ := collect_pick as1 as2 as1.length 0 rfl hm.1
    refine ⟨((out.zip full).filter fun p => p.2.1.id != p.2.2.id).map (·.1), ?_, ?_⟩
    · unfold prune
      rw [if_neg (by simp)]
      have : getBaselines as1 as2 true = some full := h1
      rw [this]; rfl
    · rw [pairs_eq]
      show _ = (indexPairs as1.length 1).map p
      rw [← cross_eq]
      refine prune_map (fun q : Ant × Ant => q.1.id != q.2.id) _ p _ _ out full ho h2 ?_
      rintro ⟨i, j⟩ hp ⟨a, b⟩ hq
      rw [Baselines.mem_indexPairs] at hp
      rw [pick_ok as1 as2 i j (by omega) (by have := hm.1; omega)] at hq
      simp only [Option.some.injEq, Prod.mk.injEq] at hq
      have := hm.2 i j a b (by rw [List.getElem?_eq_getElem (by omega), hq.1])
        (by rw [List.getElem?_eq_getElem (by have := hm.1; omega), hq.2])
      by_cases e : i = j
      · simp [e, this.mpr e]
      · have : a.id ≠ b.id := fun h => e (this.mp h)
        rw [show (a.id != b.id) = true from bne_iff_ne.mpr this, show (i != j) = true from bne_iff_ne.mpr e]

theorem baselines_ok (as1 as2 : List Ant) (hl : as2.length = as1.length) (auto : Bool) :
    ∃ bls, getBaselines as1 as2 auto = some bls ∧ bls.map some = (Spec.pairs as1.length auto).map (pick as1 as2) := by
  obtain ⟨l, h1, h2⟩ := collect_pick as1 as2 as1.length (offset auto) rfl hl
  exact ⟨l, h1, by rw [pairs_eq]; exact h2⟩

theorem fengine_ok (g : Eng R S V) (rows : List R) (d : List (List Rat)) (h : rows.length = d.length) :
    fengine g rows d = .ok (g.wins d, List.zipWith (g.stream (g.wins d)) rows d) := by
  unfold fengine; rw [if_neg (by simp [h])]

/-! ### delays -/

theorem foldl_max (l : List Rat) : ∀ x : Rat,
    let m := l.foldl (fun m y => if m < y then y else m) x
    (m = x ∨ m ∈ l) ∧ x ≤ m ∧ ∀ y ∈ l, y ≤ m := by
  induction l with
  | nil => intro x; simp
  | cons y l ih =>
    intro x
    simp only [List.foldl_cons]
    obtain ⟨h1, h2, h3⟩ := ih (if x < y then y else x)
    have hx : x ≤ (if x < y then y else x) ∧ y ≤ (if x < y then y else x) ∧ ((if x < y then y else x) = x ∨ (if x < y then y else x) = y) := by
      split <;> grind
    refine ⟨?_, by grind, ?_⟩
    · simp only [List.mem_cons]; grind
    · intro z hz
      simp only [List.mem_cons] at hz
      grind

theorem foldl_min (l : List Rat) : ∀ x : Rat,
    let m := l.foldl (fun m y => if y < m then y else m) x
    (m = x ∨ m ∈ l) ∧ m ≤ x ∧ ∀ y ∈ l, m ≤ y := by
  induction l with
  | nil => intro x; simp
  | cons y l ih =>
    intro x
    simp only [List.foldl_cons]
    obtain ⟨h1, h2, h3⟩ := ih (if y < x then y else x)
    have hx : (if y < x then y else x) ≤ x ∧ (if y < x then y else x) ≤ y ∧ ((if y < x then y else x) = x ∨ (if y < x then y else x) = y) := by
      split <;> grind
    refine ⟨?_, by grind, ?_⟩
    · simp only [List.mem_cons]; grind
    · intro z hz
      simp only [List.mem_cons] at hz
      grind

theorem maxOf_some (l : List Rat) (m : Rat) (h : maxOf l = some m) : m ∈ l ∧ ∀ y ∈ l, y ≤ m := by
  cases l with
  | nil => simp [maxOf] at h
  | cons x l =>
    simp only [maxOf, Option.some.injEq] at h
    have := foldl_max l x
    rw [h] at this
    obtain ⟨h1, h2, h3⟩ := this
    refine ⟨by simp only [List.mem_cons]; exact h1, ?_⟩
    intro y hy
    simp only [List.mem_cons] at hy
    grind

theorem minOf_some (l : List Rat) (m : Rat) (h : minOf l = some m) : m ∈ l ∧ ∀ y ∈ l, m ≤ y := by
  cases l with
  | nil => simp [minOf] at h
  | cons x l =>
    simp only [minOf, Option.some.injEq] at h
    have := foldl_min l x
    rw [h] at this
    obtain ⟨h1, h2, h3⟩ := this
    refine ⟨by simp only [List.mem_cons]; exact h1, ?_⟩
    intro y hy
    simp only [List.mem_cons] at hy
    grind

theorem bind_ok {α β : Type} {x : Except Err α} {f : α → Except Err β} {b : β} (h : x.bind f = .ok b) :
    ∃ a, x = .ok a ∧ f a = .ok b := by
  cases x with
  | error e => simp [Except.bind] at h
  | ok a => exact ⟨a, rfl, h⟩

theorem need_ok {α : Type} {e : Err} {o : Option α} {a : α} (h : need e o = .ok a) : o = some a := by
  cases o with
  | none => simp [need] at h
  | some x => simp [need] at h; rw [h]

/-- What `fill` does. -/
theorem fill_ok (d : List (List (Option Rat))) (out : List (List Rat)) (h : fill d = .ok out) :
    ∃ m, (some m ∈ d.flatten ∧ ∀ y, some y ∈ d.flatten → y ≤ m) ∧ out = d.map fun r => r.map (·.getD m) := by
  unfold fill at h
  cases hm : maxOf (d.flatten.filterMap id) with
  | none => rw [hm] at h; simp [need, Except.map] at h
  | some m =>
    rw [hm] at h
    simp only [need, Except.map, Except.ok.injEq] at h
    obtain ⟨h1, h2⟩ := maxOf_some _ _ hm
    refine ⟨m, ⟨?_, ?_⟩, h.symm⟩
    · obtain ⟨a, ha, he⟩ := List.mem_filterMap.mp h1
      simp only [id] at he; rw [he] at ha; exact ha
    · intro y hy
      exact h2 y (List.mem_filterMap.mpr ⟨some y, hy, rfl⟩)

theorem refMin_ok (ref : Nat) (d : List (List Rat)) (m : Rat) (h : refMin ref d = .ok m) :
    (∃ r ∈ d, r[ref]? = some m) ∧ ∀ r ∈ d, ∃ x, r[ref]? = some x ∧ m ≤ x := by
  unfold refMin at h
  obtain ⟨l, h1, h2⟩ := bind_ok h
  have hl := (collect_some _ _).mp (need_ok h1)
  obtain ⟨h3, h4⟩ := minOf_some _ _ (need_ok h2)
  constructor
  · have : some m ∈ d.map fun r => r[ref]? := by rw [hl]; exact List.mem_map.mpr ⟨m, h3, rfl⟩
    exact List.mem_map.mp this
  · intro r hr
    have : r[ref]? ∈ l.map some := by rw [← hl]; exact List.mem_map.mpr ⟨r, hr, rfl⟩
    obtain ⟨x, hx, he⟩ := List.mem_map.mp this
    exact ⟨x, he.symm, h4 x hx⟩

/-- What `align` does: one table for each polarization, filled in and lowered by the smaller of the two minima. -/
theorem align_ok {src : Rat × Rat × Rat} {c : Rat} {nChan : Nat} {as1 as2 : List Ant} {D1 D2 : List (List Rat)}
    (h : align src c nChan as1 as2 = .ok (D1, D2)) :
    ∃ d1 d2 m1 m2, as1.length ≤ as2.length ∧ fill (as1.map (rawRow src c nChan)) = .ok d1 ∧
      fill ((as2.take as1.length).map (rawRow src c nChan)) = .ok d2 ∧ refMin (nChan / 2) d1 = .ok m1 ∧
      refMin (nChan / 2) d2 = .ok m2 ∧ D1 = lower (if m1 < m2 then m1 else m2) d1 ∧ D2 = lower (if m1 < m2 then m1 else m2) d2 := by
  unfold align at h
  by_cases hl : as2.length < as1.length
  · rw [if_pos hl] at h; cases h
  · rw [if_neg hl] at h
    obtain ⟨d1, h1, h⟩ := bind_ok h
    obtain ⟨d2, h2, h⟩ := bind_ok h
    obtain ⟨m1, h3, h⟩ := bind_ok h
    obtain ⟨m2, h4, h⟩ := bind_ok h
    simp only [Except.ok.injEq, Prod.mk.injEq] at h
    exact ⟨d1, d2, m1, m2, by omega, h1, h2, h3, h4, h.1.symm, h.2.symm⟩

theorem fill_length {d : List (List (Option Rat))} {out : List (List Rat)} (h : fill d = .ok out) : out.length = d.length := by
  obtain ⟨m, _, rfl⟩ := fill_ok d out h
  simp

theorem lower_length (m : Rat) (d : List (List Rat)) : (lower m d).length = d.length := by simp [lower]

theorem align_length {src : Rat × Rat × Rat} {c : Rat} {nChan : Nat} {as1 as2 : List Ant} {D1 D2 : List (List Rat)}
    (h : align src c nChan as1 as2 = .ok (D1, D2)) : D1.length = as1.length ∧ D2.length = as1.length := by
  obtain ⟨d1, d2, m1, m2, hl, h1, h2, _, _, rfl, rfl⟩ := align_ok h
  rw [lower_length, lower_length, fill_length h1, fill_length h2]
  simp; omega

theorem align_same {src : Rat × Rat × Rat} {c : Rat} {nChan : Nat} {as : List Ant} {D1 D2 : List (List Rat)}
    (h : align src c nChan as as = .ok (D1, D2)) : D1 = D2 := by
  obtain ⟨d1, d2, m1, m2, hl, h1, h2, _, _, rfl, rfl⟩ := align_ok h
  rw [List.take_length, h1] at h2
  injection h2 with h2
  rw [h2]

end Verif.FX
