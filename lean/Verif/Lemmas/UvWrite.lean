import Verif.Lemmas.UvTable
/-!
# Lemmas for visibility tables: the rows written
-/
namespace Verif.UvTable
open Dec Spec

/-! ## Arrays -/

theorem take_eq {α : Type} (l : List α) (order : List Nat) (d : α) (h : ∀ i ∈ order, i < l.length) :
    take l order = some (order.map (fun i => (l[i]?).getD d)) := by
  apply mapM_some
  intro i hi
  rw [List.getElem?_eq_getElem (h i hi)]; rfl

theorem setCols_eq {α : Type} (k w p : Nat) (g : Nat → α) (new : List α) (h : new.length = w) :
    setCols k p ((List.range (k * w)).map g) new
      = some ((List.range (k * w)).map (fun j => if j % k = p then (new[j / k]?).getD (g j) else g j)) := by
  unfold setCols
  rw [if_pos (by rw [List.length_map, List.length_range, h])]
  congr 1
  apply List.ext_getElem
  · simp
  · intro i h1 h2
    simp

theorem fill_eq {α : Type} (k w p : Nat) (order : List Nat) (g : Nat → Nat → α) (new : Nat → List α)
    (h : ∀ i ∈ order, (new i).length = w) :
    fill k p (order.map (fun i => (List.range (k * w)).map (g i))) (order.map new)
      = some (order.map (fun i => (List.range (k * w)).map
          (fun j => if j % k = p then ((new i)[j / k]?).getD (g i j) else g i j))) := by
  unfold fill
  rw [if_pos (by simp), List.zip_map', List.mapM_map]
  apply mapM_some
  intro i hi
  exact setCols_eq k w p (g i) (new i) (h i hi)

theorem replicate_eq {α : Type} (n : Nat) (x : α) : List.replicate n x = (List.range n).map (fun _ => x) := by
  apply List.ext_getElem <;> simp

theorem replicate_order {α : Type} (l : List Nat) (x : α) : List.replicate l.length x = l.map (fun _ => x) := by
  apply List.ext_getElem <;> simp

theorem nodup_inj {α : Type} (l : List α) (hn : l.Nodup) (i j : Nat) (hi : i < l.length) (hj : j < l.length)
    (e : l[i] = l[j]) : i = j := by
  have h := List.pairwise_iff_getElem.1 hn
  rcases Nat.lt_trichotomy i j with hij | hij | hij
  · exact absurd e (h i j hi hj hij)
  · exact hij
  · exact absurd e.symm (h j i hj hi hij)

theorem idxOf?_nodup {α : Type} [BEq α] [LawfulBEq α] (l : List α) (hn : l.Nodup) (i : Nat) (h : i < l.length) :
    l.idxOf? l[i] = some i := by
  rw [List.idxOf?_eq_some_iff]
  refine ⟨h, rfl, ?_⟩
  intro j hj e
  exact absurd (nodup_inj l hn _ _ _ _ e) (by omega)

/-! ## Products -/

theorem contiguous_pols (u : Setup) (h : Contiguous u.stokes) : pols u = u.stokes := by
  obtain ⟨s, k, hk, h | h⟩ := h
  · unfold pols
    rw [h.2, List.length_map, List.length_range]
    obtain ⟨k, rfl⟩ : ∃ m, k = m + 1 := ⟨k - 1, by omega⟩
    have e : (List.range (k + 1)).map (fun i : Nat => s - (i : Int))
        = s :: (List.range k).map (fun i : Nat => s - ((i + 1 : Nat) : Int)) := by
      rw [List.range_succ_eq_map, List.map_cons, List.map_map]; simp
    generalize hl : (List.range (k + 1)).map (fun i : Nat => s - (i : Int)) = l at e
    rw [e]
    simp only [if_pos h.1]
    rw [← e, ← hl]
    apply List.map_congr_left
    intro i _; omega
  · unfold pols
    rw [h.2, List.length_map, List.length_range]
    obtain ⟨k, rfl⟩ : ∃ m, k = m + 1 := ⟨k - 1, by omega⟩
    have e : (List.range (k + 1)).map (fun i : Nat => s + (i : Int))
        = s :: (List.range k).map (fun i : Nat => s + ((i + 1 : Nat) : Int)) := by
      rw [List.range_succ_eq_map, List.map_cons, List.map_map]; simp
    generalize hl : (List.range (k + 1)).map (fun i : Nat => s + (i : Int)) = l at e
    rw [e]
    have : ¬ s < 0 := by omega
    simp only [if_neg this]
    rw [← e, ← hl]
    apply List.map_congr_left
    intro i _; omega

theorem pairwise_range_map {α : Type} (k : Nat) (g : Nat → α) (R : α → α → Prop) (h : ∀ i j, i < j → R (g i) (g j)) :
    ((List.range k).map g).Pairwise R := by
  rw [List.pairwise_map]
  exact List.pairwise_lt_range.imp (fun {a b} hab => h a b hab)

theorem contiguous_abs (l : List Int) (h : Contiguous l) : l.Pairwise (fun a b => a.natAbs < b.natAbs) := by
  obtain ⟨s, k, hk, h | h⟩ := h
  · rw [h.2]; apply pairwise_range_map; intro i j hij; omega
  · rw [h.2]; apply pairwise_range_map; intro i j hij; omega

theorem contiguous_nodup (l : List Int) (h : Contiguous l) : l.Nodup :=
  (contiguous_abs l h).imp (fun {a b} hab e => by subst e; omega)

theorem contiguous_pos (l : List Int) (h : Contiguous l) : 0 < l.length := by
  obtain ⟨s, k, hk, h | h⟩ := h <;> rw [h.2] <;> simpa using hk

/-! ## Integrations -/

section
variable {V W : Type} (u : Setup) (srt : List Nat → List Nat) (zero : V) (one : W) (cj : V → V)

def keysOf (o : Obs V W) : List Nat := o.bls.map (fun b => u.format.key (num u b.1) (num u b.2))

def orderOf (o : Obs V W) : List Nat := srt (keysOf u o)

def labelOf (o : Obs V W) (i : Nat) : Nat :=
  let b := (o.bls[i]?).getD (0, 0)
  u.format.merge (num u b.1) (num u b.2)

/-- The visibility of product `p`, baseline `i` and channel `c`, conjugated. -/
def cell (o : Obs V W) (p i c : Nat) : V :=
  (((((o.products[p]?).getD ([], none)).1[i]?).getD []).map cj)[c]?.getD zero

def wcell (o : Obs V W) (p i c : Nat) : W :=
  match if u.format.weights then ((o.products[p]?).getD ([], none)).2 else none with
  | none => one
  | some w => ((w[i]?).getD [])[c]?.getD one

def rowAt (o : Obs V W) (done i : Nat) : List V :=
  (List.range (u.stokes.length * u.width)).map (fun j =>
    if j % u.stokes.length < done then cell zero cj o (j % u.stokes.length) i (j / u.stokes.length) else zero)

def wrowAt (o : Obs V W) (done i : Nat) : List W :=
  (List.range (u.stokes.length * u.width)).map (fun j =>
    if j % u.stokes.length < done then wcell u one o (j % u.stokes.length) i (j / u.stokes.length) else one)

/-- The state after `p` products of an integration. -/
def after (o : Obs V W) (p : Nat) (s : St V W) : St V W :=
  { order := some (orderOf u srt o), labels := some ((orderOf u srt o).map (labelOf u o)),
    mat := some ((orderOf u srt o).map (rowAt u zero cj o p)), wgt := some ((orderOf u srt o).map (wrowAt u one o p)),
    bl := s.bl ++ (orderOf u srt o).map (labelOf u o),
    time := s.time ++ List.replicate o.bls.length o.time,
    flux := s.flux ++ (if p = u.stokes.length then (orderOf u srt o).map (rowAt u zero cj o p) else []),
    wt := s.wt ++ (if p = u.stokes.length then (orderOf u srt o).map (wrowAt u one o p) else []) }

/-- What is remembered is about an integration with as many baselines. -/
def Ready (o : Obs V W) (s : St V W) : Prop :=
  ∀ l, s.order = some l → l.length = o.bls.length →
    l = orderOf u srt o ∧ s.labels = some ((orderOf u srt o).map (labelOf u o))

/-- The data set of product `p`. -/
def setAt (o : Obs V W) (p : Nat) : DataSet V W :=
  ⟨o.time, (u.stokes[p]?).getD 0, o.bls, ((o.products[p]?).getD ([], none)).1, ((o.products[p]?).getD ([], none)).2⟩

theorem sets_eq (o : Obs V W) (h : o.products.length = u.stokes.length) :
    o.sets u.stokes = (List.range u.stokes.length).map (setAt u o) := by
  unfold Obs.sets
  apply List.ext_getElem
  · simp [h]
  · intro i h1 h2
    have h3 : i < u.stokes.length := by simpa using h2
    simp [setAt, List.getElem?_eq_getElem h3, List.getElem?_eq_getElem (show i < o.products.length by omega)]

variable {u srt} {o : Obs V W}

theorem order_mem (ha : Argsort srt) (i : Nat) (h : i ∈ orderOf u srt o) : i < o.bls.length := by
  have := ((ha.perm (keysOf u o)).mem_iff).1 h
  simpa [keysOf] using this

theorem order_length (ha : Argsort srt) : (orderOf u srt o).length = o.bls.length := by
  have := (ha.perm (keysOf u o)).length_eq
  simpa [keysOf, orderOf] using this

theorem numbers_eq (g : Nat → Nat → Nat) (hg : GoodSetup u) (bls : List Bl)
    (h : ∀ b ∈ bls, b.1 ∈ u.stands ∧ b.2 ∈ u.stands) :
    numbers (number u.format u.stands) g bls = some (bls.map (fun b => g (num u b.1) (num u b.2))) := by
  apply mapM_some
  intro b hb
  rw [number_eq u hg.distinct _ (h b hb).1, number_eq u hg.distinct _ (h b hb).2]
  rfl

theorem argsort_eq (hk : Known u.format) (hg : GoodSetup u) (ho : Good u o) :
    argsort u.format (number u.format u.stands) srt o.bls = some (orderOf u srt o) := by
  unfold argsort
  rw [numbers_eq _ hg _ ho.stands, Option.bind_some, if_pos]
  · rfl
  · rw [List.all_eq_true]
    intro n hn
    obtain ⟨b, hb, rfl⟩ := List.mem_map.1 hn
    have hs := ho.stands b hb
    simp only [decide_eq_true_eq]
    apply known_key _ hk _ _ (num_le u _ hs.1 hg.few) (num_le u _ hs.2 hg.few)
    have := num_small u hg.small _ hs.1 hg.few
    omega

theorem set_vis (ho : Good u o) (p : Nat) (hp : p < u.stokes.length) :
    (setAt u o p).vis.length = o.bls.length ∧ ∀ r ∈ (setAt u o p).vis, r.length = u.width := by
  have h : p < o.products.length := by rw [ho.count]; exact hp
  unfold setAt
  simp only [List.getElem?_eq_getElem h, Option.getD_some]
  exact ho.vis _ (List.getElem_mem h)

theorem set_wts (ho : Good u o) (p : Nat) (hp : p < u.stokes.length) (w : List (List W)) (hw : (setAt u o p).wts = some w) :
    w.length = o.bls.length ∧ ∀ r ∈ w, r.length = u.width := by
  have h : p < o.products.length := by rw [ho.count]; exact hp
  unfold setAt at hw
  simp only [List.getElem?_eq_getElem h, Option.getD_some] at hw
  exact ho.wts _ (List.getElem_mem h) w hw

theorem set_pol (p : Nat) (hp : p < u.stokes.length) : (setAt u o p).pol = u.stokes[p] := by
  simp [setAt, List.getElem?_eq_getElem hp]

theorem set_idx (hg : GoodSetup u) (p : Nat) (hp : p < u.stokes.length) :
    u.stokes.idxOf? (setAt u o p).pol = some p := by
  rw [set_pol p hp]
  exact idxOf?_nodup _ (contiguous_nodup _ hg.products) p hp

theorem set_head (hg : GoodSetup u) (p : Nat) (hp : p < u.stokes.length) :
    some (setAt u o p).pol = u.stokes.head? ↔ p = 0 := by
  rw [set_pol p hp, List.head?_eq_getElem?, List.getElem?_eq_getElem (by omega)]
  constructor
  · intro e
    exact nodup_inj _ (contiguous_nodup _ hg.products) _ _ _ _ (Option.some.inj e)
  · intro e; subst e; rfl

theorem set_last (hg : GoodSetup u) (p : Nat) (hp : p < u.stokes.length) :
    some (setAt u o p).pol = u.stokes.getLast? ↔ p + 1 = u.stokes.length := by
  rw [set_pol p hp, List.getLast?_eq_getElem?, List.getElem?_eq_getElem (by omega)]
  constructor
  · intro e
    have := nodup_inj _ (contiguous_nodup _ hg.products) _ _ _ _ (Option.some.inj e)
    omega
  · intro e
    congr 1
    simp [← e]

theorem getD_mem_length {α : Type} (l : List (List α)) (i w : Nat) (hi : i < l.length) (h : ∀ r ∈ l, r.length = w) :
    ((l[i]?).getD []).length = w := by
  rw [List.getElem?_eq_getElem hi]
  exact h _ (List.getElem_mem hi)

/-- Filling in product `p`. -/
theorem fill_vis (ho : Good u o) (ha : Argsort srt) (p : Nat) (hp : p < u.stokes.length) :
    ((take (setAt u o p).vis (orderOf u srt o)).bind (fun r => fill u.stokes.length p
      ((orderOf u srt o).map (rowAt u zero cj o p)) (r.map (fun x => x.map cj))))
      = some ((orderOf u srt o).map (rowAt u zero cj o (p + 1))) := by
  have hv := set_vis ho p hp
  rw [take_eq _ _ [] (fun i hi => by rw [hv.1]; exact order_mem ha i hi), Option.bind_some, List.map_map]
  have e := fill_eq u.stokes.length u.width p (orderOf u srt o)
    (fun i j => if j % u.stokes.length < p then cell zero cj o (j % u.stokes.length) i (j / u.stokes.length) else zero)
    (fun i => (((setAt u o p).vis[i]?).getD []).map cj)
    (fun i hi => by
      rw [List.length_map]
      exact getD_mem_length _ i _ (by rw [hv.1]; exact order_mem ha i hi) hv.2)
  refine Eq.trans e ?_
  congr 1
  apply List.map_congr_left
  intro i hi
  apply List.map_congr_left
  intro j _
  by_cases h1 : j % u.stokes.length = p
  · rw [if_pos h1, if_neg (show ¬ j % u.stokes.length < p by omega), if_pos (show j % u.stokes.length < p + 1 by omega)]
    unfold cell
    rw [h1]; rfl
  · rw [if_neg h1]
    by_cases h2 : j % u.stokes.length < p
    · rw [if_pos h2, if_pos (by omega)]
    · rw [if_neg h2, if_neg (by omega)]

theorem fill_wts (ho : Good u o) (ha : Argsort srt) (p : Nat) (hp : p < u.stokes.length) :
    weigh u (orderOf u srt o) p ((orderOf u srt o).map (wrowAt u one o p)) (setAt u o p)
      = some ((orderOf u srt o).map (wrowAt u one o (p + 1))) := by
  unfold weigh
  have hw := set_wts ho p hp
  have hd : (setAt u o p).wts = ((o.products[p]?).getD ([], none)).2 := rfl
  cases hs : (if u.format.weights = true then (setAt u o p).wts else none) with
  | none =>
    simp only
    congr 1
    apply List.map_congr_left
    intro i hi
    apply List.map_congr_left
    intro j _
    by_cases h1 : j % u.stokes.length = p
    · rw [if_neg (show ¬ j % u.stokes.length < p by omega), if_pos (show j % u.stokes.length < p + 1 by omega)]
      unfold wcell
      rw [h1, ← hd, hs]
    · by_cases h2 : j % u.stokes.length < p
      · rw [if_pos h2, if_pos (by omega)]
      · rw [if_neg h2, if_neg (by omega)]
  | some w =>
    simp only
    have hw := hw w (by split at hs <;> simp_all)
    rw [take_eq _ _ [] (fun i hi => by rw [hw.1]; exact order_mem ha i hi), Option.bind_some]
    have e := fill_eq u.stokes.length u.width p (orderOf u srt o)
      (fun i j => if j % u.stokes.length < p then wcell u one o (j % u.stokes.length) i (j / u.stokes.length) else one)
      (fun i => ((w[i]?).getD []))
      (fun i hi => getD_mem_length _ i _ (by rw [hw.1]; exact order_mem ha i hi) hw.2)
    refine Eq.trans e ?_
    congr 1
    apply List.map_congr_left
    intro i hi
    apply List.map_congr_left
    intro j _
    by_cases h1 : j % u.stokes.length = p
    · rw [if_pos h1, if_neg (show ¬ j % u.stokes.length < p by omega), if_pos (show j % u.stokes.length < p + 1 by omega)]
      unfold wcell
      rw [h1, ← hd, hs]
    · rw [if_neg h1]
      by_cases h2 : j % u.stokes.length < p
      · rw [if_pos h2, if_pos (by omega)]
      · rw [if_neg h2, if_neg (by omega)]

/-- Filling and saving. -/
theorem finish_step (hg : GoodSetup u) (ho : Good u o) (ha : Argsort srt) (p : Nat) (hp : p < u.stokes.length) (s : St V W) :
    (fillStep u cj { after u srt zero one cj o p s with flux := s.flux, wt := s.wt } (setAt u o p)).map
      (fun s => saveStep u s (setAt u o p)) = some (after u srt zero one cj o (p + 1) s) := by
  unfold fillStep
  simp only [after, set_idx hg p hp]
  rw [fill_vis zero cj ho ha p hp, fill_wts one ho ha p hp]
  simp only [Option.map_some]
  unfold saveStep
  by_cases h : p + 1 = u.stokes.length
  · rw [if_pos ((set_last hg p hp).2 h)]
    simp [h]
  · rw [if_neg (fun e => h ((set_last hg p hp).1 e))]
    simp [h]

theorem next_step (hg : GoodSetup u) (ho : Good u o) (ha : Argsort srt) (p : Nat) (hp0 : 0 < p) (hp : p < u.stokes.length)
    (s : St V W) :
    step u srt zero one cj (after u srt zero one cj o p s) (setAt u o p) = some (after u srt zero one cj o (p + 1) s) := by
  unfold step
  have h1 : sortStep u srt (after u srt zero one cj o p s) (setAt u o p) = some (after u srt zero one cj o p s) := by
    unfold sortStep
    rw [if_pos]
    simp [after, order_length ha, (set_vis ho p hp).1]
  rw [h1, Option.bind_some]
  unfold openStep
  rw [if_neg (fun e => by have := (set_head hg p hp).1 e; omega), Option.bind_some]
  rw [← finish_step zero one cj hg ho ha p hp s]
  congr 2
  have : p ≠ u.stokes.length := by omega
  simp [after, this]

theorem take_labels (ha : Argsort srt) (hg : GoodSetup u) (ho : Good u o) :
    ((some (orderOf u srt o)).bind (take o.bls)).bind (numbers (number u.format u.stands) u.format.merge)
      = some ((orderOf u srt o).map (labelOf u o)) := by
  rw [Option.bind_some, take_eq _ _ (0, 0) (fun i hi => order_mem ha i hi), Option.bind_some, numbers_eq _ hg, List.map_map]
  · rfl
  · intro b hb
    obtain ⟨i, hi, rfl⟩ := List.mem_map.1 hb
    rw [List.getElem?_eq_getElem (order_mem ha i hi)]
    exact ho.stands _ (List.getElem_mem _)

theorem first_step (hk : Known u.format) (hg : GoodSetup u) (ho : Good u o) (ha : Argsort srt) (s : St V W)
    (hr : Ready u srt o s) :
    step u srt zero one cj s (setAt u o 0) = some (after u srt zero one cj o 1 s) := by
  have hp := contiguous_pos _ hg.products
  unfold step
  have h1 : ∃ l, sortStep u srt s (setAt u o 0) = some { s with order := some (orderOf u srt o), labels := l } ∧
      (l = none ∨ l = some ((orderOf u srt o).map (labelOf u o))) := by
    unfold sortStep
    rw [(set_vis ho 0 hp).1]
    by_cases hc : s.order.map List.length = some o.bls.length
    · rw [if_pos hc]
      obtain ⟨l, hl, hl2⟩ := Option.map_eq_some_iff.1 hc
      obtain ⟨e, e2⟩ := hr l hl hl2
      refine ⟨s.labels, ?_, Or.inr e2⟩
      rw [← e, ← hl]
    · rw [if_neg hc]
      have e : (setAt u o 0).bls = o.bls := rfl
      rw [e, argsort_eq hk hg ho]
      exact ⟨none, rfl, Or.inl rfl⟩
  obtain ⟨l, h1, hl⟩ := h1
  rw [h1, Option.bind_some]
  unfold openStep
  rw [if_pos ((set_head hg 0 hp).2 rfl)]
  have h2 : labelsOf u { s with order := some (orderOf u srt o), labels := l } (setAt u o 0)
      = some ((orderOf u srt o).map (labelOf u o)) := by
    unfold labelsOf
    rcases hl with rfl | rfl
    · exact take_labels ha hg ho
    · rfl
  rw [h2]
  simp only [Option.bind_some, Option.map_some]
  rw [← finish_step zero one cj hg ho ha 0 hp s]
  congr 2
  have : 0 ≠ u.stokes.length := by omega
  simp only [after, St.mk.injEq, Option.some.injEq, true_and, and_true]
  refine ⟨?_, ?_, rfl⟩
  · rw [replicate_order]
    apply List.map_congr_left
    intro i _
    rw [replicate_eq]
    simp [rowAt]
  · rw [replicate_order]
    apply List.map_congr_left
    intro i _
    rw [replicate_eq]
    simp [wrowAt]

theorem group_from (hg : GoodSetup u) (ho : Good u o) (ha : Argsort srt) (s : St V W) (n p : Nat) (hp0 : 0 < p)
    (hn : p + n = u.stokes.length) :
    ((List.range' p n).map (setAt u o)).foldlM (step u srt zero one cj) (after u srt zero one cj o p s)
      = some (after u srt zero one cj o u.stokes.length s) := by
  induction n generalizing p with
  | zero => simp at hn; subst hn; rfl
  | succ n ih =>
    rw [List.range'_succ, List.map_cons, List.foldlM_cons, next_step zero one cj hg ho ha p hp0 (by omega) s]
    exact ih (p + 1) (by omega) (by omega)

/-- A whole integration. -/
theorem group_steps (hk : Known u.format) (hg : GoodSetup u) (ho : Good u o) (ha : Argsort srt) (s : St V W)
    (hr : Ready u srt o s) :
    (o.sets u.stokes).foldlM (step u srt zero one cj) s = some (after u srt zero one cj o u.stokes.length s) := by
  have hp := contiguous_pos _ hg.products
  rw [sets_eq u o ho.count, List.range_eq_range']
  obtain ⟨k, hk2⟩ : ∃ k, u.stokes.length = k + 1 := ⟨u.stokes.length - 1, by omega⟩
  rw [hk2, List.range'_succ, List.map_cons, List.foldlM_cons, first_step zero one cj hk hg ho ha s hr, ← hk2]
  exact group_from zero one cj hg ho ha s k 1 (by omega) (by omega)

/-! ## The table -/

/-- The rows of an integration. -/
def rowsOf (u : Setup) (srt : List Nat → List Nat) (o : Obs V W) : List (Row V W) :=
  (orderOf u srt o).map (fun i => ⟨labelOf u o i, o.time, rowAt u zero cj o u.stokes.length i,
    wrowAt u one o u.stokes.length i⟩)

/-- The columns written are those of a table. -/
structure Tab (s : St V W) (t : List (Row V W)) : Prop where
  bl : s.bl = t.map Row.bl
  time : s.time = t.map Row.time
  flux : s.flux = t.map Row.flux
  wt : s.wt = t.map Row.wt

theorem tab_after (ha : Argsort srt) (s : St V W) (t : List (Row V W)) (h : Tab s t) :
    Tab (after u srt zero one cj o u.stokes.length s) (t ++ rowsOf zero one cj u srt o) := by
  constructor
  · simp [after, h.bl, rowsOf, Function.comp_def]
  · simp [after, h.time, rowsOf, Function.comp_def, ← order_length (o := o) (u := u) ha]
    exact replicate_order _ _
  · simp [after, h.flux, rowsOf, Function.comp_def]
  · simp [after, h.wt, rowsOf, Function.comp_def]

theorem rows_tab (s : St V W) (t : List (Row V W)) (h : Tab s t) : rows s = some t := by
  unfold rows
  rw [h.bl, h.time, h.flux, h.wt, if_pos (by simp)]
  rw [List.zip_map', List.zip_map', List.zip_map', List.map_map]
  congr 1
  rw [List.map_congr_left (g := id)]
  · simp
  · intro r _; rfl

theorem ready_after (ha : Argsort srt) (o' : Obs V W) (s : St V W) (h : o.bls.length = o'.bls.length → o.bls = o'.bls) :
    Ready u srt o' (after u srt zero one cj o u.stokes.length s) := by
  intro l hl hlen
  simp only [after, Option.some.injEq] at hl
  subst hl
  rw [order_length ha] at hlen
  have e := h hlen
  have e1 : orderOf u srt o = orderOf u srt o' := by unfold orderOf keysOf; rw [e]
  refine ⟨e1, ?_⟩
  simp only [after, e1, Option.some.injEq]
  apply List.map_congr_left
  intro i _
  simp [labelOf, e]

theorem all_steps (hk : Known u.format) (hg : GoodSetup u) (ha : Argsort srt) (obs : List (Obs V W))
    (ho : ∀ o ∈ obs, Good u o) (hsame : SameBaselines obs) (s : St V W) (t : List (Row V W)) (ht : Tab s t)
    (hr : ∀ o ∈ obs, Ready u srt o s) :
    ∃ s', (obs.map (fun o => o.sets u.stokes)).flatten.foldlM (step u srt zero one cj) s = some s' ∧
      Tab s' (t ++ (obs.map (rowsOf zero one cj u srt)).flatten) := by
  induction obs generalizing s t with
  | nil => exact ⟨s, rfl, by simpa using ht⟩
  | cons o obs ih =>
    have h1 := group_steps zero one cj hk hg (ho o (by simp)) ha s (hr o (by simp))
    obtain ⟨s', h2, h3⟩ := ih (fun x hx => ho x (by simp [hx]))
      (fun a ha b hb => hsame a (by simp [ha]) b (by simp [hb]))
      (after u srt zero one cj o u.stokes.length s) _ (tab_after zero one cj ha s t ht)
      (fun o' ho' => ready_after zero one cj ha o' s (hsame o (by simp) o' (by simp [ho'])))
    refine ⟨s', ?_, ?_⟩
    · rw [List.map_cons, List.flatten_cons, List.foldlM_append, h1]
      exact h2
    · rw [List.map_cons, List.flatten_cons, ← List.append_assoc]; exact h3

/-! ## Sorting the data sets -/

theorem before_trans (a b c : DataSet V W) (h1 : before a b = true) (h2 : before b c = true) : before a c = true := by
  simp only [before, Bool.or_eq_true, decide_eq_true_eq, Bool.and_eq_true, beq_iff_eq] at *
  omega

theorem before_total (a b : DataSet V W) : (before a b || before b a) = true := by
  simp only [before, Bool.or_eq_true, decide_eq_true_eq, Bool.and_eq_true, beq_iff_eq] at *
  omega

/-- One after the other for sure. -/
def Lt (a b : DataSet V W) : Prop := a.time < b.time ∨ (a.time = b.time ∧ a.pol.natAbs < b.pol.natAbs)

theorem sorted_unique (l m : List (DataSet V W)) (hp : l.Perm m) (h : m.Pairwise Lt) : l.mergeSort before = m := by
  apply List.Perm.eq_of_pairwise (le := fun a b => before a b = true)
  · intro a b ha hb h1 h2
    have ha : a ∈ m := (((List.mergeSort_perm l before).trans hp).mem_iff).1 ha
    obtain ⟨i, hi, rfl⟩ := List.mem_iff_getElem.1 ha
    obtain ⟨j, hj, rfl⟩ := List.mem_iff_getElem.1 hb
    have hpw := List.pairwise_iff_getElem.1 h
    simp only [before, Bool.or_eq_true, decide_eq_true_eq, Bool.and_eq_true, beq_iff_eq] at h1 h2
    rcases Nat.lt_trichotomy i j with hij | hij | hij
    · have := hpw i j hi hj hij
      unfold Lt at this
      omega
    · subst hij; rfl
    · have := hpw j i hj hi hij
      unfold Lt at this
      omega
  · exact List.pairwise_mergeSort before_trans before_total l
  · exact h.imp (fun {a b} hab => by
      simp only [before, Bool.or_eq_true, decide_eq_true_eq, Bool.and_eq_true, beq_iff_eq]
      unfold Lt at hab
      omega)
  · exact (List.mergeSort_perm l before).trans hp

theorem sets_time (o : Obs V W) (stokes : List Int) (d : DataSet V W) (h : d ∈ o.sets stokes) : d.time = o.time := by
  obtain ⟨x, _, rfl⟩ := List.mem_map.1 h
  rfl

theorem sets_lt (hg : GoodSetup u) (obs : List (Obs V W)) (hcount : ∀ o ∈ obs, o.products.length = u.stokes.length)
    (ht : (obs.map Obs.time).Pairwise (· < ·)) :
    (obs.map (fun o => o.sets u.stokes)).flatten.Pairwise Lt := by
  rw [List.pairwise_flatten]
  constructor
  · intro l hl
    obtain ⟨o, ho, rfl⟩ := List.mem_map.1 hl
    rw [sets_eq u o (hcount o ho), List.pairwise_map]
    have h := List.pairwise_iff_getElem.1 (contiguous_abs _ hg.products)
    rw [List.pairwise_iff_getElem]
    intro i j hi hj hij
    simp only [List.length_range] at hi hj
    simp only [List.getElem_range]
    right
    refine ⟨rfl, ?_⟩
    rw [set_pol i hi, set_pol j hj]
    exact h i j hi hj hij
  · rw [List.pairwise_map]
    rw [List.pairwise_map] at ht
    exact ht.imp (fun {a b} hab x hx y hy => by
      left
      rw [sets_time a _ x hx, sets_time b _ y hy]
      exact hab)

/-- The table written. -/
theorem write_eq (hk : Known u.format) (hg : GoodSetup u) (ha : Argsort srt) (obs : List (Obs V W))
    (ho : ∀ o ∈ obs, Good u o) (hsame : SameBaselines obs) (ht : (obs.map Obs.time).Pairwise (· < ·))
    (data : List (DataSet V W)) (hd : data.Perm (obs.map (fun o => o.sets u.stokes)).flatten) :
    write u srt zero one cj data = some (obs.map (rowsOf zero one cj u srt)).flatten := by
  unfold write
  rw [sorted_unique _ _ hd (sets_lt hg obs (fun o h => (ho o h).count) ht)]
  obtain ⟨s, h1, h2⟩ := all_steps zero one cj hk hg ha obs ho hsame {} [] ⟨rfl, rfl, rfl, rfl⟩
    (fun o _ l hl => by cases hl)
  rw [h1, Option.bind_some, rows_tab s _ h2, List.nil_append]

end

end Verif.UvTable
