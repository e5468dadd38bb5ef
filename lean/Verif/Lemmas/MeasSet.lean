import Verif.Spec.MeasSet
import Verif.Lemmas.UvRead
import Verif.Lemmas.FEngine
import Verif.Lemmas.Beam
/-!
# Lemmas for measurement sets
-/
namespace Verif.MeasSet
open Spec
open UvTable (Bl take merge unique sorted mapM_some take_eq nodup_inj idxOf?_nodup idxOf?_mem replicate_eq replicate_order
  merge_eq merge_lt getD_mem_length unique_eq filterMap_some range_getD)
open UvTable.Spec (Argsort)

section
variable {V U : Type} (u : Setup) (srt : List Nat → List Nat) (zero : V) (geom : Int → Option String → Bl → U)
  (zen : Int → String)

/-! ## Integrations -/

def ant (b : Bl) : Bl := (u.stands.idxOf b.1, u.stands.idxOf b.2)

def keysOf (bls : List Bl) : List Nat := bls.map fun b => merge 16 (ant u b).1 (ant u b).2

def orderOf (bls : List Bl) : List Nat := srt (keysOf u bls)

def blAt (o : Obs V) (i : Nat) : Bl := (o.bls[i]?).getD (0, 0)

def visAt (o : Obs V) (p i : Nat) : List V := (((o.products[p]?).getD [])[i]?).getD []

def matAt (o : Obs V) (done i : Nat) : List (List V) :=
  (List.range u.stokes.length).map fun q => if q < done then visAt o q i else List.replicate (u.bands * u.chans) zero

def rowOf (names : List String) (o : Obs V) (j i : Nat) : Row V U :=
  ⟨o.mid, o.half, j, (ant u (blAt o i)).1, (ant u (blAt o i)).2, names.idxOf (o.name zen),
    geom o.time o.source (blAt o i), cut u j ((List.range u.stokes.length).map fun q => visAt o q i)⟩

def rowsOf (names : List String) (o : Obs V) : List (Row V U) :=
  (List.range u.bands).flatMap fun j => (orderOf u srt o.bls).map (rowOf u geom zen names o j)

/-- The state after `p` products of an integration. -/
def after (o : Obs V) (p : Nat) (s : St V U) : St V U :=
  { order := some (orderOf u srt o.bls),
    ants := some ((orderOf u srt o.bls).map fun i => ant u (blAt o i)),
    names := addName s.names (o.name zen),
    head := some ⟨(orderOf u srt o.bls).map fun i => geom o.time o.source (blAt o i), o.half, o.mid,
      (addName s.names (o.name zen)).idxOf (o.name zen), o.bls.length⟩,
    mat := if p = u.stokes.length then none else some ((orderOf u srt o.bls).map (matAt u zero o p)),
    rows := s.rows ++ (if p = u.stokes.length then rowsOf u srt geom zen (addName s.names (o.name zen)) o else []) }

/-- What is remembered is about the same baselines. -/
def Ready (bls : List Bl) (s : St V U) : Prop :=
  (s.order = none ∧ s.ants = none) ∨
    (s.order = some (orderOf u srt bls) ∧ s.ants = some ((orderOf u srt bls).map fun i => ant u ((bls[i]?).getD (0, 0))))

/-- The data set of product `p`. -/
def setAt (o : Obs V) (p : Nat) : DataSet V :=
  ⟨o.time, o.half, (u.stokes[p]?).getD 0, o.source, o.bls, (o.products[p]?).getD []⟩

theorem sets_eq (o : Obs V) (h : o.products.length = u.stokes.length) :
    o.sets u.stokes = (List.range u.stokes.length).map (setAt u o) := by
  unfold Obs.sets
  apply List.ext_getElem
  · simp [h]
  · intro i h1 h2
    have h3 : i < u.stokes.length := by simpa using h2
    simp [setAt, List.getElem?_eq_getElem h3, List.getElem?_eq_getElem (show i < o.products.length by omega)]

theorem nameOf_setAt (o : Obs V) (p : Nat) : nameOf zen (setAt u o p) = o.name zen := by
  unfold nameOf setAt Obs.name
  cases o.source <;> rfl

variable {u srt} {o : Obs V}

theorem order_mem (ha : Argsort srt) {bls : List Bl} (i : Nat) (h : i ∈ orderOf u srt bls) : i < bls.length := by
  have := ((ha.perm (keysOf u bls)).mem_iff).1 h
  simpa [keysOf] using this

theorem order_length (ha : Argsort srt) {bls : List Bl} : (orderOf u srt bls).length = bls.length := by
  have := (ha.perm (keysOf u bls)).length_eq
  simpa [keysOf, orderOf] using this

theorem index_eq (b : Bl) (h : b.1 ∈ u.stands ∧ b.2 ∈ u.stands) : index u b = some (ant u b) := by
  unfold index ant
  rw [idxOf?_mem _ _ h.1, idxOf?_mem _ _ h.2]
  rfl

theorem ant_lt (hg : GoodSetup u) (b : Bl) (h : b.1 ∈ u.stands ∧ b.2 ∈ u.stands) :
    (ant u b).1 < 32768 ∧ (ant u b).2 < 32768 := by
  have h1 := List.idxOf_lt_length_of_mem h.1
  have h2 := List.idxOf_lt_length_of_mem h.2
  have := hg.few
  unfold ant
  simp only
  omega

theorem argsort_eq (hg : GoodSetup u) (ho : Good u o) : argsort u srt o.bls = some (orderOf u srt o.bls) := by
  unfold argsort
  rw [mapM_some _ _ (ant u) (fun b hb => index_eq b (ho.stands b hb)), Option.bind_some]
  simp only
  rw [if_pos]
  · rw [List.map_map]; rfl
  · rw [List.all_eq_true]
    intro n hn
    rw [List.map_map] at hn
    obtain ⟨b, hb, rfl⟩ := List.mem_map.1 hn
    have := ant_lt hg b (ho.stands b hb)
    simp only [Function.comp, decide_eq_true_eq]
    exact merge_lt 16 _ _ (by omega) this.1 (by omega)

theorem codes_nodup (hg : GoodSetup u) : u.stokes.Nodup :=
  hg.codes.imp (fun {a b} hab e => by subst e; omega)

theorem stokes_pos (hg : GoodSetup u) : 0 < u.stokes.length := List.length_pos_iff.mpr hg.products

theorem set_vis (ho : Good u o) (p : Nat) (hp : p < u.stokes.length) :
    ((o.products[p]?).getD []).length = o.bls.length ∧ ∀ r ∈ (o.products[p]?).getD [], r.length = u.bands * u.chans := by
  have h : p < o.products.length := by rw [ho.count]; exact hp
  simp only [List.getElem?_eq_getElem h, Option.getD_some]
  exact ho.vis _ (List.getElem_mem h)

theorem visAt_length (ho : Good u o) (p i : Nat) (hp : p < u.stokes.length) (hi : i < o.bls.length) :
    (visAt o p i).length = u.bands * u.chans := by
  have := set_vis ho p hp
  exact getD_mem_length _ i _ (by rw [this.1]; exact hi) this.2

theorem set_pol (p : Nat) (hp : p < u.stokes.length) : (setAt u o p).pol = u.stokes[p] := by
  simp [setAt, List.getElem?_eq_getElem hp]

theorem set_idx (hg : GoodSetup u) (p : Nat) (hp : p < u.stokes.length) :
    u.stokes.idxOf? (setAt u o p).pol = some p := by
  rw [set_pol p hp]
  exact idxOf?_nodup _ (codes_nodup hg) p hp

theorem set_head (hg : GoodSetup u) (p : Nat) (hp : p < u.stokes.length) :
    some (setAt u o p).pol = u.stokes.head? ↔ p = 0 := by
  rw [set_pol p hp, List.head?_eq_getElem?, List.getElem?_eq_getElem (by omega)]
  constructor
  · intro e
    exact nodup_inj _ (codes_nodup hg) _ _ _ _ (Option.some.inj e)
  · intro e; subst e; rfl

theorem set_last (hg : GoodSetup u) (p : Nat) (hp : p < u.stokes.length) :
    some (setAt u o p).pol = u.stokes.getLast? ↔ p + 1 = u.stokes.length := by
  rw [set_pol p hp, List.getLast?_eq_getElem?, List.getElem?_eq_getElem (by omega)]
  constructor
  · intro e
    have := nodup_inj _ (codes_nodup hg) _ _ _ _ (Option.some.inj e)
    omega
  · intro e
    congr 1
    simp [← e]

theorem matAt_set (p i : Nat) : (matAt u zero o p i).set p (visAt o p i) = matAt u zero o (p + 1) i := by
  unfold matAt
  apply List.ext_getElem
  · simp
  · intro q h1 h2
    have h3 : q < u.stokes.length := by simpa using h2
    rw [List.getElem_set]
    by_cases e : p = q
    · subst e; simp
    · rw [if_neg e]
      simp only [List.getElem_map, List.getElem_range]
      by_cases h4 : q < p
      · rw [if_pos h4, if_pos (by omega)]
      · rw [if_neg h4, if_neg (by omega)]

theorem fill_at (hg : GoodSetup u) (ho : Good u o) (ha : Argsort srt) (p : Nat) (hp : p < u.stokes.length) (s : St V U)
    (h1 : s.order = some (orderOf u srt o.bls)) (h2 : s.mat = some ((orderOf u srt o.bls).map (matAt u zero o p))) :
    fillStep u s (setAt u o p) = some { s with mat := some ((orderOf u srt o.bls).map (matAt u zero o (p + 1))) } := by
  have hv := set_vis ho p hp
  unfold fillStep
  rw [h1, h2, set_idx hg p hp]
  simp only
  rw [show (setAt u o p).vis = (o.products[p]?).getD [] from rfl,
    take_eq _ _ [] (fun i hi => by rw [hv.1]; exact order_mem ha i hi), Option.bind_some, if_pos]
  · congr 3
    apply List.ext_getElem
    · simp
    · intro i h3 h4
      simp only [List.getElem_zipWith, List.getElem_map]
      exact matAt_set zero p _
  · refine ⟨by simp, ?_⟩
    rw [List.all_eq_true]
    intro x hx
    obtain ⟨i, hi, rfl⟩ := List.mem_map.1 hx
    simp only [decide_eq_true_eq]
    exact visAt_length ho p i hp (order_mem ha i hi)

theorem matAt_all (i : Nat) : matAt u zero o u.stokes.length i = (List.range u.stokes.length).map fun q => visAt o q i := by
  unfold matAt
  apply List.map_congr_left
  intro q hq
  rw [if_pos (List.mem_range.1 hq)]

theorem zip3 {α β γ : Type} (l : List Nat) (f : Nat → α) (g : Nat → β) (h : Nat → γ) :
    (l.map f).zip ((l.map g).zip (l.map h)) = l.map fun i => (f i, g i, h i) := by
  rw [List.zip_map', List.zip_map']

/-- Filling and saving. -/
theorem finish_step (hg : GoodSetup u) (ho : Good u o) (ha : Argsort srt) (p : Nat) (hp : p < u.stokes.length) (s : St V U) :
    ((fillStep u { after u srt zero geom zen o p s with
        mat := some ((orderOf u srt o.bls).map (matAt u zero o p)), rows := s.rows } (setAt u o p)).bind
      fun s => saveStep u s (setAt u o p)) = some (after u srt zero geom zen o (p + 1) s) := by
  rw [fill_at zero hg ho ha p hp _ rfl rfl, Option.bind_some]
  unfold saveStep
  by_cases h : p + 1 = u.stokes.length
  · rw [if_pos ((set_last hg p hp).2 h)]
    simp only [after, if_pos h]
    rw [if_pos (by simp [order_length ha])]
    simp only [Option.some.injEq, St.mk.injEq, true_and, List.append_cancel_left_eq]
    unfold rowsOf
    congr 1
    funext j
    unfold window
    rw [zip3, List.map_map]
    apply List.map_congr_left
    intro i _
    simp only [Function.comp, h, matAt_all]
    rfl
  · rw [if_neg (fun e => h ((set_last hg p hp).1 e))]
    simp [after, h]

theorem next_step (hg : GoodSetup u) (ho : Good u o) (ha : Argsort srt) (p : Nat) (hp0 : 0 < p) (hp : p < u.stokes.length)
    (s : St V U) :
    step u srt zero geom zen (after u srt zero geom zen o p s) (setAt u o p) = some (after u srt zero geom zen o (p + 1) s) := by
  unfold step
  have h1 : sortStep u srt (after u srt zero geom zen o p s) (setAt u o p) = some (after u srt zero geom zen o p s) := by
    unfold sortStep
    rw [if_pos]
    simp [after, order_length ha, setAt, (set_vis ho p hp).1]
  rw [h1, Option.bind_some]
  unfold openStep
  rw [if_neg (fun e => by have := (set_head hg p hp).1 e; omega), Option.bind_some]
  rw [← finish_step zero geom zen hg ho ha p hp s]
  congr 2
  have : p ≠ u.stokes.length := by omega
  simp [after, this]

theorem take_bls (ha : Argsort srt) :
    take o.bls (orderOf u srt o.bls) = some ((orderOf u srt o.bls).map (blAt o)) :=
  take_eq _ _ (0, 0) (fun i hi => order_mem ha i hi)

theorem blAt_mem (ha : Argsort srt) (ho : Good u o) (i : Nat) (hi : i ∈ orderOf u srt o.bls) :
    (blAt o i).1 ∈ u.stands ∧ (blAt o i).2 ∈ u.stands := by
  unfold blAt
  rw [List.getElem?_eq_getElem (order_mem ha i hi)]
  exact ho.stands _ (List.getElem_mem _)

theorem first_step (hg : GoodSetup u) (ho : Good u o) (ha : Argsort srt) (s : St V U)
    (hr : Ready u srt o.bls s) :
    step u srt zero geom zen s (setAt u o 0) = some (after u srt zero geom zen o 1 s) := by
  have hp := stokes_pos hg
  unfold step
  have h1 : sortStep u srt s (setAt u o 0) = some { s with order := some (orderOf u srt o.bls) } := by
    unfold sortStep
    rw [show (setAt u o 0).vis.length = o.bls.length from (set_vis ho 0 hp).1]
    rcases hr with ⟨h1, h2⟩ | ⟨h1, h2⟩
    · rw [if_neg (by rw [h1]; simp), show (setAt u o 0).bls = o.bls from rfl, argsort_eq hg ho]
      rfl
    · rw [if_pos (by rw [h1]; simp [order_length ha]), ← h1]
  have h2 : antsOf u { s with order := some (orderOf u srt o.bls) } ((orderOf u srt o.bls).map (blAt o))
      = some ((orderOf u srt o.bls).map fun i => ant u (blAt o i)) := by
    unfold antsOf
    rcases hr with ⟨h1, h2⟩ | ⟨h1, h2⟩
    · simp only [h2]
      rw [List.mapM_map]
      exact mapM_some _ _ _ (fun i hi => index_eq _ (blAt_mem ha ho i hi))
    · simp only [h2]
      rfl
  rw [h1, Option.bind_some]
  unfold openStep
  rw [if_pos ((set_head hg 0 hp).2 rfl)]
  simp only [Option.bind_some]
  rw [show (setAt u o 0).bls = o.bls from rfl, take_bls ha, Option.bind_some, h2, Option.map_some, Option.bind_some,
    ← finish_step zero geom zen hg ho ha 0 hp s, nameOf_setAt]
  congr 2
  simp only [after, St.mk.injEq, Option.some.injEq, true_and, and_true, List.map_map]
  refine ⟨rfl, ?_⟩
  rw [replicate_order]
  apply List.map_congr_left
  intro i _
  unfold matAt
  rw [replicate_eq]
  simp

theorem group_from (hg : GoodSetup u) (ho : Good u o) (ha : Argsort srt) (s : St V U) (n p : Nat) (hp0 : 0 < p)
    (hn : p + n = u.stokes.length) :
    ((List.range' p n).map (setAt u o)).foldlM (step u srt zero geom zen) (after u srt zero geom zen o p s)
      = some (after u srt zero geom zen o u.stokes.length s) := by
  induction n generalizing p with
  | zero => simp at hn; subst hn; rfl
  | succ n ih =>
    rw [List.range'_succ, List.map_cons, List.foldlM_cons, next_step zero geom zen hg ho ha p hp0 (by omega) s]
    exact ih (p + 1) (by omega) (by omega)

/-- A whole integration. -/
theorem group_steps (hg : GoodSetup u) (ho : Good u o) (ha : Argsort srt) (s : St V U) (hr : Ready u srt o.bls s) :
    (o.sets u.stokes).foldlM (step u srt zero geom zen) s = some (after u srt zero geom zen o u.stokes.length s) := by
  have hp := stokes_pos hg
  rw [sets_eq u o ho.count, List.range_eq_range']
  obtain ⟨k, hk2⟩ : ∃ k, u.stokes.length = k + 1 := ⟨u.stokes.length - 1, by omega⟩
  rw [hk2, List.range'_succ, List.map_cons, List.foldlM_cons, first_step zero geom zen hg ho ha s hr, ← hk2]
  exact group_from zero geom zen hg ho ha s k 1 (by omega) (by omega)

/-! ## Names -/

variable (u srt) in
/-- The names after some integrations. -/
def allNames (names : List String) (obs : List (Obs V)) : List String :=
  obs.foldl (fun l o => addName l (o.name zen)) names

theorem addName_mem (l : List String) (x : String) : x ∈ addName l x := by
  unfold addName
  split <;> simp_all

theorem addName_prefix (l : List String) (x : String) : ∃ m, addName l x = l ++ m := by
  unfold addName
  split
  · exact ⟨[], by simp⟩
  · exact ⟨_, rfl⟩

theorem allNames_prefix (l : List String) (obs : List (Obs V)) : ∃ m, allNames zen l obs = l ++ m := by
  induction obs generalizing l with
  | nil => exact ⟨[], by simp [allNames]⟩
  | cons o obs ih =>
    obtain ⟨m, hm⟩ := ih (addName l (o.name zen))
    obtain ⟨k, hk⟩ := addName_prefix l (o.name zen)
    refine ⟨k ++ m, ?_⟩
    rw [show allNames zen l (o :: obs) = allNames zen (addName l (o.name zen)) obs from rfl, hm, hk, List.append_assoc]

theorem idxOf_prefix (l m : List String) (x : String) (h : x ∈ l) : (l ++ m).idxOf x = l.idxOf x := by
  induction l with
  | nil => cases h
  | cons y l ih =>
    rw [List.cons_append, List.idxOf_cons, List.idxOf_cons]
    by_cases e : y = x
    · subst e; simp
    · rcases List.mem_cons.1 h with h | h
      · exact absurd h.symm e
      · rw [ih h]

theorem rowsOf_names (l m : List String) (h : o.name zen ∈ l) :
    rowsOf u srt geom zen (l ++ m) o = rowsOf u srt geom zen l o := by
  unfold rowsOf rowOf
  rw [idxOf_prefix l m _ h]

theorem mem_allNames (l : List String) (obs : List (Obs V)) (h : o ∈ obs) : o.name zen ∈ allNames zen l obs := by
  induction obs generalizing l with
  | nil => cases h
  | cons a obs ih =>
    rw [show allNames zen l (a :: obs) = allNames zen (addName l (a.name zen)) obs from rfl]
    rcases List.mem_cons.1 h with rfl | h
    · obtain ⟨m, hm⟩ := allNames_prefix zen (addName l (o.name zen)) obs
      rw [hm]
      exact List.mem_append_left _ (addName_mem l _)
    · exact ih _ h

/-! ## The table -/

theorem ready_after (o : Obs V) (s : St V U) :
    Ready u srt o.bls (after u srt zero geom zen o u.stokes.length s) := Or.inr ⟨rfl, rfl⟩

theorem all_steps (hg : GoodSetup u) (ha : Argsort srt) (bls : List Bl) (obs : List (Obs V))
    (ho : ∀ o ∈ obs, Good u o) (hb : ∀ o ∈ obs, o.bls = bls) (s : St V U) (hr : Ready u srt bls s) :
    ∃ s', (obs.map fun o => o.sets u.stokes).flatten.foldlM (step u srt zero geom zen) s = some s' ∧
      s'.rows = s.rows ++ (obs.map (rowsOf u srt geom zen (allNames zen s.names obs))).flatten := by
  induction obs generalizing s with
  | nil => exact ⟨s, rfl, by simp⟩
  | cons o obs ih =>
    have hbo := hb o (by simp)
    have h1 := group_steps zero geom zen hg (ho o (by simp)) ha s (by rw [hbo]; exact hr)
    obtain ⟨s', h2, h3⟩ := ih (fun x hx => ho x (by simp [hx])) (fun x hx => hb x (by simp [hx]))
      (after u srt zero geom zen o u.stokes.length s) (by rw [← hbo]; exact ready_after zero geom zen o s)
    refine ⟨s', ?_, ?_⟩
    · rw [List.map_cons, List.flatten_cons, List.foldlM_append, h1]
      exact h2
    · rw [h3, List.map_cons, List.flatten_cons, ← List.append_assoc]
      have e1 : (after u srt zero geom zen o u.stokes.length s).names = addName s.names (o.name zen) := rfl
      have e2 : allNames zen s.names (o :: obs) = allNames zen (addName s.names (o.name zen)) obs := rfl
      have e3 : (after u srt zero geom zen o u.stokes.length s).rows
          = s.rows ++ rowsOf u srt geom zen (addName s.names (o.name zen)) o := by simp [after]
      rw [e1, e2, e3]
      obtain ⟨m, hm⟩ := allNames_prefix zen (addName s.names (o.name zen)) obs
      congr 2
      rw [hm]
      exact (rowsOf_names geom zen _ m (addName_mem _ _)).symm

/-! ## Sources -/

theorem sources_tail (hg : GoodSetup u) (o : Obs V) (l : List String) (n p : Nat) (hp0 : 0 < p)
    (hn : p + n = u.stokes.length) : ((List.range' p n).map (setAt u o)).foldl (addSource u zen) l = l := by
  induction n generalizing p with
  | zero => rfl
  | succ n ih =>
    rw [List.range'_succ, List.map_cons, List.foldl_cons]
    have : addSource u zen l (setAt u o p) = l := by
      unfold addSource
      rw [if_neg (fun e => by have := (set_head hg p (by omega)).1 e; omega)]
    rw [this]
    exact ih (p + 1) (by omega) (by omega)

theorem sources_group (hg : GoodSetup u) (ho : Good u o) (l : List String) :
    (o.sets u.stokes).foldl (addSource u zen) l = if o.source.getD "z" ∈ l then l else l ++ [o.name zen] := by
  have hp := stokes_pos hg
  rw [sets_eq u o ho.count, List.range_eq_range']
  obtain ⟨k, hk⟩ : ∃ k, u.stokes.length = k + 1 := ⟨u.stokes.length - 1, by omega⟩
  rw [hk, List.range'_succ, List.map_cons, List.foldl_cons, sources_tail zen hg o _ k 1 (by omega) (by omega)]
  unfold addSource
  rw [if_pos ((set_head hg 0 hp).2 rfl), nameOf_setAt]
  rfl

theorem sources_all (hg : GoodSetup u) (obs : List (Obs V)) (ho : ∀ o ∈ obs, Good u o) (hn : Names zen obs) (l : List String)
    (hz : "z" ∉ l) (hl : ∀ o ∈ obs, o.source = none → o.name zen ∉ l) :
    (obs.map fun o => o.sets u.stokes).flatten.foldl (addSource u zen) l = allNames zen l obs := by
  induction obs generalizing l with
  | nil => rfl
  | cons o obs ih =>
    rw [List.map_cons, List.flatten_cons, List.foldl_append, sources_group zen hg (ho o (by simp))]
    rw [show allNames zen l (o :: obs) = allNames zen (addName l (o.name zen)) obs from rfl]
    have hd := List.pairwise_cons.1 hn.distinct
    have e : (if o.source.getD "z" ∈ l then l else l ++ [o.name zen]) = addName l (o.name zen) := by
      unfold addName
      cases hs : o.source with
      | none =>
        rw [if_neg (by simpa using hz), if_neg (hl o (by simp) hs)]
      | some x =>
        have : o.name zen = x := by unfold Obs.name; rw [hs]
        rw [this]
        rfl
    rw [e]
    apply ih (fun x hx => ho x (by simp [hx])) ⟨fun x hx => hn.notZ x (by simp [hx]), hd.2⟩
    · unfold addName
      split
      · exact hz
      · rw [List.mem_append, List.mem_singleton]
        rintro (h | h)
        · exact hz h
        · exact hn.notZ o (by simp) h.symm
    · intro x hx hs
      have h1 := hl x (by simp [hx]) hs
      unfold addName
      split
      · exact h1
      · rw [List.mem_append, List.mem_singleton]
        rintro (h | h)
        · exact h1 h
        · exact (hd.1 x hx h.symm).2 hs

/-! ## Sorting the data sets -/

theorem before_trans (a b c : DataSet V) (h1 : before a b = true) (h2 : before b c = true) : before a c = true := by
  simp only [before, Bool.or_eq_true, decide_eq_true_eq, Bool.and_eq_true, beq_iff_eq] at *
  omega

theorem before_total (a b : DataSet V) : (before a b || before b a) = true := by
  simp only [before, Bool.or_eq_true, decide_eq_true_eq, Bool.and_eq_true, beq_iff_eq] at *
  omega

/-- One after the other for sure. -/
def Lt (a b : DataSet V) : Prop := a.time < b.time ∨ (a.time = b.time ∧ a.pol.natAbs < b.pol.natAbs)

theorem sorted_unique (l m : List (DataSet V)) (hp : l.Perm m) (h : m.Pairwise Lt) : l.mergeSort before = m := by
  apply List.Perm.eq_of_pairwise (le := fun a b => before a b = true)
  · intro a b ha hb h1 h2
    have ha : a ∈ m := (((List.mergeSort_perm l before).trans hp).mem_iff).1 ha
    obtain ⟨i, hi, rfl⟩ := List.mem_iff_getElem.1 ha
    obtain ⟨j, hj, rfl⟩ := List.mem_iff_getElem.1 hb
    have hpw := List.pairwise_iff_getElem.1 h
    simp only [before, Bool.or_eq_true, decide_eq_true_eq, Bool.and_eq_true, beq_iff_eq] at h1 h2
    rcases Nat.lt_trichotomy i j with hij | hij | hij
    · have := hpw i j hi hj hij
      unfold Lt at this
      omega
    · subst hij; rfl
    · have := hpw j i hj hi hij
      unfold Lt at this
      omega
  · exact List.pairwise_mergeSort before_trans before_total l
  · exact h.imp (fun {a b} hab => by
      simp only [before, Bool.or_eq_true, decide_eq_true_eq, Bool.and_eq_true, beq_iff_eq]
      unfold Lt at hab
      omega)
  · exact (List.mergeSort_perm l before).trans hp

theorem sets_time (o : Obs V) (stokes : List Int) (d : DataSet V) (h : d ∈ o.sets stokes) : d.time = o.time := by
  obtain ⟨x, _, rfl⟩ := List.mem_map.1 h
  rfl

theorem sets_lt (hg : GoodSetup u) (obs : List (Obs V)) (hcount : ∀ o ∈ obs, o.products.length = u.stokes.length)
    (ht : (obs.map Obs.time).Pairwise (· < ·)) :
    (obs.map fun o => o.sets u.stokes).flatten.Pairwise Lt := by
  rw [List.pairwise_flatten]
  constructor
  · intro l hl
    obtain ⟨o, ho, rfl⟩ := List.mem_map.1 hl
    rw [sets_eq u o (hcount o ho), List.pairwise_map]
    have h := List.pairwise_iff_getElem.1 hg.codes
    rw [List.pairwise_iff_getElem]
    intro i j hi hj hij
    simp only [List.length_range] at hi hj
    simp only [List.getElem_range]
    right
    refine ⟨rfl, ?_⟩
    rw [set_pol i hi, set_pol j hj]
    exact h i j hi hj hij
  · rw [List.pairwise_map]
    rw [List.pairwise_map] at ht
    exact ht.imp (fun {a b} hab x hx y hy => by
      left
      rw [sets_time a _ x hx, sets_time b _ y hy]
      exact hab)

/-- The tables written. -/
theorem write_eq (hg : GoodSetup u) (ha : Argsort srt) (bls : List Bl) (obs : List (Obs V)) (hne : obs ≠ [])
    (ho : ∀ o ∈ obs, Good u o) (hb : ∀ o ∈ obs, o.bls = bls) (ht : (obs.map Obs.time).Pairwise (· < ·)) (hn : Names zen obs)
    (data : List (DataSet V)) (hd : data.Perm (obs.map fun o => o.sets u.stokes).flatten) :
    write u srt zero geom zen data
      = some ⟨(obs.map (rowsOf u srt geom zen (allNames zen [] obs))).flatten, allNames zen [] obs⟩ := by
  unfold write
  obtain ⟨o, ho'⟩ := List.exists_mem_of_ne_nil obs hne
  have hgo := ho o ho'
  rw [if_neg]
  · simp only
    rw [sorted_unique _ _ hd (sets_lt hg obs (fun o h => (ho o h).count) ht)]
    obtain ⟨s, h1, h2⟩ := all_steps zero geom zen hg ha bls obs ho hb {} (Or.inl ⟨rfl, rfl⟩)
    rw [h1, Option.map_some, h2, sources_all zen hg obs ho hn [] (by simp) (by simp)]
    rfl
  · rintro (h | h | h | h)
    · exact hg.products h
    · exact absurd hg.windows (by omega)
    · obtain ⟨b, hb⟩ := List.exists_mem_of_ne_nil _ hgo.some
      have := (hgo.stands b hb).1
      rw [h] at this
      cases this
    · subst h
      have h1 := hd.nil_eq
      have h2 : setAt u o 0 ∈ (obs.map fun o => o.sets u.stokes).flatten := by
        refine List.mem_flatten.2 ⟨_, List.mem_map.2 ⟨o, ho', rfl⟩, ?_⟩
        rw [sets_eq u o hgo.count]
        exact List.mem_map.2 ⟨0, List.mem_range.2 (stokes_pos hg), rfl⟩
      rw [← h1] at h2
      cases h2

end

end Verif.MeasSet
