import Verif.Lemmas.VisData
/-!
# C71: visibility containers
-/
namespace Verif.VisData
open Spec

section
variable {U V W : Type}

theorem select_positions (s : Set U V W) (hs : Whole s) (P : Nat → Bool) (Q : Line U V W → Bool)
    (h : ∀ i x, line s i = some x → s.baselines[i]? = some x.baseline → s.uvw[i]? = some x.uvw → P i = Q x) :
    ∃ t, s.select ((List.range s.baselines.length).filter P) = some t ∧ Whole t ∧ SameFrame s t ∧
      lines t = (lines s).filter Q := by
  have hi : ∀ i ∈ (List.range s.baselines.length).filter P, i < s.baselines.length := fun i hi =>
    List.mem_range.1 (List.mem_filter.1 hi).1
  refine ⟨_, select_picked s hs _ hi, picked_whole s hs _ hi, picked_frame s _, ?_⟩
  rw [picked_lines s hs _ hi]
  unfold lines
  apply filterMap_filter'
  intro i hi x hx
  obtain ⟨y, hy, hb, hu⟩ := line_some s hs i (List.mem_range.1 hi)
  rw [hy] at hx
  have hx := Option.some.inj hx
  subst hx
  exact h i y hy hb hu

/-- Cutting by length keeps exactly the lines of baselines with a length in the range, in their order. -/
theorem C71_uv_range (s : Set U V W) (hs : Whole s) (len : U → Rat) (a b : Rat) :
    ∃ t, s.uvRange len a b = some t ∧ Whole t ∧ SameFrame s t ∧
      lines t = (lines s).filter (fun x => decide (min a b ≤ len x.uvw) && decide (len x.uvw < max a b)) := by
  unfold Set.uvRange
  have hswap : (if b < a then (b, a) else (a, b)) = (min a b, max a b) := by
    split <;> rename_i h <;> ext <;> grind
  rw [hswap]
  simp only
  rw [positions_eq, hs.uvw]
  apply select_positions s hs
  intro i x _ _ hu
  rw [hu]; rfl

theorem keepList_some (n : Nat) (l exc : List Nat) : keepList n (some l) exc = l := by
  unfold keepList
  simp only [Option.getD_some]
  induction exc with
  | nil => rfl
  | cons e exc ih =>
    rw [List.foldl_cons]
    by_cases h : e ∈ l
    · rw [if_pos h]; exact ih
    · rw [if_neg h, List.erase_of_not_mem h]; exact ih

theorem keepList_none (n : Nat) (exc : List Nat) (a : Nat) : a ∈ keepList n none exc ↔ a < n ∧ a ∉ exc := by
  unfold keepList
  simp only [Option.getD_none]
  have : ∀ k : List Nat, k.Nodup → (a ∈ exc.foldl (fun k e => k.erase e) k ↔ a ∈ k ∧ a ∉ exc) := by
    induction exc with
    | nil => intro k _; simp
    | cons e exc ih =>
      intro k hk
      rw [List.foldl_cons, ih _ (hk.erase e), hk.mem_erase_iff, List.mem_cons]
      grind
  rw [this _ List.nodup_range, List.mem_range]

/-- Selecting antennas by position keeps exactly the lines between two wanted antennas, in their order. -/
theorem C71_antennas (s : Set U V W) (hs : Whole s) (stands : List Nat) (h : s.stands = some stands)
    (inc exc : Option (List Nat)) :
    ∃ t, s.antennas inc exc true = some t ∧ Whole t ∧ SameFrame s t ∧
      lines t = (lines s).filter (fun x => wanted stands.length inc exc x.baseline.1 && wanted stands.length inc exc x.baseline.2) := by
  unfold Set.antennas
  rw [h]
  simp only [if_true]
  rw [positions_eq]
  apply select_positions s hs
  intro i x _ hb _
  rw [hb, Option.any_some]
  have hk : ∀ a, decide (a ∈ keepList stands.length inc (exc.getD [])) = wanted stands.length inc exc a := by
    intro a
    unfold wanted
    cases inc with
    | some l => rw [keepList_some]
    | none => simp only [keepList_none]
  rw [hk, hk]

theorem mem_toIndices (stands l : List Nat) (hn : stands.Nodup) (a : Nat) :
    a ∈ toIndices stands l ↔ ∃ s, stands[a]? = some s ∧ s ∈ l := by
  unfold toIndices
  rw [List.mem_filterMap]
  constructor
  · rintro ⟨s, hs, e⟩
    rw [List.idxOf?_eq_some_iff] at e
    obtain ⟨h, e, _⟩ := e
    exact ⟨s, by rw [List.getElem?_eq_getElem h, e], hs⟩
  · rintro ⟨s, e, hs⟩
    refine ⟨s, hs, ?_⟩
    obtain ⟨h, e⟩ := List.getElem?_eq_some_iff.1 e
    rw [List.idxOf?_eq_some_iff]
    refine ⟨h, e, ?_⟩
    intro j hj ej
    exact (List.pairwise_iff_getElem.1 hn j a (by omega) h hj) (by rw [ej, e])

/-- Selecting antennas by stand number does the same for the stands at the ends of a baseline. -/
theorem C71_stands (s : Set U V W) (hs : Whole s) (stands : List Nat) (h : s.stands = some stands) (hn : stands.Nodup)
    (inc exc : Option (List Nat)) :
    ∃ t, s.antennas inc exc false = some t ∧ Whole t ∧ SameFrame s t ∧
      lines t = (lines s).filter (fun x => wantedStand stands inc exc x.baseline.1 && wantedStand stands inc exc x.baseline.2) := by
  unfold Set.antennas
  rw [h]
  simp only [Bool.false_eq_true, if_false]
  rw [positions_eq]
  apply select_positions s hs
  intro i x _ hb _
  rw [hb, Option.any_some]
  have hk : ∀ a, decide (a ∈ keepList stands.length (inc.map (toIndices stands)) (toIndices stands (exc.getD [])))
      = wantedStand stands inc exc a := by
    intro a
    unfold wantedStand
    rw [Bool.eq_iff_iff, decide_eq_true_eq, Option.any_eq_true]
    cases inc with
    | some l =>
      simp only [Option.map_some]
      rw [keepList_some, mem_toIndices _ _ hn]
      simp
    | none =>
      simp only [Option.map_none]
      rw [keepList_none, mem_toIndices _ _ hn]
      constructor
      · rintro ⟨h1, h2⟩
        refine ⟨stands[a], List.getElem?_eq_getElem h1, ?_⟩
        simp only [decide_eq_true_eq]
        intro h3
        exact h2 ⟨_, List.getElem?_eq_getElem h1, h3⟩
      · rintro ⟨y, h1, h2⟩
        simp only [decide_eq_true_eq] at h2
        refine ⟨(List.getElem?_eq_some_iff.1 h1).1, ?_⟩
        rintro ⟨z, h3, h4⟩
        rw [h1] at h3
        exact h2 (by rw [Option.some.inj h3]; exact h4)
  rw [hk, hk]

/-- Any order given moves whole lines. -/
theorem C71_reorder (s : Set U V W) (hs : Whole s) (o : List Nat) (ho : o.Perm (List.range s.baselines.length)) :
    ∃ t, s.reorder o = some t ∧ Whole t ∧ SameFrame s t ∧ lines t = o.filterMap (line s) ∧ (lines t).Perm (lines s) := by
  have hi : ∀ i ∈ o, i < s.baselines.length := fun i hi => List.mem_range.1 (ho.mem_iff.1 hi)
  have hl : o.length = s.baselines.length := by rw [ho.length_eq, List.length_range]
  refine ⟨_, reorder_picked s hs o hi hl, picked_whole s hs o hi, picked_frame s o, picked_lines s hs o hi, ?_⟩
  rw [picked_lines s hs o hi]
  exact ho.filterMap _

/-- A product with another number of baselines than the order is refused. -/
theorem C71_reorder_refused (s : Set U V W) (p : Pol V W) (hp : p ∈ s.pols) (o : List Nat) (h : o.length ≠ p.data.length) :
    s.reorder o = none := by
  unfold Set.reorder
  have : s.pols.mapM (fun p => p.sort o) = none := by
    have : ∀ ps : List (Pol V W), p ∈ ps → ps.mapM (fun p => p.sort o) = none := by
      intro ps hp
      induction ps with
      | nil => cases hp
      | cons q ps ih =>
        rw [List.mapM_cons]
        rcases List.mem_cons.1 hp with e | e
        · subst e
          have : p.sort o = none := by unfold Pol.sort; rw [if_pos h]
          rw [this]; rfl
        · rw [ih e]
          cases q.sort o <;> rfl
    exact this _ hp
  rw [this]
  split <;> simp_all

theorem sort_lines (s : Set U V W) (hs : Whole s) :
    ∃ t, s.sort = some t ∧ Whole t ∧ SameFrame s t ∧ lines t = (order s.baselines).filterMap (line s) ∧
      (lines t).Perm (lines s) := C71_reorder s hs _ (order_perm _)

/-- Sorting moves whole lines, and the baselines are sorted by their keys. -/
theorem C71_sort (s : Set U V W) (hs : Whole s) :
    ∃ t, s.sort = some t ∧ Whole t ∧ SameFrame s t ∧ (lines t).Perm (lines s) ∧
      t.baselines.Pairwise (fun a b => key a ≤ key b) := by
  obtain ⟨t, h1, h2, h3, h4, h5⟩ := sort_lines s hs
  refine ⟨t, h1, h2, h3, h5, ?_⟩
  rw [← lines_baselines t h2, h4, List.pairwise_map, List.pairwise_filterMap]
  apply (order_sorted s.baselines).imp_of_mem
  intro i j hi hj h x hx y hy
  obtain ⟨x', hx', hb, _⟩ := line_some s hs i (List.mem_range.1 ((order_perm _).mem_iff.1 hi))
  obtain ⟨y', hy', hb', _⟩ := line_some s hs j (List.mem_range.1 ((order_perm _).mem_iff.1 hj))
  rw [hx'] at hx
  rw [hy'] at hy
  have hx := Option.some.inj hx
  have hy := Option.some.inj hy
  subst hx; subst hy
  have := h _ _ hb hb'
  omega

/-- With fewer than 4096 antennas this is the order by first and then by second antenna. -/
theorem C71_sort_lex_partial (s : Set U V W) (hs : Whole s) (h : ∀ b ∈ s.baselines, b.2 < 4096) :
    ∃ t, s.sort = some t ∧ t.baselines.Pairwise LexLe := by
  obtain ⟨t, h1, h2, _, h4, h5⟩ := C71_sort s hs
  refine ⟨t, h1, h5.imp_of_mem ?_⟩
  have hm : ∀ b ∈ t.baselines, b.2 < 4096 := by
    intro b hb
    rw [← lines_baselines t h2] at hb
    apply h
    rw [← lines_baselines s hs]
    exact ((h4.map Line.baseline).mem_iff).1 hb
  intro a b ha hb hab
  have := hm a ha
  have := hm b hb
  unfold key at hab
  unfold LexLe
  omega

/-- Sorting a sorted data set changes nothing. -/
theorem C71_sort_again (s : Set U V W) (hs : Whole s) (h : s.baselines.Pairwise (fun a b => key a ≤ key b)) :
    ∃ t, s.sort = some t ∧ lines t = lines s := by
  obtain ⟨t, h1, h2, h3, h4, h5⟩ := sort_lines s hs
  refine ⟨t, h1, ?_⟩
  rw [h4]
  have e : order s.baselines = List.range s.baselines.length := by
    unfold order
    rw [List.mergeSort_of_pairwise]
    · apply List.ext_getElem
      · simp
      · intro i h1 h2; simp
    · rw [List.pairwise_iff_getElem]
      intro i j hi hj hij
      simp only [List.length_mapIdx] at hi hj
      have := List.pairwise_iff_getElem.1 h i j hi hj hij
      simp only [List.getElem_mapIdx, Bool.or_eq_true, Bool.and_eq_true, decide_eq_true_eq, beq_iff_eq]
      omega
  rw [e]; rfl

/-- A copy is the same. -/
theorem C71_copy (s : Set U V W) (hs : Whole s) : s.copy true = some s := by
  unfold Set.copy
  rw [if_pos rfl, append_all]
  · simp
  · intro p hp; exact (hs.rows p hp).1
  · simpa using hs.names

theorem put_names (p : Pol V W) (l : List (Pol V W)) (h : (l.map Pol.name).Nodup) :
    ((put p l).map Pol.name).Nodup ∧ ∀ q, q ∈ put p l ↔ q = p ∨ (q ∈ l ∧ q.name ≠ p.name) := by
  induction l with
  | nil => simp [put]
  | cons r l ih =>
    rw [List.map_cons, List.nodup_cons] at h
    unfold put
    split
    · rename_i e
      refine ⟨?_, ?_⟩
      · rw [List.map_cons, List.nodup_cons, ← e]; exact h
      · intro q
        rw [List.mem_cons, List.mem_cons]
        constructor
        · rintro (hq | hq)
          · exact Or.inl hq
          · refine Or.inr ⟨Or.inr hq, ?_⟩
            intro e2
            exact h.1 (by rw [e, ← e2]; exact List.mem_map.2 ⟨q, hq, rfl⟩)
        · rintro (hq | ⟨hq | hq, hn⟩)
          · exact Or.inl hq
          · exact absurd (by rw [hq]; exact e) hn
          · exact Or.inr hq
    · rename_i e
      obtain ⟨h1, h2⟩ := ih h.2
      refine ⟨?_, ?_⟩
      · rw [List.map_cons, List.nodup_cons]
        refine ⟨?_, h1⟩
        intro hm
        obtain ⟨q, hq, e2⟩ := List.mem_map.1 hm
        rcases (h2 q).1 hq with rfl | ⟨hq, _⟩
        · exact e e2.symm
        · exact h.1 (by rw [← e2]; exact List.mem_map.2 ⟨q, hq, rfl⟩)
      · intro q
        rw [List.mem_cons, h2, List.mem_cons]
        constructor
        · rintro (hq | hq | hq)
          · exact Or.inr ⟨Or.inl hq, by rw [hq]; exact e⟩
          · exact Or.inl hq
          · exact Or.inr ⟨Or.inr hq.1, hq.2⟩
        · rintro (hq | ⟨hq | hq, hn⟩)
          · exact Or.inr (Or.inl hq)
          · exact Or.inl hq
          · exact Or.inr (Or.inr ⟨hq, hn⟩)

/-- Adding a product adds it or replaces the one of the same name, and nothing else. -/
theorem C71_append (s t : Set U V W) (hs : Whole s) (p : Pol V W)
    (hp : p.weight.length = p.data.length ∧ p.mask.length = p.data.length) (h : s.append p = some t) :
    Whole t ∧ t.baselines = s.baselines ∧ ∀ q, q ∈ t.pols ↔ q = p ∨ (q ∈ s.pols ∧ q.name ≠ p.name) := by
  unfold Set.append at h
  split at h
  · cases h
  · rename_i hl
    have hl : s.baselines.length = p.data.length := by simpa using hl
    have h := (Option.some.inj h).symm
    subst h
    obtain ⟨h1, h2⟩ := put_names p s.pols hs.names
    refine ⟨⟨hs.uvw, ?_, h1⟩, rfl, h2⟩
    intro q hq
    rcases (h2 q).1 hq with rfl | ⟨hq, _⟩
    · exact ⟨hl.symm, by rw [hp.1, hl], by rw [hp.2, hl]⟩
    · exact hs.rows q hq

/-! ## Many integrations -/

/-- Integrations that were appended all have different times. -/
theorem C71_times (l : List (Set U V W)) (s : Set U V W) (m : List (Set U V W)) (h : append l s = some m)
    (hl : (l.map Set.jd).Nodup) : (m.map Set.jd).Nodup ∧ m = l ++ [s] := by
  unfold append at h
  split at h
  · cases h
  · rename_i hn
    have e : m = l ++ [s] := by
      split at h
      · exact (Option.some.inj h).symm
      · split at h
        · cases h
        · exact (Option.some.inj h).symm
    refine ⟨?_, e⟩
    rw [e, List.map_append, List.nodup_append]
    refine ⟨hl, by simp, ?_⟩
    intro a ha b hb e
    simp only [List.map_cons, List.map_nil, List.mem_singleton] at hb
    subst hb; subst e
    exact hn ha

/-- All the same size as a first integration that is not empty. -/
def Alike (l : List (Set U V W)) : Prop :=
  ∃ nb nc np, 0 < nb ∧ 0 < nc ∧ 0 < np ∧
    ∀ s ∈ l, s.baselines.length = nb ∧ s.nchan = nc ∧ s.pols.length = np

/-- Appending to integrations of one size succeeds exactly if time and size allow it. -/
theorem C71_append_alike (l : List (Set U V W)) (s : Set U V W) (hne : l ≠ []) (hl : Alike l) :
    append l s = some (l ++ [s]) ↔ s.jd ∉ l.map Set.jd ∧ Alike (l ++ [s]) := by
  obtain ⟨nb, nc, np, h1, h2, h3, hl⟩ := hl
  unfold append
  split
  · rename_i hm
    constructor
    · intro h; cases h
    · rintro ⟨h, _⟩; exact absurd hm h
  · rename_i hm
    cases l with
    | nil => exact absurd rfl hne
    | cons f l =>
      have hf := hl f (by simp)
      simp only
      split
      · rename_i hc
        constructor
        · intro h; cases h
        · rintro ⟨_, nb', nc', np', _, _, _, h⟩
          have h4 := h f (by simp)
          have h5 := h s (by simp)
          omega
      · rename_i hc
        constructor
        · intro _
          refine ⟨hm, nb, nc, np, h1, h2, h3, ?_⟩
          intro x hx
          rcases List.mem_append.1 hx with hx | hx
          · exact hl x hx
          · rw [List.mem_singleton] at hx
            subst hx
            omega
        · intro _; rfl

theorem collect_from (f : Set U V W → Option (Set U V W)) (l acc : List (Set U V W)) (g : Set U V W → Set U V W)
    (hg : ∀ s ∈ l, f s = some (g s)) (hjd : ((acc ++ l.map g).map Set.jd).Nodup) (ha : Alike (acc ++ l.map g)) :
    l.foldlM (fun m s => (f s).bind (append m)) acc = some (acc ++ l.map g) := by
  induction l generalizing acc with
  | nil => simp
  | cons s l ih =>
    rw [List.foldlM_cons, hg s (by simp), Option.bind_some]
    have e : acc ++ (s :: l).map g = (acc ++ [g s]) ++ l.map g := by simp
    rw [e] at hjd ha
    have hsub : Alike (acc ++ [g s]) := by
      obtain ⟨nb, nc, np, h1, h2, h3, h⟩ := ha
      exact ⟨nb, nc, np, h1, h2, h3, fun x hx => h x (List.mem_append.2 (Or.inl hx))⟩
    have h1 : append acc (g s) = some (acc ++ [g s]) := by
      by_cases hne : acc = []
      · subst hne; unfold append; simp
      · rw [C71_append_alike acc (g s) hne]
        · refine ⟨?_, hsub⟩
          rw [List.map_append, List.map_append, List.nodup_append] at hjd
          have := (List.nodup_append.1 hjd.1).2.2
          intro hm
          exact this _ hm _ (by simp) rfl
        · obtain ⟨nb, nc, np, h1, h2, h3, h⟩ := hsub
          exact ⟨nb, nc, np, h1, h2, h3, fun x hx => h x (List.mem_append.2 (Or.inl hx))⟩
    rw [h1, e]
    exact ih _ (fun x hx => hg x (by simp [hx])) hjd ha

/-- Cutting many integrations cuts each of them, as long as equally many baselines (and some) remain in all. -/
theorem C71_many_partial (f : Set U V W → Option (Set U V W)) (l : List (Set U V W)) (g : Set U V W → Set U V W)
    (hg : ∀ s ∈ l, f s = some (g s)) (hframe : ∀ s ∈ l, (g s).jd = s.jd) (hjd : (l.map Set.jd).Nodup)
    (ha : Alike (l.map g)) : collect f l = some (l.map g) := by
  have h := collect_from f l [] g hg (by
    have e : (l.map g).map Set.jd = l.map Set.jd := by
      rw [List.map_map]; exact List.map_congr_left (fun s hs => hframe s hs)
    rw [List.nil_append, e]
    exact hjd) (by simpa using ha)
  simpa [collect] using h

/-- Sorting many integrations puts them in order of time and sorts each. -/
theorem C71_sort_many (l : List (Set U V W)) (hl : ∀ s ∈ l, Whole s) :
    ∃ m : List (Set U V W), sort l = some m ∧ (m.map Set.jd).Pairwise (· ≤ ·) ∧
      ∃ k : List (Set U V W), k.Perm l ∧ k.map Set.sort = m.map some := by
  have hp := List.mergeSort_perm l (fun a b => decide (a.jd ≤ b.jd))
  have hs : (l.mergeSort (fun a b => decide (a.jd ≤ b.jd))).Pairwise (fun a b => a.jd ≤ b.jd) :=
    (List.pairwise_mergeSort (le := fun a b : Set U V W => decide (a.jd ≤ b.jd))
      (by intro a b c; simp only [decide_eq_true_eq]; omega)
      (by intro a b; simp only [Bool.or_eq_true, decide_eq_true_eq]; omega) l).imp (fun {a b} h => by simpa using h)
  unfold sort
  generalize l.mergeSort (fun a b => decide (a.jd ≤ b.jd)) = k at hp hs
  have hw : ∀ s ∈ k, Whole s := fun s hs => hl s (hp.mem_iff.1 hs)
  have : ∃ m : List (Set U V W), k.mapM Set.sort = some m ∧ k.map Set.sort = m.map some ∧ m.map Set.jd = k.map Set.jd := by
    clear hp hs
    induction k with
    | nil => exact ⟨[], rfl, rfl, rfl⟩
    | cons s k ih =>
      obtain ⟨m, h1, h2, h3⟩ := ih (fun x hx => hw x (by simp [hx]))
      obtain ⟨t, ht, _, hf, _⟩ := C71_sort s (hw s (by simp))
      refine ⟨t :: m, ?_, ?_, ?_⟩
      · rw [List.mapM_cons, ht, h1]; rfl
      · simp [ht, h2]
      · simp [hf.1, h3]
  obtain ⟨m, h1, h2, h3⟩ := this
  refine ⟨m, h1, ?_, k, hp, h2⟩
  rw [h3, List.pairwise_map]
  exact hs

end

/-! ## Faults -/

/-- With 4096 antennas or more the keys overlap. -/
theorem C71_not_lex : key (0, 4097) = key (1, 1) ∧ key (1, 0) < key (0, 4097) ∧ ¬ LexLe (1, 0) (0, 4097) := by
  refine ⟨by decide, by decide, ?_⟩
  unfold LexLe; decide

/-- Two integrations in which different numbers of baselines pass the cut cannot be cut at all. -/
theorem C71_not_many :
    ∃ (l : List (Set Rat Nat Nat)) (len : Rat → Rat), (∀ s ∈ l, Whole s) ∧ Alike l ∧ (l.map Set.jd).Nodup ∧
      uvRange l len 0 10 = none := by
  refine ⟨[⟨1, 1, [(0, 1)], [5], some [1, 2], [⟨"XX", [[1]], [[1]], [[false]]⟩]⟩,
    ⟨2, 1, [(0, 1)], [15], some [1, 2], [⟨"XX", [[1]], [[1]], [[false]]⟩]⟩], id, ?_, ?_, by decide, by decide +kernel⟩
  · intro s hs
    simp only [List.mem_cons, List.not_mem_nil, or_false] at hs
    rcases hs with rfl | rfl <;> exact ⟨rfl, by decide, by decide⟩
  · exact ⟨1, 1, 1, by decide, by decide, by decide, by decide⟩

/-- Stand numbers given for many integrations are taken as positions. -/
theorem C71_not_stands :
    ∃ s : Set Rat Nat Nat, Whole s ∧ (s.antennas (some [1, 2]) none false).map Set.baselines = some [(0, 1)] ∧
      (antennas [s] (some [1, 2]) none false).map (fun l => l.map Set.baselines) = some [[(1, 2)]] := by
  refine ⟨⟨1, 1, [(0, 1), (1, 2)], [5, 6], some [1, 2, 3], []⟩, ⟨rfl, by decide, by decide⟩, by decide +kernel,
    by decide +kernel⟩

/-- `extend` accepts a time twice, and other sizes; so does `append` after an empty integration. -/
theorem C71_not_extend :
    ∃ s : Set Rat Nat Nat, ¬ ((extend [s] [s]).map Set.jd).Nodup ∧ append [s] s = none := by
  exact ⟨⟨1, 1, [(0, 1)], [5], none, []⟩, by decide, by decide⟩

theorem C71_not_alike :
    ∃ s t u : Set Rat Nat Nat, append [s] t = some [s, t] ∧ append [s, t] u = some [s, t, u] ∧
      t.baselines.length ≠ u.baselines.length := by
  refine ⟨⟨1, 1, [], [], none, []⟩, ⟨2, 1, [(0, 1)], [5], none, []⟩, ⟨3, 1, [(0, 1), (1, 2)], [5, 5], none, []⟩,
    by decide, by decide, by decide⟩

/-- Adding to a product works only if what is added has the shape of all that is there already. -/
theorem C71_add_shape (p : Shapes) (new : Shape) (h : (addShape p new).2 = true) : p.weight = new ∧ p.mask = new := by
  unfold addShape at h
  split at h
  · simp only at h
    split at h
    · cases h
    · rename_i h1
      split at h
      · cases h
      · rename_i h2
        exact ⟨by simpa using h1, by simpa using h2⟩
  · split at h
    · cases h
    · simp only at h
      split at h
      · cases h
      · rename_i h1
        split at h
        · cases h
        · split at h
          · cases h
          · rename_i h2
            exact ⟨by simpa using h1, by simpa using h2⟩

/-- So a visibility of any number of channels cannot be added to a new product, nor a further one to a product with two or
more; the data have changed then, but not the weights and flags. -/
theorem C71_not_add (n r : Nat) (hn : 0 < n) (hr : 0 < r) :
    addShape ⟨[0], [0], [0]⟩ [n] = (⟨[n], [0], [0]⟩, false) ∧
    addShape ⟨[r, n], [r, n], [r, n]⟩ [n] = (⟨[r + 1, n], [r, n], [r, n]⟩, false) := by
  constructor
  · have h : ¬ 0 = n := by omega
    simp [addShape, size, h]
  · have h1 : r ≠ 0 := by omega
    have h2 : n ≠ 0 := by omega
    have h3 : r * n ≠ 0 := Nat.mul_ne_zero h1 h2
    simp [addShape, size, vstack, h3]

/-! ## Examples -/

def exampleSet : Set Rat Nat Nat :=
  ⟨1, 2, [(1, 2), (0, 1), (0, 2)], [3, 1, 2], some [10, 20, 30],
    [⟨"XX", [[1, 2], [3, 4], [5, 6]], [[1, 1], [1, 1], [1, 1]], [[false, true], [false, false], [true, true]]⟩,
     ⟨"YY", [[7, 8], [9, 10], [11, 12]], [[1, 1], [1, 1], [1, 1]], [[false, false], [false, false], [true, true]]⟩]⟩

example : Whole exampleSet := ⟨rfl, by decide, by decide⟩

example : (exampleSet.antennas none (some [20]) false).map Set.baselines = some [(0, 2)] := by decide +kernel

example : (exampleSet.uvRange id 2 0).map (fun t => t.pols.map Pol.data) = some [[[3, 4]], [[9, 10]]] := by decide +kernel

example : (exampleSet.reorder [1, 2, 0]).map Set.baselines = some [(0, 1), (0, 2), (1, 2)] := by decide

end Verif.VisData
