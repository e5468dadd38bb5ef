import Verif.Lemmas.UvWrite
/-!
# Lemmas for visibility tables: what is read
-/
namespace Verif.UvTable
open Dec Spec

/-! ## Sorted lists -/

theorem insertInt_perm (x : Int) (l : List Int) : (insertInt x l).Perm (x :: l) := by
  induction l with
  | nil => exact List.Perm.refl _
  | cons y l ih =>
    unfold insertInt
    split
    · exact List.Perm.refl _
    · exact (ih.cons y).trans (List.Perm.swap x y l)

theorem insertInt_sorted (x : Int) (l : List Int) (h : l.Pairwise (· ≤ ·)) : (insertInt x l).Pairwise (· ≤ ·) := by
  induction l with
  | nil => simp [insertInt]
  | cons y l ih =>
    rw [List.pairwise_cons] at h
    unfold insertInt
    split
    · rename_i hx
      rw [List.pairwise_cons]
      refine ⟨?_, List.pairwise_cons.2 h⟩
      intro z hz
      rcases List.mem_cons.1 hz with rfl | hz
      · exact hx
      · have := h.1 z hz; omega
    · rename_i hx
      rw [List.pairwise_cons]
      refine ⟨?_, ih h.2⟩
      intro z hz
      rcases List.mem_cons.1 (((insertInt_perm x l).mem_iff).1 hz) with rfl | hz
      · omega
      · exact h.1 z hz

theorem sortInt_perm (l : List Int) : (sortInt l).Perm l := by
  induction l with
  | nil => exact List.Perm.refl _
  | cons x l ih => exact (insertInt_perm x _).trans (ih.cons x)

theorem sortInt_sorted (l : List Int) : (sortInt l).Pairwise (· ≤ ·) := by
  induction l with
  | nil => exact List.Pairwise.nil
  | cons x l ih => exact insertInt_sorted x _ ih

theorem dedup_fold (l acc : List Int) (h : acc.Nodup) :
    (l.foldl (fun l c => if c ∈ l then l else l ++ [c]) acc).Nodup ∧
      ∀ x, x ∈ l.foldl (fun l c => if c ∈ l then l else l ++ [c]) acc ↔ x ∈ acc ∨ x ∈ l := by
  induction l generalizing acc with
  | nil => exact ⟨h, by simp⟩
  | cons c l ih =>
    rw [List.foldl_cons]
    by_cases hc : c ∈ acc
    · rw [if_pos hc]
      refine ⟨(ih acc h).1, fun x => ?_⟩
      rw [(ih acc h).2, List.mem_cons]
      constructor
      · rintro (h | h)
        · exact Or.inl h
        · exact Or.inr (Or.inr h)
      · rintro (h | rfl | h)
        · exact Or.inl h
        · exact Or.inl hc
        · exact Or.inr h
    · rw [if_neg hc]
      have hn : (acc ++ [c]).Nodup := by
        rw [List.nodup_append]
        refine ⟨h, by simp, ?_⟩
        intro a ha b hb e
        rw [List.mem_singleton] at hb
        subst hb; subst e
        exact hc ha
      refine ⟨(ih _ hn).1, fun x => ?_⟩
      rw [(ih _ hn).2, List.mem_append, List.mem_singleton, List.mem_cons, or_assoc]

theorem sorted_ext (l m : List Int) (hl : l.Pairwise (· ≤ ·)) (hn : l.Nodup) (hm : m.Pairwise (· < ·))
    (h : ∀ x, x ∈ l ↔ x ∈ m) : l = m := by
  have hmn : m.Nodup := hm.imp (fun {a b} hab => by omega)
  have hp : l.Perm m := (List.perm_ext_iff_of_nodup hn hmn).2 h
  exact List.Perm.eq_of_pairwise (le := (· ≤ ·)) (fun _ _ _ _ h1 h2 => Int.le_antisymm h1 h2) hl
    (hm.imp (fun {a b} hab => by omega)) hp

theorem sortInt_dedup (l m : List Int) (hm : m.Pairwise (· < ·)) (h : ∀ x, x ∈ l ↔ x ∈ m) :
    sortInt (l.foldl (fun l c => if c ∈ l then l else l ++ [c]) []) = m := by
  have hd := dedup_fold l [] List.nodup_nil
  apply sorted_ext _ _ (sortInt_sorted _) ((sortInt_perm _).nodup_iff.2 hd.1) hm
  intro x
  rw [(sortInt_perm _).mem_iff, hd.2, ← h]
  simp

theorem unique_eq (l m : List Int) (hm : m.Pairwise (· < ·)) (h : ∀ x, x ∈ l ↔ x ∈ m) : unique l = m :=
  sortInt_dedup l m hm h

theorem setStokes_eq (codes stokes : List Int) (hc : Contiguous stokes) (h : ∀ x, x ∈ codes ↔ x ∈ stokes) :
    setStokes [] codes = stokes := by
  unfold setStokes
  obtain ⟨s, k, hk, ⟨hs, e⟩ | ⟨hs, e⟩⟩ := hc
  · have hp : stokes.reverse.Pairwise (· < ·) := by
      rw [List.pairwise_reverse, e]
      apply pairwise_range_map
      intro i j hij; omega
    rw [sortInt_dedup codes stokes.reverse hp (fun x => by rw [List.mem_reverse]; exact h x)]
    have hne : stokes ≠ [] := by rw [e]; intro hh; have := congrArg List.length hh; simp at this; omega
    cases hr : stokes.reverse with
    | nil => exact absurd (by simpa using hr) hne
    | cons x l =>
      have hx : x ∈ stokes := by rw [← List.mem_reverse, hr]; simp
      rw [e] at hx
      obtain ⟨i, _, hi⟩ := List.mem_map.1 hx
      simp only
      rw [if_pos (by omega), ← hr, List.reverse_reverse]
  · have hp : stokes.Pairwise (· < ·) := by
      rw [e]
      apply pairwise_range_map
      intro i j hij; omega
    rw [sortInt_dedup codes stokes hp h]
    cases hr : stokes with
    | nil => rfl
    | cons x l =>
      have hx : x ∈ stokes := by rw [hr]; simp
      rw [e] at hx
      obtain ⟨i, _, hi⟩ := List.mem_map.1 hx
      simp only
      rw [if_neg (by omega)]

/-! ## The rows of an integration -/

section
variable {V W : Type} {u : Setup} {srt : List Nat → List Nat} (zero : V) (one : W) (cj : V → V)

theorem rowsOf_time (o : Obs V W) (r : Row V W) (h : r ∈ rowsOf zero one cj u srt o) : r.time = o.time := by
  obtain ⟨i, _, rfl⟩ := List.mem_map.1 h
  rfl

theorem rowsOf_nonempty (ha : Argsort srt) (o : Obs V W) (h : o.bls ≠ []) :
    ∃ r, r ∈ rowsOf zero one cj u srt o := by
  have hl : 0 < (orderOf u srt o).length := by
    rw [order_length ha]; exact List.length_pos_iff.2 h
  exact ⟨_, List.mem_map.2 ⟨_, List.getElem_mem hl, rfl⟩⟩

theorem times_eq (ha : Argsort srt) (obs : List (Obs V W)) (hne : ∀ o ∈ obs, o.bls ≠ [])
    (ht : (obs.map Obs.time).Pairwise (· < ·)) :
    unique ((obs.map (rowsOf zero one cj u srt)).flatten.map Row.time) = obs.map Obs.time := by
  apply unique_eq _ _ ht
  intro x
  constructor
  · intro h
    obtain ⟨r, hr, rfl⟩ := List.mem_map.1 h
    obtain ⟨l, hl, hr⟩ := List.mem_flatten.1 hr
    obtain ⟨o, ho, rfl⟩ := List.mem_map.1 hl
    rw [rowsOf_time zero one cj o r hr]
    exact List.mem_map.2 ⟨o, ho, rfl⟩
  · intro h
    obtain ⟨o, ho, rfl⟩ := List.mem_map.1 h
    obtain ⟨r, hr⟩ := rowsOf_nonempty (u := u) zero one cj ha o (hne o ho)
    refine List.mem_map.2 ⟨r, List.mem_flatten.2 ⟨_, List.mem_map.2 ⟨o, ho, rfl⟩, hr⟩, rowsOf_time zero one cj o r hr⟩

theorem filter_other (obs : List (Obs V W)) (x : Int) (h : ∀ o ∈ obs, o.time ≠ x) :
    (obs.map (rowsOf zero one cj u srt)).flatten.filter (fun r => r.time == x) = [] := by
  rw [List.filter_eq_nil_iff]
  intro r hr e
  obtain ⟨l, hl, hr⟩ := List.mem_flatten.1 hr
  obtain ⟨o, ho, rfl⟩ := List.mem_map.1 hl
  exact h o ho (by rw [← rowsOf_time zero one cj o r hr]; exact beq_iff_eq.1 e)

theorem filter_time (obs : List (Obs V W)) (ht : (obs.map Obs.time).Pairwise (· < ·)) (o : Obs V W) (ho : o ∈ obs) :
    (obs.map (rowsOf zero one cj u srt)).flatten.filter (fun r => r.time == o.time) = rowsOf zero one cj u srt o := by
  induction obs with
  | nil => cases ho
  | cons a obs ih =>
    rw [List.map_cons, List.pairwise_cons] at ht
    rw [List.map_cons, List.flatten_cons, List.filter_append]
    by_cases e : o = a
    · subst e
      rw [filter_other, List.append_nil, List.filter_eq_self]
      · intro r hr; rw [rowsOf_time zero one cj o r hr]; simp
      · intro b hb
        have := ht.1 b.time (List.mem_map.2 ⟨b, hb, rfl⟩)
        omega
    · rcases List.mem_cons.1 ho with h | h
      · exact absurd h e
      · rw [ih ht.2 h]
        have h2 := ht.1 o.time (List.mem_map.2 ⟨o, h, rfl⟩)
        have : (rowsOf zero one cj u srt a).filter (fun r => r.time == o.time) = [] := by
          rw [List.filter_eq_nil_iff]
          intro r hr e
          rw [rowsOf_time zero one cj a r hr] at e
          have := beq_iff_eq.1 e
          omega
        rw [this, List.nil_append]

theorem label_split (hk : Known u.format) (hg : GoodSetup u) {o : Obs V W} (ho : Good u o) (i : Nat)
    (hi : i < o.bls.length) :
    standMap u (u.format.split (labelOf u o i)).1 = some o.bls[i].1 ∧
      standMap u (u.format.split (labelOf u o i)).2 = some o.bls[i].2 := by
  have hs := ho.stands _ (List.getElem_mem hi)
  unfold labelOf
  simp only [List.getElem?_eq_getElem hi, Option.getD_some]
  rw [known_split _ hk _ _ (num_le u _ hs.1 hg.few) (num_le u _ hs.2 hg.few)]
  exact ⟨standMap_num u hk hg _ hs.1, standMap_num u hk hg _ hs.2⟩

theorem actual_good (hk : Known u.format) (hg : GoodSetup u) : actual u = u.stands := by
  rw [actual_eq u hk (fun s h => by have := hg.small s h; omega), map_mod _ hg.small]

theorem idxOf?_mem (l : List Nat) (a : Nat) (h : a ∈ l) : l.idxOf? a = some (l.idxOf a) := by
  induction l with
  | nil => cases h
  | cons x l ih =>
    by_cases e : x = a
    · subst e; simp [List.idxOf?_cons]
    · rcases List.mem_cons.1 h with h | h
      · exact absurd h.symm e
      · simp only [List.idxOf?_cons, List.idxOf_cons, ih h, beq_false_of_ne e]; rfl

theorem label_indices (hk : Known u.format) (hg : GoodSetup u) {o : Obs V W} (ho : Good u o) (i : Nat)
    (hi : i < o.bls.length) :
    indices u (labelOf u o i) = some (u.stands.idxOf o.bls[i].1, u.stands.idxOf o.bls[i].2) := by
  unfold indices
  have hs := ho.stands _ (List.getElem_mem hi)
  obtain ⟨h1, h2⟩ := label_split hk hg ho i hi
  rw [h1, h2, actual_good hk hg]
  simp only [Option.bind_eq_bind, Option.bind_some, idxOf?_mem _ _ hs.1, idxOf?_mem _ _ hs.2, Option.pure_def]

theorem label_auto (hk : Known u.format) (hg : GoodSetup u) {o : Obs V W} (ho : Good u o) (i : Nat)
    (hi : i < o.bls.length) : isAuto u (labelOf u o i) = (o.bls[i].1 == o.bls[i].2) := by
  unfold isAuto
  obtain ⟨h1, h2⟩ := label_split hk hg ho i hi
  rw [h1, h2]
  rfl

/-! ## The columns -/

theorem filterMap_range {α : Type} (n : Nat) (g : Nat → Option α) (d : α) (h : ∀ c, c < n → (g c).isSome) :
    (List.range n).filterMap g = (List.range n).map (fun c => (g c).getD d) := by
  apply filterMap_some
  intro c hc
  have := h c (List.mem_range.1 hc)
  cases hg : g c with
  | none => rw [hg] at this; cases this
  | some x => rfl

theorem column_range {α : Type} (k w p : Nat) (hp : p < k) (g : Nat → α) :
    column k w p ((List.range (k * w)).map g) = (List.range w).map (fun c => g (c * k + p)) := by
  unfold column
  apply filterMap_some
  intro c hc
  have hc := List.mem_range.1 hc
  have hlt : c * k + p < k * w := by
    have : (c + 1) * k ≤ w * k := Nat.mul_le_mul_right k (by omega)
    rw [Nat.add_mul] at this
    rw [Nat.mul_comm k w]
    omega
  rw [List.getElem?_eq_getElem (by simpa using hlt)]
  simp

theorem range_getD {α : Type} (l : List α) (n : Nat) (d : α) (h : l.length = n) :
    (List.range n).map (fun c => l[c]?.getD d) = l := by
  apply List.ext_getElem
  · simp [h]
  · intro i h1 h2; simp [List.getElem?_eq_getElem h2]

theorem column_row (hinv : ∀ x, cj (cj x) = x) {o : Obs V W} (ho : Good u o) (p : Nat) (hp : p < u.stokes.length)
    (i : Nat) (hi : i < o.bls.length) :
    some ((column u.stokes.length u.width p (rowAt u zero cj o u.stokes.length i)).map cj)
      = ((o.products[p]?).map (fun x => x.1[i]?)).getD none := by
  unfold rowAt
  rw [column_range _ _ _ hp]
  have hpl : p < o.products.length := by rw [ho.count]; exact hp
  have hv := ho.vis _ (List.getElem_mem hpl)
  have hil : i < (o.products[p]).1.length := by rw [hv.1]; exact hi
  rw [List.getElem?_eq_getElem hpl]
  simp only [Option.map_some, Option.getD_some]
  rw [List.getElem?_eq_getElem hil]
  congr 1
  rw [List.map_map]
  have hlen : (o.products[p].1[i]).length = u.width := hv.2 _ (List.getElem_mem hil)
  apply List.ext_getElem
  · simp [hlen]
  · intro c h1 h2
    have hc : c < u.width := by rw [← hlen]; exact h2
    have e1 : (c * u.stokes.length + p) % u.stokes.length = p := by
      rw [Nat.mul_comm, Nat.mul_add_mod, Nat.mod_eq_of_lt hp]
    have e2 : (c * u.stokes.length + p) / u.stokes.length = c := by
      rw [Nat.mul_comm, Nat.mul_add_div (by omega), Nat.div_eq_of_lt hp, Nat.add_zero]
    simp only [List.getElem_map, List.getElem_range, Function.comp, e1, e2, if_pos hp]
    unfold cell
    rw [List.getElem?_eq_getElem hpl, Option.getD_some, List.getElem?_eq_getElem hil, Option.getD_some,
      List.getElem?_eq_getElem (by simpa using h2), Option.getD_some, List.getElem_map, hinv]

theorem column_wrow {o : Obs V W} (ho : Good u o) (p : Nat) (hp : p < u.stokes.length)
    (i : Nat) (hi : i < o.bls.length) :
    some (column u.stokes.length u.width p (wrowAt u one o u.stokes.length i))
      = ((o.products[p]?).map (fun x => weightOf one u x.2 i)).getD none := by
  unfold wrowAt
  rw [column_range _ _ _ hp]
  have hpl : p < o.products.length := by rw [ho.count]; exact hp
  have hw := ho.wts _ (List.getElem_mem hpl)
  rw [List.getElem?_eq_getElem hpl]
  simp only [Option.map_some, Option.getD_some]
  have e : (List.range u.width).map (fun c => if (c * u.stokes.length + p) % u.stokes.length < u.stokes.length then
      wcell u one o ((c * u.stokes.length + p) % u.stokes.length) i ((c * u.stokes.length + p) / u.stokes.length) else one)
      = (List.range u.width).map (fun c => wcell u one o p i c) := by
    apply List.map_congr_left
    intro c _
    have e1 : (c * u.stokes.length + p) % u.stokes.length = p := by
      rw [Nat.mul_comm, Nat.mul_add_mod, Nat.mod_eq_of_lt hp]
    have e2 : (c * u.stokes.length + p) / u.stokes.length = c := by
      rw [Nat.mul_comm, Nat.mul_add_div (by omega), Nat.div_eq_of_lt hp, Nat.add_zero]
    rw [e1, e2, if_pos hp]
  rw [e]
  unfold wcell weightOf
  rw [List.getElem?_eq_getElem hpl, Option.getD_some]
  cases hs : o.products[p].2 with
  | none =>
    simp only [ite_self]
    rw [replicate_eq]
  | some w =>
    have hw := hw w hs
    by_cases hf : u.format.weights = true
    · rw [if_pos hf]
      simp only [if_pos hf]
      rw [List.getElem?_eq_getElem (by rw [hw.1]; exact hi), Option.getD_some]
      rw [range_getD _ _ _ (hw.2 _ (List.getElem_mem _))]
    · rw [if_neg hf]
      simp only [if_neg hf]
      rw [replicate_eq]

/-! ## Reading an integration -/

/-- What is read for row `i` of an integration. -/
def line (o : Obs V W) (i : Nat) : (Nat × Nat) × Row V W :=
  let b := (o.bls[i]?).getD (0, 0)
  ((u.stands.idxOf b.1, u.stands.idxOf b.2),
    ⟨labelOf u o i, o.time, rowAt u zero cj o u.stokes.length i, wrowAt u one o u.stokes.length i⟩)

/-- Whether baseline `i` is kept. -/
def keep (auto : Bool) (o : Obs V W) (i : Nat) : Bool :=
  let b := (o.bls[i]?).getD (0, 0)
  auto || !(b.1 == b.2)

theorem kept_eq (hk : Known u.format) (hg : GoodSetup u) (ha : Argsort srt) {o : Obs V W} (ho : Good u o) (auto : Bool) :
    kept u auto (rowsOf zero one cj u srt o)
      = some (((orderOf u srt o).filter (keep auto o)).map (line (u := u) zero one cj o)) := by
  unfold kept rowsOf
  rw [List.mapM_map]
  rw [mapM_some _ _ (line (u := u) zero one cj o)]
  · rw [Option.map_some, List.filter_map]
    congr 2
    apply List.filter_congr
    intro i hi
    have h := order_mem ha i hi
    simp only [Function.comp, line, label_auto hk hg ho i h, keep, List.getElem?_eq_getElem h, Option.getD_some]
  · intro i hi
    have h := order_mem ha i hi
    simp only [Function.comp, label_indices hk hg ho i h, Option.map_some, line, List.getElem?_eq_getElem h, Option.getD_some]

/-- A line as it is shown. -/
def display (l : (Nat × Nat) × Row V W) : (Nat × Nat) × List (Option (List V)) × List (Option (List W)) :=
  (l.1, (List.range u.stokes.length).map (fun p => some ((column u.stokes.length u.width p l.2.flux).map cj)),
    (List.range u.stokes.length).map (fun p => some (column u.stokes.length u.width p l.2.wt)))

/-- A baseline as it is wanted. -/
def want (o : Obs V W) (i : Nat) : (Nat × Nat) × List (Option (List V)) × List (Option (List W)) :=
  let b := (o.bls[i]?).getD (0, 0)
  ((u.stands.idxOf b.1, u.stands.idxOf b.2), o.products.map (fun p => p.1[i]?),
    o.products.map (fun p => weightOf one u p.2 i))

theorem display_line (hinv : ∀ x, cj (cj x) = x) {o : Obs V W} (ho : Good u o) (i : Nat) (hi : i < o.bls.length) :
    display (u := u) cj (line (u := u) zero one cj o i) = want (u := u) one o i := by
  unfold display line want
  simp only
  congr 2
  · apply List.ext_getElem
    · simp [ho.count]
    · intro p h1 h2
      have hp : p < u.stokes.length := by simpa using h1
      have := column_row zero cj hinv ho p hp i hi
      simp only [List.getElem_map, List.getElem_range]
      rw [this, List.getElem?_eq_getElem (by simpa using h2)]
      rfl
  · apply List.ext_getElem
    · simp [ho.count]
    · intro p h1 h2
      have hp : p < u.stokes.length := by simpa using h1
      have := column_wrow one ho p hp i hi
      simp only [List.getElem_map, List.getElem_range]
      rw [this, List.getElem?_eq_getElem (by simpa using h2)]
      rfl

theorem wanted_eq (o : Obs V W) (auto : Bool) :
    wanted one u o auto = ((List.range o.bls.length).filter (keep auto o)).map (want (u := u) one o) := by
  unfold wanted
  have e : o.bls.mapIdx (fun m b => (b, m)) = (List.range o.bls.length).map (fun m => ((o.bls[m]?).getD (0, 0), m)) := by
    apply List.ext_getElem
    · simp
    · intro i h1 h2
      have : i < o.bls.length := by simpa using h2
      simp [List.getElem?_eq_getElem this]
  rw [e, List.filterMap_map]
  generalize List.range o.bls.length = l
  induction l with
  | nil => rfl
  | cons i l ih =>
    rw [List.filterMap_cons, List.filter_cons]
    by_cases h : keep auto o i = true
    · rw [if_pos h, List.map_cons, ← ih]
      simp only [keep, Bool.or_eq_true, Bool.not_eq_true', beq_eq_false_iff_ne] at h
      simp only [Function.comp]
      rw [if_pos h]
      rfl
    · rw [if_neg h, ← ih]
      simp only [keep, Bool.or_eq_true, Bool.not_eq_true', beq_eq_false_iff_ne] at h
      simp only [Function.comp]
      rw [if_neg h]

theorem mapIdx_display (l : List ((Nat × Nat) × Row V W)) :
    (l.map (·.1)).mapIdx (fun m b => (b,
      ((List.range u.stokes.length).map (fun p => l.map (fun x => (column u.stokes.length u.width p x.2.flux).map cj))).map
        (fun x => x[m]?),
      ((List.range u.stokes.length).map (fun p => l.map (fun x => column u.stokes.length u.width p x.2.wt))).map
        (fun x => x[m]?))) = l.map (display (u := u) cj) := by
  apply List.ext_getElem
  · simp
  · intro i h1 h2
    have : i < l.length := by simpa using h2
    simp [display, List.getElem?_eq_getElem this, Function.comp_def]

theorem sorted_perm {α : Type} (l : List ((Nat × Nat) × α)) : (sorted l).Perm l := List.mergeSort_perm l _

/-- The answer for one integration. -/
theorem read_at (hk : Known u.format) (hg : GoodSetup u) (ha : Argsort srt) (hinv : ∀ x, cj (cj x) = x)
    (obs : List (Obs V W)) (ho : ∀ o ∈ obs, Good u o) (ht : (obs.map Obs.time).Pairwise (· < ·))
    (hne : ∀ o ∈ obs, o.bls ≠ []) (i : Nat) (o : Obs V W)
    (hi : (if i = 0 then obs.getLast? else obs[i - 1]?) = some o) (auto sort : Bool) :
    ∃ l : List ((Nat × Nat) × Row V W), ∃ g, UvTable.read u cj (obs.map (rowsOf zero one cj u srt)).flatten i auto sort = some g ∧
      g.time = o.time ∧ g.pols = u.stokes ∧ g.baselines = (if sort then sorted l else l).map (·.1) ∧
      (shown g).Perm (wanted one u o auto) := by
  have hm : o ∈ obs := by
    split at hi
    · exact List.mem_of_getLast? hi
    · exact List.mem_of_getElem? hi
  refine ⟨((orderOf u srt o).filter (keep auto o)).map (line (u := u) zero one cj o), ?_⟩
  unfold UvTable.read
  simp only
  rw [times_eq zero one cj ha obs hne ht]
  have e : (if i = 0 then (obs.map Obs.time).getLast? else (obs.map Obs.time)[i - 1]?) = some o.time := by
    by_cases h0 : i = 0
    · rw [if_pos h0] at hi ⊢; rw [List.getLast?_map, hi]; rfl
    · rw [if_neg h0] at hi ⊢; rw [List.getElem?_map, hi]; rfl
  rw [e]
  simp only
  rw [filter_time zero one cj obs ht o hm, kept_eq zero one cj hk hg ha (ho o hm), Option.map_some]
  refine ⟨_, rfl, rfl, contiguous_pols u hg.products, rfl, ?_⟩
  unfold shown
  simp only
  rw [contiguous_pols u hg.products, mapIdx_display cj _, wanted_eq]
  have hp : ((orderOf u srt o).filter (keep auto o)).Perm ((List.range o.bls.length).filter (keep auto o)) := by
    apply List.Perm.filter
    have := ha.perm (keysOf u o)
    simpa [keysOf, orderOf] using this
  have hl : (((orderOf u srt o).filter (keep auto o)).map (line (u := u) zero one cj o)).map (display (u := u) cj)
      = ((orderOf u srt o).filter (keep auto o)).map (want (u := u) one o) := by
    rw [List.map_map]
    apply List.map_congr_left
    intro j hj
    exact display_line zero one cj hinv (ho o hm) j (order_mem ha j (List.mem_filter.1 hj).1)
  refine List.Perm.trans ?_ (hp.map _)
  rw [← hl]
  apply List.Perm.map
  split
  · exact sorted_perm _
  · exact List.Perm.refl _

end

end Verif.UvTable
