import Verif.Lemmas.MeasSet
/-!
# Lemmas for measurement sets: what is read
-/
namespace Verif.MeasSet
open Spec
open UvTable (Bl take merge unique sorted mapM_some merge_eq unique_eq filterMap_some range_getD sorted_perm)
open UvTable.Spec (Argsort)

/-! ## Picking the rows of a time -/

section
variable {α β : Type} (f : α → List β) (key : β → Int) (t : α → Int)

theorem keys_unique (h : ∀ a, ∀ b ∈ f a, key b = t a) (l : List α) (hne : ∀ a ∈ l, f a ≠ [])
    (ht : (l.map t).Pairwise (· < ·)) : unique ((l.map f).flatten.map key) = l.map t := by
  apply unique_eq _ _ ht
  intro x
  constructor
  · intro hx
    obtain ⟨r, hr, rfl⟩ := List.mem_map.1 hx
    obtain ⟨m, hm, hr⟩ := List.mem_flatten.1 hr
    obtain ⟨a, ha, rfl⟩ := List.mem_map.1 hm
    rw [h a r hr]
    exact List.mem_map.2 ⟨a, ha, rfl⟩
  · intro hx
    obtain ⟨a, ha, rfl⟩ := List.mem_map.1 hx
    obtain ⟨r, hr⟩ := List.exists_mem_of_ne_nil _ (hne a ha)
    exact List.mem_map.2 ⟨r, List.mem_flatten.2 ⟨_, List.mem_map.2 ⟨a, ha, rfl⟩, hr⟩, h a r hr⟩

theorem key_other (h : ∀ a, ∀ b ∈ f a, key b = t a) (l : List α) (x : Int) (hx : ∀ a ∈ l, t a ≠ x) :
    (l.map f).flatten.filter (fun r => key r == x) = [] := by
  rw [List.filter_eq_nil_iff]
  intro r hr e
  obtain ⟨m, hm, hr⟩ := List.mem_flatten.1 hr
  obtain ⟨a, ha, rfl⟩ := List.mem_map.1 hm
  exact hx a ha (by rw [← h a r hr]; exact beq_iff_eq.1 e)

theorem key_filter (h : ∀ a, ∀ b ∈ f a, key b = t a) (l : List α) (ht : (l.map t).Pairwise (· < ·)) (a : α) (ha : a ∈ l) :
    (l.map f).flatten.filter (fun r => key r == t a) = f a := by
  induction l with
  | nil => cases ha
  | cons b l ih =>
    rw [List.map_cons, List.pairwise_cons] at ht
    rw [List.map_cons, List.flatten_cons, List.filter_append]
    rcases List.mem_cons.1 ha with rfl | ha
    · rw [key_other f key t h, List.append_nil, List.filter_eq_self]
      · intro r hr; rw [h a r hr]; simp
      · intro c hc
        have := ht.1 (t c) (List.mem_map.2 ⟨c, hc, rfl⟩)
        omega
    · have h2 := ht.1 (t a) (List.mem_map.2 ⟨a, ha, rfl⟩)
      have : (f b).filter (fun r => key r == t a) = [] := by
        rw [List.filter_eq_nil_iff]
        intro r hr e
        rw [h b r hr] at e
        have := beq_iff_eq.1 e
        omega
      rw [ih ht.2 ha, this, List.nil_append]

end

section
variable {V U : Type} {u : Setup} {srt : List Nat → List Nat} (geom : Int → Option String → Bl → U)
  (zen : Int → String)

theorem rowsOf_mem (names : List String) (o : Obs V) (r : Row V U) (h : r ∈ rowsOf u srt geom zen names o) :
    ∃ j i, j < u.bands ∧ i ∈ orderOf u srt o.bls ∧ r = rowOf u geom zen names o j i := by
  obtain ⟨j, hj, h⟩ := List.mem_flatMap.1 h
  obtain ⟨i, hi, rfl⟩ := List.mem_map.1 h
  exact ⟨j, i, List.mem_range.1 hj, hi, rfl⟩

theorem rowsOf_time (names : List String) (o : Obs V) (r : Row V U) (h : r ∈ rowsOf u srt geom zen names o) :
    r.time = o.mid := by
  obtain ⟨j, i, _, _, rfl⟩ := rowsOf_mem geom zen names o r h
  rfl

theorem bands_pos (hg : GoodSetup u) : 0 < u.bands := hg.windows

theorem rowsOf_ne (hg : GoodSetup u) (ha : Argsort srt) (names : List String) (o : Obs V) (ho : Good u o) :
    rowsOf u srt geom zen names o ≠ [] := by
  have hl : 0 < (orderOf u srt o.bls).length := by
    rw [order_length ha]; exact List.length_pos_iff.2 ho.some
  intro e
  have : rowOf u geom zen names o 0 (orderOf u srt o.bls)[0] ∈ rowsOf u srt geom zen names o :=
    List.mem_flatMap.2 ⟨0, List.mem_range.2 (bands_pos hg), List.mem_map.2 ⟨_, List.getElem_mem hl, rfl⟩⟩
  rw [e] at this
  cases this

/-! ## The rows are in order -/

theorem order_sorted (hg : GoodSetup u) (ha : Argsort srt) {o : Obs V} (ho : Good u o) :
    (orderOf u srt o.bls).Pairwise fun i k =>
      65536 * (ant u (blAt o i)).1 + (ant u (blAt o i)).2 ≤ 65536 * (ant u (blAt o k)).1 + (ant u (blAt o k)).2 := by
  have h := ha.sorted (keysOf u o.bls)
  have e : (orderOf u srt o.bls).filterMap (fun i => (keysOf u o.bls)[i]?)
      = (orderOf u srt o.bls).map fun i => 65536 * (ant u (blAt o i)).1 + (ant u (blAt o i)).2 := by
    apply filterMap_some
    intro i hi
    have hl := order_mem ha i hi
    have hm := blAt_mem ha ho i hi
    have hlt := ant_lt hg _ hm
    unfold keysOf
    rw [List.getElem?_map, List.getElem?_eq_getElem hl, Option.map_some]
    have e2 : o.bls[i] = blAt o i := by unfold blAt; rw [List.getElem?_eq_getElem hl]; rfl
    rw [e2, merge_eq 16 _ _ (by omega)]
  rw [show srt (keysOf u o.bls) = orderOf u srt o.bls from rfl, e, List.pairwise_map] at h
  exact h

theorem rowBefore_iff (a b : Row V U) : rowBefore a b = true ↔
    a.desc < b.desc ∨ (a.desc = b.desc ∧ (a.ant1 < b.ant1 ∨ (a.ant1 = b.ant1 ∧ a.ant2 ≤ b.ant2))) := by
  simp [rowBefore]

theorem rows_sorted (hg : GoodSetup u) (ha : Argsort srt) (names : List String) {o : Obs V} (ho : Good u o) :
    (rowsOf u srt geom zen names o).mergeSort rowBefore = rowsOf u srt geom zen names o := by
  apply List.mergeSort_of_pairwise
  unfold rowsOf
  rw [List.flatMap_def, List.pairwise_flatten]
  constructor
  · intro l hl
    obtain ⟨j, _, rfl⟩ := List.mem_map.1 hl
    rw [List.pairwise_map]
    refine List.Pairwise.imp_of_mem ?_ (order_sorted hg ha ho)
    intro i k hi hk h
    have h1 := ant_lt hg _ (blAt_mem ha ho i hi)
    have h2 := ant_lt hg _ (blAt_mem ha ho k hk)
    rw [rowBefore_iff]
    refine Or.inr ⟨rfl, ?_⟩
    show (ant u (blAt o i)).1 < (ant u (blAt o k)).1 ∨ ((ant u (blAt o i)).1 = (ant u (blAt o k)).1 ∧
      (ant u (blAt o i)).2 ≤ (ant u (blAt o k)).2)
    omega
  · rw [List.pairwise_map]
    refine List.pairwise_lt_range.imp ?_
    intro a b hab x hx y hy
    obtain ⟨i, _, rfl⟩ := List.mem_map.1 hx
    obtain ⟨k, _, rfl⟩ := List.mem_map.1 hy
    rw [rowBefore_iff]
    simp only [rowOf]
    omega

/-! ## The lines -/

/-- Whether baseline `i` is kept. -/
def keep (auto : Bool) (o : Obs V) (i : Nat) : Bool := auto || !((blAt o i).1 == (blAt o i).2)

theorem idxOf_inj (l : List Nat) (a b : Nat) (ha : a ∈ l) (hb : b ∈ l) (h : l.idxOf a = l.idxOf b) : a = b := by
  have h1 : l[l.idxOf a]'(List.idxOf_lt_length_of_mem ha) = a := List.getElem_idxOf _
  have h2 : l[l.idxOf b]'(List.idxOf_lt_length_of_mem hb) = b := List.getElem_idxOf _
  rw [← h1, ← h2]
  simp only [h]

theorem picked_eq (ha : Argsort srt) (names : List String) {o : Obs V} (ho : Good u o) (auto : Bool) :
    (rowsOf u srt geom zen names o).filter (fun r => auto || r.ant1 != r.ant2)
      = (List.range u.bands).flatMap fun j =>
          ((orderOf u srt o.bls).filter (keep auto o)).map (rowOf u geom zen names o j) := by
  unfold rowsOf
  rw [List.filter_flatMap]
  congr 1
  funext j
  rw [List.filter_map]
  congr 1
  apply List.filter_congr
  intro i hi
  have hm := blAt_mem ha ho i hi
  simp only [Function.comp, rowOf, keep, ant]
  congr 1
  rw [bne, Bool.eq_iff_iff]
  simp only [Bool.not_eq_true', beq_eq_false_iff_ne, ne_eq]
  constructor
  · intro h e; rw [e] at h; exact h rfl
  · intro h e; exact h (idxOf_inj _ _ _ hm.1 hm.2 e)

theorem map_range {α : Type} (l : List Nat) (g : Nat → α) :
    l.map g = (List.range l.length).map fun k => g ((l[k]?).getD 0) := by
  apply List.ext_getElem
  · simp
  · intro i h1 h2
    have : i < l.length := by simpa using h1
    simp [List.getElem?_eq_getElem this]

theorem picked_get (names : List String) (o : Obs V) (l : List Nat) (j k : Nat) (hj : j < u.bands) (hk : k < l.length) :
    ((List.range u.bands).flatMap fun j => l.map (rowOf u geom zen names o j))[j * l.length + k]?
      = some (rowOf u geom zen names o j ((l[k]?).getD 0)) := by
  have e : (fun j => l.map (rowOf u geom zen names o j))
      = fun j => (List.range l.length).map fun k => rowOf u geom zen names o j ((l[k]?).getD 0) := by
    funext j
    exact map_range l _
  rw [e, Nat.mul_comm]
  exact FEngine.flat_get u.bands l.length (fun j k => rowOf u geom zen names o j ((l[k]?).getD 0)) j k hj hk

theorem picked_length (names : List String) (o : Obs V) (l : List Nat) :
    ((List.range u.bands).flatMap fun j => l.map (rowOf u geom zen names o j)).length = l.length * u.bands := by
  have e : (fun j => l.map (rowOf u geom zen names o j))
      = fun j => (List.range l.length).map fun k => rowOf u geom zen names o j ((l[k]?).getD 0) := by
    funext j
    exact map_range l _
  rw [e]
  exact FEngine.flat_length u.bands l.length (fun j k => rowOf u geom zen names o j ((l[k]?).getD 0))

theorem channels_row (names : List String) {o : Obs V} (ho : Good u o) (j p i : Nat) (hj : j < u.bands)
    (hp : p < u.stokes.length) (hi : i < o.bls.length) (d : V) :
    channels p (rowOf u geom zen names o j i) = (List.range u.chans).map fun c => ((visAt o p i)[j * u.chans + c]?).getD d := by
  unfold channels rowOf cut
  simp only
  rw [List.filterMap_map]
  apply filterMap_some
  intro c hc
  have hc := List.mem_range.1 hc
  have hlt : j * u.chans + c < u.bands * u.chans := by
    have : (j + 1) * u.chans ≤ u.bands * u.chans := Nat.mul_le_mul_right _ (by omega)
    rw [Nat.add_mul] at this
    omega
  simp only [Function.comp]
  rw [List.filterMap_map, filterMap_some _ _ (fun q => ((visAt o q i)[j * u.chans + c]?).getD d)]
  · rw [List.getElem?_map, List.getElem?_range hp]
    rfl
  · intro q hq
    have hq := List.mem_range.1 hq
    simp only [Function.comp]
    rw [List.getElem?_eq_getElem (by rw [visAt_length ho q i hq hi]; exact hlt)]
    rfl

/-- All windows together. -/
theorem channels_all (names : List String) {o : Obs V} (ho : Good u o) (p i : Nat)
    (hp : p < u.stokes.length) (hi : i < o.bls.length) :
    ((List.range u.bands).flatMap fun j => channels p (rowOf u geom zen names o j i)) = visAt o p i := by
  have hl := visAt_length ho p i hp hi
  by_cases h0 : u.bands * u.chans = 0
  · have e : visAt o p i = [] := List.length_eq_zero_iff.1 (by rw [hl, h0])
    rw [e, List.flatMap_eq_nil_iff]
    intro j hj
    have hj := List.mem_range.1 hj
    have hc : u.chans = 0 := by
      rcases Nat.mul_eq_zero.1 h0 with h | h
      · omega
      · exact h
    unfold channels rowOf cut
    simp [hc]
  · have d : V := (visAt o p i)[0]'(by rw [hl]; omega)
    have e : ((List.range u.bands).flatMap fun j => channels p (rowOf u geom zen names o j i))
        = ((List.range u.bands).map fun j => (List.range u.chans).map fun c =>
            ((visAt o p i)[j * u.chans + c]?).getD d).flatten := by
      rw [List.flatMap_def]
      congr 1
      apply List.map_congr_left
      intro j hj
      exact channels_row geom zen names ho j p i (List.mem_range.1 hj) hp hi d
    rw [e, Beam.rows_flat u.bands u.chans (fun m => ((visAt o p i)[m]?).getD d)]
    exact range_getD _ _ _ hl

/-- A baseline as it is wanted. -/
def want (u : Setup) (o : Obs V) (i : Nat) : Bl × U × List (List V) :=
  (ant u (blAt o i), geom o.time o.source (blAt o i), o.products.map fun p => (p[i]?).getD [])

theorem wanted_eq (o : Obs V) (auto : Bool) :
    wanted geom u o auto = ((List.range o.bls.length).filter (keep auto o)).map (want geom u o) := by
  unfold wanted
  have e : o.bls.mapIdx (fun m b => (b, m)) = (List.range o.bls.length).map (fun m => (blAt o m, m)) := by
    apply List.ext_getElem
    · simp
    · intro i h1 h2
      have : i < o.bls.length := by simpa using h2
      simp [blAt, List.getElem?_eq_getElem this]
  rw [e, List.filterMap_map]
  generalize List.range o.bls.length = l
  induction l with
  | nil => rfl
  | cons i l ih =>
    rw [List.filterMap_cons, List.filter_cons]
    by_cases h : keep auto o i = true
    · rw [if_pos h, List.map_cons, ← ih]
      simp only [keep, Bool.or_eq_true, Bool.not_eq_true', beq_eq_false_iff_ne] at h
      simp only [Function.comp]
      rw [if_pos h]
      rfl
    · rw [if_neg h, ← ih]
      simp only [keep, Bool.or_eq_true, Bool.not_eq_true', beq_eq_false_iff_ne] at h
      simp only [Function.comp]
      rw [if_neg h]

theorem visAt_products {o : Obs V} (ho : Good u o) (i : Nat) :
    ((List.range u.stokes.length).map fun p => visAt o p i) = o.products.map fun p => (p[i]?).getD [] := by
  apply List.ext_getElem
  · simp [ho.count]
  · intro p h1 h2
    have hp : p < o.products.length := by simpa using h2
    simp [visAt, List.getElem?_eq_getElem hp]

theorem flat_congr {α β : Type} (l : List α) (f g : α → List β) (h : ∀ a ∈ l, f a = g a) : l.flatMap f = l.flatMap g := by
  rw [List.flatMap_def, List.flatMap_def, List.map_congr_left h]

theorem line_eq (hg : GoodSetup u) (names : List String) {o : Obs V} (ho : Good u o) (l : List Nat)
    (hl : ∀ i ∈ l, i < o.bls.length) (k : Nat) (hk : k < l.length) :
    line u ((List.range u.bands).flatMap fun j => l.map (rowOf u geom zen names o j)) l.length k
      = some (want geom u o ((l[k]?).getD 0)) := by
  have hi : (l[k]?).getD 0 < o.bls.length := by
    rw [List.getElem?_eq_getElem hk]; exact hl _ (List.getElem_mem hk)
  unfold line
  have h0 := picked_get geom zen names o l 0 k (bands_pos hg) hk
  rw [Nat.zero_mul, Nat.zero_add] at h0
  rw [h0, Option.map_some]
  unfold want
  rw [← visAt_products ho]
  congr 3
  apply List.map_congr_left
  intro p hp
  rw [← channels_all geom zen names ho p _ (List.mem_range.1 hp) hi]
  apply flat_congr
  intro j hj
  rw [picked_get geom zen names o l j k (List.mem_range.1 hj) hk]
  rfl

/-- Whether the number of baselines comes out right. -/
def fits (bands n : Nat) : Bool := (if 1 < bands then n * bands / 2 else n * bands) == n

theorem fits_few (bands n : Nat) (h0 : 0 < bands) (h : bands ≤ 2) : fits bands n = true := by
  unfold fits
  have : bands = 1 ∨ bands = 2 := by omega
  rcases this with e | e <;> subst e <;> simp

theorem fits_many (bands n : Nat) (h : 2 < bands) (hn : 1 < n) : fits bands n = false := by
  unfold fits
  rw [if_pos (by omega), beq_eq_false_iff_ne]
  have h1 : n * 3 ≤ n * bands := Nat.mul_le_mul_left n h
  omega

theorem linesOf_eq (hg : GoodSetup u) (ha : Argsort srt) (names : List String) {o : Obs V} (ho : Good u o) (auto : Bool) :
    linesOf u auto (rowsOf u srt geom zen names o)
      = if fits u.bands ((orderOf u srt o.bls).filter (keep auto o)).length then
          some (((orderOf u srt o.bls).filter (keep auto o)).map (want geom u o)) else none := by
  unfold linesOf
  simp only
  rw [picked_eq geom zen ha names ho]
  generalize hm : (orderOf u srt o.bls).filter (keep auto o) = l
  have hl : ∀ i ∈ l, i < o.bls.length := by
    intro i hi
    rw [← hm] at hi
    exact order_mem ha i (List.mem_filter.1 hi).1
  rw [picked_length]
  have hb := bands_pos hg
  rw [Nat.mul_div_cancel _ hb]
  by_cases hf : fits u.bands l.length = true
  · rw [if_pos hf]
    have e1 : (if 1 < u.bands then l.length * u.bands / 2 else l.length * u.bands) = l.length := beq_iff_eq.1 hf
    rw [e1, if_pos ⟨Nat.mul_mod_left _ _, fun _ => rfl⟩]
    rw [mapM_some _ _ (fun k => want geom u o ((l[k]?).getD 0))]
    · rw [map_range l]
    · intro k hk
      exact line_eq geom zen hg names ho l hl k (List.mem_range.1 hk)
  · rw [if_neg hf, if_neg]
    rintro ⟨_, h⟩
    exact hf (beq_iff_eq.2 (h hg.products).symm)

/-- What is read for an integration. -/
theorem read_at (hg : GoodSetup u) (ha : Argsort srt) (names : List String) (obs : List (Obs V)) (ho : ∀ o ∈ obs, Good u o)
    (ht : (obs.map Obs.mid).Pairwise (· < ·)) (i : Nat) (o : Obs V)
    (hi : (if i = 0 then obs.getLast? else obs[i - 1]?) = some o) (hn : o.name zen ∈ names) (auto sort : Bool) :
    read u ⟨(obs.map (rowsOf u srt geom zen names)).flatten, names⟩ i auto sort
      = if fits u.bands ((orderOf u srt o.bls).filter (keep auto o)).length then
          some ⟨o.mid, o.half, o.name zen, u.stokes,
            if sort then sorted (((orderOf u srt o.bls).filter (keep auto o)).map (want geom u o))
            else ((orderOf u srt o.bls).filter (keep auto o)).map (want geom u o)⟩
        else none := by
  have hm : o ∈ obs := by
    split at hi
    · exact List.mem_of_getLast? hi
    · exact List.mem_of_getElem? hi
  unfold read
  simp only
  rw [keys_unique _ _ Obs.mid (fun a b hb => rowsOf_time geom zen names a b hb) obs
    (fun a h => rowsOf_ne geom zen hg ha names a (ho a h)) ht]
  have e : (if i = 0 then (obs.map Obs.mid).getLast? else (obs.map Obs.mid)[i - 1]?) = some o.mid := by
    by_cases h0 : i = 0
    · rw [if_pos h0] at hi ⊢; rw [List.getLast?_map, hi]; rfl
    · rw [if_neg h0] at hi ⊢; rw [List.getElem?_map, hi]; rfl
  rw [e]
  simp only
  rw [key_filter _ Row.time Obs.mid (fun a b hb => rowsOf_time geom zen names a b hb) obs ht o hm,
    rows_sorted geom zen hg ha names (ho o hm)]
  unfold answer
  have hall : ∀ r ∈ rowsOf u srt geom zen names o, r.field = names.idxOf (o.name zen) ∧ r.half = o.half := by
    intro r hr
    obtain ⟨j, i, _, _, rfl⟩ := rowsOf_mem geom zen names o r hr
    exact ⟨rfl, rfl⟩
  cases hr : rowsOf u srt geom zen names o with
  | nil => exact absurd hr (rowsOf_ne geom zen hg ha names o (ho o hm))
  | cons r l =>
    have h1 := hall r (by rw [hr]; simp)
    simp only
    rw [← hr, if_pos]
    · have h2 : names[names.idxOf (o.name zen)]? = some (o.name zen) := by
        rw [List.getElem?_eq_getElem (List.idxOf_lt_length_of_mem hn)]
        simp
      rw [h1.1, h1.2, h2, Option.bind_some, linesOf_eq geom zen hg ha names (ho o hm) auto]
      by_cases hf : fits u.bands ((orderOf u srt o.bls).filter (keep auto o)).length = true
      · rw [if_pos hf, if_pos hf]; rfl
      · rw [if_neg hf, if_neg hf]; rfl
    · rw [List.all_eq_true]
      intro x hx
      rw [(hall x hx).1, h1.1]
      simp

end

end Verif.MeasSet
