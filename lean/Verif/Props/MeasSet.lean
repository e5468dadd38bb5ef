import Verif.Lemmas.MeasRead
import Verif.Props.UvTable
/-!
# C80: measurement sets
-/
namespace Verif.MeasSet
open Spec
open UvTable (Bl sorted stableSort stableSort_argsort easySort sorted_perm)
open UvTable.Spec (Argsort)

section
variable {V U : Type}

theorem kept_perm {u : Setup} {srt : List Nat → List Nat} (ha : Argsort srt) (geom : Int → Option String → Bl → U) (o : Obs V)
    (auto : Bool) :
    (((orderOf u srt o.bls).filter (keep auto o)).map (want geom u o)).Perm (wanted geom u o auto) := by
  rw [wanted_eq]
  apply List.Perm.map
  apply List.Perm.filter
  have := ha.perm (keysOf u o.bls)
  simpa [keysOf, orderOf] using this

theorem mem_of_pick {obs : List (Obs V)} {i : Nat} {o : Obs V}
    (hi : (if i = 0 then obs.getLast? else obs[i - 1]?) = some o) : o ∈ obs := by
  split at hi
  · exact List.mem_of_getLast? hi
  · exact List.mem_of_getElem? hi

/-- Integrations written to a measurement set are read back: of the `i`th the middle, the integration time, the name of its
source, the products and, up to order, for every baseline the antennas, the coordinates and all channels of all windows.

Partial: one or two windows, one list of baselines for all integrations, and source names that tell the sources apart; the
theorems `C80_not_…` are about the others.  Weights cannot be written. -/
theorem C80_read_back_partial (u : Setup) (srt : List Nat → List Nat) (zero : V) (geom : Int → Option String → Bl → U)
    (zen : Int → String) (hg : GoodSetup u) (hw : u.bands ≤ 2) (ha : Argsort srt) (bls : List Bl) (obs : List (Obs V))
    (ho : ∀ o ∈ obs, Good u o) (hb : ∀ o ∈ obs, o.bls = bls) (hn : Names zen obs)
    (ht : (obs.map Obs.time).Pairwise (· < ·)) (hm : (obs.map Obs.mid).Pairwise (· < ·))
    (data : List (DataSet V)) (hd : data.Perm (obs.map fun o => o.sets u.stokes).flatten) (i : Nat) (o : Obs V)
    (hi : (if i = 0 then obs.getLast? else obs[i - 1]?) = some o) (auto sort : Bool) :
    ∃ f g, write u srt zero geom zen data = some f ∧ MeasSet.read u f i auto sort = some g ∧
      g.time = o.time + o.half ∧ g.half = o.half ∧ g.source = o.name zen ∧ g.pols = u.stokes ∧
      g.lines.Perm (wanted geom u o auto) := by
  have hmem := mem_of_pick hi
  have hne : obs ≠ [] := by intro e; rw [e] at hmem; cases hmem
  have hr := read_at geom zen hg ha _ obs ho hm i o hi (mem_allNames zen [] obs hmem) auto sort
  rw [if_pos (fits_few _ _ hg.windows hw)] at hr
  refine ⟨_, _, write_eq zero geom zen hg ha bls obs hne ho hb ht hn data hd, hr, rfl, rfl, rfl, rfl, ?_⟩
  refine List.Perm.trans ?_ (kept_perm ha geom o auto)
  simp only
  split
  · exact sorted_perm _
  · exact List.Perm.refl _

/-- There is nothing after the last integration. -/
theorem C80_no_more (u : Setup) (srt : List Nat → List Nat) (zero : V) (geom : Int → Option String → Bl → U)
    (zen : Int → String) (hg : GoodSetup u) (ha : Argsort srt) (bls : List Bl) (obs : List (Obs V)) (hne : obs ≠ [])
    (ho : ∀ o ∈ obs, Good u o) (hb : ∀ o ∈ obs, o.bls = bls) (hn : Names zen obs)
    (ht : (obs.map Obs.time).Pairwise (· < ·)) (hm : (obs.map Obs.mid).Pairwise (· < ·))
    (data : List (DataSet V)) (hd : data.Perm (obs.map fun o => o.sets u.stokes).flatten) (i : Nat) (hi : obs.length < i)
    (auto sort : Bool) :
    ∃ f, write u srt zero geom zen data = some f ∧ (MeasSet.read u f i auto sort).isNone := by
  refine ⟨_, write_eq zero geom zen hg ha bls obs hne ho hb ht hn data hd, ?_⟩
  unfold MeasSet.read
  simp only
  rw [keys_unique _ _ Obs.mid (fun a b hb => rowsOf_time geom zen _ a b hb) obs
    (fun a h => rowsOf_ne geom zen hg ha _ a (ho a h)) hm, if_neg (by omega), List.getElem?_eq_none (by simp; omega)]
  rfl

/-- Without `sort` the baselines come in the order of the antenna table, by the first and then the second antenna, whatever
the order they were given in; with it too if there are at most 4096 antennas. -/
theorem C80_sorted (u : Setup) (srt : List Nat → List Nat) (zero : V) (geom : Int → Option String → Bl → U)
    (zen : Int → String) (hg : GoodSetup u) (hw : u.bands ≤ 2) (ha : Argsort srt) (bls : List Bl) (obs : List (Obs V))
    (ho : ∀ o ∈ obs, Good u o) (hb : ∀ o ∈ obs, o.bls = bls) (hn : Names zen obs)
    (ht : (obs.map Obs.time).Pairwise (· < ·)) (hm : (obs.map Obs.mid).Pairwise (· < ·))
    (data : List (DataSet V)) (hd : data.Perm (obs.map fun o => o.sets u.stokes).flatten) (i : Nat) (o : Obs V)
    (hi : (if i = 0 then obs.getLast? else obs[i - 1]?) = some o) (auto sort : Bool)
    (hs : sort = true → u.stands.length ≤ 4096) :
    ∃ f g, write u srt zero geom zen data = some f ∧ MeasSet.read u f i auto sort = some g ∧
      (g.lines.map Prod.fst).Pairwise fun a b => a.1 < b.1 ∨ (a.1 = b.1 ∧ a.2 ≤ b.2) := by
  have hmem := mem_of_pick hi
  have hgo := ho o hmem
  have hne : obs ≠ [] := by intro e; rw [e] at hmem; cases hmem
  have hr := read_at geom zen hg ha _ obs ho hm i o hi (mem_allNames zen [] obs hmem) auto sort
  rw [if_pos (fits_few _ _ hg.windows hw)] at hr
  refine ⟨_, _, write_eq zero geom zen hg ha bls obs hne ho hb ht hn data hd, hr, ?_⟩
  simp only
  cases sort with
  | false =>
    simp only [Bool.false_eq_true, if_false, List.map_map, List.pairwise_map]
    refine List.Pairwise.imp_of_mem ?_ ((order_sorted hg ha hgo).filter _)
    intro i k hi hk h
    have h1 := ant_lt hg _ (blAt_mem ha hgo i (List.mem_filter.1 hi).1)
    have h2 := ant_lt hg _ (blAt_mem ha hgo k (List.mem_filter.1 hk).1)
    simp only [Function.comp, want]
    omega
  | true =>
    have hs := hs rfl
    simp only [if_true]
    have hp : (sorted (((orderOf u srt o.bls).filter (keep auto o)).map (want geom u o))).Pairwise
        (fun a b => decide (4096 * a.1.1 + a.1.2 ≤ 4096 * b.1.1 + b.1.2) = true) := by
      apply List.pairwise_mergeSort
      · intro a b c; simp only [decide_eq_true_eq]; omega
      · intro a b; simp only [Bool.or_eq_true, decide_eq_true_eq]; omega
    have hlt : ∀ x ∈ sorted (((orderOf u srt o.bls).filter (keep auto o)).map (want geom u o)), x.1.2 < 4096 := by
      intro x hx
      obtain ⟨k, hk, rfl⟩ := List.mem_map.1 ((sorted_perm _).mem_iff.1 hx)
      have := List.idxOf_lt_length_of_mem (blAt_mem ha hgo k (List.mem_filter.1 hk).1).2
      simp only [want, ant]
      omega
    rw [List.pairwise_map]
    refine List.Pairwise.imp_of_mem ?_ hp
    intro a b ha hb h
    have h := of_decide_eq_true h
    have h1 := hlt a ha
    have h2 := hlt b hb
    omega

/-- With three or more windows nothing with two or more baselines can be read. -/
theorem C80_not_windows (u : Setup) (srt : List Nat → List Nat) (zero : V) (geom : Int → Option String → Bl → U)
    (zen : Int → String) (hg : GoodSetup u) (hw : 2 < u.bands) (ha : Argsort srt) (bls : List Bl) (obs : List (Obs V))
    (ho : ∀ o ∈ obs, Good u o) (hb : ∀ o ∈ obs, o.bls = bls) (hn : Names zen obs)
    (ht : (obs.map Obs.time).Pairwise (· < ·)) (hm : (obs.map Obs.mid).Pairwise (· < ·))
    (data : List (DataSet V)) (hd : data.Perm (obs.map fun o => o.sets u.stokes).flatten) (i : Nat) (o : Obs V)
    (hi : (if i = 0 then obs.getLast? else obs[i - 1]?) = some o) (auto sort : Bool)
    (h2 : 1 < (wanted geom u o auto).length) :
    ∃ f, write u srt zero geom zen data = some f ∧ (MeasSet.read u f i auto sort).isNone := by
  have hmem := mem_of_pick hi
  have hne : obs ≠ [] := by intro e; rw [e] at hmem; cases hmem
  refine ⟨_, write_eq zero geom zen hg ha bls obs hne ho hb ht hn data hd, ?_⟩
  have hl := (kept_perm (u := u) ha geom o auto).length_eq
  rw [List.length_map] at hl
  rw [read_at geom zen hg ha _ obs ho hm i o hi (mem_allNames zen [] obs hmem) auto sort, hl, fits_many _ _ hw h2]
  rfl

end

/-- The positions in the antenna table differ by what they should. -/
theorem C80_position (c a b : Rat × Rat × Rat) :
    (position c a).1 - (position c b).1 = a.1 - b.1 ∧ (position c a).2.1 - (position c b).2.1 = a.2.1 - b.2.1 ∧
      (position c a).2.2 - (position c b).2.2 = a.2.2 - b.2.2 := by
  unfold position
  simp only
  grind

/-! ## Examples and faults -/

def exampleSetup : Setup := { stands := [3, 300, 7], stokes := [9, 12], bands := 2, chans := 1 }

def exampleObs : List (Obs Nat) :=
  [⟨10, 1, none, [(3, 3), (300, 3), (300, 7)], [[[1, 2], [3, 4], [5, 6]], [[11, 12], [13, 14], [15, 16]]]⟩,
   ⟨20, 1, some "CygA", [(3, 3), (300, 3), (300, 7)], [[[21, 22], [23, 24], [25, 26]], [[31, 32], [33, 34], [35, 36]]]⟩,
   ⟨30, 1, some "CygA", [(3, 3), (300, 3), (300, 7)], [[[1, 2], [3, 4], [5, 6]], [[11, 12], [13, 14], [15, 16]]]⟩]

def exampleZen (t : Int) : String := if t = 10 then "ZA10" else "ZA20"

example : GoodSetup exampleSetup where
  distinct := by decide
  few := by decide
  products := by decide
  codes := by decide
  windows := by decide

example : ∀ o ∈ exampleObs, Good exampleSetup o := by
  intro o ho
  simp only [exampleObs, List.mem_cons, List.not_mem_nil, or_false] at ho
  rcases ho with rfl | rfl | rfl <;> exact ⟨by decide, by decide, by decide, by decide⟩

example : Names exampleZen exampleObs where
  notZ := by decide
  distinct := by decide

example : (exampleObs.map Obs.time).Pairwise (· < ·) ∧ (exampleObs.map Obs.mid).Pairwise (· < ·) := by decide

example : wanted (fun t _ b => (t, b)) exampleSetup (exampleObs[0]?.getD ⟨0, 0, none, [], []⟩) false
    = [((1, 0), (10, 300, 3), [[3, 4], [13, 14]]), ((1, 2), (10, 300, 7), [[5, 6], [15, 16]])] := by decide

/-- Writing data sets that are in order already, with the coordinates `(time, baseline)`. -/
def written (u : Setup) (zen : Int → String) (l : List (DataSet Nat)) : Option (File Nat (Int × Bl)) :=
  if u.stokes = [] ∨ u.bands = 0 ∨ u.stands = [] ∨ l = [] then none
  else (l.foldlM (step u easySort 0 (fun t _ b => (t, b)) zen) {}).map fun s => ⟨s.rows, l.foldl (addSource u zen) []⟩

theorem write_written (u : Setup) (zen : Int → String) (l : List (DataSet Nat))
    (h : l.Pairwise fun a b => before a b = true) :
    write u easySort 0 (fun t _ b => (t, b)) zen l = written u zen l := by
  unfold write written
  simp only [List.mergeSort_of_pairwise h]

theorem read_answer (u : Setup) (f : File Nat (Int × Bl)) (i : Nat) (auto sort : Bool) (t : Int)
    (ht : (if i = 0 then (UvTable.unique (f.rows.map Row.time)).getLast? else (UvTable.unique (f.rows.map Row.time))[i - 1]?)
      = some t)
    (h : (f.rows.filter fun r => r.time == t).Pairwise fun a b => rowBefore a b = true) :
    MeasSet.read u f i auto sort = answer u f.sources auto sort t (f.rows.filter fun r => r.time == t) := by
  unfold MeasSet.read
  simp only [ht, List.mergeSort_of_pairwise h]

instance : DecidableEq (File Nat (Int × Bl)) := fun a b =>
  decidable_of_iff (a.rows = b.rows ∧ a.sources = b.sources) (by cases a; cases b; simp)

instance : DecidableEq (Got Nat (Int × Bl)) := fun a b =>
  decidable_of_iff (a.time = b.time ∧ a.half = b.half ∧ a.source = b.source ∧ a.pols = b.pols ∧ a.lines = b.lines)
    (by cases a; cases b; simp)

/-- Two integrations that list the same baselines in different orders: the visibilities of the second are given to the
wrong baselines. -/
theorem C80_not_reordered :
    ∃ (u : Setup) (a b : Obs Nat) (f : File Nat (Int × Bl)) (g : Got Nat (Int × Bl)),
      GoodSetup u ∧ Good u a ∧ Good u b ∧ a.mid < b.mid ∧ a.bls.Perm b.bls ∧
      write u easySort 0 (fun t _ b => (t, b)) exampleZen (a.sets u.stokes ++ b.sets u.stokes) = some f ∧
      MeasSet.read u f 2 true false = some g ∧ ¬ g.lines.Perm (wanted (fun t _ b => (t, b)) u b true) := by
  refine ⟨⟨[1, 2], [9], 1, 1⟩, ⟨10, 1, none, [(1, 1), (1, 2)], [[[1], [2]]]⟩,
    ⟨20, 1, none, [(1, 2), (1, 1)], [[[2], [1]]]⟩,
    ⟨[⟨11, 1, 0, 0, 0, 0, (10, 1, 1), [[1]]⟩, ⟨11, 1, 0, 0, 1, 0, (10, 1, 2), [[2]]⟩,
      ⟨21, 1, 0, 0, 0, 1, (20, 1, 2), [[2]]⟩, ⟨21, 1, 0, 0, 1, 1, (20, 1, 1), [[1]]⟩], ["ZA10", "ZA20"]⟩,
    ⟨21, 1, "ZA20", [9], [((0, 0), (20, 1, 2), [[2]]), ((0, 1), (20, 1, 1), [[1]])]⟩,
    ⟨by decide, by decide, by decide, by decide, by decide⟩, ⟨by decide, by decide, by decide, by decide⟩,
    ⟨by decide, by decide, by decide, by decide⟩, by decide, List.Perm.swap _ _ _, ?_, ?_, ?_⟩
  · rw [write_written _ _ _ (by decide)]; decide +kernel
  · rw [read_answer _ _ _ _ _ 21 (by decide +kernel) (by decide +kernel)]; decide +kernel
  · intro h
    have := h.mem_iff (a := ((0, 0), (20, 1, 1), [[1]]))
    revert this
    decide

/-- Two integrations with different numbers of baselines are refused: the antennas of the first are kept. -/
theorem C80_not_count :
    ∃ (u : Setup) (a b : Obs Nat), GoodSetup u ∧ Good u a ∧ Good u b ∧ a.mid < b.mid ∧
      (write u easySort 0 (fun t _ b => (t, b)) exampleZen (a.sets u.stokes ++ b.sets u.stokes)).isNone := by
  refine ⟨⟨[1, 2], [9], 1, 1⟩, ⟨10, 1, none, [(1, 1), (1, 2)], [[[1], [2]]]⟩, ⟨20, 1, none, [(1, 2)], [[[2]]]⟩,
    ⟨by decide, by decide, by decide, by decide, by decide⟩, ⟨by decide, by decide, by decide, by decide⟩,
    ⟨by decide, by decide, by decide, by decide⟩, by decide, ?_⟩
  rw [write_written _ _ _ (by decide)]; decide +kernel

/-- Two integrations of the zenith within a tenth of a second of sidereal time have one name in the main table and two in
the source table: what follows them is read with the second name, not its own. -/
theorem C80_not_zenith :
    ∃ (u : Setup) (zen : Int → String) (a b c : Obs Nat) (f : File Nat (Int × Bl)) (g : Got Nat (Int × Bl)),
      GoodSetup u ∧ Good u a ∧ Good u b ∧ Good u c ∧ a.mid < b.mid ∧ b.mid < c.mid ∧ a.bls = b.bls ∧ b.bls = c.bls ∧
      a.source = none ∧ b.source = none ∧ a.name zen = b.name zen ∧ c.name zen = "CygA" ∧
      write u easySort 0 (fun t _ b => (t, b)) zen (a.sets u.stokes ++ b.sets u.stokes ++ c.sets u.stokes) = some f ∧
      MeasSet.read u f 3 true false = some g ∧ g.source = a.name zen := by
  refine ⟨⟨[1], [9], 1, 1⟩, fun _ => "ZA", ⟨10, 1, none, [(1, 1)], [[[1]]]⟩, ⟨20, 1, none, [(1, 1)], [[[2]]]⟩,
    ⟨30, 1, some "CygA", [(1, 1)], [[[3]]]⟩,
    ⟨[⟨11, 1, 0, 0, 0, 0, (10, 1, 1), [[1]]⟩, ⟨21, 1, 0, 0, 0, 0, (20, 1, 1), [[2]]⟩,
      ⟨31, 1, 0, 0, 0, 1, (30, 1, 1), [[3]]⟩], ["ZA", "ZA", "CygA"]⟩,
    ⟨31, 1, "ZA", [9], [((0, 0), (30, 1, 1), [[3]])]⟩,
    ⟨by decide, by decide, by decide, by decide, by decide⟩, ⟨by decide, by decide, by decide, by decide⟩,
    ⟨by decide, by decide, by decide, by decide⟩, ⟨by decide, by decide, by decide, by decide⟩,
    by decide, by decide, rfl, rfl, rfl, rfl, rfl, rfl, ?_, by decide +kernel, rfl⟩
  rw [write_written _ _ _ (by decide)]; decide +kernel

/-- The time read is not the time given but half an integration later. -/
theorem C80_not_time :
    ∃ (u : Setup) (a : Obs Nat) (f : File Nat (Int × Bl)) (g : Got Nat (Int × Bl)), GoodSetup u ∧ Good u a ∧
      write u easySort 0 (fun t _ b => (t, b)) exampleZen (a.sets u.stokes) = some f ∧
      MeasSet.read u f 1 true false = some g ∧ g.time ≠ a.time := by
  refine ⟨⟨[1], [9], 1, 1⟩, ⟨10, 1, none, [(1, 1)], [[[1]]]⟩,
    ⟨[⟨11, 1, 0, 0, 0, 0, (10, 1, 1), [[1]]⟩], ["ZA10"]⟩, ⟨11, 1, "ZA10", [9], [((0, 0), (10, 1, 1), [[1]])]⟩,
    ⟨by decide, by decide, by decide, by decide, by decide⟩, ⟨by decide, by decide, by decide, by decide⟩, ?_,
    by decide +kernel, by decide⟩
  rw [write_written _ _ _ (by decide)]; decide +kernel

/-- An antenna at the centre of the array is put twice as far from the centre of the Earth. -/
theorem C80_not_position : ∃ c : Rat × Rat × Rat, position c c ≠ c ∧ position c c = (2 * c.1, 2 * c.2.1, 2 * c.2.2) := by
  refine ⟨(1, 0, 0), ?_, ?_⟩ <;> decide +kernel

end Verif.MeasSet
