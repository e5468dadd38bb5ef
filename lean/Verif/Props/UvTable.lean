import Verif.Lemmas.UvRead
/-!
# C70: visibility files
-/
namespace Verif.UvTable
open Dec Spec

section
variable {V W : Type}

/-- Whatever the order in which the data sets of some integrations were added, the file can be written, and reading an
integration (counted from one; zero is the last) gives its time, the products, and for every baseline, with
autocorrelations or without, the visibilities and weights of each product.

This is partial: stands have at most three digits, the products are next to each other, no two integrations have the same
time, and integrations with as many baselines list them in the same order; the theorems `C70_not_…` are about the others. -/
theorem C70_read_back_partial (u : Setup) (srt : List Nat → List Nat) (zero : V) (one : W) (cj : V → V)
    (hk : u.format = idi ∨ u.format = aips ∨ u.format = extended ∨ u.format = uv) (hg : GoodSetup u) (ha : Argsort srt)
    (hinv : ∀ x, cj (cj x) = x) (obs : List (Obs V W)) (ho : ∀ o ∈ obs, Good u o) (hne : ∀ o ∈ obs, o.bls ≠ [])
    (hsame : SameBaselines obs) (ht : (obs.map Obs.time).Pairwise (· < ·)) (data : List (DataSet V W))
    (hd : data.Perm (obs.map (fun o => o.sets u.stokes)).flatten) :
    ∃ t, write u srt zero one cj data = some t ∧
      ∀ i o auto sort, (if i = 0 then obs.getLast? else obs[i - 1]?) = some o →
        ∃ g, UvTable.read u cj t i auto sort = some g ∧ g.time = o.time ∧ g.pols = u.stokes ∧
          (shown g).Perm (wanted one u o auto) := by
  refine ⟨_, write_eq zero one cj hk hg ha obs ho hsame ht data hd, ?_⟩
  intro i o auto sort hi
  obtain ⟨_, g, h1, h2, h3, _, h4⟩ := read_at zero one cj hk hg ha hinv obs ho ht hne i o hi auto sort
  exact ⟨g, h1, h2, h3, h4⟩

/-- There are no other integrations in the file. -/
theorem C70_no_more (u : Setup) (srt : List Nat → List Nat) (zero : V) (one : W) (cj : V → V)
    (hk : u.format = idi ∨ u.format = aips ∨ u.format = extended ∨ u.format = uv) (hg : GoodSetup u) (ha : Argsort srt)
    (obs : List (Obs V W)) (ho : ∀ o ∈ obs, Good u o) (hne : ∀ o ∈ obs, o.bls ≠ [])
    (hsame : SameBaselines obs) (ht : (obs.map Obs.time).Pairwise (· < ·)) (data : List (DataSet V W))
    (hd : data.Perm (obs.map (fun o => o.sets u.stokes)).flatten) (t : List (Row V W))
    (hw : write u srt zero one cj data = some t) (i : Nat) (hi : obs.length < i) (auto sort : Bool) :
    UvTable.read u cj t i auto sort = none := by
  rw [write_eq zero one cj hk hg ha obs ho hsame ht data hd] at hw
  have hw := (Option.some.inj hw).symm
  subst hw
  unfold UvTable.read
  simp only
  rw [times_eq zero one cj ha obs hne ht, if_neg (by omega), List.getElem?_eq_none (by simp; omega)]

theorem nodup_bounded (n : Nat) (l : List Nat) (hn : l.Nodup) (h : ∀ x ∈ l, x < n) : l.length ≤ n := by
  induction n generalizing l with
  | zero =>
    cases l with
    | nil => simp
    | cons x l => exact absurd (h x (by simp)) (by omega)
  | succ n ih =>
    have h1 := ih (l.erase n) (hn.erase n) (fun x hx => by
      have := (List.Nodup.mem_erase_iff hn).1 hx
      have h2 := h x this.2
      have h3 := this.1
      omega)
    have := List.length_erase (a := n) (l := l)
    split at this <;> omega

/-- With `sort` the baselines are in order of the first and then the second antenna. -/
theorem C70_sorted (u : Setup) (srt : List Nat → List Nat) (zero : V) (one : W) (cj : V → V)
    (hk : u.format = idi ∨ u.format = aips ∨ u.format = extended ∨ u.format = uv) (hg : GoodSetup u) (ha : Argsort srt)
    (hinv : ∀ x, cj (cj x) = x) (obs : List (Obs V W)) (ho : ∀ o ∈ obs, Good u o) (hne : ∀ o ∈ obs, o.bls ≠ [])
    (hsame : SameBaselines obs) (ht : (obs.map Obs.time).Pairwise (· < ·)) (data : List (DataSet V W))
    (hd : data.Perm (obs.map (fun o => o.sets u.stokes)).flatten) (t : List (Row V W))
    (hw : write u srt zero one cj data = some t) (i : Nat) (o : Obs V W) (auto : Bool)
    (hi : (if i = 0 then obs.getLast? else obs[i - 1]?) = some o) :
    ∃ g, UvTable.read u cj t i auto true = some g ∧
      g.baselines.Pairwise (fun a b => a.1 < b.1 ∨ (a.1 = b.1 ∧ a.2 ≤ b.2)) := by
  rw [write_eq zero one cj hk hg ha obs ho hsame ht data hd] at hw
  have hw := (Option.some.inj hw).symm
  subst hw
  obtain ⟨l, g, h1, h2, h3, h5, h4⟩ := read_at zero one cj hk hg ha hinv obs ho ht hne i o hi auto true
  refine ⟨g, h1, ?_⟩
  have hm : o ∈ obs := by
    split at hi
    · exact List.mem_of_getLast? hi
    · exact List.mem_of_getElem? hi
  have hlen : u.stands.length ≤ 1000 := nodup_bounded 1000 _ hg.distinct hg.small
  have hb : ∀ x ∈ g.baselines, x.2 < 4096 := by
    intro x hx
    obtain ⟨j, hj, rfl⟩ := List.mem_iff_getElem.1 hx
    have hs : (g.baselines[j], g.data.map (fun x => x[j]?), g.weight.map (fun x => x[j]?)) ∈ shown g := by
      unfold shown
      rw [List.mem_mapIdx]
      exact ⟨j, hj, rfl⟩
    have hs := h4.mem_iff.1 hs
    rw [wanted_eq] at hs
    obtain ⟨m, hm2, e⟩ := List.mem_map.1 hs
    have hm2 := List.mem_range.1 (List.mem_filter.1 hm2).1
    have e1 := congrArg (fun x => x.1.2) e
    simp only [want, List.getElem?_eq_getElem hm2, Option.getD_some] at e1
    rw [← e1]
    have := List.idxOf_lt_length_of_mem ((ho o hm).stands _ (List.getElem_mem hm2)).2
    omega
  rw [if_pos rfl] at h5
  have hp : (sorted l).Pairwise (fun a b => decide (4096 * a.1.1 + a.1.2 ≤ 4096 * b.1.1 + b.1.2) = true) := by
    apply List.pairwise_mergeSort
    · intro a b c; simp only [decide_eq_true_eq]; omega
    · intro a b; simp only [Bool.or_eq_true, decide_eq_true_eq]; omega
  have hp2 : g.baselines.Pairwise (fun a b => 4096 * a.1 + a.2 ≤ 4096 * b.1 + b.2) := by
    rw [h5, List.pairwise_map]
    exact hp.imp (fun {a b} h => by simpa using h)
  apply List.Pairwise.imp_of_mem _ hp2
  intro a b ha hb2 hab
  have := hb a ha
  have := hb b hb2
  omega

/-- Codes next to each other may be given in any order and more than once. -/
theorem C70_stokes (codes stokes : List Int) (hc : Contiguous stokes) (h : ∀ x, x ∈ codes ↔ x ∈ stokes) :
    setStokes [] codes = stokes := setStokes_eq codes stokes hc h

/-- Whatever the stands below 100000, the stand numbers read are their last three digits. -/
theorem C70_stands_partial (u : Setup)
    (hk : u.format = idi ∨ u.format = aips ∨ u.format = extended ∨ u.format = uv) (hs : ∀ s ∈ u.stands, s < 100000) :
    actual u = u.stands.map (fun s => s % 1000) := actual_eq u hk hs

/-- An array is accepted exactly when it has no more antennas than the format allows. -/
theorem C70_geometry (f : Format) (stands : List Nat) :
    setGeometry f stands = some stands ↔ stands.length ≤ f.maxAnts := by
  unfold setGeometry
  split
  · constructor
    · intro h; cases h
    · intro h; omega
  · constructor
    · intro _; omega
    · intro _; rfl

/-- Baseline numbers can be taken apart again as long as both antennas are allowed by the format. -/
theorem C70_baseline (f : Format) (hk : f = idi ∨ f = aips ∨ f = extended ∨ f = uv) (a b : Nat) (ha : a ≤ f.maxAnts)
    (hb : b ≤ f.maxAnts) : f.split (f.merge a b) = (a, b) := known_split f hk a b ha hb

end

/-! ## Examples and faults -/

/-- A way of sorting. -/
def stableSort (l : List Nat) : List Nat :=
  (List.range l.length).mergeSort (fun i j => decide ((l[i]?).getD 0 ≤ (l[j]?).getD 0))

theorem stableSort_argsort : Argsort stableSort where
  perm l := List.mergeSort_perm _ _
  sorted l := by
    rw [filterMap_some _ _ (fun i => (l[i]?).getD 0)]
    · rw [List.pairwise_map]
      refine (List.pairwise_mergeSort ?_ ?_ (List.range l.length)).imp (fun {a b} h => by simpa using h)
      · intro a b c; simp only [decide_eq_true_eq]; omega
      · intro a b; simp only [Bool.or_eq_true, decide_eq_true_eq]; omega
    · intro i hi
      have := List.mem_range.1 ((List.mergeSort_perm _ _).mem_iff.1 hi)
      rw [List.getElem?_eq_getElem this]; rfl

/-- Insertion sort of positions, for calculations. -/
def insertPos (l : List Nat) (x : Nat) : List Nat → List Nat
  | [] => [x]
  | y :: m => if (l[x]?).getD 0 < (l[y]?).getD 0 then x :: y :: m else y :: insertPos l x m

def easySort (l : List Nat) : List Nat := (List.range l.length).foldl (fun m x => insertPos l x m) []

def exampleSetup : Setup := { format := idi, stands := [3, 300, 7], stokes := [-5, -6], width := 2 }

def exampleObs : List (Obs Nat Nat) :=
  [⟨10, [(3, 3), (300, 3), (300, 7)], [([[1, 2], [3, 4], [5, 6]], none), ([[11, 12], [13, 14], [15, 16]], some [[7, 7], [8, 8], [9, 9]])]⟩,
   ⟨20, [(7, 3)], [([[21, 22]], none), ([[31, 32]], none)]⟩]

example : GoodSetup exampleSetup where
  distinct := by decide
  small := by decide
  few := by decide
  products := ⟨-5, 2, by decide, Or.inl ⟨by decide, by decide⟩⟩

example : ∀ o ∈ exampleObs, Good exampleSetup o := by
  intro o ho
  simp only [exampleObs, List.mem_cons, List.not_mem_nil, or_false] at ho
  rcases ho with rfl | rfl
  · refine ⟨by decide, by decide, by decide, ?_⟩
    intro p hp w hw
    simp only [List.mem_cons, List.not_mem_nil, or_false] at hp
    rcases hp with rfl | rfl
    · cases hw
    · cases hw; decide
  · refine ⟨by decide, by decide, by decide, ?_⟩
    intro p hp w hw
    simp only [List.mem_cons, List.not_mem_nil, or_false] at hp
    rcases hp with rfl | rfl <;> cases hw

example : SameBaselines exampleObs := by
  intro a ha b hb h
  simp only [exampleObs, List.mem_cons, List.not_mem_nil, or_false] at ha hb
  rcases ha with rfl | rfl <;> rcases hb with rfl | rfl <;> first | rfl | (exact absurd h (by decide))

/-- The loop over data sets that are in order already. -/
def written (u : Setup) (l : List (DataSet Nat Nat)) : Option (List (Row Nat Nat)) :=
  (l.foldlM (step u easySort 0 1 id) {}).bind rows

theorem write_written (u : Setup) (l : List (DataSet Nat Nat))
    (h : l.Pairwise (fun a b => before a b = true)) : write u easySort 0 1 id l = written u l := by
  unfold write written
  rw [List.mergeSort_of_pairwise h]

/-- Two integrations that list the same baselines in different orders: the visibilities of the second are given to the
wrong baselines. -/
theorem C70_not_reordered :
    ∃ (u : Setup) (a b : Obs Nat Nat) (t : List (Row Nat Nat)) (g : Got Nat Nat),
      u.format = idi ∧ a.time < b.time ∧
      write u easySort 0 1 id (a.sets u.stokes ++ b.sets u.stokes) = some t ∧
      UvTable.read u id t 2 true false = some g ∧ ¬ (shown g).Perm (wanted 1 u b true) := by
  refine ⟨⟨idi, [1, 2], [-5], 1⟩, ⟨10, [(1, 1), (1, 2)], [([[1], [2]], none)]⟩,
    ⟨20, [(1, 2), (1, 1)], [([[2], [1]], none)]⟩,
    [⟨257, 10, [1], [1]⟩, ⟨258, 10, [2], [1]⟩, ⟨257, 20, [2], [1]⟩, ⟨258, 20, [1], [1]⟩],
    ⟨20, [(0, 0), (0, 1)], [-5], [[[2], [1]]], [[[1], [1]]]⟩, rfl, by decide, ?_, ?_, ?_⟩
  · rw [write_written _ _ (by decide)]; decide +kernel
  · rfl
  · intro h
    have := h.mem_iff (a := ((0, 0), [some [1]], [some [1]]))
    revert this
    decide

/-- `XX` and `XY` alone: the second is read as `YY`. -/
theorem C70_not_gaps :
    ∃ (u : Setup) (a : Obs Nat Nat) (t : List (Row Nat Nat)) (g : Got Nat Nat),
      u.format = idi ∧ u.stokes = setStokes [] [-5, -7] ∧
      write u easySort 0 1 id (a.sets u.stokes) = some t ∧ UvTable.read u id t 1 true false = some g ∧
      g.pols = [-5, -6] := by
  refine ⟨⟨idi, [1], [-5, -7], 1⟩, ⟨10, [(1, 1)], [([[1]], none), ([[2]], none)]⟩,
    [⟨257, 10, [1, 2], [1, 1]⟩], ⟨10, [(0, 0)], [-5, -6], [[[1]], [[2]]], [[[1]], [[1]]]⟩, rfl, by decide, ?_, rfl, rfl⟩
  rw [write_written _ _ (by decide)]; decide +kernel

/-- Stands 1 and 1001: both are read as stand 1, and everything as an autocorrelation of it. -/
theorem C70_not_stands :
    ∃ (u : Setup) (a : Obs Nat Nat) (t : List (Row Nat Nat)) (g : Got Nat Nat),
      u.format = extended ∧ u.stands = [1, 1001] ∧ actual u = [1, 1] ∧ a.bls = [(1, 1), (1, 1001)] ∧
      write u easySort 0 1 id (a.sets u.stokes) = some t ∧ UvTable.read u id t 1 true false = some g ∧
      g.baselines = [(0, 0), (0, 0)] ∧ (∃ g', UvTable.read u id t 1 false false = some g' ∧ g'.baselines = []) := by
  refine ⟨⟨extended, [1, 1001], [-5], 1⟩, ⟨10, [(1, 1), (1, 1001)], [([[1], [2]], none)]⟩,
    [⟨65537, 10, [1], [1]⟩, ⟨66537, 10, [2], [1]⟩], ⟨10, [(0, 0), (0, 0)], [-5], [[[1], [2]]], [[[1], [1]]]⟩,
    rfl, rfl, by decide +kernel, rfl, ?_, ?_, rfl, ⟨⟨10, [], [-5], [[]], [[]]⟩, ?_, rfl⟩⟩
  · rw [write_written _ _ (by decide)]; decide +kernel
  · rfl
  · rfl

/-- Stand 32768 has a number that the extended format allows, but the baseline number does not fit. -/
theorem C70_not_wide :
    ∃ (u : Setup) (a : Obs Nat Nat), u.format = extended ∧ u.stands = [32768] ∧ mapped u.format u.stands = false ∧
      write u easySort 0 1 id (a.sets u.stokes) = none := by
  refine ⟨⟨extended, [32768], [-5], 1⟩, ⟨10, [(32768, 32768)], [([[1]], none)]⟩, rfl, rfl, by decide, ?_⟩
  rw [write_written _ _ (by decide)]; decide +kernel

/-- Two integrations at the same time (two sources, say): their products are mixed and the columns differ in length. -/
theorem C70_not_simultaneous :
    ∃ (u : Setup) (a b : Obs Nat Nat) (l : List (DataSet Nat Nat)), u.format = idi ∧ a.time = b.time ∧ a.bls = b.bls ∧
      l.Perm (a.sets u.stokes ++ b.sets u.stokes) ∧ l.Pairwise (fun a b => before a b = true) ∧
      (written u l).map (fun t => t.map Row.flux) = some [[3, 2], [3, 4]] := by
  refine ⟨⟨idi, [1], [-5, -6], 1⟩, ⟨10, [(1, 1)], [([[1]], none), ([[2]], none)]⟩,
    ⟨10, [(1, 1)], [([[3]], none), ([[4]], none)]⟩,
    [⟨10, -5, [(1, 1)], [[1]], none⟩, ⟨10, -5, [(1, 1)], [[3]], none⟩, ⟨10, -6, [(1, 1)], [[2]], none⟩,
     ⟨10, -6, [(1, 1)], [[4]], none⟩], rfl, rfl, rfl, ?_, by decide, by decide +kernel⟩
  exact List.Perm.cons _ (List.Perm.swap _ _ _)

/-- UVFITS files do not keep weights. -/
theorem C70_not_weights :
    ∃ (u : Setup) (a : Obs Nat Nat) (t : List (Row Nat Nat)), u.format = uv ∧
      a.products = [([[5]], some [[9]])] ∧ write u easySort 0 1 id (a.sets u.stokes) = some t ∧ t.map Row.wt = [[1]] := by
  refine ⟨⟨uv, [1], [-5], 1⟩, ⟨10, [(1, 1)], [([[5]], some [[9]])]⟩, [⟨257, 10, [5], [1]⟩], rfl, rfl, ?_, rfl⟩
  rw [write_written _ _ (by decide)]; decide +kernel

end Verif.UvTable
