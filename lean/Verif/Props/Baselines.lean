import Verif.Model.Baselines
/-!
# C33: baseline lists
-/
namespace Verif.Baselines

variable {α : Type}

/-! ### helper lemmas -/

theorem collect_some {β : Type} (l : List (Option β)) (out : List β) :
    collect l = some out ↔ l = out.map some := by
  induction l generalizing out with
  | nil => cases out <;> simp [collect]
  | cons x l ih =>
    cases x with
    | none => cases out <;> simp [collect]
    | some x =>
      cases out with
      | nil => simp [collect]
      | cons y out =>
        simp only [collect, Option.map_eq_some_iff, List.map_cons, List.cons.injEq, Option.some.injEq]
        constructor
        · rintro ⟨a, ha, rfl, rfl⟩
          exact ⟨rfl, (ih _).mp ha⟩
        · rintro ⟨rfl, h⟩
          exact ⟨out, (ih _).mpr h, rfl, rfl⟩

theorem collect_exists {β : Type} (l : List (Option β)) (h : ∀ x ∈ l, x ≠ none) : ∃ out, collect l = some out := by
  induction l with
  | nil => exact ⟨[], rfl⟩
  | cons x l ih =>
    obtain ⟨out, ho⟩ := ih (fun y hy => h y (by simp [hy]))
    cases x with
    | none => exact absurd rfl (h none (by simp))
    | some x => exact ⟨x :: out, by simp [collect, ho]⟩

theorem mem_indexPairs (n off i j : Nat) : (i, j) ∈ indexPairs n off ↔ i < n ∧ i + off ≤ j ∧ j < n := by
  simp only [indexPairs, row, List.mem_flatMap, List.mem_range, List.mem_map, List.mem_range'_1, Prod.mk.injEq]
  constructor
  · rintro ⟨a, ha, b, hb, rfl, rfl⟩
    omega
  · rintro ⟨h1, h2, h3⟩
    exact ⟨i, h1, j, by omega, rfl, rfl⟩

/-- Order of index pairs. -/
def Before (p q : Nat × Nat) : Prop := p.1 < q.1 ∨ (p.1 = q.1 ∧ p.2 < q.2)

theorem indexPairs_sorted (n off : Nat) : (indexPairs n off).Pairwise Before := by
  unfold indexPairs
  rw [List.pairwise_flatMap]
  refine ⟨fun i _ => ?_, ?_⟩
  · unfold row
    rw [List.pairwise_map]
    refine (List.pairwise_lt_range' (s := i + off) (n := n - (i + off))).imp ?_
    intro a b h
    exact Or.inr ⟨rfl, h⟩
  · refine List.pairwise_lt_range.imp ?_
    intro a b h p hp q hq
    simp only [row, List.mem_map] at hp hq
    obtain ⟨_, _, rfl⟩ := hp
    obtain ⟨_, _, rfl⟩ := hq
    exact Or.inl h

theorem sum_rows (m : Nat) : ∀ n, n ≤ m →
    2 * ((List.range n).map (fun i => m - i)).sum + n * n = n * (2 * m + 1) := by
  intro n
  induction n with
  | zero => intro _; simp
  | succ n ih =>
    intro h
    have := ih (by omega)
    rw [List.range_succ, List.map_append, List.sum_append]
    simp only [List.map_cons, List.map_nil, List.sum_cons, List.sum_nil, Nat.add_zero]
    obtain ⟨d, rfl⟩ := Nat.exists_eq_add_of_lt h
    have e : n + d + 1 - n = d + 1 := by omega
    rw [e]
    grind

theorem indexPairs_length (n off : Nat) :
    (indexPairs n off).length = ((List.range n).map (fun i => n - (i + off))).sum := by
  unfold indexPairs
  rw [List.length_flatMap]
  congr 1
  apply List.map_congr_left
  intro i _
  simp [row]

theorem length_auto (n : Nat) : 2 * (indexPairs n 0).length = n * (n + 1) := by
  have := sum_rows n n (Nat.le_refl n)
  rw [indexPairs_length]
  simp only [Nat.add_zero]
  grind

theorem length_cross (n : Nat) : 2 * (indexPairs n 1).length = n * (n - 1) := by
  cases n with
  | zero => rfl
  | succ m =>
    have := sum_rows m m (Nat.le_refl m)
    rw [indexPairs_length, List.range_succ, List.map_append, List.sum_append]
    have e : ((List.range m).map (fun i => m + 1 - (i + 1))) = (List.range m).map (fun i => m - i) := by
      apply List.map_congr_left
      intro i _
      omega
    rw [e]
    simp only [List.map_cons, List.map_nil, List.sum_cons, List.sum_nil]
    rw [show m + 1 - (m + 1) = 0 by omega, show m + 1 - 1 = m by omega]
    grind

/-- What the list is, entry by entry. -/
theorem getBaselines_get (as bs : List α) (auto : Bool) (l : List (α × α))
    (h : getBaselines as bs auto = some l) :
    l.length = (indexPairs as.length (offset auto)).length ∧
      ∀ (k : Nat) (a b : α), l[k]? = some (a, b) ↔ ∃ i j, (indexPairs as.length (offset auto))[k]? = some (i, j) ∧
        as[i]? = some a ∧ bs[j]? = some b := by
  unfold getBaselines at h
  rw [collect_some] at h
  have hl := congrArg List.length h
  simp only [List.length_map] at hl
  refine ⟨hl.symm, ?_⟩
  intro k a b
  have hk := congrArg (fun x => x[k]?) h
  simp only [List.getElem?_map] at hk
  constructor
  · intro hla
    rw [hla, Option.map_some] at hk
    cases hp : (indexPairs as.length (offset auto))[k]? with
    | none => rw [hp] at hk; simp at hk
    | some p =>
      rw [hp] at hk
      obtain ⟨i, j⟩ := p
      refine ⟨i, j, rfl, ?_⟩
      simp only [Option.map_some, Option.some.injEq, pick] at hk
      split at hk
      · rename_i x y hx hy
        simp only [Option.some.injEq, Prod.mk.injEq] at hk
        rw [hx, hy, hk.1, hk.2]
        exact ⟨rfl, rfl⟩
      · simp at hk
  · rintro ⟨i, j, hp, ha, hb⟩
    rw [hp] at hk
    simp only [Option.map_some, pick, ha, hb] at hk
    cases hlk : l[k]? with
    | none => rw [hlk] at hk; simp at hk
    | some x => rw [hlk] at hk; simp at hk; rw [hk]

/-! ### the property -/

/-- The second list must not be shorter, then there is a list of baselines. -/
theorem C33_exists (as bs : List α) (auto : Bool) (h : as.length ≤ bs.length) :
    ∃ l, getBaselines as bs auto = some l := by
  apply collect_exists
  intro x hx
  rw [List.mem_map] at hx
  obtain ⟨⟨i, j⟩, hp, rfl⟩ := hx
  rw [mem_indexPairs] at hp
  have h1 : as[i]? = some (as[i]'hp.1) := List.getElem?_eq_getElem hp.1
  have h2 : bs[j]? = some (bs[j]'(by omega)) := List.getElem?_eq_getElem (by omega)
  simp [pick, h1, h2]

/-- Number of baselines. -/
theorem C33_count (as bs : List α) (auto : Bool) (l : List (α × α)) (h : getBaselines as bs auto = some l) :
    2 * l.length = if auto then as.length * (as.length + 1) else as.length * (as.length - 1) := by
  rw [(getBaselines_get as bs auto l h).1]
  cases auto
  · exact length_cross _
  · exact length_auto _

/-- For different antennas: each pair of positions `i < j` (also `i = j` with autocorrelations) is in the
list exactly once, and no other pair is. -/
theorem C33_complete [DecidableEq α] (as bs : List α) (auto : Bool) (l : List (α × α))
    (h : getBaselines as bs auto = some l) (ha : as.Nodup) (hb : bs.Nodup) (i j : Nat) (a b : α)
    (hi : as[i]? = some a) (hj : bs[j]? = some b) (hjn : j < as.length) :
    l.count (a, b) = if i < j ∨ (auto = true ∧ i = j) then 1 else 0 := by
  obtain ⟨hlen, hget⟩ := getBaselines_get as bs auto l h
  have hin : i < as.length := (List.getElem?_eq_some_iff.mp hi).1
  have hidx : ∀ k : Nat, l[k]? = some (a, b) ↔ (indexPairs as.length (offset auto))[k]? = some (i, j) := by
    intro k
    rw [hget]
    constructor
    · rintro ⟨i', j', hp, hi', hj'⟩
      have e1 : i' = i := by
        have h1 := List.getElem?_eq_some_iff.mp hi
        have h2 := List.getElem?_eq_some_iff.mp hi'
        exact (List.getElem_inj ha).mp (h2.2.trans h1.2.symm)
      have e2 : j' = j := by
        have h1 := List.getElem?_eq_some_iff.mp hj
        have h2 := List.getElem?_eq_some_iff.mp hj'
        exact (List.getElem_inj hb).mp (h2.2.trans h1.2.symm)
      rw [hp, e1, e2]
    · intro hp
      exact ⟨i, j, hp, hi, hj⟩
  have hnd : (indexPairs as.length (offset auto)).Nodup := by
    refine (indexPairs_sorted as.length (offset auto)).imp ?_
    rintro p q hpq rfl
    rcases hpq with hpq | hpq <;> omega
  have hmem : (a, b) ∈ l ↔ (i, j) ∈ indexPairs as.length (offset auto) := by
    rw [List.mem_iff_getElem?, List.mem_iff_getElem?]
    simp only [hidx]
  have hle : l.count (a, b) ≤ 1 := by
    rcases Nat.lt_or_ge 1 (l.count (a, b)) with h2 | h2
    · exfalso
      have hdup : ¬ (l.filter (· == (a, b))).length ≤ 1 := by
        rw [← List.count_eq_length_filter]; omega
      apply hdup
      have hpw : l.Pairwise (fun x y => ¬ (x = (a, b) ∧ y = (a, b))) := by
        rw [List.pairwise_iff_getElem]
        intro s t hs ht hst ⟨h3, h4⟩
        have h3' := (hidx s).mp (by rw [List.getElem?_eq_getElem hs, h3])
        have h4' := (hidx t).mp (by rw [List.getElem?_eq_getElem ht, h4])
        have g3 := List.getElem?_eq_some_iff.mp h3'
        have g4 := List.getElem?_eq_some_iff.mp h4'
        have := (List.getElem_inj hnd).mp (g3.2.trans g4.2.symm)
        omega
      clear hget hidx hmem hlen h hdup h2
      induction l with
      | nil => simp
      | cons x l ih =>
        rw [List.pairwise_cons] at hpw
        by_cases hx : x = (a, b)
        · have : l.filter (· == (a, b)) = [] := by
            rw [List.filter_eq_nil_iff]
            intro y hy hyy
            exact hpw.1 y hy ⟨hx, by simpa using hyy⟩
          rw [List.filter_cons]
          split <;> simp [this]
        · rw [List.filter_cons_of_neg (by simpa using hx)]
          exact ih hpw.2
    · exact h2
  have hpos : 0 < l.count (a, b) ↔ i < j ∨ (auto = true ∧ i = j) := by
    rw [List.count_pos_iff, hmem, mem_indexPairs]
    unfold offset
    cases auto <;> simp <;> omega
  split
  · rename_i hc
    have := hpos.mpr hc
    omega
  · rename_i hc
    rcases Nat.eq_zero_or_pos (l.count (a, b)) with h0 | h0
    · exact h0
    · exact absurd (hpos.mp h0) hc

/-- Every entry is a pair of given antennas, and the entries are in index order. -/
theorem C33_order (as bs : List α) (auto : Bool) (l : List (α × α)) (h : getBaselines as bs auto = some l) :
    ∃ idx : List (Nat × Nat), idx.length = l.length ∧ idx.Pairwise Before ∧
      ∀ (k : Nat) (a b : α), l[k]? = some (a, b) → ∃ i j, idx[k]? = some (i, j) ∧ i ≤ j ∧ as[i]? = some a ∧ bs[j]? = some b := by
  obtain ⟨hlen, hget⟩ := getBaselines_get as bs auto l h
  refine ⟨indexPairs as.length (offset auto), hlen.symm, indexPairs_sorted _ _, ?_⟩
  intro k a b hk
  obtain ⟨i, j, hp, ha, hb⟩ := (hget k a b).mp hk
  refine ⟨i, j, hp, ?_, ha, hb⟩
  have := (mem_indexPairs _ _ _ _).mp (List.mem_of_getElem? hp)
  omega

/-- What the search returns: the number of the first baseline made of the two antennas in either order
(for two different antennas), -1 if there is none. -/
theorem C33_search [DecidableEq α] (a b : α) (hab : a ≠ b) (l : List (α × α)) (k : Nat) :
    antennasToBaseline a b l = (k : Int) ↔
      (l[k]? = some (a, b) ∨ l[k]? = some (b, a)) ∧
      ∀ m, m < k → l[m]? ≠ some (a, b) ∧ l[m]? ≠ some (b, a) := by
  have hp : ∀ p : α × α, ((a = p.1 ∨ a = p.2) ∧ (b = p.1 ∨ b = p.2)) ↔ p = (a, b) ∨ p = (b, a) := by
    rintro ⟨x, y⟩
    simp only [Prod.mk.injEq]
    constructor
    · rintro ⟨rfl | rfl, rfl | rfl⟩
      · exact absurd rfl hab
      · exact Or.inl ⟨rfl, rfl⟩
      · exact Or.inr ⟨rfl, rfl⟩
      · exact absurd rfl hab
    · rintro (⟨rfl, rfl⟩ | ⟨rfl, rfl⟩)
      · exact ⟨Or.inl rfl, Or.inr rfl⟩
      · exact ⟨Or.inr rfl, Or.inl rfl⟩
  have hne : ∀ p : α × α, some p ≠ some (a, b) ∧ some p ≠ some (b, a) ↔ ¬ (p = (a, b) ∨ p = (b, a)) := by
    intro p
    simp only [ne_eq, Option.some.injEq, not_or]
  unfold antennasToBaseline
  cases hf : l.findIdx? (fun p => decide ((a = p.1 ∨ a = p.2) ∧ (b = p.1 ∨ b = p.2))) with
  | none =>
    simp only
    rw [List.findIdx?_eq_none_iff] at hf
    constructor
    · intro h; omega
    · rintro ⟨h, _⟩
      exfalso
      have hm : ∃ x, l[k]? = some x ∧ (x = (a, b) ∨ x = (b, a)) := by
        rcases h with h | h
        · exact ⟨_, h, Or.inl rfl⟩
        · exact ⟨_, h, Or.inr rfl⟩
      obtain ⟨x, hx, hx2⟩ := hm
      have := hf x (List.mem_of_getElem? hx)
      simp only [decide_eq_false_iff_not, hp] at this
      exact this hx2
  | some n =>
    simp only [Int.ofNat_inj]
    rw [List.findIdx?_eq_some_iff_getElem] at hf
    obtain ⟨hn, h1, h2⟩ := hf
    simp only [decide_eq_true_eq, hp] at h1
    constructor
    · rintro rfl
      refine ⟨?_, ?_⟩
      · rw [List.getElem?_eq_getElem hn]
        rcases h1 with h1 | h1
        · exact Or.inl (by rw [h1])
        · exact Or.inr (by rw [h1])
      · intro m hm
        have := h2 m hm
        simp only [decide_eq_true_eq, hp] at this
        rw [List.getElem?_eq_getElem (by omega), hne]
        exact this
    · rintro ⟨h3, h4⟩
      rcases Nat.lt_trichotomy n k with hlt | heq | hgt
      · exfalso
        have := h4 n hlt
        rw [List.getElem?_eq_getElem hn, hne] at this
        exact this h1
      · exact heq
      · exfalso
        have := h2 k hgt
        simp only [decide_eq_true_eq, hp] at this
        rw [List.getElem?_eq_getElem (by omega)] at h3
        simp only [Option.some.injEq] at h3
        exact this h3

theorem C33_not_found [DecidableEq α] (a b : α) (hab : a ≠ b) (l : List (α × α)) :
    antennasToBaseline a b l = -1 ↔ (a, b) ∉ l ∧ (b, a) ∉ l := by
  constructor
  · intro h
    have hall : ∀ k : Nat, l[k]? ≠ some (a, b) ∧ l[k]? ≠ some (b, a) := by
      unfold antennasToBaseline at h
      cases hf : l.findIdx? (fun p => decide ((a = p.1 ∨ a = p.2) ∧ (b = p.1 ∨ b = p.2))) with
      | some n => rw [hf] at h; simp only at h; omega
      | none =>
        rw [List.findIdx?_eq_none_iff] at hf
        intro k
        constructor
        · intro hk
          have := hf _ (List.mem_of_getElem? hk)
          simp at this
        · intro hk
          have := hf _ (List.mem_of_getElem? hk)
          simp at this
    rw [List.mem_iff_getElem?, List.mem_iff_getElem?]
    exact ⟨fun ⟨k, hk⟩ => (hall k).1 hk, fun ⟨k, hk⟩ => (hall k).2 hk⟩
  · rintro ⟨h1, h2⟩
    unfold antennasToBaseline
    cases hf : l.findIdx? (fun p => decide ((a = p.1 ∨ a = p.2) ∧ (b = p.1 ∨ b = p.2))) with
    | none => rfl
    | some n =>
      exfalso
      have hk : antennasToBaseline a b l = (n : Int) := by unfold antennasToBaseline; rw [hf]
      rcases ((C33_search a b hab l n).mp hk).1 with h | h
      · exact h1 (List.mem_of_getElem? h)
      · exact h2 (List.mem_of_getElem? h)

/-- Number to antennas to number, in either order of the antennas, for baselines of two different
antennas.  Missing from the full property: autocorrelations (`C33_auto`). -/
theorem C33_inverse_partial [DecidableEq α] (as : List α) (ha : as.Nodup) (auto : Bool) (l : List (α × α))
    (h : getBaselines as as auto = some l) (k : Nat) (a b : α) (hab : a ≠ b)
    (hk : baselineToAntennas l (k : Int) = some (a, b)) :
    antennasToBaseline a b l = (k : Int) ∧ antennasToBaseline b a l = (k : Int) := by
  have hk' : l[k]? = some (a, b) := by
    unfold baselineToAntennas at hk
    rw [if_pos (by omega)] at hk
    simpa using hk
  obtain ⟨hlen, hget⟩ := getBaselines_get as as auto l h
  obtain ⟨i, j, hp, hi, hj⟩ := (hget k a b).mp hk'
  have hij := (mem_indexPairs _ _ _ _).mp (List.mem_of_getElem? hp)
  have hne : i ≠ j := by
    rintro rfl
    rw [hi] at hj
    exact hab (Option.some.inj hj)
  have hother : ∀ m, m < k → l[m]? ≠ some (a, b) ∧ l[m]? ≠ some (b, a) := by
    intro m hm
    constructor
    · intro hma
      obtain ⟨i', j', hp', hi', hj'⟩ := (hget m a b).mp hma
      have e1 : i' = i := by
        have h1 := List.getElem?_eq_some_iff.mp hi
        have h2 := List.getElem?_eq_some_iff.mp hi'
        exact (List.getElem_inj ha).mp (h2.2.trans h1.2.symm)
      have e2 : j' = j := by
        have h1 := List.getElem?_eq_some_iff.mp hj
        have h2 := List.getElem?_eq_some_iff.mp hj'
        exact (List.getElem_inj ha).mp (h2.2.trans h1.2.symm)
      subst e1 e2
      have g3 := List.getElem?_eq_some_iff.mp hp
      have g4 := List.getElem?_eq_some_iff.mp hp'
      have := List.pairwise_iff_getElem.mp (indexPairs_sorted as.length (offset auto)) m k g4.1 g3.1 hm
      rw [g3.2, g4.2] at this
      rcases this with this | this <;> simp only at this <;> omega
    · intro hma
      obtain ⟨i', j', hp', hi', hj'⟩ := (hget m b a).mp hma
      have e1 : i' = j := by
        have h1 := List.getElem?_eq_some_iff.mp hj
        have h2 := List.getElem?_eq_some_iff.mp hi'
        exact (List.getElem_inj ha).mp (h2.2.trans h1.2.symm)
      have e2 : j' = i := by
        have h1 := List.getElem?_eq_some_iff.mp hi
        have h2 := List.getElem?_eq_some_iff.mp hj'
        exact (List.getElem_inj ha).mp (h2.2.trans h1.2.symm)
      have := (mem_indexPairs _ _ _ _).mp (List.mem_of_getElem? hp')
      omega
  exact ⟨(C33_search a b hab l k).mpr ⟨Or.inl hk', hother⟩,
    (C33_search b a (Ne.symm hab) l k).mpr ⟨Or.inr hk', fun m hm => ⟨(hother m hm).2, (hother m hm).1⟩⟩⟩

/-- The search for an antenna with itself finds the first baseline that contains it.  With
autocorrelations this is the one with the first antenna, so the number of the autocorrelation is not
found; without, a number is returned although the pair is not a baseline. -/
theorem C33_auto [DecidableEq α] (as : List α) (ha : as.Nodup) (auto : Bool) (l : List (α × α))
    (h : getBaselines as as auto = some l) (a0 a : α) (i : Nat) (hi : 0 < i) (h0 : as[0]? = some a0)
    (hai : as[i]? = some a) : antennasToBaseline a a l ≠ -1 ∧
      ∀ k : Nat, antennasToBaseline a a l = (k : Int) → l[k]? ≠ some (a, a) := by
  obtain ⟨hlen, hget⟩ := getBaselines_get as as auto l h
  have hlt := (List.getElem?_eq_some_iff.mp hai).1
  -- the baseline with the first antenna
  have hmem : (0, i) ∈ indexPairs as.length (offset auto) := by
    rw [mem_indexPairs]
    unfold offset
    split <;> omega
  obtain ⟨m, hm⟩ := List.mem_iff_getElem?.mp hmem
  have hlm : l[m]? = some (a0, a) := (hget m a0 a).mpr ⟨0, i, hm, h0, hai⟩
  unfold antennasToBaseline
  cases hf : l.findIdx? (fun p => decide ((a = p.1 ∨ a = p.2) ∧ (a = p.1 ∨ a = p.2))) with
  | none =>
    exfalso
    rw [List.findIdx?_eq_none_iff] at hf
    have := hf _ (List.mem_of_getElem? hlm)
    simp at this
  | some n =>
    simp only
    refine ⟨by omega, ?_⟩
    intro k hk
    have hkn : k = n := by omega
    subst hkn
    rw [List.findIdx?_eq_some_iff_getElem] at hf
    obtain ⟨hn, h1, h2⟩ := hf
    intro hka
    obtain ⟨i', j', hp', hi', hj'⟩ := (hget k a a).mp hka
    have e1 : i' = i := by
      have g1 := List.getElem?_eq_some_iff.mp hai
      have g2 := List.getElem?_eq_some_iff.mp hi'
      exact (List.getElem_inj ha).mp (g2.2.trans g1.2.symm)
    have hmk : ¬ m < k := by
      intro hmk
      have := h2 m hmk
      rw [(List.getElem?_eq_some_iff.mp hlm).2] at this
      simp at this
    have hne : m ≠ k := by
      rintro rfl
      rw [hm] at hp'
      simp only [Option.some.injEq, Prod.mk.injEq] at hp'
      omega
    have g3 := List.getElem?_eq_some_iff.mp hm
    have g4 := List.getElem?_eq_some_iff.mp hp'
    have := List.pairwise_iff_getElem.mp (indexPairs_sorted as.length (offset auto)) k m g4.1 g3.1 (by omega)
    rw [g3.2, g4.2] at this
    rcases this with this | this <;> simp only at this <;> omega

example : getBaselines [10, 20, 30] [10, 20, 30] false = some [(10, 20), (10, 30), (20, 30)] ∧
    antennasToBaseline 30 20 [(10, 20), (10, 30), (20, 30)] = 2 ∧
    getBaselines [10, 20] [10, 20] true = some [(10, 10), (10, 20), (20, 20)] ∧
    antennasToBaseline 20 20 [(10, 10), (10, 20), (20, 20)] = 1 ∧
    [10, 20, 30].Nodup ∧ getBaselines [10, 20] [1] false = none := by decide

end Verif.Baselines
