import Verif.Lemmas.FX
/-!
# C76: the correlator front ends
-/
namespace Verif.FX
open Verif.Baselines (getBaselines collect pick indexPairs offset collect_some)

variable {R S V : Type}

/-! ### polarization strings -/

theorem polCodes_iff : ∀ (l : List Char) (out : List Nat), polCodes l = .ok out ↔
    l.length = out.length ∧ ∀ (k : Nat) (ch : Char) (p : Nat), l[k]? = some ch → out[k]? = some p →
      (p = 0 ∧ (ch = 'X' ∨ ch = 'R')) ∨ (p = 1 ∧ (ch = 'Y' ∨ ch = 'L')) := by
  intro l
  induction l with
  | nil => intro out; cases out <;> simp [polCodes]
  | cons ch l ih =>
    intro out
    have key : ∀ q : Nat, ((polCodes l).map (q :: ·) = Except.ok out ↔ ∃ out', out = q :: out' ∧ polCodes l = .ok out') := by
      intro q
      cases hp : polCodes l with
      | error e => simp [Except.map]
      | ok o =>
        simp only [Except.map, Except.ok.injEq]
        constructor
        · rintro rfl; exact ⟨o, rfl, rfl⟩
        · rintro ⟨o', rfl, rfl⟩; rfl
    have main : ∀ q : Nat, (∀ p : Nat, ((p = 0 ∧ (ch = 'X' ∨ ch = 'R')) ∨ (p = 1 ∧ (ch = 'Y' ∨ ch = 'L'))) ↔ p = q) →
        ((∃ out', out = q :: out' ∧ polCodes l = .ok out') ↔ (ch :: l).length = out.length ∧
          ∀ (k : Nat) (c : Char) (p : Nat), (ch :: l)[k]? = some c → out[k]? = some p →
            (p = 0 ∧ (c = 'X' ∨ c = 'R')) ∨ (p = 1 ∧ (c = 'Y' ∨ c = 'L'))) := by
      intro q hq
      constructor
      · rintro ⟨o, rfl, ho⟩
        obtain ⟨h1, h2⟩ := (ih o).mp ho
        refine ⟨by simp [h1], ?_⟩
        intro k c p hc hp
        cases k with
        | zero =>
          simp at hc hp
          subst hc; subst hp
          exact (hq q).mpr rfl
        | succ k => exact h2 k c p (by simpa using hc) (by simpa using hp)
      · rintro ⟨h1, h2⟩
        cases out with
        | nil => simp at h1
        | cons p o =>
          have := (hq p).mp (h2 0 ch p (by simp) (by simp))
          refine ⟨o, by rw [this], (ih o).mpr ⟨by simpa using h1, ?_⟩⟩
          intro k c p' hc hp
          exact h2 (k + 1) c p' (by simpa using hc) (by simpa using hp)
    unfold polCodes
    by_cases hx : ch = 'X' ∨ ch = 'R'
    · rw [if_pos hx, key 0]
      apply main 0
      intro p
      constructor
      · rintro (⟨h, _⟩ | ⟨_, h⟩)
        · exact h
        · rcases hx with rfl | rfl <;> rcases h with h | h <;> exact absurd h (by decide)
      · rintro rfl; exact Or.inl ⟨rfl, hx⟩
    · rw [if_neg hx]
      by_cases hy : ch = 'Y' ∨ ch = 'L'
      · rw [if_pos hy, key 1]
        apply main 1
        intro p
        constructor
        · rintro (⟨_, h⟩ | ⟨h, _⟩)
          · exact absurd h hx
          · exact h
        · rintro rfl; exact Or.inr ⟨rfl, hy⟩
      · rw [if_neg hy]
        constructor
        · intro h; cases h
        · rintro ⟨h1, h2⟩
          cases out with
          | nil => simp at h1
          | cons p o =>
            rcases h2 0 ch p (by simp) (by simp) with ⟨_, h⟩ | ⟨_, h⟩
            · exact absurd h hx
            · exact absurd h hy

theorem upper_iff (ch t : Char) (ht : 65 ≤ t.toNat ∧ t.toNat ≤ 90) : ch.toUpper = t ↔ ch = t ∨ ch.toNat = t.toNat + 32 := by
  have hn : ∀ a b : Char, a = b ↔ a.toNat = b.toNat := fun a b => ⟨fun h => h ▸ rfl, fun h => Char.toNat_inj.mp h⟩
  rw [hn, hn ch t]
  unfold Char.toUpper
  split
  · next h =>
    rw [UInt32.le_iff_toNat_le, UInt32.le_iff_toNat_le] at h
    have e : (⟨ch.val + ('A'.val - 'a'.val), Char.toUpper._proof_1 ch h⟩ : Char).toNat = ch.toNat - 32 := by
      show (ch.val + ('A'.val - 'a'.val)).toNat = ch.val.toNat - 32
      rw [UInt32.toNat_add]
      have : ('A'.val - 'a'.val).toNat = 4294967264 := by decide
      have h1 : 'a'.val.toNat = 97 := by decide
      have h2 : 'z'.val.toNat = 122 := by decide
      omega
    have h1 : 'a'.val.toNat = 97 := by decide
    have h2 : 'z'.val.toNat = 122 := by decide
    have : ch.val.toNat = ch.toNat := rfl
    omega
  · next h =>
    rw [UInt32.le_iff_toNat_le, UInt32.le_iff_toNat_le] at h
    have h1 : 'a'.val.toNat = 97 := by decide
    have h2 : 'z'.val.toNat = 122 := by decide
    have : ch.val.toNat = ch.toNat := rfl
    omega

theorem letter_iff (ch : Char) (p : Nat) : Spec.Letter ch p ↔
    (p = 0 ∧ (ch.toUpper = 'X' ∨ ch.toUpper = 'R')) ∨ (p = 1 ∧ (ch.toUpper = 'Y' ∨ ch.toUpper = 'L')) := by
  have lo : ∀ a b : Char, b.toNat = a.toNat + 32 → (ch.toNat = a.toNat + 32 ↔ ch = b) := by
    intro a b h
    rw [← h]
    exact Char.toNat_inj
  rw [upper_iff ch 'X' (by decide), upper_iff ch 'R' (by decide), upper_iff ch 'Y' (by decide), upper_iff ch 'L' (by decide),
    lo 'X' 'x' (by decide), lo 'R' 'r' (by decide), lo 'Y' 'y' (by decide), lo 'L' 'l' (by decide)]
  unfold Spec.Letter
  simp only [List.mem_cons, List.not_mem_nil, or_false]
  grind

/-- **Polarization products.**  Exactly the strings of two of the letters `X`, `R`, `Y` and `L`, in upper or lower case, are
accepted; each letter stands for its polarization. -/
theorem C76_pols (pol : List Char) (p q : Nat) :
    pols pol = .ok (p, q) ↔ ∃ a b, pol = [a, b] ∧ Spec.Letter a p ∧ Spec.Letter b q := by
  have two : pols pol = .ok (p, q) ↔ polCodes (pol.map Char.toUpper) = .ok [p, q] := by
    unfold pols
    cases h : polCodes (pol.map Char.toUpper) with
    | error e => simp [Except.bind]
    | ok l =>
      simp only [Except.bind, Except.ok.injEq]
      match l with
      | [] => simp
      | [x] => simp
      | [x, y] => simp
      | x :: y :: z :: l => simp
  rw [two, polCodes_iff]
  constructor
  · rintro ⟨h1, h2⟩
    match pol, h1 with
    | [a, b], _ =>
      refine ⟨a, b, rfl, (letter_iff a p).mpr (h2 0 _ p (by simp) (by simp)), (letter_iff b q).mpr (h2 1 _ q (by simp) (by simp))⟩
  · rintro ⟨a, b, rfl, ha, hb⟩
    refine ⟨by simp, ?_⟩
    intro k ch r hc hr
    match k with
    | 0 => simp at hc hr; subst hc; subst hr; exact (letter_iff a p).mp ha
    | 1 => simp at hc hr; subst hc; subst hr; exact (letter_iff b q).mp hb
    | k + 2 => simp at hc

/-- **A mixture of linear and circular polarizations is accepted.** -/
theorem C76_not_mixed : pols ['X', 'L'] = .ok (0, 1) ∧ pols ['R', 'X'] = .ok (0, 0) := ⟨rfl, rfl⟩

/-! ### delays -/

theorem lower_get (m : Rat) (d : List (List Rat)) (r : List Rat) : r ∈ lower m d ↔ ∃ s ∈ d, r = s.map (· - m) := by
  unfold lower
  rw [List.mem_map]
  constructor
  · rintro ⟨s, hs, rfl⟩; exact ⟨s, hs, rfl⟩
  · rintro ⟨s, hs, rfl⟩; exact ⟨s, hs, rfl⟩

/-- **The reference channel.**  No delay is negative there, in either polarization, and one is zero. -/
theorem C76_reference (src : Rat × Rat × Rat) (c : Rat) (nChan : Nat) (as1 as2 : List Ant) (D1 D2 : List (List Rat))
    (h : align src c nChan as1 as2 = .ok (D1, D2)) :
    Spec.Least (fun x => ∃ r, (r ∈ D1 ∨ r ∈ D2) ∧ r[nChan / 2]? = some x) 0 ∧
    ∀ r, r ∈ D1 ∨ r ∈ D2 → nChan / 2 < r.length := by
  obtain ⟨d1, d2, m1, m2, _, _, _, h3, h4, rfl, rfl⟩ := align_ok h
  obtain ⟨⟨r1, hr1, e1⟩, l1⟩ := refMin_ok _ _ _ h3
  obtain ⟨⟨r2, hr2, e2⟩, l2⟩ := refMin_ok _ _ _ h4
  have hm : (if m1 < m2 then m1 else m2) ≤ m1 ∧ (if m1 < m2 then m1 else m2) ≤ m2 := by split <;> grind
  refine ⟨⟨?_, ?_⟩, ?_⟩
  · by_cases hlt : m1 < m2
    · rw [if_pos hlt]
      refine ⟨r1.map (· - m1), Or.inl ((lower_get _ _ _).mpr ⟨r1, hr1, rfl⟩), ?_⟩
      rw [List.getElem?_map, e1]; simp; grind
    · rw [if_neg hlt]
      refine ⟨r2.map (· - m2), Or.inr ((lower_get _ _ _).mpr ⟨r2, hr2, rfl⟩), ?_⟩
      rw [List.getElem?_map, e2]; simp; grind
  · rintro x ⟨r, hr | hr, hx⟩
    · obtain ⟨s, hs, rfl⟩ := (lower_get _ _ _).mp hr
      obtain ⟨y, hy, hle⟩ := l1 s hs
      rw [List.getElem?_map, hy] at hx
      simp at hx; grind
    · obtain ⟨s, hs, rfl⟩ := (lower_get _ _ _).mp hr
      obtain ⟨y, hy, hle⟩ := l2 s hs
      rw [List.getElem?_map, hy] at hx
      simp at hx; grind
  · rintro r (hr | hr)
    · obtain ⟨s, hs, rfl⟩ := (lower_get _ _ _).mp hr
      obtain ⟨y, hy, hle⟩ := l1 s hs
      rw [List.length_map]; exact (List.getElem?_eq_some_iff.mp hy).1
    · obtain ⟨s, hs, rfl⟩ := (lower_get _ _ _).mp hr
      obtain ⟨y, hy, hle⟩ := l2 s hs
      rw [List.length_map]; exact (List.getElem?_eq_some_iff.mp hy).1

/-- One entry of a table. -/
theorem entry_eq (src : Rat × Rat × Rat) (c : Rat) (nChan : Nat) (as : List Ant) (d : List (List Rat)) (m : Rat)
    (h : fill (as.map (rawRow src c nChan)) = .ok d) :
    ∃ top, (∀ (i ch : Nat) (a : Ant), as[i]? = some a → ch < nChan →
      ∃ r x, (lower m d)[i]? = some r ∧ r.length = nChan ∧ r[ch]? = some x ∧ x ≤ top ∧
        (∀ u, a.delay ch = some u → x = u - dot src a.xyz / c - m) ∧ (a.delay ch = none → x = top)) ∧
      ∃ r ∈ lower m d, top ∈ r := by
  obtain ⟨top, ⟨h1, h2⟩, rfl⟩ := fill_ok _ _ h
  refine ⟨top - m, ?_, ?_⟩
  · intro i ch a ha hch
    have hr : (lower m ((as.map (rawRow src c nChan)).map fun r => r.map (·.getD top)))[i]? =
        some (((rawRow src c nChan a).map (·.getD top)).map (· - m)) := by
      simp [lower, ha]
    refine ⟨_, (((a.delay ch).map (· - dot src a.xyz / c)).getD top) - m, hr, by simp [rawRow], ?_, ?_, ?_, ?_⟩
    · simp [rawRow, hch]
    · cases hu : a.delay ch with
      | none => simp
      | some u =>
        have : u - dot src a.xyz / c ≤ top := by
          apply h2
          rw [List.mem_flatten]
          refine ⟨rawRow src c nChan a, List.mem_map.mpr ⟨a, List.mem_of_getElem? ha, rfl⟩, ?_⟩
          exact List.mem_map.mpr ⟨ch, List.mem_range.mpr hch, by simp [hu]⟩
        simp; grind
    · intro u hu; simp [hu]
    · intro hu; simp [hu]
  · rw [List.mem_flatten] at h1
    obtain ⟨l, hl, hm⟩ := h1
    refine ⟨(l.map (·.getD top)).map (· - m), (lower_get _ _ _).mpr ⟨_, List.mem_map.mpr ⟨l, hl, rfl⟩, rfl⟩, ?_⟩
    exact List.mem_map.mpr ⟨top, List.mem_map.mpr ⟨some top, hm, rfl⟩, rfl⟩

/-- **Delays.**  The difference of two delays is that of the cables less that of the positions along the pointing vector.
A delay that is not finite becomes the largest one of its polarization. -/
theorem C76_delays (src : Rat × Rat × Rat) (c : Rat) (nChan : Nat) (as1 as2 : List Ant) (D1 D2 : List (List Rat))
    (h : align src c nChan as1 as2 = .ok (D1, D2)) :
    D1.length = as1.length ∧ D2.length = as1.length ∧
    ∃ m top1 top2, (∃ r ∈ D1, top1 ∈ r) ∧ (∃ r ∈ D2, top2 ∈ r) ∧
      (∀ (i ch : Nat) (a : Ant), as1[i]? = some a → ch < nChan → ∃ r x, D1[i]? = some r ∧ r.length = nChan ∧ r[ch]? = some x ∧
        x ≤ top1 ∧ (∀ u, a.delay ch = some u → x = u - Spec.along src a.xyz / c - m) ∧ (a.delay ch = none → x = top1)) ∧
      (∀ (i ch : Nat) (a : Ant), i < as1.length → as2[i]? = some a → ch < nChan → ∃ r x, D2[i]? = some r ∧ r.length = nChan ∧
        r[ch]? = some x ∧ x ≤ top2 ∧ (∀ u, a.delay ch = some u → x = u - Spec.along src a.xyz / c - m) ∧ (a.delay ch = none → x = top2)) := by
  have hdot : ∀ v, Spec.along src v = dot src v := by
    intro v; simp only [Spec.along, dot]; grind
  simp only [hdot]
  obtain ⟨hl1, hl2⟩ := align_length h
  obtain ⟨d1, d2, m1, m2, hl, h1, h2, h3, h4, rfl, rfl⟩ := align_ok h
  obtain ⟨t1, p1, q1⟩ := entry_eq src c nChan as1 d1 (if m1 < m2 then m1 else m2) h1
  obtain ⟨t2, p2, q2⟩ := entry_eq src c nChan (as2.take as1.length) d2 (if m1 < m2 then m1 else m2) h2
  refine ⟨hl1, hl2, _, t1, t2, q1, q2, p1, ?_⟩
  intro i ch a hi ha hch
  exact p2 i ch a (by rw [List.getElem?_take_of_lt hi]; exact ha) hch

/-- **Delays exist** when there is a stand, the second polarization has as many, and each has a finite delay. -/
theorem C76_delays_exist (src : Rat × Rat × Rat) (c : Rat) (nChan : Nat) (as1 as2 : List Ant) :
    (∃ D, align src c nChan as1 as2 = .ok D) ↔ as1.length ≤ as2.length ∧
      (∃ a ∈ as1, ∃ ch, ch < nChan ∧ (a.delay ch).isSome) ∧
      (∃ a ∈ as2.take as1.length, ∃ ch, ch < nChan ∧ (a.delay ch).isSome) := by
  have hfill : ∀ as : List Ant, (∃ d, fill (as.map (rawRow src c nChan)) = .ok d) ↔
      ∃ a ∈ as, ∃ ch, ch < nChan ∧ (a.delay ch).isSome := by
    intro as
    constructor
    · rintro ⟨d, hd⟩
      obtain ⟨m, ⟨h1, _⟩, _⟩ := fill_ok _ _ hd
      obtain ⟨l, hl, hm⟩ := List.mem_flatten.mp h1
      obtain ⟨a, ha, rfl⟩ := List.mem_map.mp hl
      obtain ⟨ch, hch, he⟩ := List.mem_map.mp hm
      refine ⟨a, ha, ch, List.mem_range.mp hch, ?_⟩
      cases hd : a.delay ch with
      | none => rw [hd] at he; cases he
      | some u => rfl
    · rintro ⟨a, ha, ch, hch, hs⟩
      obtain ⟨u, hu⟩ := Option.isSome_iff_exists.mp hs
      have : u - dot src a.xyz / c ∈ (as.map (rawRow src c nChan)).flatten.filterMap id := by
        refine List.mem_filterMap.mpr ⟨some (u - dot src a.xyz / c), ?_, rfl⟩
        refine List.mem_flatten.mpr ⟨_, List.mem_map.mpr ⟨a, ha, rfl⟩, List.mem_map.mpr ⟨ch, List.mem_range.mpr hch, ?_⟩⟩
        rw [hu]; rfl
      unfold fill
      cases hl : (as.map (rawRow src c nChan)).flatten.filterMap id with
      | nil => rw [hl] at this; simp at this
      | cons x l => exact ⟨_, rfl⟩
  have hmin : ∀ (as : List Ant) (d : List (List Rat)), 0 < nChan → as ≠ [] → fill (as.map (rawRow src c nChan)) = .ok d →
      ∃ m, refMin (nChan / 2) d = .ok m := by
    intro as d hn hne hd
    obtain ⟨top, _, rfl⟩ := fill_ok _ _ hd
    obtain ⟨l, hl⟩ := Baselines.collect_exists (((as.map (rawRow src c nChan)).map fun r => r.map (·.getD top)).map fun r => r[nChan / 2]?) (by
      intro x hx
      simp only [List.mem_map, List.map_map] at hx
      obtain ⟨a, ha, rfl⟩ := hx
      simp [rawRow]; omega)
    have hlen := congrArg List.length ((collect_some _ _).mp hl)
    simp only [List.length_map] at hlen
    unfold refMin
    rw [hl]
    cases l with
    | nil => cases as <;> simp_all
    | cons x l => exact ⟨_, rfl⟩
  constructor
  · rintro ⟨⟨D1, D2⟩, h⟩
    obtain ⟨d1, d2, m1, m2, hl, h1, h2, h3, h4, rfl, rfl⟩ := align_ok h
    exact ⟨hl, (hfill as1).mp ⟨d1, h1⟩, (hfill _).mp ⟨d2, h2⟩⟩
  · rintro ⟨hl, h1, h2⟩
    have hn : 0 < nChan := by obtain ⟨a, _, ch, hch, _⟩ := h1; omega
    have hne1 : as1 ≠ [] := by obtain ⟨a, ha, _⟩ := h1; rintro rfl; cases ha
    have hne2 : as2.take as1.length ≠ [] := by obtain ⟨a, ha, _⟩ := h2; intro e; rw [e] at ha; cases ha
    obtain ⟨d1, e1⟩ := (hfill as1).mpr h1
    obtain ⟨d2, e2⟩ := (hfill _).mpr h2
    obtain ⟨m1, e3⟩ := hmin as1 d1 hn hne1 e1
    obtain ⟨m2, e4⟩ := hmin _ d2 hn hne2 e2
    unfold align
    rw [if_neg (by omega), e1, e2]
    simp only [Except.bind]
    rw [e3, e4]
    exact ⟨_, rfl⟩

/-- **The F engine is given no negative shift**: what C73 needs to stay inside the samples of its own antenna. -/
theorem C76_shift {C : Type} (src : Rat × Rat × Rat) (c : Rat) (nChan : Nat) (as1 as2 : List Ant) (D1 D2 : List (List Rat))
    (h : align src c nChan as1 as2 = .ok (D1, D2)) (D : List (List Rat)) (hD : D = D1 ∨ D = D2)
    (a : FEngine.Args C) (hc : a.nChan = nChan) (hr : 0 ≤ a.sr) (i : Nat) (r : List Rat) (hi : D[i]? = some r)
    (ha : ∀ ch, r[ch]? = some (a.delay i ch) ∨ r.length ≤ ch) : 0 ≤ a.fifo i := by
  obtain ⟨⟨_, hl⟩, hin⟩ := C76_reference src c nChan as1 as2 D1 D2 h
  have hmem : r ∈ D1 ∨ r ∈ D2 := by
    have := List.mem_of_getElem? hi
    rcases hD with rfl | rfl
    · exact Or.inl this
    · exact Or.inr this
  have hx : r[nChan / 2]? = some (a.delay i (nChan / 2)) := by
    rcases ha (nChan / 2) with h | h
    · exact h
    · have := hin r hmem; omega
  have h0 := hl _ ⟨r, hmem, hx⟩
  unfold FEngine.Args.fifo FEngine.lround
  rw [hc]
  have hp : 0 ≤ a.delay i (nChan / 2) * a.sr := Rat.mul_nonneg h0 hr
  rw [if_pos hp]
  have : (0 : Int) ≤ (a.delay i (nChan / 2) * a.sr + 1 / 2).floor := by
    rw [Rat.le_floor_iff]
    grind
  exact this

/-! ### rows and baselines -/

/-- Row `k` of the result of `FXMaster` for stands `i` and `j`. -/
theorem rows_ok (bls : List (Ant × Ant)) (as1 as2 : List Ant) (auto : Bool) (rows : List V) (p : Nat × Nat → Option V)
    (hb : bls.map some = (Spec.pairs as1.length auto).map (pick as1 as2))
    (hr : rows.map some = (Spec.pairs as1.length auto).map p) :
    bls.length = (Spec.pairs as1.length auto).length ∧ rows.length = (Spec.pairs as1.length auto).length ∧
    ∀ (k : Nat) (z : Nat × Nat), (Spec.pairs as1.length auto)[k]? = some z → bls[k]? = pick as1 as2 z ∧ rows[k]? = p z := by
  refine ⟨by simpa using congrArg List.length hb, by simpa using congrArg List.length hr, ?_⟩
  intro k z hz
  rw [get_of_map hb, get_of_map hr, hz]
  exact ⟨rfl, rfl⟩

theorem mem_pairs (n : Nat) (auto : Bool) (i j : Nat) (h : (i, j) ∈ Spec.pairs n auto) : i < n ∧ j < n := by
  rw [pairs_eq, Baselines.mem_indexPairs] at h
  omega

/-- **Rows of `FXMaster`.**  When both polarizations have the same stands in the same order and the F engine finds the same
number of windows for both, there is one row for each baseline that is returned, in the same order: the product of what
the two antennas of that baseline received, each with its own delay, and with the gains of these two cables if wanted. -/
theorem C76_fx_partial (g : Eng R S V) (src : Rat × Rat × Rat) (c : Rat) (nChan : Nat) (pol : List Char) (p1 p2 : Nat)
    (auto gain : Bool) (sig : List R) (as : List Ant) (D1 D2 : List (List Rat)) (hp : pols pol = .ok (p1, p2))
    (hs : sig.length = as.length) (hm : Spec.Match (sel p1 as) (sel p2 as))
    (hd : align src c nChan (sel p1 as) (sel p2 as) = .ok (D1, D2)) (hw : g.wins D2 = g.wins D1) :
    ∃ bls rows, fxMaster g src c nChan pol auto gain sig as = .ok (bls, rows) ∧
      bls.length = (Spec.pairs (sel p1 as).length auto).length ∧ rows.length = bls.length ∧
      ∀ k i j : Nat, (Spec.pairs (sel p1 as).length auto)[k]? = some (i, j) →
        ∃ q r a b x y d e, Spec.Place as p1 i q a ∧ Spec.Place as p2 j r b ∧ sig[q]? = some x ∧ sig[r]? = some y ∧
          D1[i]? = some d ∧ D2[j]? = some e ∧ bls[k]? = some (a, b) ∧
          rows[k]? = some (if gain then g.gain a b (g.prod (g.stream (g.wins D1) x d) (g.stream (g.wins D1) y e))
            else g.prod (g.stream (g.wins D1) x d) (g.stream (g.wins D1) y e)) := by
  obtain ⟨hl1, hl2⟩ := align_length hd
  have hlen := hm.1
  obtain ⟨bls, hb, hbm⟩ := baselines_ok _ _ hm.1 auto
  obtain ⟨r1, e1, len1, get1⟩ := rowsAt_ok sig as hs p1
  obtain ⟨r2, e2, len2, get2⟩ := rowsAt_ok sig as hs p2
  have hf1 := fengine_ok g r1 D1 (by omega)
  have hf2 := fengine_ok g r2 D2 (by omega)
  rw [hw] at hf2
  have hsame : (if p2 = p1 then Except.ok (g.wins D1, List.zipWith (g.stream (g.wins D1)) r1 D1) else
      (rowsAt sig (selIdx p2 as)).bind fun rows2 => fengine g rows2 D2) =
      .ok (g.wins D1, List.zipWith (g.stream (g.wins D1)) r2 D2) := by
    by_cases he : p2 = p1
    · subst he
      rw [if_pos rfl]
      rw [e1] at e2
      injection e2 with e2
      rw [e2, align_same hd]
    · rw [if_neg he, e2]; exact hf2
  have lx : (List.zipWith (g.stream (g.wins D1)) r1 D1).length = (sel p1 as).length := by simp; omega
  have ly : (List.zipWith (g.stream (g.wins D1)) r2 D2).length = (sel p1 as).length := by simp; omega
  obtain ⟨out, hx, hxm⟩ := xengine_ok g.prod (g.wins D1) (List.zipWith (g.stream (g.wins D1)) r1 D1)
    (List.zipWith (g.stream (g.wins D1)) r2 D2) (by omega)
  rw [lx] at hxm
  obtain ⟨rows, hpr, hprm⟩ := prune_ok (sel p1 as) (sel p2 as) hm auto out _ hxm
  obtain ⟨hbl, hrl, hget⟩ := rows_ok bls _ _ auto rows _ hbm hprm
  have hcell : ∀ k i j : Nat, (Spec.pairs (sel p1 as).length auto)[k]? = some (i, j) →
      ∃ q r a b x y d e, Spec.Place as p1 i q a ∧ Spec.Place as p2 j r b ∧ sig[q]? = some x ∧ sig[r]? = some y ∧
        D1[i]? = some d ∧ D2[j]? = some e ∧ bls[k]? = some (a, b) ∧
        rows[k]? = some (g.prod (g.stream (g.wins D1) x d) (g.stream (g.wins D1) y e)) := by
    intro k i j hk
    obtain ⟨hi, hj⟩ := mem_pairs _ _ i j (List.mem_of_getElem? hk)
    obtain ⟨hbk, hrk⟩ := hget k (i, j) hk
    obtain ⟨a, q, ha, hq, pq⟩ := sel_place p1 as i hi
    obtain ⟨b, r, hb', hr, pr⟩ := sel_place p2 as j (by omega)
    have hqx := place_lt pq
    have hry := place_lt pr
    refine ⟨q, r, a, b, sig[q]'(by omega), sig[r]'(by omega), D1[i]'(by omega), D2[j]'(by omega), pq, pr,
      List.getElem?_eq_getElem _, List.getElem?_eq_getElem _, List.getElem?_eq_getElem _, List.getElem?_eq_getElem _, ?_, ?_⟩
    · rw [hbk]; unfold pick; simp only [ha, hb']
    · rw [hrk]
      have g1 := get1 i q hq
      have g2 := get2 j r hr
      rw [List.getElem?_eq_getElem (show q < sig.length by omega)] at g1
      rw [List.getElem?_eq_getElem (show r < sig.length by omega)] at g2
      have z1 : (List.zipWith (g.stream (g.wins D1)) r1 D1)[i]? = some (g.stream (g.wins D1) (sig[q]'(by omega)) (D1[i]'(by omega))) := by
        rw [List.getElem?_zipWith, g1, List.getElem?_eq_getElem (show i < D1.length by omega)]
      have z2 : (List.zipWith (g.stream (g.wins D1)) r2 D2)[j]? = some (g.stream (g.wins D1) (sig[r]'(by omega)) (D2[j]'(by omega))) := by
        rw [List.getElem?_zipWith, g2, List.getElem?_eq_getElem (show j < D2.length by omega)]
      unfold pick
      simp only [z1, z2, Option.map_some]
  have hrun : fxMaster g src c nChan pol auto gain sig as =
      (if gain then loop bls (fun a b v => .ok (g.gain a b v)) rows.length rows else .ok rows).map fun out => (bls, out) := by
    unfold fxMaster
    rw [hp]
    simp only [Except.bind]
    rw [hb]
    simp only [need]
    rw [hd]
    simp only
    rw [rows1_ok sig as hs p1, e1]
    simp only
    rw [hf1]
    simp only
    have := hsame
    simp only [Except.bind] at this
    rw [this]
    simp only
    rw [hx]
    simp only
    rw [hpr]
  rw [hrun]
  cases gain with
  | false => exact ⟨bls, rows, rfl, hbl, by omega, hcell⟩
  | true =>
    obtain ⟨fin, hfin, hflen, _, hdone⟩ := loop_ok bls (fun a b v => .ok (g.gain a b v)) g.gain rows rows.length
      (Nat.le_refl _) (by omega) (fun _ _ _ _ _ _ _ => rfl)
    refine ⟨bls, fin, by rw [if_pos rfl, hfin]; rfl, hbl, by omega, ?_⟩
    intro k i j hk
    obtain ⟨q, r, a, b, x, y, d, e, h1, h2, h3, h4, h5, h6, h7, h8⟩ := hcell k i j hk
    refine ⟨q, r, a, b, x, y, d, e, h1, h2, h3, h4, h5, h6, h7, ?_⟩
    exact hdone k a b _ (List.getElem?_eq_some_iff.mp h8).1 h7 h8

theorem match_self {as1 as2 : List Ant} (h : Spec.Match as1 as2) (i j : Nat) (a b : Ant) (ha : as1[i]? = some a)
    (hb : as1[j]? = some b) (he : a.id = b.id) : i = j := by
  have hj := (List.getElem?_eq_some_iff.mp hb).1
  have hc : as2[j]? = some (as2[j]'(by have := h.1; omega)) := List.getElem?_eq_getElem _
  have := (h.2 j j b _ hb hc).mpr rfl
  exact (h.2 i j a _ ha hc).mp (he.trans this)

theorem match_symm {as1 as2 : List Ant} (h : Spec.Match as1 as2) : Spec.Match as2 as1 :=
  ⟨h.1.symm, fun i j a b ha hb => ⟨fun e => ((h.2 j i b a hb ha).mp e.symm).symm, fun e => ((h.2 j i b a hb ha).mpr e.symm).symm⟩⟩

theorem entry_ok (as : List Ant) (d : List (List Rat))
    (hu : ∀ (i j : Nat) (a b : Ant), as[i]? = some a → as[j]? = some b → a.id = b.id → i = j)
    (i : Nat) (a : Ant) (r : List Rat) (ha : as[i]? = some a) (hr : d[i]? = some r) : entry as d a.id = .ok r := by
  have hz : (as.zip d)[i]? = some (a, r) := by rw [List.getElem?_zip_eq_some]; exact ⟨ha, hr⟩
  unfold entry
  cases hf : (as.zip d).reverse.find? (·.1.id == a.id) with
  | none =>
    rw [List.find?_eq_none] at hf
    exact absurd (hf (a, r) (List.mem_reverse.mpr (List.mem_of_getElem? hz))) (by simp)
  | some z =>
    obtain ⟨b, s⟩ := z
    have h1 := List.find?_some hf
    have h2 := List.mem_reverse.mp (List.mem_of_find?_eq_some hf)
    obtain ⟨j, hj⟩ := List.mem_iff_getElem?.mp h2
    rw [List.getElem?_zip_eq_some] at hj
    have := hu i j a b ha hj.1 (by simpa using (beq_iff_eq.mp h1).symm)
    subst this
    have e := hj.2
    rw [hr] at e
    injection e with e
    rw [e]; rfl

/-- **Rows of `XMaster`.**  When both polarizations have the same stands in the same order there is one row for each baseline
that is returned, in the same order: the product of the spectra of its two antennas, rotated with the delays of these two. -/
theorem C76_x_partial (g : Eng S S V) (rot : List Rat → List Rat → V → V) (src : Rat × Rat × Rat) (c : Rat) (nChan : Nat)
    (pol : List Char) (p1 p2 : Nat) (auto gain : Bool) (sig : List S) (as : List Ant) (D1 D2 : List (List Rat))
    (hp : pols pol = .ok (p1, p2)) (hs : sig.length = as.length) (hm : Spec.Match (sel p1 as) (sel p2 as))
    (hd : align src c nChan (sel p1 as) (sel p2 as) = .ok (D1, D2)) :
    ∃ bls rows, xMaster g rot src c nChan pol auto gain sig as = .ok (bls, rows) ∧
      bls.length = (Spec.pairs (sel p1 as).length auto).length ∧ rows.length = bls.length ∧
      ∀ k i j : Nat, (Spec.pairs (sel p1 as).length auto)[k]? = some (i, j) →
        ∃ q r a b x y d e, Spec.Place as p1 i q a ∧ Spec.Place as p2 j r b ∧ sig[q]? = some x ∧ sig[r]? = some y ∧
          D1[i]? = some d ∧ D2[j]? = some e ∧ bls[k]? = some (a, b) ∧
          rows[k]? = some (if gain then g.gain a b (rot d e (g.prod x y)) else rot d e (g.prod x y)) := by
  obtain ⟨hl1, hl2⟩ := align_length hd
  have hlen := hm.1
  obtain ⟨bls, hb, hbm⟩ := baselines_ok _ _ hm.1 auto
  obtain ⟨r1, e1, len1, get1⟩ := rowsAt_ok sig as hs p1
  obtain ⟨r2, e2, len2, get2⟩ := rowsAt_ok sig as hs p2
  have hsame : (if p2 = p1 then Except.ok r1 else rowsAt sig (selIdx p2 as)) = .ok r2 := by
    by_cases he : p2 = p1
    · subst he
      rw [if_pos rfl]
      rw [e1] at e2
      exact e2
    · rw [if_neg he, e2]
  obtain ⟨out, hx, hxm⟩ := xengine_ok g.prod 0 r1 r2 (by omega)
  rw [len1] at hxm
  obtain ⟨rows, hpr, hprm⟩ := prune_ok (sel p1 as) (sel p2 as) hm auto out _ hxm
  obtain ⟨hbl, hrl, hget⟩ := rows_ok bls _ _ auto rows _ hbm hprm
  have hcell : ∀ k i j : Nat, (Spec.pairs (sel p1 as).length auto)[k]? = some (i, j) →
      ∃ q r a b x y d e, Spec.Place as p1 i q a ∧ Spec.Place as p2 j r b ∧ sig[q]? = some x ∧ sig[r]? = some y ∧
        D1[i]? = some d ∧ D2[j]? = some e ∧ bls[k]? = some (a, b) ∧ rows[k]? = some (g.prod x y) ∧
        (sel p1 as)[i]? = some a ∧ (sel p2 as)[j]? = some b := by
    intro k i j hk
    obtain ⟨hi, hj⟩ := mem_pairs _ _ i j (List.mem_of_getElem? hk)
    obtain ⟨hbk, hrk⟩ := hget k (i, j) hk
    obtain ⟨a, q, ha, hq, pq⟩ := sel_place p1 as i hi
    obtain ⟨b, r, hb', hr, pr⟩ := sel_place p2 as j (by omega)
    have hqx := place_lt pq
    have hry := place_lt pr
    refine ⟨q, r, a, b, sig[q]'(by omega), sig[r]'(by omega), D1[i]'(by omega), D2[j]'(by omega), pq, pr,
      List.getElem?_eq_getElem _, List.getElem?_eq_getElem _, List.getElem?_eq_getElem _, List.getElem?_eq_getElem _, ?_, ?_, ha, hb'⟩
    · rw [hbk]; unfold pick; simp only [ha, hb']
    · rw [hrk]
      have g1 := get1 i q hq
      have g2 := get2 j r hr
      rw [List.getElem?_eq_getElem (show q < sig.length by omega)] at g1
      rw [List.getElem?_eq_getElem (show r < sig.length by omega)] at g2
      unfold pick
      simp only [g1, g2, Option.map_some]
  have hrun : xMaster g rot src c nChan pol auto gain sig as =
      (loop bls (rotate g rot gain (sel p1 as) (sel p2 as) (D1, D2)) rows.length rows).map fun out => (bls, out) := by
    unfold xMaster
    rw [hp]
    simp only [Except.bind]
    rw [hb]
    simp only [need]
    rw [hd]
    simp only
    rw [e1]
    simp only
    rw [hsame]
    simp only
    rw [hx]
    simp only
    rw [hpr]
  rw [hrun]
  have hrot : ∀ (i j : Nat) (a b : Ant) (d e : List Rat) (v : V), (sel p1 as)[i]? = some a → (sel p2 as)[j]? = some b →
      D1[i]? = some d → D2[j]? = some e → rotate g rot gain (sel p1 as) (sel p2 as) (D1, D2) a b v =
        .ok (if gain then g.gain a b (rot d e v) else rot d e v) := by
    intro i j a b d e v ha hb' hd1 hd2
    unfold rotate
    rw [entry_ok _ _ (match_self hm) i a d ha hd1, entry_ok _ _ (match_self (match_symm hm)) j b e hb' hd2]
    rfl
  obtain ⟨fin, hfin, hflen, _, hdone⟩ := loop_ok bls (rotate g rot gain (sel p1 as) (sel p2 as) (D1, D2))
    (fun a b v => match rotate g rot gain (sel p1 as) (sel p2 as) (D1, D2) a b v with | .ok w => w | .error _ => v)
    rows rows.length (Nat.le_refl _) (by omega) (by
      intro k a b v hk hbk hv
      have hkp : k < (Spec.pairs (sel p1 as).length auto).length := by omega
      obtain ⟨⟨i, j⟩, hz⟩ : ∃ z, (Spec.pairs (sel p1 as).length auto)[k]'hkp = z := ⟨_, rfl⟩
      obtain ⟨q, r, a', b', x, y, d, e, _, _, _, _, h5, h6, h7, h8, h9, h10⟩ := hcell k i j (by rw [List.getElem?_eq_getElem hkp, hz])
      rw [hbk] at h7
      simp only [Option.some.injEq, Prod.mk.injEq] at h7
      rw [h7.1, h7.2, hrot i j a' b' d e v h9 h10 h5 h6])
  refine ⟨bls, fin, by rw [hfin]; rfl, hbl, by omega, ?_⟩
  intro k i j hk
  obtain ⟨q, r, a, b, x, y, d, e, h1, h2, h3, h4, h5, h6, h7, h8, h9, h10⟩ := hcell k i j hk
  refine ⟨q, r, a, b, x, y, d, e, h1, h2, h3, h4, h5, h6, h7, ?_⟩
  rw [hdone k a b _ (List.getElem?_eq_some_iff.mp h8).1 h7 h8, hrot i j a b d e _ h9 h10 h5 h6]

end Verif.FX
