import Verif.Lemmas.LdpGroup
import Verif.Props.Buffer
/-!
# Ids and places of TBX and COR files, and the file position
-/
set_option linter.unusedSectionVars false

namespace Verif.LdpGroup
open Verif.Buffer
open Verif.Ldp (tagOf tagOf_inj tagOf_lt tagOf_succ)

theorem idxOf?_of_mem {α : Type} [BEq α] [LawfulBEq α] {l : List α} {x : α} (h : x ∈ l) : l.idxOf? x = some (l.idxOf x) := by
  induction l with
  | nil => simp at h
  | cons y l ih =>
    rw [List.idxOf?_cons, List.idxOf_cons]
    by_cases e : y = x
    · simp [e]
    · have e' : (y == x) = false := by simpa using e
      rw [e', ih (by simpa [Ne.symm e] using h)]
      simp

theorem idxOf_inj {α : Type} [BEq α] [LawfulBEq α] {l : List α} {x y : α} (hx : x ∈ l) (hy : y ∈ l) (h : l.idxOf x = l.idxOf y) :
    x = y := by
  have h1 := List.idxOf_lt_length_of_mem hx
  have e1 := List.getElem_idxOf (x := x) (xs := l) h1
  have h2 := List.idxOf_lt_length_of_mem hy
  have e2 := List.getElem_idxOf (x := y) (xs := l) h2
  rw [← e1, ← e2]
  congr 1

theorem nodup_flatMap_key {α β : Type} (key : β → α) (g : α → List β) (l : List α) (hl : l.Nodup)
    (hk : ∀ a ∈ l, ∀ y ∈ g a, key y = a) (hg : ∀ a ∈ l, (g a).Nodup) : (l.flatMap g).Nodup := by
  induction l with
  | nil => simp
  | cons a l ih =>
    rw [List.nodup_cons] at hl
    rw [List.flatMap_cons, List.nodup_append]
    refine ⟨hg a (by simp), ih hl.2 (fun b hb => hk b (by simp [hb])) (fun b hb => hg b (by simp [hb])), ?_⟩
    intro y hy z hz e
    subst e
    rw [List.mem_flatMap] at hz
    obtain ⟨b, hb, hyb⟩ := hz
    have h1 := hk a (by simp) y hy
    have h2 := hk b (by simp [hb]) y hyb
    rw [h1] at h2
    exact hl.1 (h2 ▸ hb)

theorem nodup_range' (s n : Nat) : (List.range' s n).Nodup := by
  induction n generalizing s with
  | zero => simp
  | succ n ih =>
    rw [List.range'_succ, List.nodup_cons]
    refine ⟨?_, ih _⟩
    rw [List.mem_range'_1]
    omega

/-! ## Baselines -/

def block (n i : Nat) : List (Nat × Nat) := (List.range' i (n + 1 - i)).map (fun j => (i, j))

theorem pairs_eq (n : Nat) : pairs n = (List.range' 1 n).flatMap (block n) := rfl

theorem mem_pairs {n i j : Nat} : (i, j) ∈ pairs n ↔ 1 ≤ i ∧ i ≤ j ∧ j ≤ n := by
  simp only [pairs, List.mem_flatMap, List.mem_map, List.mem_range'_1, Prod.mk.injEq]
  constructor
  · rintro ⟨a, h1, b, h2, rfl, rfl⟩; omega
  · rintro ⟨h1, h2, h3⟩
    exact ⟨i, by omega, j, by omega, rfl, rfl⟩

theorem pairs_nodup (n : Nat) : (pairs n).Nodup := by
  rw [pairs_eq]
  apply nodup_flatMap_key Prod.fst _ _ (nodup_range' _ _)
  · intro a _ y hy
    simp only [block, List.mem_map] at hy
    obtain ⟨_, _, rfl⟩ := hy
    rfl
  · intro a _
    apply nodup_map_of_inj (nodup_range' _ _)
    intro x _ y _ e
    simpa using e

theorem blocks_length (n : Nat) (d : Nat) : ∀ s, s + d = n + 1 → 2 * ((List.range' s d).flatMap (block n)).length = d * (d + 1) := by
  induction d with
  | zero => intro s _; simp
  | succ d ih =>
    intro s h
    rw [List.range'_succ, List.flatMap_cons, List.length_append, Nat.mul_add, ih (s + 1) (by omega)]
    simp only [block, List.length_map, List.length_range']
    rw [show n + 1 - s = d + 1 by omega]
    grind

theorem pairs_length (n : Nat) : (pairs n).length = n * (n + 1) / 2 := by
  have := blocks_length n n 1 (by omega)
  rw [pairs_eq]
  omega

theorem idxOf_block (i j : Nat) (d : Nat) : ∀ s, s ≤ j → j < s + d →
    ((List.range' s d).map (fun j => (i, j))).idxOf (i, j) = j - s := by
  induction d with
  | zero => intro s _ _; omega
  | succ d ih =>
    intro s h1 h2
    rw [List.range'_succ, List.map_cons, List.idxOf_cons]
    by_cases e : s = j
    · simp [e]
    · have e' : ((i, s) == (i, j)) = false := by simpa using e
      rw [e', ih (s + 1) (by omega) (by omega)]
      simp only [cond_false]
      omega

theorem idxOf_blocks (n i j : Nat) (hij : i ≤ j) (hj : j ≤ n) (d : Nat) : ∀ s, s ≤ i → i < s + d →
    ((List.range' s d).flatMap (block n)).idxOf (i, j) = ((List.range' s (i - s)).map (fun k => n + 1 - k)).sum + (j - i) := by
  induction d with
  | zero => intro s _ _; omega
  | succ d ih =>
    intro s h1 h2
    rw [List.range'_succ, List.flatMap_cons, List.idxOf_append]
    by_cases e : s = i
    · subst e
      have hm : (s, j) ∈ block n s := by
        simp only [block, List.mem_map, List.mem_range'_1]
        exact ⟨j, by omega, rfl⟩
      rw [if_pos hm, Nat.sub_self]
      unfold block
      rw [idxOf_block _ _ _ _ hij (by omega)]
      simp
    · have hm : (i, j) ∉ block n s := by
        simp only [block, List.mem_map, not_exists, not_and, Prod.mk.injEq]
        intro x _ h
        exact absurd h e
      rw [if_neg hm, ih (s + 1) (by omega) (by omega), show i - s = (i - (s + 1)) + 1 by omega, List.range'_succ,
        List.map_cons, List.sum_cons]
      simp only [block, List.length_map, List.length_range']
      omega

/-- The place of a baseline in `bmapperd`. -/
theorem idxOf_pairs {n i j : Nat} (hi : 1 ≤ i) (hij : i ≤ j) (hj : j ≤ n) : (pairs n).idxOf (i, j) = baselinePlace n i j := by
  rw [pairs_eq, idxOf_blocks n i j hij hj n 1 hi (by omega)]
  unfold baselinePlace
  congr 2
  rw [List.range_eq_range', List.range'_eq_map_range, List.range'_eq_map_range, List.map_map, List.map_map]
  apply List.map_congr_left
  intro k _
  simp only [Function.comp]
  omega

theorem filter_le_range' (a n : Nat) (h1 : 1 ≤ a) (h2 : a ≤ n) :
    (List.range' 1 n).filter (fun b => decide (a ≤ b)) = List.range' a (n + 1 - a) := by
  have e : List.range' 1 n = List.range' 1 (a - 1) ++ List.range' a (n + 1 - a) := by
    have := List.range'_append_1 (s := 1) (m := a - 1) (n := n + 1 - a)
    rw [show 1 + (a - 1) = a by omega, show a - 1 + (n + 1 - a) = n by omega] at this
    exact this.symm
  rw [e, List.filter_append]
  rw [List.filter_eq_nil_iff.mpr, List.nil_append, List.filter_eq_self.mpr]
  · intro b hb; rw [List.mem_range'_1] at hb; simpa using hb.1
  · intro b hb; rw [List.mem_range'_1] at hb; simp; omega

theorem corIds_eq (n : Nat) (chans : List Nat) :
    corIds (List.range' 1 n) chans = (pairs n).flatMap (fun p => chans.map (fun c => (p.1, p.2, c))) := by
  unfold corIds pairs
  rw [List.flatMap_assoc]
  rw [List.flatMap_def, List.flatMap_def]
  congr 1
  apply List.map_congr_left
  intro a ha
  rw [List.mem_range'_1] at ha
  rw [filter_le_range' a n (by omega) (by omega), List.flatMap_map]

theorem mem_corIds {n : Nat} {chans : List Nat} {x : Nat × Nat × Nat} :
    x ∈ corIds (List.range' 1 n) chans ↔ (x.1, x.2.1) ∈ pairs n ∧ x.2.2 ∈ chans := by
  rw [corIds_eq]
  simp only [List.mem_flatMap, List.mem_map]
  constructor
  · rintro ⟨p, hp, c, hc, rfl⟩; exact ⟨hp, hc⟩
  · rintro ⟨h1, h2⟩; exact ⟨_, h1, _, h2, rfl⟩

theorem corCfg_ok (n : Nat) (chans : List Nat) (hc : chans.Nodup) (nseg : Nat) (r : Bool) :
    CfgOK (corCfg (List.range' 1 n) chans nseg r) := by
  refine ⟨?_, ?_⟩
  · show (corIds (List.range' 1 n) chans).Nodup
    rw [corIds_eq]
    apply nodup_flatMap_key (fun x => (x.1, x.2.1)) _ _ (pairs_nodup n)
    · intro p _ y hy
      rw [List.mem_map] at hy
      obtain ⟨c, _, rfl⟩ := hy
      rfl
    · intro p _
      apply nodup_map_of_inj hc
      intro x _ y _ e
      simpa using e
  · show (List.range' 1 n).length * ((List.range' 1 n).length + 1) / 2 * chans.length =
      (corIds (List.range' 1 n) chans).length
    rw [corIds_eq, List.length_range', ← pairs_length]
    have : ∀ l : List (Nat × Nat), (l.flatMap (fun p => chans.map (fun c => (p.1, p.2, c)))).length = l.length * chans.length := by
      intro l
      induction l with
      | nil => simp
      | cons p l ih => rw [List.flatMap_cons, List.length_append, ih, List.length_map, List.length_cons, Nat.add_mul]; omega
    exact (this _).symm

theorem tbxCfg_ok (mapper : List Nat) (hm : mapper.Nodup) (nseg : Nat) (r : Bool) : CfgOK (tbxCfg mapper nseg r) := ⟨hm, rfl⟩

theorem corRow_eq {n : Nat} {chans : List Nat} {x : Nat × Nat × Nat} (h : x ∈ corIds (List.range' 1 n) chans) :
    corRow n chans x = some (corPlace n chans x) ∧ corPlace n chans x < chans.length * (n * (n + 1) / 2) := by
  rw [mem_corIds] at h
  obtain ⟨h1, h2⟩ := h
  have hm := mem_pairs.mp h1
  have e := idxOf_pairs hm.1 hm.2.1 hm.2.2
  refine ⟨?_, ?_⟩
  · unfold corRow corPlace
    rw [idxOf?_of_mem h1, idxOf?_of_mem h2, e]
  · unfold corPlace
    have hb := List.idxOf_lt_length_of_mem h1
    rw [pairs_length, e] at hb
    have hc := List.idxOf_lt_length_of_mem h2
    have : (baselinePlace n x.1 x.2.1 + 1) * chans.length ≤ n * (n + 1) / 2 * chans.length := Nat.mul_le_mul_right _ hb
    rw [Nat.mul_comm chans.length]
    rw [Nat.add_mul] at this
    omega

theorem corPlace_inj {n : Nat} {chans : List Nat} {x y : Nat × Nat × Nat} (hx : x ∈ corIds (List.range' 1 n) chans)
    (hy : y ∈ corIds (List.range' 1 n) chans) (h : corPlace n chans x = corPlace n chans y) : x = y := by
  rw [mem_corIds] at hx hy
  have hmx := mem_pairs.mp hx.1
  have hmy := mem_pairs.mp hy.1
  unfold corPlace at h
  rw [← idxOf_pairs hmx.1 hmx.2.1 hmx.2.2, ← idxOf_pairs hmy.1 hmy.2.1 hmy.2.2] at h
  have hcx := List.idxOf_lt_length_of_mem hx.2
  have hcy := List.idxOf_lt_length_of_mem hy.2
  have hl : 0 < chans.length := by omega
  have e1 : (pairs n).idxOf (x.1, x.2.1) = (pairs n).idxOf (y.1, y.2.1) := by
    have := congrArg (· / chans.length) h
    rwa [Nat.mul_comm, Nat.mul_add_div hl, Nat.mul_comm, Nat.mul_add_div hl, Nat.div_eq_of_lt hcx, Nat.div_eq_of_lt hcy] at this
  rw [e1] at h
  have e2 : chans.idxOf x.2.2 = chans.idxOf y.2.2 := by omega
  have h1 := idxOf_inj hx.1 hy.1 e1
  have h2 := idxOf_inj hx.2 hy.2 e2
  simp only [Prod.mk.injEq] at h1
  obtain ⟨x1, x2, x3⟩ := x
  obtain ⟨y1, y2, y3⟩ := y
  simp only at h1 h2
  simp [h1, h2]

/-! ## The rest of the file after a call -/

variable {K D : Type} [DecidableEq K] [DecidableEq D]

theorem readBatch_suffix (rd : Reader K D) (n : Nat) : ∀ (ns : Nat) (l : List (Item K D)), (readBatch rd n ns l).2.1 <:+ l := by
  induction n with
  | zero => intro ns l; exact List.suffix_refl _
  | succ n ih =>
    intro ns l
    cases l with
    | nil => exact List.suffix_refl _
    | cons x l =>
      cases x with
      | frame f => exact (ih 0 l).trans (List.suffix_cons _ _)
      | other => exact (ih (ns + 1) l).trans (List.suffix_cons _ _)
      | sync =>
        simp only [readBatch]
        split
        · exact List.suffix_refl _
        · exact ih _ _
        · split
          · exact List.suffix_refl _
          · exact (ih (ns + 1) l).trans (List.suffix_cons _ _)

theorem fetch_suffix (rd : Reader K D) (s : LS K D) : (fetch rd s).1.rem <:+ s.rem ∧ (fetch rd s).1.tail ≤ s.tail := by
  unfold fetch
  have h1 := readBatch_suffix rd rd.per s.ns s.rem
  have h2 : (if (readBatch rd rd.per s.ns s.rem).2.1 = [] ∧ (readBatch rd rd.per s.ns s.rem).2.2.2 = .eof then 0 else s.tail) ≤ s.tail := by
    split <;> omega
  split
  · exact ⟨List.suffix_refl _, Nat.le_refl _⟩
  · simp only
    split
    · exact ⟨h1, h2⟩
    · split
      · exact ⟨h1, h2⟩
      · exact ⟨h1, h2⟩

theorem emit_rem (rd : Reader K D) (fc : Nat) (s : LS K D) : (emit rd fc s).1.rem = s.rem ∧ (emit rd fc s).1.tail = s.tail := by
  unfold emit
  split
  · exact ⟨rfl, rfl⟩
  · split
    · exact ⟨rfl, rfl⟩
    · simp only
      split
      · split <;> exact ⟨rfl, rfl⟩
      · exact ⟨rfl, rfl⟩

theorem turn_suffix (rd : Reader K D) (fc : Nat) (s : LS K D) : (turn rd fc s).1.rem <:+ s.rem ∧ (turn rd fc s).1.tail ≤ s.tail := by
  have h := fetch_suffix rd s
  have h2 := emit_rem rd fc (fetch rd s).1
  unfold turn
  simp only
  split
  · exact h
  · rw [h2.1, h2.2]; exact h

theorem loop_suffix (rd : Reader K D) (fc : Nat) (k : Nat) : ∀ s : LS K D, (loop rd fc k s).1.rem <:+ s.rem ∧
    (loop rd fc k s).1.tail ≤ s.tail := by
  induction k with
  | zero => intro s; exact ⟨List.suffix_refl _, Nat.le_refl _⟩
  | succ k ih =>
    intro s
    simp only [loop]
    split
    · exact ⟨List.suffix_refl _, Nat.le_refl _⟩
    · have h := turn_suffix rd fc s
      split
      · exact h
      · have h2 := ih (turn rd fc s).1
        exact ⟨h2.1.trans h.1, Nat.le_trans h2.2 h.2⟩

theorem flushLoop_rem (rd : Reader K D) (fc : Nat) (ks : List Int) : ∀ s : LS K D, (flushLoop rd fc ks s).1.rem = s.rem ∧
    (flushLoop rd fc ks s).1.tail = s.tail := by
  induction ks with
  | nil => intro s; exact ⟨rfl, rfl⟩
  | cons k ks ih =>
    intro s
    simp only [flushLoop]
    split
    · split
      · exact ⟨rfl, rfl⟩
      · split
        · exact ⟨rfl, rfl⟩
        · exact ih _
    · exact ⟨rfl, rfl⟩

theorem finish_rem (rd : Reader K D) (fc : Nat) (s : LS K D) : (finish rd fc s).1.rem = s.rem ∧ (finish rd fc s).1.tail = s.tail := by
  have h := flushLoop_rem rd fc (s.buf.buf.map (·.1)) s
  unfold finish
  by_cases hc : s.eof = true ∧ s.n ≠ fc
  · rw [if_pos hc]
    simp only
    split
    · exact h
    · split <;> exact h
  · rw [if_neg hc]
    simp only
    split <;> exact ⟨rfl, rfl⟩

theorem read_suffix (rd : Reader K D) (fc : Nat) (s : RS K D) : (read rd fc s).1.rem <:+ s.rem ∧ (read rd fc s).1.tail ≤ s.tail := by
  unfold read
  split
  · exact ⟨List.suffix_refl _, Nat.le_refl _⟩
  · have h := loop_suffix rd fc (s.rem.length + fc + 2) (start s)
    have h2 := finish_rem rd fc (loop rd fc (s.rem.length + fc + 2) (start s)).1
    simp only
    split
    · exact h
    · simp only [LS.rs]
      rw [h2.1, h2.2]
      exact h

/-! ## Counting -/

theorem framesOf_length (l : List (Item K D)) : (framesOf l).length ≤ l.length := by
  induction l with
  | nil => simp [framesOf]
  | cons x l ih => cases x <;> simp only [framesOf, List.length_cons] <;> omega

theorem noSync_bytes (S : Nat) (l : List (Item K D)) (h : NoSync l) : bytes S l = l.length * S := by
  induction l with
  | nil => simp [bytes]
  | cons x l ih =>
    cases x with
    | frame f => simp only [bytes, List.length_cons]; rw [ih h, Nat.add_mul]; omega
    | other => simp only [bytes, List.length_cons]; rw [ih h, Nat.add_mul]; omega
    | sync => exact absurd h (by simp [NoSync])

theorem noSync_suffix {l l' : List (Item K D)} (h : NoSync l) (hs : l' <:+ l) : NoSync l' := by
  obtain ⟨u, rfl⟩ := hs
  induction u with
  | nil => exact h
  | cons x u ih =>
    cases x with
    | frame f => exact ih h
    | other => exact ih h
    | sync => exact absurd h (by simp [NoSync])

theorem noSync_calm {limit : Nat} (l : List (Item K D)) (h : NoSync l) : ∀ ns, Calm limit ns l := by
  induction l with
  | nil => intro ns; trivial
  | cons x l ih =>
    intro ns
    cases x with
    | frame f => exact ih h 0
    | other => exact ih h _
    | sync => exact absurd h (by simp [NoSync])

theorem sum_atStep {t0 skip : Int} (hs : 0 < skip) (d : Nat) : ∀ (m : Nat) (l : List (Fr K D Payload)),
    ((List.range' m d).map (fun k => (atStep t0 skip l k).length)).sum ≤
      (l.filter (fun f => decide (tagOf t0 skip m ≤ f.fom))).length := by
  induction d with
  | zero => intro m l; simp
  | succ d ih =>
    intro m l
    rw [List.range'_succ, List.map_cons, List.sum_cons]
    have h1 := ih (m + 1) l
    have h2 : (atStep t0 skip l m).length + (l.filter (fun f => decide (tagOf t0 skip (m + 1) ≤ f.fom))).length ≤
        (l.filter (fun f => decide (tagOf t0 skip m ≤ f.fom))).length := by
      clear h1 ih
      have hlt := tagOf_lt (t0 := t0) hs (show m < m + 1 by omega)
      unfold atStep
      induction l with
      | nil => simp
      | cons f l ih =>
        simp only [List.filter_cons, decide_eq_true_eq]
        by_cases e1 : f.fom = tagOf t0 skip m
        · rw [if_pos e1, if_neg (by omega), if_pos (by omega)]
          simp only [List.length_cons]; omega
        · rw [if_neg e1]
          by_cases e2 : tagOf t0 skip (m + 1) ≤ f.fom
          · rw [if_pos e2, if_pos (by omega)]
            simp only [List.length_cons]; omega
          · rw [if_neg e2]
            split
            · simp only [List.length_cons]; omega
            · exact ih
    omega

/-- The steps that have not begun are all in the rest of a complete file. -/
theorem rest_count {possible : List K} {w : Nat} {t0 skip : Int} (hs : 0 < skip) {fs pre post : List (Fr K D Payload)}
    (hp : possible.Nodup) (hc : Complete possible t0 skip fs) (hsp : fs = pre ++ post) {a m : Nat} {st : St K D Payload}
    (h : Inv w t0 skip pre post a m st) : (stepCount t0 skip 0 fs - m) * possible.length ≤ post.length := by
  have h1 := sum_atStep hs (stepCount t0 skip 0 fs - m) m post (t0 := t0)
  have h2 := List.length_filter_le (fun f : Fr K D Payload => decide (tagOf t0 skip m ≤ f.fom)) post
  have h3 : ∀ k ∈ List.range' m (stepCount t0 skip 0 fs - m), possible.length ≤ (atStep t0 skip post k).length := by
    intro k hk
    rw [List.mem_range'_1] at hk
    rw [← List.length_map (f := fun f : Fr K D Payload => f.mid) (as := atStep t0 skip post k)]
    apply hp.length_le_of_subset
    intro x hx
    obtain ⟨f, hf, hft, hfx⟩ := hc k (by omega) x hx
    rw [List.mem_map]
    refine ⟨f, ?_, hfx⟩
    unfold atStep
    rw [List.mem_filter]
    refine ⟨?_, by simpa using hft⟩
    rw [hsp, List.mem_append] at hf
    rcases hf with hf | hf
    · obtain ⟨j, hj, e⟩ := h.early f hf
      have := tagOf_inj hs (hft.symm.trans e)
      omega
    · exact hf
  have h4 : ∀ l : List Nat, (∀ k ∈ l, possible.length ≤ (atStep t0 skip post k).length) →
      l.length * possible.length ≤ (l.map (fun k => (atStep t0 skip post k).length)).sum := by
    intro l
    induction l with
    | nil => intro _; simp
    | cons k l ih =>
      intro hl
      have := ih (fun j hj => hl j (by simp [hj]))
      have := hl k (by simp)
      rw [List.length_cons, List.map_cons, List.sum_cons, Nat.add_mul]
      omega
  have h5 := h4 _ h3
  rw [List.length_range'] at h5
  omega

end Verif.LdpGroup
