import Verif.Spec.LdpRead
import Verif.Lemmas.BufferInv
import Verif.Lemmas.ListX
/-!
# Helper lemmas for reading DRX files
-/
namespace Verif.Ldp
open Verif.Buffer

theorem tagOf_inj {t0 skip : Int} (hs : 0 < skip) {a b : Nat} (h : tagOf t0 skip a = tagOf t0 skip b) : a = b := by
  unfold tagOf at h
  have h1 : skip * a = skip * b := by omega
  have := Int.eq_of_mul_eq_mul_left (by omega : skip ≠ 0) h1
  omega

theorem tagOf_lt {t0 skip : Int} (hs : 0 < skip) {a b : Nat} (h : a < b) : tagOf t0 skip a < tagOf t0 skip b := by
  unfold tagOf
  have : skip * a < skip * b := Int.mul_lt_mul_of_pos_left (by omega) hs
  omega

theorem tagOf_succ {t0 skip : Int} (a : Nat) : tagOf t0 skip (a + 1) = tagOf t0 skip a + skip := by
  unfold tagOf
  rw [Int.natCast_add, Int.mul_add]
  simp
  omega

/-- The frames of step `k`. -/
def atStep (t0 skip : Int) (pre : List F) (k : Nat) : List F :=
  pre.filter (fun f => decide (f.fom = tagOf t0 skip k))

/-- The dictionary after the frames `pre`, of which the steps before `a` have been given out and `m` steps have
begun. -/
def bufAt (t0 skip : Int) (pre : List F) (a m : Nat) : List (Int × List F) :=
  (List.range' a (m - a)).map (fun k => (tagOf t0 skip k, atStep t0 skip pre k))

theorem insertF_old {t0 skip : Int} (hs : 0 < skip) (pre : List F) (f : F) (k : Nat) (hf : f.fom = tagOf t0 skip k) :
    ∀ (n a : Nat), a ≤ k → k < a + n →
    insertF f ((List.range' a n).map (fun k => (tagOf t0 skip k, atStep t0 skip pre k))) =
      (List.range' a n).map (fun k => (tagOf t0 skip k, atStep t0 skip (pre ++ [f]) k)) := by
  intro n
  induction n with
  | zero => intro a h1 h2; omega
  | succ n ih =>
    intro a h1 h2
    simp only [List.range'_succ, List.map_cons, insertF]
    by_cases e : k = a
    · subst e
      rw [if_pos hf.symm]
      congr 1
      · congr 1
        simp [atStep, hf]
      · apply List.map_congr_left
        intro j hj
        rw [List.mem_range'_1] at hj
        have : ¬ f.fom = tagOf t0 skip j := by
          rw [hf]; intro e; have := tagOf_inj hs e; omega
        simp [atStep, this]
    · have : ¬ tagOf t0 skip a = f.fom := by
        rw [hf]; intro e'; have := tagOf_inj hs e'; omega
      rw [if_neg this, ih (a + 1) (by omega) (by omega)]
      congr 1
      have : ¬ f.fom = tagOf t0 skip a := fun e => this e.symm
      simp [atStep, this]

theorem insertF_new {t0 skip : Int} (hs : 0 < skip) (pre : List F) (f : F) :
    ∀ (n a : Nat), f.fom = tagOf t0 skip (a + n) → atStep t0 skip pre (a + n) = [] →
    insertF f ((List.range' a n).map (fun k => (tagOf t0 skip k, atStep t0 skip pre k))) =
      (List.range' a (n + 1)).map (fun k => (tagOf t0 skip k, atStep t0 skip (pre ++ [f]) k)) := by
  intro n
  induction n with
  | zero =>
    intro a hf he
    simp only [Nat.add_zero] at hf he
    have : atStep t0 skip (pre ++ [f]) a = [f] := by
      unfold atStep at he ⊢
      rw [List.filter_append, he]; simp [hf]
    simp [insertF, hf, this]
  | succ n ih =>
    intro a hf he
    rw [List.range'_succ, List.map_cons, List.range'_succ, List.map_cons]
    simp only [insertF]
    have : ¬ tagOf t0 skip a = f.fom := by
      rw [hf]; intro e'; have := tagOf_inj hs e'; omega
    rw [if_neg this, ih (a + 1) (by rw [hf]; congr 1; omega) (by rw [show a + 1 + n = a + (n + 1) by omega]; exact he)]
    congr 1
    have : ¬ f.fom = tagOf t0 skip a := fun e => this e.symm
    simp [atStep, this]

/-- What the reading loop knows: `pre` has been read, `post` not yet, `a` steps are out, `m` have begun. -/
structure Inv (w : Nat) (t0 skip : Int) (pre post : List F) (a m : Nat) (st : St Id Id Payload) : Prop where
  le : a ≤ m
  order : InOrder w t0 skip m post
  early : ∀ f ∈ pre, ∃ k, k < m ∧ f.fom = tagOf t0 skip k
  begun : ∀ k, k < m → atStep t0 skip pre k ≠ []
  late : ∀ f ∈ post, ∃ k, a ≤ k ∧ f.fom = tagOf t0 skip k
  buf : st.buf = bufAt t0 skip pre a m
  done : ∃ d ds, st.done = d :: ds ∧ d < tagOf t0 skip a

theorem append_inv {w : Nat} {t0 skip : Int} (hs : 0 < skip) (b : List F) : ∀ (pre post : List F) (a m : Nat)
    (st : St Id Id Payload), Inv w t0 skip pre (b ++ post) a m st →
    ∃ st' m', append st b = some st' ∧ Inv w t0 skip (pre ++ b) post a m' st' ∧ m ≤ m' := by
  induction b with
  | nil =>
    intro pre post a m st h
    exact ⟨st, m, rfl, by simpa using h, Nat.le_refl _⟩
  | cons f b ih =>
    intro pre post a m st h
    obtain ⟨k, hk, hkm, hkw, hord⟩ := h.order
    obtain ⟨d, ds, hd, hda⟩ := h.done
    obtain ⟨k', hak, hk'⟩ := h.late f (by simp)
    have ek : k = k' := tagOf_inj hs (hk.symm.trans hk')
    subst ek
    have hdf : d < f.fom := by
      rw [hk]
      rcases Nat.lt_or_ge a k with h1 | h1
      · have := tagOf_lt (t0 := t0) hs h1; omega
      · have : k = a := by omega
        rw [this]; exact hda
    have ha1 : append1 st f = some { st with buf := insertF f st.buf } := by
      unfold append1
      rw [hd]
      simp only
      rw [if_neg (by omega)]
    have hbuf : insertF f st.buf = bufAt t0 skip (pre ++ [f]) a (if k = m then m + 1 else m) := by
      rw [h.buf]
      unfold bufAt
      by_cases e : k = m
      · rw [if_pos e, show m + 1 - a = (m - a) + 1 by have := h.le; omega]
        apply insertF_new hs
        · rw [hk]; congr 1; have := h.le; omega
        · rw [show a + (m - a) = m by have := h.le; omega]
          unfold atStep
          rw [List.filter_eq_nil_iff]
          intro g hg
          obtain ⟨j, hj, hgj⟩ := h.early g hg
          simp only [decide_eq_true_eq]
          intro e2
          have := tagOf_inj hs (hgj.symm.trans e2)
          omega
      · rw [if_neg e]
        exact insertF_old hs pre f k hk _ _ hak (by omega)
    have hinv : Inv w t0 skip (pre ++ [f]) (b ++ post) a (if k = m then m + 1 else m)
        { st with buf := insertF f st.buf } := by
      refine ⟨?_, hord, ?_, ?_, ?_, hbuf, ⟨d, ds, hd, hda⟩⟩
      · have := h.le; split <;> omega
      · intro g hg
        rw [List.mem_append] at hg
        rcases hg with hg | hg
        · obtain ⟨j, hj, e⟩ := h.early g hg
          exact ⟨j, by split <;> omega, e⟩
        · rw [List.mem_singleton] at hg
          subst hg
          exact ⟨k, by split <;> omega, hk⟩
      · intro j hj
        unfold atStep
        rw [List.filter_append]
        by_cases hjm : j < m
        · intro e
          rw [List.append_eq_nil_iff] at e
          exact h.begun j hjm e.1
        · have : j = k := by split at hj <;> omega
          subst this
          simp [hk]
      · intro g hg
        exact h.late g (by simp only [List.cons_append, List.mem_cons]; exact .inr hg)
    obtain ⟨st', m', h1, h2, h3⟩ := ih (pre ++ [f]) post a _ _ hinv
    refine ⟨st', m', ?_, by simpa using h2, ?_⟩
    · simp only [append, ha1, Option.bind_some]; exact h1
    · split at h3 <;> omega

theorem readBatch_spec (n : Nat) : ∀ (l : List (Option F)),
    ∃ u, l = u ++ (readBatch n l).2.1 ∧ (readBatch n l).1 = u.filterMap id ∧
      ((readBatch n l).2.2 = true → (readBatch n l).2.1 = []) ∧
      ((readBatch n l).2.2 = false → u.length = n) := by
  induction n with
  | zero => intro l; exact ⟨[], by simp [readBatch]⟩
  | succ n ih =>
    intro l
    cases l with
    | nil => exact ⟨[], by simp [readBatch]⟩
    | cons x l =>
      obtain ⟨u, h1, h2, h3, h4⟩ := ih l
      cases x with
      | none =>
        refine ⟨none :: u, ?_, ?_, ?_, ?_⟩
        · simp only [readBatch]; rw [List.cons_append, ← h1]
        · simp only [readBatch]; rw [h2]; simp
        · simpa only [readBatch] using h3
        · simp only [readBatch, List.length_cons]; intro h; rw [h4 h]
      | some f =>
        refine ⟨some f :: u, ?_, ?_, ?_, ?_⟩
        · simp only [readBatch]; rw [List.cons_append, ← h1]
        · simp only [readBatch]; rw [h2]; simp
        · simpa only [readBatch] using h3
        · simp only [readBatch, List.length_cons]; intro h; rw [h4 h]

theorem minKey_map {t0 skip : Int} (hs : 0 < skip) (g : Nat → List F) (n : Nat) : ∀ a,
    minKey ((List.range' a (n + 1)).map (fun k => (tagOf t0 skip k, g k))) = some (tagOf t0 skip a) := by
  induction n with
  | zero => intro a; simp [minKey]
  | succ n ih =>
    intro a
    rw [List.range'_succ, List.map_cons]
    simp only [minKey]
    rw [ih (a + 1)]
    have := tagOf_lt (t0 := t0) hs (show a < a + 1 by omega)
    simp only [Option.some.injEq]
    omega

theorem inOrder_late {w : Nat} {t0 skip : Int} (post : List F) : ∀ m, InOrder w t0 skip m post →
    ∀ f ∈ post, ∃ k, f.fom = tagOf t0 skip k ∧ m < k + w := by
  induction post with
  | nil => intro m _ f hf; simp at hf
  | cons g l ih =>
    intro m h f hf
    obtain ⟨k, hk, h1, h2, h3⟩ := h
    rw [List.mem_cons] at hf
    rcases hf with rfl | hf
    · exact ⟨k, hk, h2⟩
    · obtain ⟨j, hj, hjw⟩ := ih _ h3 f hf
      exact ⟨j, hj, by split at hjw <;> omega⟩

theorem bufAt_cons {t0 skip : Int} (pre : List F) {a m : Nat} (h : a < m) :
    bufAt t0 skip pre a m = (tagOf t0 skip a, atStep t0 skip pre a) :: bufAt t0 skip pre (a + 1) m := by
  unfold bufAt
  rw [show m - a = (m - (a + 1)) + 1 by omega, List.range'_succ, List.map_cons]

/-- Taking the first step out. -/
theorem getKey_inv {w : Nat} {t0 skip : Int} (hs : 0 < skip) (c : Cfg Id Id Payload) (hn : 1 ≤ c.nseg)
    {pre post : List F} {a m : Nat} {st : St Id Id Payload} (h : Inv w t0 skip pre post a m st) (ham : a < m)
    (hw : a + w ≤ m ∨ post = []) :
    ∃ g, (getKey c st (tagOf t0 skip a)).2 = .group (tagOf t0 skip a) g ∧
      g.Perm (assemble c (atStep t0 skip pre a)) ∧
      Inv w t0 skip pre post (a + 1) m (getKey c st (tagOf t0 skip a)).1 := by
  have hl : lookup (tagOf t0 skip a) st.buf = some (atStep t0 skip pre a) := by
    rw [h.buf, bufAt_cons pre ham]; simp [lookup]
  obtain ⟨h1, h2, ⟨g, hg, hp⟩, _⟩ := getKey_some c st _ _ hl
  refine ⟨g, hg, hp, ?_⟩
  refine ⟨ham, h.order, h.early, h.begun, ?_, ?_, ?_⟩
  · intro f hf
    rcases hw with hw | hw
    · obtain ⟨k, hk, hkw⟩ := inOrder_late post m h.order f hf
      exact ⟨k, by omega, hk⟩
    · subst hw; simp at hf
  · rw [h1, h.buf, bufAt_cons pre ham]; simp [erase]
  · refine ⟨tagOf t0 skip a, st.done.take (c.nseg - 1), ?_, tagOf_lt hs (by omega)⟩
    rw [h2]
    obtain ⟨n, e⟩ : ∃ n, c.nseg = n + 1 := ⟨c.nseg - 1, by omega⟩
    rw [e]; simp

theorem upd_same {α : Type} (g : Nat → α) (r : Nat) (v : α) : upd g r v r = v := by simp [upd]
theorem upd_ne {α : Type} (g : Nat → α) {r x : Nat} (v : α) (h : x ≠ r) : upd g r v x = g x := by simp [upd, h]

/-- A group whose rows are different and follow the previous step is copied without error. -/
theorem place_group (rd : Reader) (fc : Nat) (tag : Int) (g : List F) : ∀ (acc : Acc),
    (∀ f ∈ g, f.fom = tag ∧ rowOf f.mid = some (rowNumber f.mid)) →
    (g.map (fun f => rowNumber f.mid)).Nodup →
    (∀ f ∈ g, acc.tt (rowNumber f.mid) = 0 ∨ acc.tt (rowNumber f.mid) + rd.skip = tag) →
    (∀ f ∈ g, (acc.rows (rowNumber f.mid)).length < fc) →
    (place rd fc acc g).2 = none ∧
    (∀ r, (place rd fc acc g).1.tt r = if r ∈ g.map (fun f => rowNumber f.mid) then tag else acc.tt r) ∧
    (∀ r, (place rd fc acc g).1.rows r =
      acc.rows r ++ (g.filter (fun f => decide (rowNumber f.mid = r))).map (·.body)) ∧
    (place rd fc acc g).1.setTime = (if g = [] then acc.setTime else some (acc.setTime.getD tag)) := by
  induction g with
  | nil => intro acc _ _ _ _; simp [place]
  | cons f g ih =>
    intro acc h1 h2 h3 h4
    obtain ⟨hf, hr⟩ := h1 f (by simp)
    have hp1 : place1 rd fc acc f = (⟨upd acc.tt (rowNumber f.mid) tag, some (acc.setTime.getD tag),
        upd acc.rows (rowNumber f.mid) (acc.rows (rowNumber f.mid) ++ [f.body])⟩, none) := by
      unfold place1
      rw [hr]
      simp only
      have hlt := h4 f (by simp)
      have htt := h3 f (by simp)
      rw [if_neg, if_neg (by omega)]
      · congr 1
        congr 1
        · funext x
          by_cases hx : x = rowNumber f.mid
          · simp [upd, hx, hf]
          · rw [upd_ne _ _ hx, upd_ne _ _ hx]
            split
            · rw [upd_ne _ _ hx]
            · rfl
        · cases acc.setTime <;> simp [hf]
      · rintro ⟨h, _⟩
        apply h
        rw [hf]
        split
        · rw [upd_same]; omega
        · rename_i h0
          rcases htt with h | h
          · exact absurd h h0
          · exact h.symm
    simp only [List.map_cons, List.nodup_cons] at h2
    have hne : ∀ f' ∈ g, rowNumber f'.mid ≠ rowNumber f.mid := by
      intro f' hf' e
      exact h2.1 (List.mem_map.mpr ⟨f', hf', e⟩)
    obtain ⟨i1, i2, i3, i4⟩ := ih ⟨upd acc.tt (rowNumber f.mid) tag, some (acc.setTime.getD tag),
        upd acc.rows (rowNumber f.mid) (acc.rows (rowNumber f.mid) ++ [f.body])⟩
      (fun f' hf' => h1 f' (by simp [hf'])) h2.2
      (fun f' hf' => by
        simp only
        rw [upd_ne _ _ (hne f' hf')]
        exact h3 f' (by simp [hf']))
      (fun f' hf' => by
        simp only
        rw [upd_ne _ _ (hne f' hf')]
        exact h4 f' (by simp [hf']))
    have hpl : place rd fc acc (f :: g) = place rd fc ⟨upd acc.tt (rowNumber f.mid) tag, some (acc.setTime.getD tag),
        upd acc.rows (rowNumber f.mid) (acc.rows (rowNumber f.mid) ++ [f.body])⟩ g := by
      rw [place]; simp only [hp1]
    rw [hpl]
    refine ⟨i1, ?_, ?_, ?_⟩
    · intro r
      rw [i2 r]
      by_cases e : r = rowNumber f.mid
      · subst e
        simp [upd]
      · simp only [List.map_cons, List.mem_cons, e, false_or]
        rw [upd_ne _ _ e]
    · intro r
      rw [i3 r]
      by_cases e : r = rowNumber f.mid
      · subst e
        simp [upd]
      · simp only
        rw [upd_ne _ _ e, List.filter_cons_of_neg]
        simp only [decide_eq_true_eq]
        exact fun h => e h.symm
    · rw [i4]
      simp

/-- Frames of a group: those received, and zeros for the others. -/
theorem assemble_cases (c : Cfg Id Id Payload) (hc : CfgOK c) (l : List F) (hne : l ≠ [])
    (hn : (l.map (·.mid)).Nodup) (hp : ∀ f ∈ l, f.mid ∈ c.possible) (hr : ∀ f ∈ l, f.fill = false) (f : F)
    (hf : f ∈ assemble c l) : f ∈ l ∨ (f.mid ∉ l.map (·.mid) ∧ ∃ t ∈ l, f.body = c.zero t.body) := by
  have hlen := (assemble_exact c hc l hne hn hp hr).2.2
  unfold assemble at hf
  split at hf
  · exact .inl hf
  · split at hf
    · split at hf
      · simp at hf
      · rename_i t tl _ _
        rw [List.mem_append] at hf
        rcases hf with hf | hf
        · exact .inl hf
        · rw [List.mem_map] at hf
          obtain ⟨x, hx, rfl⟩ := hf
          rw [mem_missingList] at hx
          exact .inr ⟨hx.2, t, by simp, rfl⟩
    · omega

/-- Two frames with the same tag and id are the same frame. -/
theorem unique_frame {fs : List F} (hn : (fs.map (fun f => (f.fom, f.mid))).Nodup) {f g : F} (hf : f ∈ fs) (hg : g ∈ fs)
    (h1 : f.fom = g.fom) (h2 : f.mid = g.mid) : f = g := by
  exact inj_of_nodup hn hf hg (by simp [h1, h2])

/-- The one frame of id `x` of the group of step `k` holds what the file has for it. -/
theorem group_content {c : Cfg Id Id Payload} (hc : CfgOK c) (hz : c.zero = zeroP)
    (hrn : (c.possible.map rowNumber).Nodup) {w len : Nat} {t0 skip : Int} {fs : List F}
    (hreg : Regular c.possible w len t0 skip fs) (k : Nat) (hk : atStep t0 skip fs k ≠ []) {g : List F}
    (hg : g.Perm (assemble c (atStep t0 skip fs k))) :
    (∀ f ∈ g, f.fom = tagOf t0 skip k ∧ f.mid ∈ c.possible) ∧ (g.map (fun f => rowNumber f.mid)).Nodup ∧
    (∀ x ∈ c.possible, (g.filter (fun f => decide (rowNumber f.mid = rowNumber x))).map (·.body) =
      [content t0 skip len fs k x]) ∧ (∀ r, r ∈ g.map (fun f => rowNumber f.mid) ↔ r ∈ c.possible.map rowNumber) := by
  have hsub : (atStep t0 skip fs k).Sublist fs := List.filter_sublist
  have hfom : ∀ f ∈ atStep t0 skip fs k, f.fom = tagOf t0 skip k := by
    intro f hf; unfold atStep at hf; rw [List.mem_filter] at hf; simpa using hf.2
  have hnd : ((atStep t0 skip fs k).map (·.mid)).Nodup := by
    have h1 := hreg.nodup.sublist (hsub.map _)
    have h2 : (atStep t0 skip fs k).map (fun f => (f.fom, f.mid)) =
        ((atStep t0 skip fs k).map (·.mid)).map (fun x => (tagOf t0 skip k, x)) := by
      rw [List.map_map]
      apply List.map_congr_left
      intro f hf
      simp [hfom f hf]
    rw [h2] at h1
    exact nodup_of_map h1
  have hkn : ∀ f ∈ atStep t0 skip fs k, f.mid ∈ c.possible := fun f hf => hreg.known f (hsub.subset hf)
  have hre : ∀ f ∈ atStep t0 skip fs k, f.fill = false := fun f hf => hreg.real f (hsub.subset hf)
  obtain ⟨e1, e2, e3⟩ := assemble_exact c hc _ hk hnd hkn hre
  have hgm : (g.map (·.mid)).Perm c.possible := (hg.map _).trans e1
  have hgr : (g.map (fun f => rowNumber f.mid)).Perm (c.possible.map rowNumber) := by
    have := hgm.map rowNumber
    rwa [List.map_map] at this
  have hnodup : (g.map (fun f => rowNumber f.mid)).Nodup := hgr.nodup_iff.mpr hrn
  refine ⟨?_, hnodup, ?_, fun r => hgr.mem_iff⟩
  · intro f hf
    refine ⟨assemble_fom c _ _ hfom f (hg.mem_iff.mp hf), hgm.mem_iff.mp (List.mem_map_of_mem hf)⟩
  · intro x hx
    have hx' : x ∈ g.map (·.mid) := hgm.mem_iff.mpr hx
    rw [List.mem_map] at hx'
    obtain ⟨f, hf, hfx⟩ := hx'
    have hfilt : g.filter (fun f => decide (rowNumber f.mid = rowNumber x)) = [f] := by
      have := filter_singleton hnodup hf
      simpa [hfx] using this
    rw [hfilt]
    simp only [List.map_cons, List.map_nil, List.cons.injEq, and_true]
    unfold content
    rcases assemble_cases c hc _ hk hnd hkn hre f (hg.mem_iff.mp hf) with h | ⟨h, t, ht, hb⟩
    · have hff := hsub.subset h
      cases hfind : fs.find? (fun f => decide (f.fom = tagOf t0 skip k ∧ f.mid = x)) with
      | none =>
        rw [List.find?_eq_none] at hfind
        have := hfind f hff
        simp [hfom f h, hfx] at this
      | some f' =>
        have h1 := List.find?_some hfind
        have h2 := List.mem_of_find?_eq_some hfind
        simp only [decide_eq_true_eq] at h1
        simp only
        rw [unique_frame hreg.nodup hff h2 (by rw [hfom f h, h1.1]) (by rw [hfx, h1.2])]
    · cases hfind : fs.find? (fun f => decide (f.fom = tagOf t0 skip k ∧ f.mid = x)) with
      | none =>
        rw [hb, hz, zeroP, ← hreg.same t (hsub.subset ht)]
        exact List.map_const' ..
      | some f' =>
        exfalso
        have h1 := List.find?_some hfind
        have h2 := List.mem_of_find?_eq_some hfind
        simp only [decide_eq_true_eq] at h1
        apply h
        rw [List.mem_map]
        exact ⟨f', by unfold atStep; rw [List.mem_filter]; exact ⟨h2, by simp [h1.1]⟩, by rw [h1.2, hfx]⟩

theorem stepCount_spec {w : Nat} {t0 skip : Int} (hs : 0 < skip) (l : List F) : ∀ m, InOrder w t0 skip m l →
    ∀ k, k < stepCount t0 skip m l ↔ k < m ∨ ∃ f ∈ l, f.fom = tagOf t0 skip k := by
  induction l with
  | nil => intro m _ k; simp [stepCount]
  | cons f l ih =>
    intro m h k
    obtain ⟨j, hj, h1, h2, h3⟩ := h
    have e : (f.fom = tagOf t0 skip m) ↔ j = m := by
      rw [hj]; exact ⟨fun h => tagOf_inj hs h, fun h => by rw [h]⟩
    simp only [stepCount]
    have e2 : (if f.fom = tagOf t0 skip m then m + 1 else m) = if j = m then m + 1 else m := by
      by_cases hjm : j = m
      · rw [if_pos (e.mpr hjm), if_pos hjm]
      · rw [if_neg (fun h => hjm (e.mp h)), if_neg hjm]
    rw [e2, ih _ h3 k]
    simp only [List.mem_cons, exists_eq_or_imp]
    have e3 : f.fom = tagOf t0 skip k ↔ j = k := by
      rw [hj]; exact ⟨fun h => tagOf_inj hs h, fun h => by rw [h]⟩
    rw [e3]
    by_cases hx : ∃ a ∈ l, a.fom = tagOf t0 skip k
    · simp [hx]
    · simp only [hx, or_false]
      split <;> omega

/-- What is fixed: an open file with one beam, at least two buffered steps, and a regular content. -/
structure Ctx (rd : Reader) (len : Nat) (t0 : Int) (fs : List F) : Prop where
  ok : CfgOK rd.cfg
  zero : rd.cfg.zero = zeroP
  seg : 2 ≤ rd.cfg.nseg
  rowOf : ∀ x ∈ rd.cfg.possible, rowOf x = some (rowNumber x)
  rows : (rd.cfg.possible.map rowNumber).Nodup
  skip : 0 < rd.skip
  batch : 1 ≤ rd.nbeampol
  reg : Regular rd.cfg.possible rd.cfg.nseg len t0 rd.skip fs

/-- Time tag memory when `a` steps are out. -/
def ttAt (rd : Reader) (t0 : Int) (a : Nat) (r : Nat) : Int :=
  if r ∈ rd.cfg.possible.map rowNumber ∧ a ≠ 0 then tagOf t0 rd.skip (a - 1) else 0

/-- Invariant inside a call that began with `a0` steps out. -/
structure LInv (rd : Reader) (len : Nat) (t0 : Int) (fs : List F) (a0 a : Nat) (pre post : List F) (m : Nat)
    (s : LS) : Prop where
  split : fs = pre ++ post
  rem : s.rem.filterMap id = post
  inv : Inv rd.cfg.nseg t0 rd.skip pre post a m s.buf
  tt : ∀ r, s.acc.tt r = ttAt rd t0 a r
  rws : ∀ r, s.acc.rows r = (chunk rd.cfg.possible t0 rd.skip len fs a0 (a - a0)).rows r
  st : s.acc.setTime = if a = a0 then none else some (tagOf t0 rd.skip a0)
  n : s.n + a0 = a
  eof : s.eof = true → s.rem = [] ∧ s.tail = false

/-- `m` is the number of steps when everything has been read, and never more. -/
theorem begun_le {rd : Reader} {len : Nat} {t0 : Int} {fs : List F} (hx : Ctx rd len t0 fs) {a m : Nat}
    {pre post : List F} {st : St Id Id Payload} (hsp : fs = pre ++ post)
    (h : Inv rd.cfg.nseg t0 rd.skip pre post a m st) :
    m ≤ stepCount t0 rd.skip 0 fs ∧ (post = [] → m = stepCount t0 rd.skip 0 fs) := by
  have hsc := stepCount_spec hx.skip fs 0 hx.reg.order
  have h1 : m ≤ stepCount t0 rd.skip 0 fs := by
    rcases Nat.lt_or_ge (stepCount t0 rd.skip 0 fs) m with hlt | hge
    · exfalso
      have hb := h.begun _ hlt
      obtain ⟨f, l, hf⟩ := List.exists_cons_of_ne_nil hb
      have hfm : f ∈ atStep t0 rd.skip pre (stepCount t0 rd.skip 0 fs) := by rw [hf]; simp
      unfold atStep at hfm
      rw [List.mem_filter] at hfm
      have := (hsc (stepCount t0 rd.skip 0 fs)).mpr (.inr ⟨f, by rw [hsp]; simp [hfm.1], by simpa using hfm.2⟩)
      omega
    · exact hge
  refine ⟨h1, fun hp => ?_⟩
  rcases Nat.lt_or_ge m (stepCount t0 rd.skip 0 fs) with hlt | hge
  · exfalso
    rcases (hsc m).mp hlt with h | ⟨f, hf, hft⟩
    · omega
    · rw [hsp, hp, List.append_nil] at hf
      obtain ⟨k, hk, hke⟩ := h.early f hf
      have := tagOf_inj hx.skip (hft.symm.trans hke)
      omega
  · omega

theorem atStep_full {t0 skip : Int} (hs : 0 < skip) {pre post fs : List F} (hsp : fs = pre ++ post) {a : Nat}
    (h : ∀ f ∈ post, ∃ k, a + 1 ≤ k ∧ f.fom = tagOf t0 skip k) : atStep t0 skip pre a = atStep t0 skip fs a := by
  rw [hsp]
  unfold atStep
  rw [List.filter_append]
  have : post.filter (fun f => decide (f.fom = tagOf t0 skip a)) = [] := by
    rw [List.filter_eq_nil_iff]
    intro f hf
    obtain ⟨k, hk, e⟩ := h f hf
    simp only [decide_eq_true_eq]
    intro e2
    have := tagOf_inj hs (e2.symm.trans e)
    omega
  rw [this, List.append_nil]

theorem chunk_rows_succ {rd : Reader} {len : Nat} {t0 : Int} {fs : List F} (a0 n r : Nat)
    (g : List F)
    (hg : ∀ x ∈ rd.cfg.possible, (g.filter (fun f => decide (rowNumber f.mid = rowNumber x))).map (·.body) =
      [content t0 rd.skip len fs (a0 + n) x])
    (hr : ∀ r, r ∈ g.map (fun f => rowNumber f.mid) ↔ r ∈ rd.cfg.possible.map rowNumber) :
    (chunk rd.cfg.possible t0 rd.skip len fs a0 n).rows r ++
      (g.filter (fun f => decide (rowNumber f.mid = r))).map (·.body) =
      (chunk rd.cfg.possible t0 rd.skip len fs a0 (n + 1)).rows r := by
  simp only [chunk]
  cases hf : rd.cfg.possible.find? (fun x => decide (rowNumber x = r)) with
  | none =>
    rw [List.find?_eq_none] at hf
    simp only [List.nil_append, List.map_eq_nil_iff, List.filter_eq_nil_iff, decide_eq_true_eq]
    intro f hfg e
    have : r ∈ g.map (fun f => rowNumber f.mid) := List.mem_map.mpr ⟨f, hfg, e⟩
    rw [hr, List.mem_map] at this
    obtain ⟨x, hx, e⟩ := this
    exact hf x hx (by simp [e])
  | some x =>
    have h1 := List.find?_some hf
    have h2 := List.mem_of_find?_eq_some hf
    simp only [decide_eq_true_eq] at h1
    subst h1
    simp only
    rw [hg x h2, List.range'_concat, List.map_append]
    simp

/-- Copying the group of the next step keeps the invariant. -/
theorem place_inv {rd : Reader} {len : Nat} {t0 : Int} {fs : List F} (hx : Ctx rd len t0 fs) {fc a0 a m : Nat}
    {pre post : List F} {s : LS} (h : LInv rd len t0 fs a0 a pre post m s) (ham : a < m)
    (hw : a + rd.cfg.nseg ≤ m ∨ post = []) (hn : s.n < fc) :
    ∃ g, (getKey rd.cfg s.buf (tagOf t0 rd.skip a)).2 = .group (tagOf t0 rd.skip a) g ∧
      (place rd fc s.acc g).2 = none ∧
      ∀ s' : LS, s'.buf = (getKey rd.cfg s.buf (tagOf t0 rd.skip a)).1 → s'.acc = (place rd fc s.acc g).1 →
        s'.n = s.n + 1 → s'.rem = s.rem → s'.tail = s.tail → s'.eof = s.eof →
        LInv rd len t0 fs a0 (a + 1) pre post m s' := by
  have hseg := hx.seg
  obtain ⟨g, hg, hp, hi⟩ := getKey_inv hx.skip rd.cfg (by omega) h.inv ham hw
  have hat := atStep_full hx.skip h.split hi.late
  have hne : atStep t0 rd.skip fs a ≠ [] := by rw [← hat]; exact h.inv.begun a ham
  rw [hat] at hp
  obtain ⟨g1, g2, g3, g4⟩ := group_content hx.ok hx.zero hx.rows hx.reg a hne hp
  have hnn := h.n
  have hlen : ∀ f ∈ g, (s.acc.rows (rowNumber f.mid)).length < fc := by
    intro f hf
    rw [h.rws]
    simp only [chunk]
    split
    · simp only [List.length_nil]; omega
    · simp only [List.length_map, List.length_range']; omega
  have htt : ∀ f ∈ g, s.acc.tt (rowNumber f.mid) = 0 ∨ s.acc.tt (rowNumber f.mid) + rd.skip = tagOf t0 rd.skip a := by
    intro f hf
    rw [h.tt]
    unfold ttAt
    split
    · rename_i hh
      right
      rw [← tagOf_succ]
      congr 1
      omega
    · exact .inl rfl
  obtain ⟨p1, p2, p3, p4⟩ := place_group rd fc (tagOf t0 rd.skip a) g s.acc
    (fun f hf => ⟨(g1 f hf).1, hx.rowOf _ (g1 f hf).2⟩) g2 htt hlen
  have hgne : g ≠ [] := by
    intro e
    subst e
    obtain ⟨f, l, hf⟩ := List.exists_cons_of_ne_nil hne
    have hfm : f ∈ atStep t0 rd.skip fs a := by rw [hf]; simp
    unfold atStep at hfm
    rw [List.mem_filter] at hfm
    have := (g4 (rowNumber f.mid)).mpr (List.mem_map_of_mem (hx.reg.known f hfm.1))
    simp at this
  refine ⟨g, hg, p1, ?_⟩
  intro s' e1 e2 e3 e4 e5 e6
  refine ⟨h.split, by rw [e4]; exact h.rem, by rw [e1]; exact hi, ?_, ?_, ?_, by omega, ?_⟩
  · intro r
    rw [e2, p2 r, h.tt r]
    unfold ttAt
    by_cases hr : r ∈ rd.cfg.possible.map rowNumber
    · rw [if_pos ((g4 r).mpr hr), if_pos ⟨hr, by omega⟩]; rfl
    · rw [if_neg (fun h => hr ((g4 r).mp h)), if_neg (fun h => hr h.1), if_neg (fun h => hr h.1)]
  · intro r
    rw [e2, p3 r, h.rws r, show a + 1 - a0 = (a - a0) + 1 by omega]
    apply chunk_rows_succ _ _ _ g _ g4
    rw [show a0 + (a - a0) = a by omega]
    exact g3
  · rw [e2, p4, if_neg hgne, h.st, if_neg (show ¬ a + 1 = a0 by omega)]
    by_cases e : a = a0
    · rw [if_pos e, e]; rfl
    · rw [if_neg e]; rfl
  · rw [e6, e4, e5]; exact h.eof

theorem bufAt_length {t0 skip : Int} (pre : List F) (a m : Nat) : (bufAt t0 skip pre a m).length = m - a := by
  simp [bufAt]

/-- What is left to do. -/
def todo (fc : Nat) (s : LS) : Nat := s.rem.length + (fc - s.n) + (if s.eof then 0 else 1)

theorem fetch_inv {rd : Reader} {len : Nat} {t0 : Int} {fs : List F} (hx : Ctx rd len t0 fs) {fc a0 a m : Nat}
    {pre post : List F} {s : LS} (h : LInv rd len t0 fs a0 a pre post m s) (he : s.eof = false) :
    (fetch rd s).2 = none ∧ (fetch rd s).1.n = s.n ∧ todo fc (fetch rd s).1 ≤ todo fc s ∧
    (overfilled rd.cfg (fetch rd s).1.buf = false → todo fc (fetch rd s).1 < todo fc s) ∧
    ∃ pre' post' m', LInv rd len t0 fs a0 a pre' post' m' (fetch rd s).1 := by
  unfold fetch
  by_cases ho : overfilled rd.cfg s.buf = true
  · rw [if_pos ho]
    refine ⟨rfl, rfl, Nat.le_refl _, ?_, pre, post, m, h⟩
    intro hh
    simp only [ho] at hh
    cases hh
  · rw [if_neg ho]
    obtain ⟨u, hu1, hu2, hu3, hu4⟩ := readBatch_spec rd.nbeampol s.rem
    have hpost : post = (readBatch rd.nbeampol s.rem).1 ++ (readBatch rd.nbeampol s.rem).2.1.filterMap id := by
      rw [← h.rem, hu2]
      conv => lhs; rw [hu1]
      rw [List.filterMap_append]
    have hi := h.inv
    rw [hpost] at hi
    obtain ⟨st', m', ha, hinv', hmm⟩ := append_inv hx.skip _ _ _ _ _ _ hi
    simp only [ha]
    have hl := congrArg List.length hu1
    rw [List.length_append] at hl
    have hb := hx.batch
    have hlt : ∀ s' : LS, s'.rem = (readBatch rd.nbeampol s.rem).2.1 → s'.n = s.n →
        s'.eof = (readBatch rd.nbeampol s.rem).2.2 → todo fc s' < todo fc s := by
      intro s' e1 e2 e3
      simp only [todo, e1, e2, e3, he]
      by_cases hb2 : (readBatch rd.nbeampol s.rem).2.2 = true
      · rw [if_pos hb2, if_neg (by simp)]; omega
      · rw [if_neg hb2]
        have := hu4 (by simpa using hb2)
        rw [if_neg (by simp)]
        omega
    refine ⟨trivial, trivial, Nat.le_of_lt (hlt _ rfl rfl rfl), fun _ => hlt _ rfl rfl rfl,
      pre ++ (readBatch rd.nbeampol s.rem).1, (readBatch rd.nbeampol s.rem).2.1.filterMap id, m', ?_⟩
    refine ⟨?_, rfl, hinv', h.tt, h.rws, h.st, h.n, ?_⟩
    · rw [h.split, hpost, List.append_assoc]
    · intro hb
      simp only at hb
      refine ⟨hu3 hb, ?_⟩
      simp only [hb, if_true]

theorem emit_inv {rd : Reader} {len : Nat} {t0 : Int} {fs : List F} (hx : Ctx rd len t0 fs) {fc a0 a m : Nat}
    {pre post : List F} {s : LS} (h : LInv rd len t0 fs a0 a pre post m s)
    (haN : a < stepCount t0 rd.skip 0 fs) (hn : s.n < fc) :
    (emit rd fc s).2 = none ∧ (emit rd fc s).1.n ≤ fc ∧
    ((overfilled rd.cfg s.buf = false ∧ (emit rd fc s).1 = s) ∨ todo fc (emit rd fc s).1 < todo fc s) ∧
    ∃ a', LInv rd len t0 fs a0 a' pre post m (emit rd fc s).1 ∧ a' < stepCount t0 rd.skip 0 fs := by
  have hseg := hx.seg
  unfold emit
  have hbl : s.buf.buf.length = m - a := by rw [h.inv.buf, bufAt_length]
  cases hpk : peek rd.cfg s.buf true with
  | none =>
    simp only
    have hno : overfilled rd.cfg s.buf = false := by
      unfold peek at hpk
      unfold overfilled
      simp only [Bool.true_and] at hpk
      split at hpk
      · rename_i hf
        simp only [filled, Bool.not_eq_true', decide_eq_false_iff_not] at hf
        simp only [decide_eq_false_iff_not]; omega
      · rw [minKey_none] at hpk
        rw [hpk]; simp
    exact ⟨trivial, by omega, .inl ⟨hno, trivial⟩, a, h, haN⟩
  | some c =>
    simp only
    have hfil : rd.cfg.nseg ≤ m - a := by
      unfold peek at hpk
      simp only [Bool.true_and] at hpk
      split at hpk
      · simp at hpk
      · rename_i hf
        simp only [filled, Bool.not_eq_true', decide_eq_false_iff_not, Decidable.not_not] at hf
        omega
    have hc : c = tagOf t0 rd.skip a := by
      unfold peek at hpk
      rw [if_neg (by simp [filled]; omega), h.inv.buf, bufAt, show m - a = (m - a - 1) + 1 by omega,
        minKey_map hx.skip] at hpk
      simpa using hpk.symm
    subst hc
    have haf : autofill rd s.cf (tagOf t0 rd.skip a) s.acc.tt s.buf = .ok s.buf := by
      unfold autofill
      rw [h.tt 0]
      unfold ttAt
      by_cases h0 : 0 ∈ rd.cfg.possible.map rowNumber ∧ a ≠ 0
      · rw [if_pos h0, ← tagOf_succ, show a - 1 + 1 = a by omega, if_pos (rfl : tagOf t0 rd.skip a = _)]
        split <;> rfl
      · rw [if_neg h0, if_pos rfl]
    rw [haf]
    simp only
    have hget : Buffer.get rd.cfg s.buf = getKey rd.cfg s.buf (tagOf t0 rd.skip a) := by
      unfold Buffer.get; rw [hpk]
    rw [hget]
    obtain ⟨g, hg, hp, hall⟩ := place_inv (fc := fc) hx h (by omega) (.inl (by omega)) (by omega)
    rw [hg]
    simp only [hp]
    have hm := (begun_le hx h.split h.inv).1
    refine ⟨trivial, by omega, .inr ?_, a + 1, hall _ rfl rfl rfl rfl rfl rfl, by omega⟩
    simp only [todo]
    omega

theorem turn_inv {rd : Reader} {len : Nat} {t0 : Int} {fs : List F} (hx : Ctx rd len t0 fs) {fc a0 a m : Nat}
    {pre post : List F} {s : LS} (h : LInv rd len t0 fs a0 a pre post m s)
    (haN : a < stepCount t0 rd.skip 0 fs) (he : s.eof = false) (hn : s.n < fc) :
    (turn rd fc s).2 = none ∧ todo fc (turn rd fc s).1 < todo fc s ∧ (turn rd fc s).1.n ≤ fc ∧
    ∃ a' pre' post' m', LInv rd len t0 fs a0 a' pre' post' m' (turn rd fc s).1 ∧
      a' < stepCount t0 rd.skip 0 fs := by
  obtain ⟨h1, h2, h3, h4, pre1, post1, m1, h5⟩ := fetch_inv (fc := fc) hx h he
  obtain ⟨g1, g2, g3, a', g4, g5⟩ := emit_inv (fc := fc) hx h5 haN (by omega)
  unfold turn
  simp only [h1]
  refine ⟨g1, ?_, g2, a', pre1, post1, m1, g4, g5⟩
  rcases g3 with ⟨g3, e⟩ | g3
  · rw [e]; exact h4 g3
  · omega

theorem loop_inv {rd : Reader} {len : Nat} {t0 : Int} {fs : List F} (hx : Ctx rd len t0 fs) {fc a0 : Nat} (k : Nat) :
    ∀ (a m : Nat) (pre post : List F) (s : LS), LInv rd len t0 fs a0 a pre post m s →
      a < stepCount t0 rd.skip 0 fs → s.n ≤ fc → todo fc s < k →
      (loop rd fc k s).2 = none ∧ ((loop rd fc k s).1.eof = true ∨ (loop rd fc k s).1.n = fc) ∧
      (loop rd fc k s).1.n ≤ fc ∧ ∃ a' pre' post' m', LInv rd len t0 fs a0 a' pre' post' m' (loop rd fc k s).1 ∧
        a' < stepCount t0 rd.skip 0 fs := by
  induction k with
  | zero => intro a m pre post s _ _ _ h; omega
  | succ k ih =>
    intro a m pre post s h haN hn hk
    unfold loop
    by_cases hc : s.eof = true ∨ s.n = fc
    · rw [if_pos hc]
      exact ⟨rfl, hc, hn, a, pre, post, m, h, haN⟩
    · rw [if_neg hc]
      have he : s.eof = false := by
        cases hh : s.eof
        · rfl
        · exact absurd (.inl hh) hc
      obtain ⟨h1, h2, h3, a', pre', post', m', h4, h5⟩ := turn_inv (fc := fc) hx h haN he (by
        have : s.n ≠ fc := fun e => hc (.inr e)
        omega)
      simp only [h1]
      exact ih a' m' pre' post' _ h4 h5 h3 (by omega)

theorem flush_inv {rd : Reader} {len : Nat} {t0 : Int} {fs : List F} (hx : Ctx rd len t0 fs) {fc a0 m : Nat}
    {pre : List F} (d : Nat) : ∀ (a : Nat) (s : LS), LInv rd len t0 fs a0 a pre [] m s → d = m - a → s.n < fc →
      (flushLoop rd fc ((List.range' a d).map (tagOf t0 rd.skip)) s).2 = none ∧
      ∃ a', LInv rd len t0 fs a0 a' pre [] m (flushLoop rd fc ((List.range' a d).map (tagOf t0 rd.skip)) s).1 ∧
        a' - a0 = min fc (m - a0) := by
  induction d with
  | zero =>
    intro a s h hd hn
    simp only [List.range'_zero, List.map_nil, flushLoop]
    refine ⟨trivial, a, h, ?_⟩
    have := h.n
    have := h.inv.le
    omega
  | succ d ih =>
    intro a s h hd hn
    simp only [List.range'_succ, List.map_cons, flushLoop]
    obtain ⟨g, hg, hp, hall⟩ := place_inv (fc := fc) hx h (by omega) (.inr rfl) hn
    rw [hg]
    simp only [hp]
    have hl := hall { s with buf := (getKey rd.cfg s.buf (tagOf t0 rd.skip a)).1, acc := (place rd fc s.acc g).1, n := s.n + 1 }
      rfl rfl rfl rfl rfl rfl
    have := h.n
    split
    · rename_i hfc
      refine ⟨rfl, a + 1, hl, ?_⟩
      omega
    · rename_i hfc
      exact ih (a + 1) _ hl (by omega) (by simp only; omega)

theorem flushLoop_eof (rd : Reader) (fc : Nat) (ks : List Int) : ∀ s : LS, (flushLoop rd fc ks s).1.eof = s.eof := by
  induction ks with
  | nil => intro s; rfl
  | cons k ks ih =>
    intro s
    simp only [flushLoop]
    split
    · split
      · rfl
      · split
        · rfl
        · rw [ih]
    · rfl

/-- Invariant between calls. -/
structure CInv (rd : Reader) (len : Nat) (t0 : Int) (fs : List F) (a : Nat) (s : RS) : Prop where
  ex : ∃ pre post m, fs = pre ++ post ∧ s.rem.filterMap id = post ∧
    Inv rd.cfg.nseg t0 rd.skip pre post a m s.buf
  tt : ∀ r, s.tt r = ttAt rd t0 a r
  fin : a = stepCount t0 rd.skip 0 fs → s.rem = [] ∧ s.tail = false

theorem finish_inv {rd : Reader} {len : Nat} {t0 : Int} {fs : List F} (hx : Ctx rd len t0 fs) {fc a0 a m : Nat}
    {pre post : List F} {l : LS} (h : LInv rd len t0 fs a0 a pre post m l) (ha : a < stepCount t0 rd.skip 0 fs)
    (hfc : 1 ≤ fc) (hend : l.eof = true ∨ l.n = fc) (hn : l.n ≤ fc) :
    (finish rd fc l).2 = .ok (chunk rd.cfg.possible t0 rd.skip len fs a0 (min fc (stepCount t0 rd.skip 0 fs - a0))) ∧
    CInv rd len t0 fs (a0 + min fc (stepCount t0 rd.skip 0 fs - a0)) (finish rd fc l).1.rs := by
  have hout : ∀ (a'' : Nat) (m'' : Nat) (pre'' post'' : List F) (l : LS), LInv rd len t0 fs a0 a'' pre'' post'' m'' l →
      a'' - a0 = min fc (stepCount t0 rd.skip 0 fs - a0) → a0 < a'' →
      (Out.mk l.n l.acc.setTime l.acc.rows) = chunk rd.cfg.possible t0 rd.skip len fs a0
        (min fc (stepCount t0 rd.skip 0 fs - a0)) := by
    intro a'' m'' pre'' post'' l hl hh hlt
    have := hl.n
    rw [hl.st, if_neg (by omega), show l.n = min fc (stepCount t0 rd.skip 0 fs - a0) by omega]
    have : l.acc.rows = (chunk rd.cfg.possible t0 rd.skip len fs a0 (min fc (stepCount t0 rd.skip 0 fs - a0))).rows := by
      funext r
      rw [hl.rws r, hh]
    rw [this]
    rfl
  have hln := h.n
  unfold finish
  by_cases hfl : l.eof = true ∧ l.n ≠ fc
  · rw [if_pos hfl]
    have hrem' := (h.eof hfl.1).1
    have hpost : post = [] := by rw [← h.rem, hrem']; rfl
    subst hpost
    have hkeys : l.buf.buf.map (fun x => x.1) = (List.range' a (m - a)).map (tagOf t0 rd.skip) := by
      rw [h.inv.buf, bufAt, List.map_map]; rfl
    obtain ⟨f1, a'', f2, f3⟩ := flush_inv (fc := fc) hx (m - a) a l h rfl (by omega)
    have hmN := (begun_le hx h.split h.inv).2 rfl
    have he := flushLoop_eof rd fc ((List.range' a (m - a)).map (tagOf t0 rd.skip)) l
    rw [hkeys]
    simp only [f1]
    rw [hmN] at f3
    have hlt : a0 < a'' := by omega
    refine ⟨by rw [hout a'' _ _ _ _ f2 f3 hlt], ?_⟩
    rw [show a0 + min fc (stepCount t0 rd.skip 0 fs - a0) = a'' by omega]
    exact ⟨⟨pre, [], m, f2.split, f2.rem, f2.inv⟩, f2.tt, fun _ => f2.eof (he.trans hfl.1)⟩
  · rw [if_neg hfl]
    simp only
    have hnfc : l.n = fc := by
      rcases hend with h | h
      · by_cases e : l.n = fc
        · exact e
        · exact absurd ⟨h, e⟩ hfl
      · exact h
    have hh : a - a0 = min fc (stepCount t0 rd.skip 0 fs - a0) := by omega
    refine ⟨by rw [hout a _ _ _ l h hh (by omega)], ?_⟩
    rw [show a0 + min fc (stepCount t0 rd.skip 0 fs - a0) = a by omega]
    exact ⟨⟨pre, post, m, h.split, h.rem, h.inv⟩, h.tt, fun h => by omega⟩

theorem read_inv {rd : Reader} {len : Nat} {t0 : Int} {fs : List F} (hx : Ctx rd len t0 fs) {fc a : Nat} (hfc : 1 ≤ fc)
    {s : RS} (h : CInv rd len t0 fs a s) :
    (a < stepCount t0 rd.skip 0 fs →
      (read rd fc s).2 = .ok (chunk rd.cfg.possible t0 rd.skip len fs a (min fc (stepCount t0 rd.skip 0 fs - a))) ∧
      CInv rd len t0 fs (a + min fc (stepCount t0 rd.skip 0 fs - a)) (read rd fc s).1) ∧
    (a = stepCount t0 rd.skip 0 fs → read rd fc s = (s, .error .eof)) := by
  obtain ⟨⟨pre, post, m, hsp, hrem, hinv⟩, htt, hfin⟩ := h
  have hbl : s.buf.buf.length = m - a := by rw [hinv.buf, bufAt_length]
  obtain ⟨hm1, hm2⟩ := begun_le hx hsp hinv
  constructor
  · intro ha
    have hcond : ¬ (s.rem = [] ∧ s.tail = false ∧ s.buf.buf = []) := by
      rintro ⟨h1, _, h3⟩
      rw [h1] at hrem
      have := hm2 hrem.symm
      rw [h3] at hbl
      simp only [List.length_nil] at hbl
      omega
    have hl0 : LInv rd len t0 fs a a pre post m (start s) := by
      refine ⟨hsp, hrem, hinv, htt, ?_, ?_, ?_, ?_⟩
      · intro r
        simp only [chunk, Nat.sub_self, start]
        split <;> simp
      · simp [start]
      · simp [start]
      · intro h; cases h
    obtain ⟨l1, l2, l3, a', pre', post', m', l4, l5⟩ := loop_inv (fc := fc) hx (s.rem.length + fc + 2) a m pre post _ hl0 ha
      (by simp [start]) (by simp [todo, start])
    unfold read
    rw [if_neg hcond]
    simp only [l1]
    exact finish_inv hx l4 l5 hfc l2 l3
  · intro ha
    obtain ⟨h1, h2⟩ := hfin ha
    have h3 : s.buf.buf = [] := by
      apply List.eq_nil_of_length_eq_zero
      have := hinv.le
      omega
    unfold read
    rw [if_pos ⟨h1, h2, h3⟩]

end Verif.Ldp
