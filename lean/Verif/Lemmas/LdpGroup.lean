import Verif.Spec.LdpGroup
import Verif.Lemmas.LdpRead
/-!
# Helper lemmas for reading TBX and COR files
-/
set_option linter.unusedSectionVars false

namespace Verif.LdpGroup
open Verif.Buffer
open Verif.Ldp (tagOf tagOf_inj tagOf_lt tagOf_succ)

variable {K D : Type} [DecidableEq K] [DecidableEq D]

/-- The frames of step `k`. -/
def atStep (t0 skip : Int) (pre : List (Fr K D Payload)) (k : Nat) : List (Fr K D Payload) :=
  pre.filter (fun f => decide (f.fom = tagOf t0 skip k))

/-- The dictionary after the frames `pre`, of which the steps before `a` have been given out and `m` steps have
begun. -/
def bufAt (t0 skip : Int) (pre : List (Fr K D Payload)) (a m : Nat) : List (Int × List (Fr K D Payload)) :=
  (List.range' a (m - a)).map (fun k => (tagOf t0 skip k, atStep t0 skip pre k))

theorem insertF_old {t0 skip : Int} (hs : 0 < skip) (pre : List (Fr K D Payload)) (f : Fr K D Payload) (k : Nat) (hf : f.fom = tagOf t0 skip k) :
    ∀ (n a : Nat), a ≤ k → k < a + n →
    insertF f ((List.range' a n).map (fun k => (tagOf t0 skip k, atStep t0 skip pre k))) =
      (List.range' a n).map (fun k => (tagOf t0 skip k, atStep t0 skip (pre ++ [f]) k)) := by
  intro n
  induction n with
  | zero => intro a h1 h2; omega
  | succ n ih =>
    intro a h1 h2
    simp only [List.range'_succ, List.map_cons, insertF]
    by_cases e : k = a
    · subst e
      rw [if_pos hf.symm]
      congr 1
      · congr 1
        simp [atStep, hf]
      · apply List.map_congr_left
        intro j hj
        rw [List.mem_range'_1] at hj
        have : ¬ f.fom = tagOf t0 skip j := by
          rw [hf]; intro e; have := tagOf_inj hs e; omega
        simp [atStep, this]
    · have : ¬ tagOf t0 skip a = f.fom := by
        rw [hf]; intro e'; have := tagOf_inj hs e'; omega
      rw [if_neg this, ih (a + 1) (by omega) (by omega)]
      congr 1
      have : ¬ f.fom = tagOf t0 skip a := fun e => this e.symm
      simp [atStep, this]

theorem insertF_new {t0 skip : Int} (hs : 0 < skip) (pre : List (Fr K D Payload)) (f : Fr K D Payload) :
    ∀ (n a : Nat), f.fom = tagOf t0 skip (a + n) → atStep t0 skip pre (a + n) = [] →
    insertF f ((List.range' a n).map (fun k => (tagOf t0 skip k, atStep t0 skip pre k))) =
      (List.range' a (n + 1)).map (fun k => (tagOf t0 skip k, atStep t0 skip (pre ++ [f]) k)) := by
  intro n
  induction n with
  | zero =>
    intro a hf he
    simp only [Nat.add_zero] at hf he
    have : atStep t0 skip (pre ++ [f]) a = [f] := by
      unfold atStep at he ⊢
      rw [List.filter_append, he]; simp [hf]
    simp [insertF, hf, this]
  | succ n ih =>
    intro a hf he
    rw [List.range'_succ, List.map_cons, List.range'_succ, List.map_cons]
    simp only [insertF]
    have : ¬ tagOf t0 skip a = f.fom := by
      rw [hf]; intro e'; have := tagOf_inj hs e'; omega
    rw [if_neg this, ih (a + 1) (by rw [hf]; congr 1; omega) (by rw [show a + 1 + n = a + (n + 1) by omega]; exact he)]
    congr 1
    have : ¬ f.fom = tagOf t0 skip a := fun e => this e.symm
    simp [atStep, this]

/-- What the reading loop knows: `pre` has been read, `post` not yet, `a` steps are out, `m` have begun. -/
structure Inv (w : Nat) (t0 skip : Int) (pre post : List (Fr K D Payload)) (a m : Nat) (st : St K D Payload) : Prop where
  le : a ≤ m
  order : InOrder w t0 skip m post
  early : ∀ f ∈ pre, ∃ k, k < m ∧ f.fom = tagOf t0 skip k
  begun : ∀ k, k < m → atStep t0 skip pre k ≠ []
  late : ∀ f ∈ post, ∃ k, a ≤ k ∧ f.fom = tagOf t0 skip k
  buf : st.buf = bufAt t0 skip pre a m
  done : ∃ d ds, st.done = d :: ds ∧ d < tagOf t0 skip a

theorem append_inv {w : Nat} {t0 skip : Int} (hs : 0 < skip) (b : List (Fr K D Payload)) : ∀ (pre post : List (Fr K D Payload)) (a m : Nat)
    (st : St K D Payload), Inv w t0 skip pre (b ++ post) a m st →
    ∃ st' m', append st b = some st' ∧ Inv w t0 skip (pre ++ b) post a m' st' ∧ m ≤ m' := by
  induction b with
  | nil =>
    intro pre post a m st h
    exact ⟨st, m, rfl, by simpa using h, Nat.le_refl _⟩
  | cons f b ih =>
    intro pre post a m st h
    obtain ⟨k, hk, hkm, hkw, hord⟩ := h.order
    obtain ⟨d, ds, hd, hda⟩ := h.done
    obtain ⟨k', hak, hk'⟩ := h.late f (by simp)
    have ek : k = k' := tagOf_inj hs (hk.symm.trans hk')
    subst ek
    have hdf : d < f.fom := by
      rw [hk]
      rcases Nat.lt_or_ge a k with h1 | h1
      · have := tagOf_lt (t0 := t0) hs h1; omega
      · have : k = a := by omega
        rw [this]; exact hda
    have ha1 : append1 st f = some { st with buf := insertF f st.buf } := by
      unfold append1
      rw [hd]
      simp only
      rw [if_neg (by omega)]
    have hbuf : insertF f st.buf = bufAt t0 skip (pre ++ [f]) a (if k = m then m + 1 else m) := by
      rw [h.buf]
      unfold bufAt
      by_cases e : k = m
      · rw [if_pos e, show m + 1 - a = (m - a) + 1 by have := h.le; omega]
        apply insertF_new hs
        · rw [hk]; congr 1; have := h.le; omega
        · rw [show a + (m - a) = m by have := h.le; omega]
          unfold atStep
          rw [List.filter_eq_nil_iff]
          intro g hg
          obtain ⟨j, hj, hgj⟩ := h.early g hg
          simp only [decide_eq_true_eq]
          intro e2
          have := tagOf_inj hs (hgj.symm.trans e2)
          omega
      · rw [if_neg e]
        exact insertF_old hs pre f k hk _ _ hak (by omega)
    have hinv : Inv w t0 skip (pre ++ [f]) (b ++ post) a (if k = m then m + 1 else m)
        { st with buf := insertF f st.buf } := by
      refine ⟨?_, hord, ?_, ?_, ?_, hbuf, ⟨d, ds, hd, hda⟩⟩
      · have := h.le; split <;> omega
      · intro g hg
        rw [List.mem_append] at hg
        rcases hg with hg | hg
        · obtain ⟨j, hj, e⟩ := h.early g hg
          exact ⟨j, by split <;> omega, e⟩
        · rw [List.mem_singleton] at hg
          subst hg
          exact ⟨k, by split <;> omega, hk⟩
      · intro j hj
        unfold atStep
        rw [List.filter_append]
        by_cases hjm : j < m
        · intro e
          rw [List.append_eq_nil_iff] at e
          exact h.begun j hjm e.1
        · have : j = k := by split at hj <;> omega
          subst this
          simp [hk]
      · intro g hg
        exact h.late g (by simp only [List.cons_append, List.mem_cons]; exact .inr hg)
    obtain ⟨st', m', h1, h2, h3⟩ := ih (pre ++ [f]) post a _ _ hinv
    refine ⟨st', m', ?_, by simpa using h2, ?_⟩
    · simp only [append, ha1, Option.bind_some]; exact h1
    · split at h3 <;> omega

theorem minKey_map {t0 skip : Int} (hs : 0 < skip) (g : Nat → List (Fr K D Payload)) (n : Nat) : ∀ a,
    minKey ((List.range' a (n + 1)).map (fun k => (tagOf t0 skip k, g k))) = some (tagOf t0 skip a) := by
  induction n with
  | zero => intro a; simp [minKey]
  | succ n ih =>
    intro a
    rw [List.range'_succ, List.map_cons]
    simp only [minKey]
    rw [ih (a + 1)]
    have := tagOf_lt (t0 := t0) hs (show a < a + 1 by omega)
    simp only [Option.some.injEq]
    omega

theorem inOrder_late {w : Nat} {t0 skip : Int} (post : List (Fr K D Payload)) : ∀ m, InOrder w t0 skip m post →
    ∀ f ∈ post, ∃ k, f.fom = tagOf t0 skip k ∧ m < k + w := by
  induction post with
  | nil => intro m _ f hf; simp at hf
  | cons g l ih =>
    intro m h f hf
    obtain ⟨k, hk, h1, h2, h3⟩ := h
    rw [List.mem_cons] at hf
    rcases hf with rfl | hf
    · exact ⟨k, hk, h2⟩
    · obtain ⟨j, hj, hjw⟩ := ih _ h3 f hf
      exact ⟨j, hj, by split at hjw <;> omega⟩

theorem bufAt_cons {t0 skip : Int} (pre : List (Fr K D Payload)) {a m : Nat} (h : a < m) :
    bufAt t0 skip pre a m = (tagOf t0 skip a, atStep t0 skip pre a) :: bufAt t0 skip pre (a + 1) m := by
  unfold bufAt
  rw [show m - a = (m - (a + 1)) + 1 by omega, List.range'_succ, List.map_cons]

/-- Taking the first step out. -/
theorem getKey_inv {w : Nat} {t0 skip : Int} (hs : 0 < skip) (c : Cfg K D Payload) (hn : 1 ≤ c.nseg)
    {pre post : List (Fr K D Payload)} {a m : Nat} {st : St K D Payload} (h : Inv w t0 skip pre post a m st) (ham : a < m)
    (hw : a + w ≤ m ∨ post = []) :
    ∃ g, (getKey c st (tagOf t0 skip a)).2 = .group (tagOf t0 skip a) g ∧
      g.Perm (assemble c (atStep t0 skip pre a)) ∧
      Inv w t0 skip pre post (a + 1) m (getKey c st (tagOf t0 skip a)).1 := by
  have hl : lookup (tagOf t0 skip a) st.buf = some (atStep t0 skip pre a) := by
    rw [h.buf, bufAt_cons pre ham]; simp [lookup]
  obtain ⟨h1, h2, ⟨g, hg, hp⟩, _⟩ := getKey_some c st _ _ hl
  refine ⟨g, hg, hp, ?_⟩
  refine ⟨ham, h.order, h.early, h.begun, ?_, ?_, ?_⟩
  · intro f hf
    rcases hw with hw | hw
    · obtain ⟨k, hk, hkw⟩ := inOrder_late post m h.order f hf
      exact ⟨k, by omega, hk⟩
    · subst hw; simp at hf
  · rw [h1, h.buf, bufAt_cons pre ham]; simp [erase]
  · refine ⟨tagOf t0 skip a, st.done.take (c.nseg - 1), ?_, tagOf_lt hs (by omega)⟩
    rw [h2]
    obtain ⟨n, e⟩ : ∃ n, c.nseg = n + 1 := ⟨c.nseg - 1, by omega⟩
    rw [e]; simp

/-- Frames of a group: those received, and zeros for the others. -/
theorem assemble_cases (c : Cfg K D Payload) (hc : CfgOK c) (l : List (Fr K D Payload)) (hne : l ≠ [])
    (hn : (l.map (·.mid)).Nodup) (hp : ∀ f ∈ l, f.mid ∈ c.possible) (hr : ∀ f ∈ l, f.fill = false) (f : Fr K D Payload)
    (hf : f ∈ assemble c l) : f ∈ l ∨ (f.mid ∉ l.map (·.mid) ∧ ∃ t ∈ l, f.body = c.zero t.body) := by
  have hlen := (assemble_exact c hc l hne hn hp hr).2.2
  unfold assemble at hf
  split at hf
  · exact .inl hf
  · split at hf
    · split at hf
      · simp at hf
      · rename_i t tl _ _
        rw [List.mem_append] at hf
        rcases hf with hf | hf
        · exact .inl hf
        · rw [List.mem_map] at hf
          obtain ⟨x, hx, rfl⟩ := hf
          rw [mem_missingList] at hx
          exact .inr ⟨hx.2, t, by simp, rfl⟩
    · omega

/-- Two frames with the same tag and id are the same frame. -/
theorem unique_frame {fs : List (Fr K D Payload)} (hn : (fs.map (fun f => (f.fom, f.mid))).Nodup) {f g : Fr K D Payload} (hf : f ∈ fs) (hg : g ∈ fs)
    (h1 : f.fom = g.fom) (h2 : f.mid = g.mid) : f = g := by
  exact inj_of_nodup hn hf hg (by simp [h1, h2])

/-- The one frame of id `x` of the group of step `k` holds what the file has for it. -/
theorem group_content {c : Cfg K D Payload} (hc : CfgOK c) (hz : c.zero = zeroP)
    {rn : K → Nat} (hrn : (c.possible.map rn).Nodup) {w len : Nat} {t0 skip : Int} {fs : List (Fr K D Payload)}
    (hreg : Regular c.possible w len t0 skip fs) (k : Nat) (hk : atStep t0 skip fs k ≠ []) {g : List (Fr K D Payload)}
    (hg : g.Perm (assemble c (atStep t0 skip fs k))) :
    (∀ f ∈ g, f.fom = tagOf t0 skip k ∧ f.mid ∈ c.possible) ∧ (g.map (fun f => rn f.mid)).Nodup ∧
    (∀ x ∈ c.possible, (g.filter (fun f => decide (rn f.mid = rn x))).map (·.body) =
      [content t0 skip len fs k x]) ∧ (∀ r, r ∈ g.map (fun f => rn f.mid) ↔ r ∈ c.possible.map rn) := by
  have hsub : (atStep t0 skip fs k).Sublist fs := List.filter_sublist
  have hfom : ∀ f ∈ atStep t0 skip fs k, f.fom = tagOf t0 skip k := by
    intro f hf; unfold atStep at hf; rw [List.mem_filter] at hf; simpa using hf.2
  have hnd : ((atStep t0 skip fs k).map (·.mid)).Nodup := by
    have h1 := hreg.nodup.sublist (hsub.map _)
    have h2 : (atStep t0 skip fs k).map (fun f => (f.fom, f.mid)) =
        ((atStep t0 skip fs k).map (·.mid)).map (fun x => (tagOf t0 skip k, x)) := by
      rw [List.map_map]
      apply List.map_congr_left
      intro f hf
      simp [hfom f hf]
    rw [h2] at h1
    exact nodup_of_map h1
  have hkn : ∀ f ∈ atStep t0 skip fs k, f.mid ∈ c.possible := fun f hf => hreg.known f (hsub.subset hf)
  have hre : ∀ f ∈ atStep t0 skip fs k, f.fill = false := fun f hf => hreg.real f (hsub.subset hf)
  obtain ⟨e1, e2, e3⟩ := assemble_exact c hc _ hk hnd hkn hre
  have hgm : (g.map (·.mid)).Perm c.possible := (hg.map _).trans e1
  have hgr : (g.map (fun f => rn f.mid)).Perm (c.possible.map rn) := by
    have := hgm.map rn
    rwa [List.map_map] at this
  have hnodup : (g.map (fun f => rn f.mid)).Nodup := hgr.nodup_iff.mpr hrn
  refine ⟨?_, hnodup, ?_, fun r => hgr.mem_iff⟩
  · intro f hf
    refine ⟨assemble_fom c _ _ hfom f (hg.mem_iff.mp hf), hgm.mem_iff.mp (List.mem_map_of_mem hf)⟩
  · intro x hx
    have hx' : x ∈ g.map (·.mid) := hgm.mem_iff.mpr hx
    rw [List.mem_map] at hx'
    obtain ⟨f, hf, hfx⟩ := hx'
    have hfilt : g.filter (fun f => decide (rn f.mid = rn x)) = [f] := by
      have := filter_singleton hnodup hf
      simpa [hfx] using this
    rw [hfilt]
    simp only [List.map_cons, List.map_nil, List.cons.injEq, and_true]
    unfold content
    rcases assemble_cases c hc _ hk hnd hkn hre f (hg.mem_iff.mp hf) with h | ⟨h, t, ht, hb⟩
    · have hff := hsub.subset h
      cases hfind : fs.find? (fun f => decide (f.fom = tagOf t0 skip k ∧ f.mid = x)) with
      | none =>
        rw [List.find?_eq_none] at hfind
        have := hfind f hff
        simp [hfom f h, hfx] at this
      | some f' =>
        have h1 := List.find?_some hfind
        have h2 := List.mem_of_find?_eq_some hfind
        simp only [decide_eq_true_eq] at h1
        simp only
        rw [unique_frame hreg.nodup hff h2 (by rw [hfom f h, h1.1]) (by rw [hfx, h1.2])]
    · cases hfind : fs.find? (fun f => decide (f.fom = tagOf t0 skip k ∧ f.mid = x)) with
      | none =>
        rw [hb, hz, zeroP, ← hreg.same t (hsub.subset ht)]
        exact List.map_const' ..
      | some f' =>
        exfalso
        have h1 := List.find?_some hfind
        have h2 := List.mem_of_find?_eq_some hfind
        simp only [decide_eq_true_eq] at h1
        apply h
        rw [List.mem_map]
        exact ⟨f', by unfold atStep; rw [List.mem_filter]; exact ⟨h2, by simp [h1.1]⟩, by rw [h1.2, hfx]⟩

theorem stepCount_spec {w : Nat} {t0 skip : Int} (hs : 0 < skip) (l : List (Fr K D Payload)) : ∀ m, InOrder w t0 skip m l →
    ∀ k, k < stepCount t0 skip m l ↔ k < m ∨ ∃ f ∈ l, f.fom = tagOf t0 skip k := by
  induction l with
  | nil => intro m _ k; simp [stepCount]
  | cons f l ih =>
    intro m h k
    obtain ⟨j, hj, h1, h2, h3⟩ := h
    have e : (f.fom = tagOf t0 skip m) ↔ j = m := by
      rw [hj]; exact ⟨fun h => tagOf_inj hs h, fun h => by rw [h]⟩
    simp only [stepCount]
    have e2 : (if f.fom = tagOf t0 skip m then m + 1 else m) = if j = m then m + 1 else m := by
      by_cases hjm : j = m
      · rw [if_pos (e.mpr hjm), if_pos hjm]
      · rw [if_neg (fun h => hjm (e.mp h)), if_neg hjm]
    rw [e2, ih _ h3 k]
    simp only [List.mem_cons, exists_eq_or_imp]
    have e3 : f.fom = tagOf t0 skip k ↔ j = k := by
      rw [hj]; exact ⟨fun h => tagOf_inj hs h, fun h => by rw [h]⟩
    rw [e3]
    by_cases hx : ∃ a ∈ l, a.fom = tagOf t0 skip k
    · simp [hx]
    · simp only [hx, or_false]
      split <;> omega


/-! ## Reading frames -/

/-- What the reading loop of `rd` can get over: for TBX no more than the limit of damaged places in a row, otherwise none. -/
def Fine (rd : Reader K D) (ns : Nat) (l : List (Item K D)) : Prop :=
  (rd.onSync = .jump → Calm rd.limit ns l) ∧ (rd.onSync ≠ .jump → NoSync l)

theorem calm_mono {limit : Nat} (l : List (Item K D)) : ∀ ns ns', ns' ≤ ns → Calm limit ns l → Calm limit ns' l := by
  induction l with
  | nil => intro ns ns' _ _; trivial
  | cons x l ih =>
    intro ns ns' h hc
    cases x with
    | frame f => exact hc
    | other => exact ih _ _ (by omega) hc
    | sync => exact ⟨by have := hc.1; omega, ih _ _ (by omega) hc.2⟩

theorem fine_mono {rd : Reader K D} {l : List (Item K D)} {ns ns' : Nat} (h : ns' ≤ ns) (hf : Fine rd ns l) : Fine rd ns' l :=
  ⟨fun hj => calm_mono l ns ns' h (hf.1 hj), hf.2⟩

theorem framesOf_append (u v : List (Item K D)) : framesOf (u ++ v) = framesOf u ++ framesOf v := by
  induction u with
  | nil => rfl
  | cons x u ih => cases x <;> simp [framesOf, ih]

theorem readBatch_spec (rd : Reader K D) (n : Nat) : ∀ (ns : Nat) (l : List (Item K D)), Fine rd ns l →
    ∃ u, l = u ++ (readBatch rd n ns l).2.1 ∧ (readBatch rd n ns l).1 = framesOf u ∧
      ((readBatch rd n ns l).2.2.2 = .eof → (readBatch rd n ns l).2.1 = []) ∧
      ((readBatch rd n ns l).2.2.2 ≠ .eof → u.length = n) ∧ (readBatch rd n ns l).2.2.2 ≠ .name ∧
      Fine rd (readBatch rd n ns l).2.2.1 (readBatch rd n ns l).2.1 := by
  induction n with
  | zero => intro ns l hf; exact ⟨[], by simp [readBatch, framesOf, hf]⟩
  | succ n ih =>
    intro ns l hf
    cases l with
    | nil => exact ⟨[], by simp [readBatch, framesOf, hf]⟩
    | cons x l =>
      cases x with
      | frame f =>
        obtain ⟨u, h1, h2, h3, h4, h5, h6⟩ := ih 0 l hf
        refine ⟨.frame f :: u, ?_, ?_, ?_, ?_, ?_, ?_⟩
        · simp only [readBatch]; rw [List.cons_append, ← h1]
        · simp only [readBatch, framesOf]; rw [h2]
        · simpa only [readBatch] using h3
        · simp only [readBatch, List.length_cons]; intro h; rw [h4 h]
        · simpa only [readBatch] using h5
        · simpa only [readBatch] using h6
      | other =>
        obtain ⟨u, h1, h2, h3, h4, h5, h6⟩ := ih (ns + 1) l hf
        refine ⟨.other :: u, ?_, ?_, ?_, ?_, ?_, ?_⟩
        · simp only [readBatch]; rw [List.cons_append, ← h1]
        · simp only [readBatch, framesOf]; rw [h2]
        · simpa only [readBatch] using h3
        · simp only [readBatch, List.length_cons]; intro h; rw [h4 h]
        · simpa only [readBatch] using h5
        · simpa only [readBatch] using h6
      | sync =>
        have hj : rd.onSync = .jump := by
          by_cases h : rd.onSync = .jump
          · exact h
          · exact absurd (hf.2 h) (by simp [NoSync])
        have hc := hf.1 hj
        obtain ⟨u, h1, h2, h3, h4, h5, h6⟩ := ih (ns + 1) l ⟨fun _ => hc.2, fun h => absurd hj h⟩
        have e : readBatch rd (n + 1) ns (.sync :: l) = readBatch rd n (ns + 1) l := by
          simp only [readBatch, hj]
          rw [if_neg (by have := hc.1; omega)]
        rw [e]
        refine ⟨.sync :: u, ?_, ?_, h3, ?_, h5, h6⟩
        · rw [List.cons_append, ← h1]
        · simp only [framesOf]; rw [h2]
        · simp only [List.length_cons]; intro h; rw [h4 h]

/-! ## Copying a group -/

theorem upd_same {α : Type} (g : Nat → α) (r : Nat) (v : α) : upd g r v r = v := by simp [upd]
theorem upd_ne {α : Type} (g : Nat → α) {r x : Nat} (v : α) (h : x ≠ r) : upd g r v x = g x := by simp [upd, h]

theorem copy_group (rd : Reader K D) (rn : K → Nat) (fc : Nat) (tag : Int) (g : List (Fr K D Payload)) : ∀ (acc : Acc),
    (∀ f ∈ g, f.fom = tag ∧ rd.row f.mid = some (rn f.mid) ∧ rn f.mid < rd.per) →
    (g.map (fun f => rn f.mid)).Nodup →
    (∀ f ∈ g, (acc.rows (rn f.mid)).length < fc) →
    (copy rd fc acc g).2 = none ∧ (copy rd fc acc g).1.tt = acc.tt ∧
    (∀ r, (copy rd fc acc g).1.rows r =
      acc.rows r ++ (g.filter (fun f => decide (rn f.mid = r))).map (·.body)) ∧
    (copy rd fc acc g).1.setTime = (if g = [] then acc.setTime else some (acc.setTime.getD tag)) := by
  induction g with
  | nil => intro acc _ _ _; simp [copy]
  | cons f g ih =>
    intro acc h1 h2 h4
    obtain ⟨hf, hr, hrp⟩ := h1 f (by simp)
    have hp1 : copy1 rd fc acc f = (⟨acc.tt, some (acc.setTime.getD tag),
        upd acc.rows (rn f.mid) (acc.rows (rn f.mid) ++ [f.body])⟩, none) := by
      unfold copy1
      rw [hr]
      have hlt := h4 f (by simp)
      simp only
      rw [if_neg (by omega)]
      cases acc.setTime <;> simp [hf]
    simp only [List.map_cons, List.nodup_cons] at h2
    have hne : ∀ f' ∈ g, rn f'.mid ≠ rn f.mid := by
      intro f' hf' e
      exact h2.1 (List.mem_map.mpr ⟨f', hf', e⟩)
    obtain ⟨i1, i2, i3, i4⟩ := ih ⟨acc.tt, some (acc.setTime.getD tag),
        upd acc.rows (rn f.mid) (acc.rows (rn f.mid) ++ [f.body])⟩
      (fun f' hf' => h1 f' (by simp [hf'])) h2.2
      (fun f' hf' => by
        simp only
        rw [upd_ne _ _ (hne f' hf')]
        exact h4 f' (by simp [hf']))
    have hpl : copy rd fc acc (f :: g) = copy rd fc ⟨acc.tt, some (acc.setTime.getD tag),
        upd acc.rows (rn f.mid) (acc.rows (rn f.mid) ++ [f.body])⟩ g := by
      rw [copy]; simp only [hp1]
    rw [hpl]
    refine ⟨i1, i2, ?_, ?_⟩
    · intro r
      rw [i3 r]
      by_cases e : r = rn f.mid
      · subst e
        simp [upd]
      · simp only
        rw [upd_ne _ _ e, List.filter_cons_of_neg]
        simp only [decide_eq_true_eq]
        exact fun h => e h.symm
    · rw [i4]
      simp

theorem place_group (rd : Reader K D) (rn : K → Nat) (fc : Nat) (tag : Int) (g : List (Fr K D Payload)) (acc : Acc)
    (hne : g ≠ []) (h1 : ∀ f ∈ g, f.fom = tag ∧ rd.row f.mid = some (rn f.mid) ∧ rn f.mid < rd.per)
    (h2 : (g.map (fun f => rn f.mid)).Nodup) (h3 : acc.tt = 0 ∨ acc.tt + rd.skip = tag)
    (h4 : ∀ f ∈ g, (acc.rows (rn f.mid)).length < fc) :
    (place rd fc acc g).2 = none ∧ (place rd fc acc g).1.tt = tag ∧
    (∀ r, (place rd fc acc g).1.rows r =
      acc.rows r ++ (g.filter (fun f => decide (rn f.mid = r))).map (·.body)) ∧
    (place rd fc acc g).1.setTime = some (acc.setTime.getD tag) := by
  cases g with
  | nil => exact absurd rfl hne
  | cons f g =>
    have hf := (h1 f (by simp)).1
    have e : place rd fc acc (f :: g) = copy rd fc { acc with tt := tag } (f :: g) := by
      simp only [place]
      rw [if_neg, hf]
      rintro ⟨h, _⟩
      apply h
      split <;> omega
    rw [e]
    obtain ⟨c1, c2, c3, c4⟩ := copy_group rd rn fc tag (f :: g) { acc with tt := tag } h1 h2 h4
    exact ⟨c1, c2, c3, by rw [c4]; simp⟩

/-! ## The invariant -/

/-- What is fixed: at least two buffered steps and a regular content; the step of the zero-filling is not smaller than
that of the file. -/
structure Ctx (rd : Reader K D) (rn : K → Nat) (len : Nat) (t0 : Int) (fs : List (Fr K D Payload)) : Prop where
  ok : CfgOK rd.cfg
  zero : rd.cfg.zero = zeroP
  seg : 2 ≤ rd.cfg.nseg
  row : ∀ x ∈ rd.cfg.possible, rd.row x = some (rn x) ∧ rn x < rd.per
  rows : (rd.cfg.possible.map rn).Nodup
  skip : 0 < rd.skip
  batch : 1 ≤ rd.per
  fill : ∀ st sz, rd.fill = some (st, sz) → rd.skip ≤ st
  reg : Regular rd.cfg.possible rd.cfg.nseg len t0 rd.skip fs

/-- Time tag memory when `a` steps are out. -/
def ttAt (rd : Reader K D) (t0 : Int) (a : Nat) : Int := if a = 0 then 0 else tagOf t0 rd.skip (a - 1)

/-- Invariant inside a call that began with `a0` steps out. -/
structure LInv (rd : Reader K D) (rn : K → Nat) (len : Nat) (t0 : Int) (fs : List (Fr K D Payload)) (a0 a : Nat)
    (pre post : List (Fr K D Payload)) (m : Nat) (s : LS K D) : Prop where
  split : fs = pre ++ post
  rem : framesOf s.rem = post
  fine : Fine rd s.ns s.rem
  inv : Inv rd.cfg.nseg t0 rd.skip pre post a m s.buf
  tt : s.acc.tt = ttAt rd t0 a
  rws : ∀ r, s.acc.rows r = (chunk rn rd.cfg.possible t0 rd.skip len fs a0 (a - a0)).rows r
  st : s.acc.setTime = if a = a0 then none else some (tagOf t0 rd.skip a0)
  n : s.n + a0 = a
  eof : s.eof = true → s.rem = [] ∧ s.tail = 0
  lead : a0 < a → a < m ∨ a = stepCount t0 rd.skip 0 fs

/-- `m` is the number of steps when everything has been read, and never more. -/
theorem begun_le {rd : Reader K D} {rn : K → Nat} {len : Nat} {t0 : Int} {fs : List (Fr K D Payload)}
    (hx : Ctx rd rn len t0 fs) {a m : Nat}
    {pre post : List (Fr K D Payload)} {st : St K D Payload} (hsp : fs = pre ++ post)
    (h : Inv rd.cfg.nseg t0 rd.skip pre post a m st) :
    m ≤ stepCount t0 rd.skip 0 fs ∧ (post = [] → m = stepCount t0 rd.skip 0 fs) := by
  have hsc := stepCount_spec hx.skip fs 0 hx.reg.order
  have h1 : m ≤ stepCount t0 rd.skip 0 fs := by
    rcases Nat.lt_or_ge (stepCount t0 rd.skip 0 fs) m with hlt | hge
    · exfalso
      have hb := h.begun _ hlt
      obtain ⟨f, l, hf⟩ := List.exists_cons_of_ne_nil hb
      have hfm : f ∈ atStep t0 rd.skip pre (stepCount t0 rd.skip 0 fs) := by rw [hf]; simp
      unfold atStep at hfm
      rw [List.mem_filter] at hfm
      have := (hsc (stepCount t0 rd.skip 0 fs)).mpr (.inr ⟨f, by rw [hsp]; simp [hfm.1], by simpa using hfm.2⟩)
      omega
    · exact hge
  refine ⟨h1, fun hp => ?_⟩
  rcases Nat.lt_or_ge m (stepCount t0 rd.skip 0 fs) with hlt | hge
  · exfalso
    rcases (hsc m).mp hlt with h | ⟨f, hf, hft⟩
    · omega
    · rw [hsp, hp, List.append_nil] at hf
      obtain ⟨k, hk, hke⟩ := h.early f hf
      have := tagOf_inj hx.skip (hft.symm.trans hke)
      omega
  · omega

theorem atStep_full {t0 skip : Int} (hs : 0 < skip) {pre post fs : List (Fr K D Payload)} (hsp : fs = pre ++ post) {a : Nat}
    (h : ∀ f ∈ post, ∃ k, a + 1 ≤ k ∧ f.fom = tagOf t0 skip k) : atStep t0 skip pre a = atStep t0 skip fs a := by
  rw [hsp]
  unfold atStep
  rw [List.filter_append]
  have : post.filter (fun f => decide (f.fom = tagOf t0 skip a)) = [] := by
    rw [List.filter_eq_nil_iff]
    intro f hf
    obtain ⟨k, hk, e⟩ := h f hf
    simp only [decide_eq_true_eq]
    intro e2
    have := tagOf_inj hs (e2.symm.trans e)
    omega
  rw [this, List.append_nil]

theorem chunk_rows_succ {rd : Reader K D} {rn : K → Nat} {len : Nat} {t0 : Int} {fs : List (Fr K D Payload)} (a0 n r : Nat)
    (g : List (Fr K D Payload))
    (hg : ∀ x ∈ rd.cfg.possible, (g.filter (fun f => decide (rn f.mid = rn x))).map (·.body) =
      [content t0 rd.skip len fs (a0 + n) x])
    (hr : ∀ r, r ∈ g.map (fun f => rn f.mid) ↔ r ∈ rd.cfg.possible.map rn) :
    (chunk rn rd.cfg.possible t0 rd.skip len fs a0 n).rows r ++
      (g.filter (fun f => decide (rn f.mid = r))).map (·.body) =
      (chunk rn rd.cfg.possible t0 rd.skip len fs a0 (n + 1)).rows r := by
  simp only [chunk]
  cases hf : rd.cfg.possible.find? (fun x => decide (rn x = r)) with
  | none =>
    rw [List.find?_eq_none] at hf
    simp only [List.nil_append, List.map_eq_nil_iff, List.filter_eq_nil_iff, decide_eq_true_eq]
    intro f hfg e
    have : r ∈ g.map (fun f => rn f.mid) := List.mem_map.mpr ⟨f, hfg, e⟩
    rw [hr, List.mem_map] at this
    obtain ⟨x, hx, e⟩ := this
    exact hf x hx (by simp [e])
  | some x =>
    have h1 := List.find?_some hf
    have h2 := List.mem_of_find?_eq_some hf
    simp only [decide_eq_true_eq] at h1
    subst h1
    simp only
    rw [hg x h2, List.range'_concat, List.map_append]
    simp

/-- Copying the group of the next step keeps the invariant. -/
theorem place_inv {rd : Reader K D} {rn : K → Nat} {len : Nat} {t0 : Int} {fs : List (Fr K D Payload)}
    (hx : Ctx rd rn len t0 fs) {fc a0 a m : Nat}
    {pre post : List (Fr K D Payload)} {s : LS K D} (h : LInv rd rn len t0 fs a0 a pre post m s) (ham : a < m)
    (hw : a + rd.cfg.nseg ≤ m ∨ post = []) (hn : s.n < fc) :
    ∃ g, (getKey rd.cfg s.buf (tagOf t0 rd.skip a)).2 = .group (tagOf t0 rd.skip a) g ∧
      (place rd fc s.acc g).2 = none ∧
      ∀ s' : LS K D, s'.buf = (getKey rd.cfg s.buf (tagOf t0 rd.skip a)).1 → s'.acc = (place rd fc s.acc g).1 →
        s'.n = s.n + 1 → s'.rem = s.rem → s'.tail = s.tail → s'.eof = s.eof → s'.ns = s.ns →
        LInv rd rn len t0 fs a0 (a + 1) pre post m s' := by
  have hseg := hx.seg
  obtain ⟨g, hg, hp, hi⟩ := getKey_inv hx.skip rd.cfg (by omega) h.inv ham hw
  have hat := atStep_full hx.skip h.split hi.late
  have hne : atStep t0 rd.skip fs a ≠ [] := by rw [← hat]; exact h.inv.begun a ham
  rw [hat] at hp
  obtain ⟨g1, g2, g3, g4⟩ := group_content hx.ok hx.zero hx.rows hx.reg a hne hp
  have hnn := h.n
  have hlen : ∀ f ∈ g, (s.acc.rows (rn f.mid)).length < fc := by
    intro f hf
    rw [h.rws]
    simp only [chunk]
    split
    · simp only [List.length_nil]; omega
    · simp only [List.length_map, List.length_range']; omega
  have htt : s.acc.tt = 0 ∨ s.acc.tt + rd.skip = tagOf t0 rd.skip a := by
    rw [h.tt]
    unfold ttAt
    split
    · exact .inl rfl
    · right
      rw [← tagOf_succ]
      congr 1
      omega
  have hgne : g ≠ [] := by
    intro e
    subst e
    obtain ⟨f, l, hf⟩ := List.exists_cons_of_ne_nil hne
    have hfm : f ∈ atStep t0 rd.skip fs a := by rw [hf]; simp
    unfold atStep at hfm
    rw [List.mem_filter] at hfm
    have := (g4 (rn f.mid)).mpr (List.mem_map_of_mem (hx.reg.known f hfm.1))
    simp at this
  obtain ⟨p1, p2, p3, p4⟩ := place_group rd rn fc (tagOf t0 rd.skip a) g s.acc hgne
    (fun f hf => ⟨(g1 f hf).1, hx.row _ (g1 f hf).2⟩) g2 htt hlen
  refine ⟨g, hg, p1, ?_⟩
  intro s' e1 e2 e3 e4 e5 e6 e7
  refine ⟨h.split, by rw [e4]; exact h.rem, by rw [e4, e7]; exact h.fine, by rw [e1]; exact hi, ?_, ?_, ?_, by omega, ?_, ?_⟩
  · rw [e2, p2]
    unfold ttAt
    rw [if_neg (by omega)]
    rfl
  · intro r
    rw [e2, p3 r, h.rws r, show a + 1 - a0 = (a - a0) + 1 by omega]
    apply chunk_rows_succ _ _ _ g _ g4
    rw [show a0 + (a - a0) = a by omega]
    exact g3
  · rw [e2, p4, h.st, if_neg (show ¬ a + 1 = a0 by omega)]
    by_cases e : a = a0
    · rw [if_pos e, e]; rfl
    · rw [if_neg e]; rfl
  · rw [e6, e4, e5]; exact h.eof
  · intro _
    rcases hw with hw | hw
    · left; omega
    · have := (begun_le hx h.split h.inv).2 hw
      omega

theorem bufAt_length {t0 skip : Int} (pre : List (Fr K D Payload)) (a m : Nat) : (bufAt t0 skip pre a m).length = m - a := by
  simp [bufAt]

/-- What is left to do. -/
def todo (fc : Nat) (s : LS K D) : Nat := s.rem.length + (fc - s.n) + (if s.eof then 0 else 1)

theorem fetch_inv {rd : Reader K D} {rn : K → Nat} {len : Nat} {t0 : Int} {fs : List (Fr K D Payload)}
    (hx : Ctx rd rn len t0 fs) {fc a0 a m : Nat}
    {pre post : List (Fr K D Payload)} {s : LS K D} (h : LInv rd rn len t0 fs a0 a pre post m s) (he : s.eof = false) :
    (fetch rd s).2 = none ∧ (fetch rd s).1.n = s.n ∧
    (todo fc (fetch rd s).1 < todo fc s ∨ ((fetch rd s).1 = s ∧ overfilled rd.cfg s.buf = true)) ∧
    ∃ pre' post' m', LInv rd rn len t0 fs a0 a pre' post' m' (fetch rd s).1 := by
  unfold fetch
  by_cases ho : rd.pause = true ∧ overfilled rd.cfg s.buf = true
  · rw [if_pos ho]
    exact ⟨rfl, rfl, .inr ⟨rfl, ho.2⟩, pre, post, m, h⟩
  · rw [if_neg ho]
    obtain ⟨u, hu1, hu2, hu3, hu4, hu5, hu6⟩ := readBatch_spec rd rd.per s.ns s.rem h.fine
    have hpost : post = (readBatch rd rd.per s.ns s.rem).1 ++ framesOf (readBatch rd rd.per s.ns s.rem).2.1 := by
      rw [← h.rem, hu2]
      conv => lhs; rw [hu1]
      rw [framesOf_append]
    have hi := h.inv
    rw [hpost] at hi
    obtain ⟨st', m', ha, hinv', hmm⟩ := append_inv hx.skip _ _ _ _ _ _ hi
    have hl := congrArg List.length hu1
    rw [List.length_append] at hl
    have hb := hx.batch
    have hlt : ∀ s' : LS K D, s'.rem = (readBatch rd rd.per s.ns s.rem).2.1 → s'.n = s.n →
        s'.eof = decide ((readBatch rd rd.per s.ns s.rem).2.2.2 = .eof) → todo fc s' < todo fc s := by
      intro s' e1 e2 e3
      simp only [todo, e1, e2, e3, he]
      by_cases hb2 : (readBatch rd rd.per s.ns s.rem).2.2.2 = .eof
      · rw [if_pos (by simpa using hb2), if_neg (by simp)]; omega
      · rw [if_neg (by simpa using hb2)]
        have := hu4 hb2
        rw [if_neg (by simp)]
        omega
    have hmain : ∀ s' : LS K D, s'.rem = (readBatch rd rd.per s.ns s.rem).2.1 →
        s'.tail = (if (readBatch rd rd.per s.ns s.rem).2.1 = [] ∧ (readBatch rd rd.per s.ns s.rem).2.2.2 = .eof then 0 else s.tail) →
        s'.ns = (readBatch rd rd.per s.ns s.rem).2.2.1 → s'.buf = st' → s'.acc = s.acc → s'.n = s.n →
        s'.eof = decide ((readBatch rd rd.per s.ns s.rem).2.2.2 = .eof) →
        LInv rd rn len t0 fs a0 a (pre ++ (readBatch rd rd.per s.ns s.rem).1) (framesOf (readBatch rd rd.per s.ns s.rem).2.1) m' s' := by
      intro s' e1 e2 e3 e4 e5 e6 e7
      refine ⟨?_, by rw [e1], by rw [e1, e3]; exact hu6, by rw [e4]; exact hinv', by rw [e5]; exact h.tt,
        by rw [e5]; exact h.rws, by rw [e5]; exact h.st, by rw [e6]; exact h.n, ?_, ?_⟩
      · rw [h.split, hpost, List.append_assoc, ← hpost]
      · intro hb
        rw [e7, decide_eq_true_eq] at hb
        rw [e1, e2, if_pos ⟨hu3 hb, hb⟩]
        exact ⟨hu3 hb, rfl⟩
      · intro h1
        rcases h.lead h1 with h2 | h2
        · left; omega
        · exact .inr h2
    simp only [ha, hu5, if_false]
    exact ⟨trivial, trivial, .inl (hlt _ rfl rfl rfl), _, _, m', hmain _ rfl rfl rfl rfl rfl rfl rfl⟩

theorem autofill_ok {rd : Reader K D} (hfill : ∀ st sz, rd.fill = some (st, sz) → rd.skip ≤ st) (hs : 0 < rd.skip)
    (cf : Option (List (Fr K D Payload))) (c tt : Int) (st : St K D Payload) (h : tt = 0 ∨ c = tt + rd.skip) :
    autofill rd cf c tt st = .ok st := by
  unfold autofill
  split
  · rfl
  · rename_i step size hst
    have hle := hfill step size hst
    by_cases h0 : tt = 0
    · rw [if_pos h0]
    · rw [if_neg h0]
      by_cases h1 : c = tt + step
      · rw [if_pos h1]
      · rw [if_neg h1]
        simp only
        rw [if_neg]
        rintro ⟨h2, _⟩
        rcases h with h | h
        · exact h0 h
        · have hlt : rd.skip < step := by omega
          have hg : c - tt - step = rd.skip - step := by omega
          rw [hg] at h2
          have hd := Int.dvd_of_emod_eq_zero h2
          obtain ⟨q, hq⟩ := hd
          have : q < 0 := by
            rcases Int.lt_or_le q 0 with h | h
            · exact h
            · have := Int.mul_nonneg (show 0 ≤ step by omega) h
              omega
          have : step * q ≤ step * (-1) := Int.mul_le_mul_of_nonneg_left (by omega) (by omega)
          omega

theorem emit_inv {rd : Reader K D} {rn : K → Nat} {len : Nat} {t0 : Int} {fs : List (Fr K D Payload)}
    (hx : Ctx rd rn len t0 fs) {fc a0 a m : Nat}
    {pre post : List (Fr K D Payload)} {s : LS K D} (h : LInv rd rn len t0 fs a0 a pre post m s)
    (haN : a < stepCount t0 rd.skip 0 fs) (hn : s.n < fc) :
    (emit rd fc s).2 = none ∧ (emit rd fc s).1.n ≤ fc ∧
    todo fc (emit rd fc s).1 ≤ todo fc s ∧ (overfilled rd.cfg s.buf = true → todo fc (emit rd fc s).1 < todo fc s) ∧
    ∃ a', LInv rd rn len t0 fs a0 a' pre post m (emit rd fc s).1 ∧ a' < stepCount t0 rd.skip 0 fs := by
  have hseg := hx.seg
  unfold emit
  have hbl : s.buf.buf.length = m - a := by rw [h.inv.buf, bufAt_length]
  cases hpk : peek rd.cfg s.buf true with
  | none =>
    simp only
    have hno : overfilled rd.cfg s.buf = false := by
      unfold peek at hpk
      unfold overfilled
      simp only [Bool.true_and] at hpk
      split at hpk
      · rename_i hf
        simp only [filled, Bool.not_eq_true', decide_eq_false_iff_not] at hf
        simp only [decide_eq_false_iff_not]; omega
      · rw [minKey_none] at hpk
        rw [hpk]; simp
    refine ⟨trivial, by omega, Nat.le_refl _, ?_, a, h, haN⟩
    intro ho
    rw [ho] at hno
    cases hno
  | some c =>
    simp only
    have hfil : rd.cfg.nseg ≤ m - a := by
      unfold peek at hpk
      simp only [Bool.true_and] at hpk
      split at hpk
      · simp at hpk
      · rename_i hf
        simp only [filled, Bool.not_eq_true', decide_eq_false_iff_not, Decidable.not_not] at hf
        omega
    have hc : c = tagOf t0 rd.skip a := by
      unfold peek at hpk
      rw [if_neg (by simp [filled]; omega), h.inv.buf, bufAt, show m - a = (m - a - 1) + 1 by omega,
        minKey_map hx.skip] at hpk
      simpa using hpk.symm
    subst hc
    have haf : autofill rd s.cf (tagOf t0 rd.skip a) s.acc.tt s.buf = .ok s.buf := by
      apply autofill_ok hx.fill hx.skip
      rw [h.tt]
      unfold ttAt
      split
      · exact .inl rfl
      · right
        rw [← tagOf_succ]
        congr 1
        omega
    rw [haf]
    simp only
    have hget : Buffer.get rd.cfg s.buf = getKey rd.cfg s.buf (tagOf t0 rd.skip a) := by
      unfold Buffer.get; rw [hpk]
    rw [hget]
    obtain ⟨g, hg, hp, hall⟩ := place_inv (fc := fc) hx h (by omega) (.inl (by omega)) (by omega)
    rw [hg]
    simp only [hp]
    have hm := (begun_le hx h.split h.inv).1
    refine ⟨trivial, by omega, ?_, fun _ => ?_, a + 1, hall _ rfl rfl rfl rfl rfl rfl rfl, by omega⟩
    · simp only [todo]; omega
    · simp only [todo]; omega

theorem turn_inv {rd : Reader K D} {rn : K → Nat} {len : Nat} {t0 : Int} {fs : List (Fr K D Payload)}
    (hx : Ctx rd rn len t0 fs) {fc a0 a m : Nat}
    {pre post : List (Fr K D Payload)} {s : LS K D} (h : LInv rd rn len t0 fs a0 a pre post m s)
    (haN : a < stepCount t0 rd.skip 0 fs) (he : s.eof = false) (hn : s.n < fc) :
    (turn rd fc s).2 = none ∧ todo fc (turn rd fc s).1 < todo fc s ∧ (turn rd fc s).1.n ≤ fc ∧
    ∃ a' pre' post' m', LInv rd rn len t0 fs a0 a' pre' post' m' (turn rd fc s).1 ∧
      a' < stepCount t0 rd.skip 0 fs := by
  obtain ⟨h1, h2, h3, pre1, post1, m1, h5⟩ := fetch_inv (fc := fc) hx h he
  obtain ⟨g1, g2, g3, g3', a', g4, g5⟩ := emit_inv (fc := fc) hx h5 haN (by omega)
  unfold turn
  simp only [h1]
  refine ⟨g1, ?_, g2, a', pre1, post1, m1, g4, g5⟩
  rcases h3 with h3 | ⟨e, ho⟩
  · omega
  · have := g3' (by rw [e]; exact ho)
    rw [e] at this ⊢
    exact this

theorem loop_inv {rd : Reader K D} {rn : K → Nat} {len : Nat} {t0 : Int} {fs : List (Fr K D Payload)}
    (hx : Ctx rd rn len t0 fs) {fc a0 : Nat} (k : Nat) :
    ∀ (a m : Nat) (pre post : List (Fr K D Payload)) (s : LS K D), LInv rd rn len t0 fs a0 a pre post m s →
      a < stepCount t0 rd.skip 0 fs → s.n ≤ fc → todo fc s < k →
      (loop rd fc k s).2 = none ∧ ((loop rd fc k s).1.eof = true ∨ (loop rd fc k s).1.n = fc) ∧
      (loop rd fc k s).1.n ≤ fc ∧ ∃ a' pre' post' m', LInv rd rn len t0 fs a0 a' pre' post' m' (loop rd fc k s).1 ∧
        a' < stepCount t0 rd.skip 0 fs := by
  induction k with
  | zero => intro a m pre post s _ _ _ h; omega
  | succ k ih =>
    intro a m pre post s h haN hn hk
    unfold loop
    by_cases hc : s.eof = true ∨ s.n = fc
    · rw [if_pos hc]
      exact ⟨rfl, hc, hn, a, pre, post, m, h, haN⟩
    · rw [if_neg hc]
      have he : s.eof = false := by
        cases hh : s.eof
        · rfl
        · exact absurd (.inl hh) hc
      obtain ⟨h1, h2, h3, a', pre', post', m', h4, h5⟩ := turn_inv (fc := fc) hx h haN he (by
        have : s.n ≠ fc := fun e => hc (.inr e)
        omega)
      simp only [h1]
      exact ih a' m' pre' post' _ h4 h5 h3 (by omega)

theorem flush_inv {rd : Reader K D} {rn : K → Nat} {len : Nat} {t0 : Int} {fs : List (Fr K D Payload)}
    (hx : Ctx rd rn len t0 fs) {fc a0 m : Nat}
    {pre : List (Fr K D Payload)} (d : Nat) : ∀ (a : Nat) (s : LS K D), LInv rd rn len t0 fs a0 a pre [] m s → d = m - a → s.n < fc →
      (flushLoop rd fc ((List.range' a d).map (tagOf t0 rd.skip)) s).2 = none ∧
      ∃ a', LInv rd rn len t0 fs a0 a' pre [] m (flushLoop rd fc ((List.range' a d).map (tagOf t0 rd.skip)) s).1 ∧
        a' - a0 = min fc (m - a0) := by
  induction d with
  | zero =>
    intro a s h hd hn
    simp only [List.range'_zero, List.map_nil, flushLoop]
    refine ⟨trivial, a, h, ?_⟩
    have := h.n
    have := h.inv.le
    omega
  | succ d ih =>
    intro a s h hd hn
    simp only [List.range'_succ, List.map_cons, flushLoop]
    obtain ⟨g, hg, hp, hall⟩ := place_inv (fc := fc) hx h (by omega) (.inr rfl) hn
    rw [hg]
    simp only [hp]
    have hl := hall { s with buf := (getKey rd.cfg s.buf (tagOf t0 rd.skip a)).1, acc := (place rd fc s.acc g).1, n := s.n + 1 }
      rfl rfl rfl rfl rfl rfl rfl
    have := h.n
    split
    · rename_i hfc
      refine ⟨rfl, a + 1, hl, ?_⟩
      omega
    · rename_i hfc
      exact ih (a + 1) _ hl (by omega) (by simp only; omega)

theorem flushLoop_eof (rd : Reader K D) (fc : Nat) (ks : List Int) : ∀ s : LS K D, (flushLoop rd fc ks s).1.eof = s.eof := by
  induction ks with
  | nil => intro s; rfl
  | cons k ks ih =>
    intro s
    simp only [flushLoop]
    split
    · split
      · rfl
      · split
        · rfl
        · rw [ih]
    · rfl

/-- Invariant between calls. -/
structure CInv (rd : Reader K D) (rn : K → Nat) (len : Nat) (t0 : Int) (fs : List (Fr K D Payload)) (a : Nat) (s : RS K D) : Prop where
  ex : ∃ pre post m, fs = pre ++ post ∧ framesOf s.rem = post ∧
    Inv rd.cfg.nseg t0 rd.skip pre post a m s.buf ∧ (0 < a → a < m ∨ a = stepCount t0 rd.skip 0 fs)
  fine : Fine rd 0 s.rem
  tt : s.tt.getD 0 = ttAt rd t0 a
  fin : a = stepCount t0 rd.skip 0 fs → s.rem = [] ∧ s.tail = 0

theorem finish_inv {rd : Reader K D} {rn : K → Nat} {len : Nat} {t0 : Int} {fs : List (Fr K D Payload)}
    (hx : Ctx rd rn len t0 fs) {fc a0 a m : Nat}
    {pre post : List (Fr K D Payload)} {l : LS K D} (h : LInv rd rn len t0 fs a0 a pre post m l) (ha : a < stepCount t0 rd.skip 0 fs)
    (hfc : 1 ≤ fc) (hend : l.eof = true ∨ l.n = fc) (hn : l.n ≤ fc) :
    (finish rd fc l).2 = .ok (chunk rn rd.cfg.possible t0 rd.skip len fs a0 (min fc (stepCount t0 rd.skip 0 fs - a0))) ∧
    CInv rd rn len t0 fs (a0 + min fc (stepCount t0 rd.skip 0 fs - a0)) (finish rd fc l).1.rs := by
  have hout : ∀ (a'' : Nat) (m'' : Nat) (pre'' post'' : List (Fr K D Payload)) (l : LS K D), LInv rd rn len t0 fs a0 a'' pre'' post'' m'' l →
      a'' - a0 = min fc (stepCount t0 rd.skip 0 fs - a0) → a0 < a'' →
      (Out.mk l.n l.acc.setTime l.acc.rows) = chunk rn rd.cfg.possible t0 rd.skip len fs a0
        (min fc (stepCount t0 rd.skip 0 fs - a0)) := by
    intro a'' m'' pre'' post'' l hl hh hlt
    have := hl.n
    rw [hl.st, if_neg (by omega), show l.n = min fc (stepCount t0 rd.skip 0 fs - a0) by omega]
    have : l.acc.rows = (chunk rn rd.cfg.possible t0 rd.skip len fs a0 (min fc (stepCount t0 rd.skip 0 fs - a0))).rows := by
      funext r
      rw [hl.rws r, hh]
    rw [this]
    rfl
  have hln := h.n
  unfold finish
  by_cases hfl : l.eof = true ∧ l.n ≠ fc
  · rw [if_pos hfl]
    have hrem' := (h.eof hfl.1).1
    have hpost : post = [] := by rw [← h.rem, hrem']; rfl
    subst hpost
    have hkeys : l.buf.buf.map (fun x => x.1) = (List.range' a (m - a)).map (tagOf t0 rd.skip) := by
      rw [h.inv.buf, bufAt, List.map_map]; rfl
    obtain ⟨f1, a'', f2, f3⟩ := flush_inv (fc := fc) hx (m - a) a l h rfl (by omega)
    have hmN := (begun_le hx h.split h.inv).2 rfl
    have he := flushLoop_eof rd fc ((List.range' a (m - a)).map (tagOf t0 rd.skip)) l
    rw [hkeys]
    simp only [f1]
    rw [hmN] at f3
    have hlt : a0 < a'' := by omega
    have hn2 := f2.n
    rw [if_neg (by omega)]
    refine ⟨by rw [hout a'' _ _ _ _ f2 f3 hlt], ?_⟩
    rw [show a0 + min fc (stepCount t0 rd.skip 0 fs - a0) = a'' by omega]
    exact ⟨⟨pre, [], m, f2.split, f2.rem, f2.inv, fun _ => f2.lead hlt⟩, fine_mono (Nat.zero_le _) f2.fine, f2.tt,
      fun _ => f2.eof (he.trans hfl.1)⟩
  · rw [if_neg hfl]
    simp only
    have hnfc : l.n = fc := by
      rcases hend with h | h
      · by_cases e : l.n = fc
        · exact e
        · exact absurd ⟨h, e⟩ hfl
      · exact h
    have hh : a - a0 = min fc (stepCount t0 rd.skip 0 fs - a0) := by omega
    rw [if_neg (by omega)]
    refine ⟨by rw [hout a _ _ _ l h hh (by omega)], ?_⟩
    rw [show a0 + min fc (stepCount t0 rd.skip 0 fs - a0) = a by omega]
    exact ⟨⟨pre, post, m, h.split, h.rem, h.inv, fun _ => h.lead (by omega)⟩, fine_mono (Nat.zero_le _) h.fine, h.tt,
      fun h => by omega⟩

theorem read_inv {rd : Reader K D} {rn : K → Nat} {len : Nat} {t0 : Int} {fs : List (Fr K D Payload)}
    (hx : Ctx rd rn len t0 fs) {fc a : Nat} (hfc : 1 ≤ fc) {s : RS K D} (h : CInv rd rn len t0 fs a s) :
    (a < stepCount t0 rd.skip 0 fs → ¬ ended s ∧
      (read rd fc s).2 = .ok (chunk rn rd.cfg.possible t0 rd.skip len fs a (min fc (stepCount t0 rd.skip 0 fs - a))) ∧
      CInv rd rn len t0 fs (a + min fc (stepCount t0 rd.skip 0 fs - a)) (read rd fc s).1) ∧
    (a = stepCount t0 rd.skip 0 fs → ended s) := by
  obtain ⟨⟨pre, post, m, hsp, hrem, hinv, hld⟩, hfn, htt, hfin⟩ := h
  have hbl : s.buf.buf.length = m - a := by rw [hinv.buf, bufAt_length]
  obtain ⟨hm1, hm2⟩ := begun_le hx hsp hinv
  constructor
  · intro ha
    have hcond : ¬ ended s := by
      rintro ⟨h1, _, h3⟩
      rw [h1] at hrem
      have := hm2 hrem.symm
      rw [h3] at hbl
      simp only [List.length_nil] at hbl
      omega
    have hl0 : LInv rd rn len t0 fs a a pre post m (start s) := by
      refine ⟨hsp, hrem, hfn, hinv, htt, ?_, ?_, ?_, ?_, ?_⟩
      · intro r
        simp only [chunk, Nat.sub_self, start]
        split <;> simp
      · simp [start]
      · simp [start]
      · intro h; cases h
      · intro h; omega
    obtain ⟨l1, l2, l3, a', pre', post', m', l4, l5⟩ := loop_inv (fc := fc) hx (s.rem.length + fc + 2) a m pre post _ hl0 ha
      (by simp [start]) (by simp [todo, start])
    refine ⟨hcond, ?_⟩
    unfold read
    rw [if_neg hcond]
    simp only [l1]
    exact finish_inv hx l4 l5 hfc l2 l3
  · intro ha
    obtain ⟨h1, h2⟩ := hfin ha
    have h3 : s.buf.buf = [] := by
      apply List.eq_nil_of_length_eq_zero
      have := hinv.le
      omega
    exact ⟨h1, h2, h3⟩

end Verif.LdpGroup
