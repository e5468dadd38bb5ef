import Verif.Props.FX
import Verif.Model.Cx
/-!
# C76: the Stokes front ends, and where the front ends fail
-/
namespace Verif.FX
open Verif.Baselines (getBaselines collect pick indexPairs offset collect_some)
open Lean.Grind (CommRing)

section
variable {R S V : Type}

theorem zip_get {X Y : Type} (x : List X) (y : List Y) (i : Nat) (a : X) (b : Y) (h1 : x[i]? = some a) (h2 : y[i]? = some b) :
    (x.zip y)[i]? = some (a, b) := by rw [List.getElem?_zip_eq_some]; exact ⟨h1, h2⟩

/-- What both Stokes front ends have after the removal of autocorrelations. -/
theorem stokes_rows (prod4 : S × S → S × S → V) (as1 as2 : List Ant) (hm : Spec.Match as1 as2) (auto : Bool) (w : Nat) (x y : List S)
    (hx : x.length = as1.length) (hy : y.length = as1.length) :
    ∃ bls out rows, getBaselines as1 as2 auto = some bls ∧ xengine3 prod4 (w, x) (w, y) = .ok out ∧ prune as1 as2 auto out = .ok rows ∧
      bls.length = (Spec.pairs as1.length auto).length ∧ rows.length = bls.length ∧
      ∀ k i j : Nat, (Spec.pairs as1.length auto)[k]? = some (i, j) → ∃ a b x1 y1 x2 y2, as1[i]? = some a ∧ as2[j]? = some b ∧
        x[i]? = some x1 ∧ y[i]? = some y1 ∧ x[j]? = some x2 ∧ y[j]? = some y2 ∧ bls[k]? = some (a, b) ∧
        rows[k]? = some (prod4 (x1, y1) (x2, y2)) := by
  obtain ⟨bls, hb, hbm⟩ := baselines_ok _ _ hm.1 auto
  obtain ⟨out, ho, hom⟩ := xengine3_ok prod4 w x y (by omega)
  rw [hx] at hom
  obtain ⟨rows, hpr, hprm⟩ := prune_ok as1 as2 hm auto out _ hom
  obtain ⟨hbl, hrl, hget⟩ := rows_ok bls _ _ auto rows _ hbm hprm
  refine ⟨bls, out, rows, hb, ho, hpr, hbl, by omega, ?_⟩
  intro k i j hk
  obtain ⟨hi, hj⟩ := mem_pairs _ _ i j (List.mem_of_getElem? hk)
  have hlen := hm.1
  obtain ⟨hbk, hrk⟩ := hget k (i, j) hk
  refine ⟨as1[i], as2[j]'(by omega), x[i]'(by omega), y[i]'(by omega), x[j]'(by omega), y[j]'(by omega),
    List.getElem?_eq_getElem _, List.getElem?_eq_getElem _, List.getElem?_eq_getElem _, List.getElem?_eq_getElem _,
    List.getElem?_eq_getElem _, List.getElem?_eq_getElem _, ?_, ?_⟩
  · rw [hbk, pick_ok as1 as2 i j hi (by omega)]
  · rw [hrk, pick_ok _ _ i j (by simp; omega) (by simp; omega)]
    simp

/-- **Rows of `FXStokes`** without the correction of gains: one for each baseline that is returned, in the same order, from
what both polarizations of its two stands received, each with its own delay. -/
theorem C76_fx_stokes_partial (g : Eng R S V) (prod4 : S × S → S × S → V) (src : Rat × Rat × Rat) (c : Rat) (nChan : Nat)
    (auto : Bool) (sig : List R) (as : List Ant) (D1 D2 : List (List Rat)) (hs : sig.length = as.length)
    (hm : Spec.Match (sel 0 as) (sel 1 as)) (hd : align src c nChan (sel 0 as) (sel 1 as) = .ok (D1, D2))
    (hw : g.wins D2 = g.wins D1) :
    ∃ bls rows, fxStokes g prod4 src c nChan auto false sig as = .ok (bls, rows) ∧
      bls.length = (Spec.pairs (sel 0 as).length auto).length ∧ rows.length = bls.length ∧
      ∀ k i j : Nat, (Spec.pairs (sel 0 as).length auto)[k]? = some (i, j) →
        ∃ q1 r1 q2 r2 a1 b1 a2 b2 x1 y1 x2 y2 d1 e1 d2 e2, Spec.Place as 0 i q1 a1 ∧ Spec.Place as 1 i r1 b1 ∧
          Spec.Place as 0 j q2 a2 ∧ Spec.Place as 1 j r2 b2 ∧
          sig[q1]? = some x1 ∧ sig[r1]? = some y1 ∧ sig[q2]? = some x2 ∧ sig[r2]? = some y2 ∧
          D1[i]? = some d1 ∧ D2[i]? = some e1 ∧ D1[j]? = some d2 ∧ D2[j]? = some e2 ∧ bls[k]? = some (a1, b2) ∧
          rows[k]? = some (prod4 (g.stream (g.wins D1) x1 d1, g.stream (g.wins D1) y1 e1)
            (g.stream (g.wins D1) x2 d2, g.stream (g.wins D1) y2 e2)) := by
  obtain ⟨hl1, hl2⟩ := align_length hd
  have hlen := hm.1
  obtain ⟨r1, e1, len1, get1⟩ := rowsAt_ok sig as hs 0
  obtain ⟨r2, e2, len2, get2⟩ := rowsAt_ok sig as hs 1
  have hf1 := fengine_ok g r1 D1 (by omega)
  have hf2 := fengine_ok g r2 D2 (by omega)
  rw [hw] at hf2
  obtain ⟨bls, out, rows, hb, ho, hpr, hbl, hrl, hget⟩ := stokes_rows prod4 (sel 0 as) (sel 1 as) hm auto (g.wins D1)
    (List.zipWith (g.stream (g.wins D1)) r1 D1) (List.zipWith (g.stream (g.wins D1)) r2 D2) (by simp; omega) (by simp; omega)
  refine ⟨bls, rows, ?_, hbl, hrl, ?_⟩
  · unfold fxStokes
    simp only [hb, need, Except.bind, hd, e1, hf1, e2, hf2, ho, hpr]
    rfl
  · intro k i j hk
    obtain ⟨hi, hj⟩ := mem_pairs _ _ i j (List.mem_of_getElem? hk)
    obtain ⟨a, b, X1, Y1, X2, Y2, ha, hb', hx1, hy1, hx2, hy2, hbk, hrk⟩ := hget k i j hk
    have sx : ∀ i, i < (sel 0 as).length → ∃ q a x d, (sel 0 as)[i]? = some a ∧ Spec.Place as 0 i q a ∧ sig[q]? = some x ∧
        D1[i]? = some d ∧ (List.zipWith (g.stream (g.wins D1)) r1 D1)[i]? = some (g.stream (g.wins D1) x d) := by
      intro i hi
      obtain ⟨a, q, ha, hq, pq⟩ := sel_place 0 as i hi
      have := place_lt pq
      refine ⟨q, a, sig[q]'(by omega), D1[i]'(by omega), ha, pq, List.getElem?_eq_getElem _, List.getElem?_eq_getElem _, ?_⟩
      rw [List.getElem?_zipWith, get1 i q hq, List.getElem?_eq_getElem (show q < sig.length by omega),
        List.getElem?_eq_getElem (show i < D1.length by omega)]
    have sy : ∀ i, i < (sel 0 as).length → ∃ q a x d, (sel 1 as)[i]? = some a ∧ Spec.Place as 1 i q a ∧ sig[q]? = some x ∧
        D2[i]? = some d ∧ (List.zipWith (g.stream (g.wins D1)) r2 D2)[i]? = some (g.stream (g.wins D1) x d) := by
      intro i hi
      obtain ⟨a, q, ha, hq, pq⟩ := sel_place 1 as i (by omega)
      have := place_lt pq
      refine ⟨q, a, sig[q]'(by omega), D2[i]'(by omega), ha, pq, List.getElem?_eq_getElem _, List.getElem?_eq_getElem _, ?_⟩
      rw [List.getElem?_zipWith, get2 i q hq, List.getElem?_eq_getElem (show q < sig.length by omega),
        List.getElem?_eq_getElem (show i < D2.length by omega)]
    obtain ⟨q1, a1, x1, d1, s1, p1, v1, w1, z1⟩ := sx i hi
    obtain ⟨q2, a2, x2, d2, s2, p2, v2, w2, z2⟩ := sx j hj
    obtain ⟨t1, b1, y1, f1, u1, o1, n1, m1, l1⟩ := sy i hi
    obtain ⟨t2, b2, y2, f2, u2, o2, n2, m2, l2⟩ := sy j hj
    refine ⟨q1, t1, q2, t2, a1, b1, a2, b2, x1, y1, x2, y2, d1, f1, d2, f2, p1, o1, p2, o2, v1, n1, v2, n2, w1, m1, w2, m2, ?_, ?_⟩
    · rw [hbk, Option.some.inj (ha.symm.trans s1), Option.some.inj (hb'.symm.trans u2)]
    · rw [hrk, Option.some.inj (hx1.symm.trans z1), Option.some.inj (hx2.symm.trans z2), Option.some.inj (hy1.symm.trans l1),
        Option.some.inj (hy2.symm.trans l2)]

/-- **`FXStokes` corrects the gains of the first four baselines only**, and fails when there are fewer: its loop runs over
the four Stokes parameters. -/
theorem C76_not_gain (g : Eng R S V) (prod4 : S × S → S × S → V) (src : Rat × Rat × Rat) (c : Rat) (nChan : Nat)
    (auto : Bool) (sig : List R) (as : List Ant) (bls : List (Ant × Ant)) (rows : List V)
    (h : fxStokes g prod4 src c nChan auto false sig as = .ok (bls, rows)) :
    (bls.length < 4 ∨ rows.length < 4 → fxStokes g prod4 src c nChan auto true sig as = .error .index) ∧
    (4 ≤ bls.length → 4 ≤ rows.length → ∃ out, fxStokes g prod4 src c nChan auto true sig as = .ok (bls, out) ∧ out.length = rows.length ∧
      (∀ k, 4 ≤ k → out[k]? = rows[k]?) ∧
      ∀ k a b v, k < 4 → bls[k]? = some (a, b) → rows[k]? = some v → out[k]? = some (g.gain a b v)) := by
  have hrun : fxStokes g prod4 src c nChan auto true sig as =
      (loop bls (fun a b v => .ok (g.gain a b v)) 4 rows).map fun out => (bls, out) := by
    unfold fxStokes at h ⊢
    obtain ⟨b, hb, h⟩ := bind_ok h
    obtain ⟨d, hd, h⟩ := bind_ok h
    obtain ⟨r1, hr1, h⟩ := bind_ok h
    obtain ⟨f1, hf1, h⟩ := bind_ok h
    obtain ⟨r2, hr2, h⟩ := bind_ok h
    obtain ⟨f2, hf2, h⟩ := bind_ok h
    obtain ⟨o, ho, h⟩ := bind_ok h
    obtain ⟨o', ho', h⟩ := bind_ok h
    simp only [Bool.false_eq_true, if_false, Except.map, Except.ok.injEq, Prod.mk.injEq] at h
    obtain ⟨rfl, rfl⟩ := h
    simp only [hb, Except.bind, hd, hr1, hf1, hr2, hf2, ho, ho', if_true]
  rw [hrun]
  constructor
  · intro hlt
    obtain ⟨n, hn, hmin, hor⟩ : ∃ n, n < 4 ∧ (n ≤ rows.length ∧ n ≤ bls.length) ∧ (n = rows.length ∨ n = bls.length) := by
      by_cases hc : rows.length ≤ bls.length
      · exact ⟨rows.length, by omega, ⟨Nat.le_refl _, hc⟩, Or.inl rfl⟩
      · exact ⟨bls.length, by omega, ⟨by omega, Nat.le_refl _⟩, Or.inr rfl⟩
    obtain ⟨out, ho, hlen, hrest, _⟩ := loop_ok bls (fun a b v => .ok (g.gain a b v)) g.gain rows n hmin.1 hmin.2 (fun _ _ _ _ _ _ _ => rfl)
    have herr : loop bls (fun a b v => Except.ok (g.gain a b v)) (n + 1) rows = .error .index := by
      rw [loop_succ, ho]
      show step bls (fun a b v => Except.ok (g.gain a b v)) out n = Except.error Err.index
      unfold step
      rcases hor with e | e
      · have : out[n]? = none := by rw [List.getElem?_eq_none_iff]; omega
        cases hb : bls[n]? with
        | none => simp [need, Except.bind]
        | some p => simp [need, Except.bind, this]
      · have : bls[n]? = none := by rw [List.getElem?_eq_none_iff]; omega
        simp [need, Except.bind, this]
    rw [loop_error bls _ rows (n + 1) 4 .index herr (by omega)]
    rfl
  · intro h4 h4'
    obtain ⟨out, ho, hlen, hrest, hdone⟩ := loop_ok bls (fun a b v => .ok (g.gain a b v)) g.gain rows 4 h4' h4 (fun _ _ _ _ _ _ _ => rfl)
    exact ⟨out, by rw [ho]; rfl, hlen, hrest, hdone⟩

/-- **Rows of `XStokes`**: one for each baseline that is returned, in the same order, from both polarizations of its two
stands.  All are rotated with the delay of the first polarization of the first stand and the second polarization of the
second stand. -/
theorem C76_x_stokes_partial (g : Eng S S V) (prod4 : S × S → S × S → V) (rot : List Rat → List Rat → V → V)
    (src : Rat × Rat × Rat) (c : Rat) (nChan : Nat) (auto gain : Bool) (sig : List S) (as : List Ant) (D1 D2 : List (List Rat))
    (hs : sig.length = as.length) (hm : Spec.Match (sel 0 as) (sel 1 as))
    (hd : align src c nChan (sel 0 as) (sel 1 as) = .ok (D1, D2)) :
    ∃ bls rows, xStokes g prod4 rot src c nChan auto gain sig as = .ok (bls, rows) ∧
      bls.length = (Spec.pairs (sel 0 as).length auto).length ∧ rows.length = bls.length ∧
      ∀ k i j : Nat, (Spec.pairs (sel 0 as).length auto)[k]? = some (i, j) →
        ∃ q1 r1 q2 r2 a1 b1 a2 b2 x1 y1 x2 y2 d e, Spec.Place as 0 i q1 a1 ∧ Spec.Place as 1 i r1 b1 ∧
          Spec.Place as 0 j q2 a2 ∧ Spec.Place as 1 j r2 b2 ∧
          sig[q1]? = some x1 ∧ sig[r1]? = some y1 ∧ sig[q2]? = some x2 ∧ sig[r2]? = some y2 ∧
          D1[i]? = some d ∧ D2[j]? = some e ∧ bls[k]? = some (a1, b2) ∧
          rows[k]? = some (if gain then g.gain a1 b2 (rot d e (prod4 (x1, y1) (x2, y2))) else rot d e (prod4 (x1, y1) (x2, y2))) := by
  obtain ⟨hl1, hl2⟩ := align_length hd
  have hlen := hm.1
  obtain ⟨r1, e1, len1, get1⟩ := rowsAt_ok sig as hs 0
  obtain ⟨r2, e2, len2, get2⟩ := rowsAt_ok sig as hs 1
  obtain ⟨bls, out, rows, hb, ho, hpr, hbl, hrl, hget⟩ := stokes_rows prod4 (sel 0 as) (sel 1 as) hm auto 0 r1 r2 (by omega) (by omega)
  have hrun : xStokes g prod4 rot src c nChan auto gain sig as =
      (loop bls (rotate g rot gain (sel 0 as) (sel 1 as) (D1, D2)) rows.length rows).map fun out => (bls, out) := by
    unfold xStokes
    simp only [hb, need, Except.bind, hd, e1, e2, ho, hpr]
  have hrot : ∀ (i j : Nat) (a b : Ant) (d e : List Rat) (v : V), (sel 0 as)[i]? = some a → (sel 1 as)[j]? = some b →
      D1[i]? = some d → D2[j]? = some e → rotate g rot gain (sel 0 as) (sel 1 as) (D1, D2) a b v =
        .ok (if gain then g.gain a b (rot d e v) else rot d e v) := by
    intro i j a b d e v ha hb' hd1 hd2
    unfold rotate
    rw [entry_ok _ _ (match_self hm) i a d ha hd1, entry_ok _ _ (match_self (match_symm hm)) j b e hb' hd2]
    rfl
  obtain ⟨fin, hfin, hflen, _, hdone⟩ := loop_ok bls (rotate g rot gain (sel 0 as) (sel 1 as) (D1, D2))
    (fun a b v => match rotate g rot gain (sel 0 as) (sel 1 as) (D1, D2) a b v with | .ok w => w | .error _ => v)
    rows rows.length (Nat.le_refl _) (by omega) (by
      intro k a b v hk hbk hv
      have hkp : k < (Spec.pairs (sel 0 as).length auto).length := by omega
      obtain ⟨⟨i, j⟩, hz⟩ : ∃ z, (Spec.pairs (sel 0 as).length auto)[k]'hkp = z := ⟨_, rfl⟩
      have hk' : (Spec.pairs (sel 0 as).length auto)[k]? = some (i, j) := by rw [List.getElem?_eq_getElem hkp, hz]
      obtain ⟨hi, hj⟩ := mem_pairs _ _ i j (List.mem_of_getElem? hk')
      obtain ⟨a', b', _, _, _, _, h1, h2, _, _, _, _, h7, _⟩ := hget k i j hk'
      rw [hbk] at h7
      simp only [Option.some.injEq, Prod.mk.injEq] at h7
      rw [h7.1, h7.2, hrot i j a' b' (D1[i]'(by omega)) (D2[j]'(by omega)) v h1 h2 (List.getElem?_eq_getElem _) (List.getElem?_eq_getElem _)])
  refine ⟨bls, fin, by rw [hrun, hfin]; rfl, hbl, by omega, ?_⟩
  intro k i j hk
  obtain ⟨hi, hj⟩ := mem_pairs _ _ i j (List.mem_of_getElem? hk)
  obtain ⟨a, b, X1, Y1, X2, Y2, ha, hb', hx1, hy1, hx2, hy2, hbk, hrk⟩ := hget k i j hk
  have sx : ∀ i, i < (sel 0 as).length → ∃ q a x, (sel 0 as)[i]? = some a ∧ Spec.Place as 0 i q a ∧ sig[q]? = some x ∧
      r1[i]? = some x := by
    intro i hi
    obtain ⟨a, q, ha, hq, pq⟩ := sel_place 0 as i hi
    have := place_lt pq
    refine ⟨q, a, sig[q]'(by omega), ha, pq, List.getElem?_eq_getElem _, ?_⟩
    rw [get1 i q hq, List.getElem?_eq_getElem (show q < sig.length by omega)]
  have sy : ∀ i, i < (sel 0 as).length → ∃ q a x, (sel 1 as)[i]? = some a ∧ Spec.Place as 1 i q a ∧ sig[q]? = some x ∧
      r2[i]? = some x := by
    intro i hi
    obtain ⟨a, q, ha, hq, pq⟩ := sel_place 1 as i (by omega)
    have := place_lt pq
    refine ⟨q, a, sig[q]'(by omega), ha, pq, List.getElem?_eq_getElem _, ?_⟩
    rw [get2 i q hq, List.getElem?_eq_getElem (show q < sig.length by omega)]
  obtain ⟨q1, a1, x1, s1, p1, v1, z1⟩ := sx i hi
  obtain ⟨q2, a2, x2, s2, p2, v2, z2⟩ := sx j hj
  obtain ⟨t1, b1, y1, u1, o1, n1, l1⟩ := sy i hi
  obtain ⟨t2, b2, y2, u2, o2, n2, l2⟩ := sy j hj
  have ea := Option.some.inj (ha.symm.trans s1)
  have eb := Option.some.inj (hb'.symm.trans u2)
  subst ea; subst eb
  refine ⟨q1, t1, q2, t2, a, b1, a2, b, x1, y1, x2, y2, D1[i]'(by omega), D2[j]'(by omega), p1, o1, p2, o2, v1, n1, v2, n2,
    List.getElem?_eq_getElem _, List.getElem?_eq_getElem _, hbk, ?_⟩
  rw [hdone k a b _ (List.getElem?_eq_some_iff.mp hrk).1 hbk hrk]
  rw [hrot i j a b (D1[i]'(by omega)) (D2[j]'(by omega)) _ ha hb' (List.getElem?_eq_getElem _) (List.getElem?_eq_getElem _)]
  rw [Option.some.inj (hx1.symm.trans z1), Option.some.inj (hx2.symm.trans z2), Option.some.inj (hy1.symm.trans l1),
        Option.some.inj (hy2.symm.trans l2)]

end

/-! ### phase rotations -/

section
variable {C : Type} [CommRing C]

theorem foldl_scale (k : C) (l : List C) (z : C) : (l.map (· * k)).foldl (· + ·) (z * k) = l.foldl (· + ·) z * k := by
  induction l generalizing z with
  | nil => rfl
  | cons x l ih =>
    simp only [List.map_cons, List.foldl_cons]
    rw [show z * k + x * k = (z + x) * k from by grind, ih]

theorem corr_turned (conj : C → C) (hc : ∀ a b, conj (a * b) = conj a * conj b) (r s : C) (x y : List C) :
    corr conj (Spec.turned r x) (Spec.turned s y) = corr conj x y * (conj s * r) := by
  unfold corr Spec.turned
  have h : (((y.map (s * ·)).zip (x.map (r * ·))).map fun p => conj p.1 * p.2) =
      ((y.zip x).map fun p => conj p.1 * p.2).map (· * (conj s * r)) := by
    rw [List.zip_map, List.map_map, List.map_map]
    apply List.map_congr_left
    rintro ⟨a, b⟩ _
    simp only [Function.comp, Prod.map]
    rw [hc]; grind
  rw [h]
  have := foldl_scale (conj s * r) ((y.zip x).map fun p => conj p.1 * p.2) 0
  rw [← this]
  congr 1
  grind

/-- **Phase rotation of `XMaster`**: the product of rotated spectra. -/
theorem C76_turn (conj : C → C) (hc : ∀ a b, conj (a * b) = conj a * conj b) (e : Rat → C) (f : Rat) (ch : Nat)
    (d1 d2 : List Rat) (x y : List C) :
    turn conj e f ch d1 d2 (corr conj x y) = corr conj (Spec.turned (phase e f ch d1) x) (Spec.turned (phase e f ch d2) y) := by
  rw [corr_turned conj hc]; rfl

/-- **Phase rotation of `XStokes`** of `I` and `Q`: right if both polarizations of each stand have the same delay. -/
theorem C76_turn_stokes_partial (conj : C → C) (hc : ∀ a b, conj (a * b) = conj a * conj b) (mi : C) (e : Rat → C) (f : Rat) (ch : Nat)
    (d1 d2 d1' d2' : List Rat) (h1 : d1'.getD ch 0 = d1.getD ch 0) (h2 : d2'.getD ch 0 = d2.getD ch 0) (s1 s2 : List C × List C) :
    let was := turn4 conj e f ch d1 d2' (four conj mi s1 s2)
    let want := four conj mi (Spec.turned (phase e f ch d1) s1.1, Spec.turned (phase e f ch d1') s1.2)
      (Spec.turned (phase e f ch d2) s2.1, Spec.turned (phase e f ch d2') s2.2)
    was.1 = want.1 ∧ was.2.1 = want.2.1 := by
  simp only [turn4, four, corr_turned conj hc, turn, phase]
  rw [h1, h2]
  constructor <;> grind

end

/-! ### where they fail -/

instance {α : Type} [DecidableEq α] : DecidableEq (Except Err α)
  | .ok a, .ok b => if h : a = b then isTrue (by rw [h]) else isFalse (by simpa using h)
  | .error a, .error b => if h : a = b then isTrue (by rw [h]) else isFalse (by simpa using h)
  | .ok _, .error _ => isFalse (by simp)
  | .error _, .ok _ => isFalse (by simp)

/-- An antenna at the origin with the same delay in all channels. -/
def still (id pol : Nat) (d : Rat) : Ant := { id := id, pol := pol, xyz := (0, 0, 0), delay := fun _ => some d }

/-- Engines that only remember which signals are used; `100` marks a correction of the gain. -/
def label (wins : List (List Rat) → Nat) : Eng Nat Nat (List Nat) where
  wins := wins
  stream := fun _ x _ => x
  prod := fun x y => [x, y]
  gain := fun a b v => v ++ [100, a.id, b.id]

def label4 (x y : Nat × Nat) : List Nat := [x.1, x.2, y.1, y.2]

/-- The ids of the baselines, and the rows. -/
def shown (r : Except Err (List (Ant × Ant) × List (List Nat))) : Except Err (List (Nat × Nat) × List (List Nat)) :=
  r.map fun p => (p.1.map fun q => (q.1.id, q.2.id), p.2)

def up : Rat × Rat × Rat := (0, 0, 1)

/-- **Rows do not match the baselines when the stands of the second polarization are in another order**: two rows for one
baseline, and the first row is of other antennas than the baseline says. -/
theorem C76_not_order :
    shown (fxMaster (label fun _ => 1) up 1 2 ['X', 'Y'] false false [10, 20, 21, 11] [still 1 0 0, still 2 0 0, still 2 1 0, still 1 1 0]) =
      .ok ([(1, 1)], [[10, 21], [20, 11]]) ∧
    shown (fxMaster (label fun _ => 1) up 1 2 ['X', 'Y'] false true [10, 20, 21, 11] [still 1 0 0, still 2 0 0, still 2 1 0, still 1 1 0]) =
      .error .index := by
  decide +kernel

/-- **A stand number used twice**: two baselines, one row; `XMaster` uses the last delay for both. -/
theorem C76_not_twice :
    shown (fxMaster (label fun _ => 1) up 1 2 ['X', 'X'] false false [10, 11] [still 1 0 0, still 1 0 3]) = .ok ([(1, 1)], []) ∧
    shown (xMaster (label fun _ => 1) (fun d e v => v ++ [d.length, e.length] ++ (if d.getD 0 0 = 3 then [3] else [])) up 1 2 ['X', 'X'] true
      false [10, 11] [still 1 0 0, still 1 0 3]) =
      .ok ([(1, 1), (1, 1), (1, 1)], [[10, 10, 2, 2, 3], [10, 11, 2, 2, 3], [11, 11, 2, 2, 3]]) := by
  decide +kernel

/-- **A stand with one polarization only** makes the other products fail. -/
theorem C76_not_fewer :
    shown (fxMaster (label fun _ => 1) up 1 2 ['X', 'Y'] true false [10, 20, 11] [still 1 0 0, still 2 0 0, still 1 1 0]) = .error .index ∧
    shown (fxMaster (label fun _ => 1) up 1 2 ['Y', 'X'] true false [10, 20, 11] [still 1 0 0, still 2 0 0, still 1 1 0]) = .error .runtime ∧
    (shown (fxMaster (label fun _ => 1) up 1 2 ['X', 'X'] true false [10, 20, 11] [still 1 0 0, still 2 0 0, still 1 1 0])).isOk := by
  decide +kernel

/-- **Different delays of the polarizations**: the F engine finds fewer windows for one of them, and the X engine refuses
their product, although it makes the product of each with itself. -/
theorem C76_not_windows :
    shown (fxMaster (label (winsOf 8 2 1 1 1)) up 1 2 ['X', 'Y'] true false [10, 11] [still 1 0 0, still 1 1 1]) = .error .runtime ∧
    shown (fxMaster (label (winsOf 8 2 1 1 1)) up 1 2 ['X', 'X'] true false [10, 11] [still 1 0 0, still 1 1 1]) = .ok ([(1, 1)], [[10, 10]]) ∧
    shown (fxMaster (label (winsOf 8 2 1 1 1)) up 1 2 ['Y', 'Y'] true false [10, 11] [still 1 0 0, still 1 1 1]) = .ok ([(1, 1)], [[11, 11]]) ∧
    shown (fxStokes (label (winsOf 8 2 1 1 1)) label4 up 1 2 true false [10, 11] [still 1 0 0, still 1 1 1]) = .error .runtime := by
  decide +kernel

def quarter (x : Rat) : Cx := if x = 1 / 4 then Cx.I else 1

/-- **`XStokes` is wrong when the delays of the polarizations differ**: the total power of a stand comes out imaginary. -/
theorem C76_not_power :
    (turn4 Cx.conj quarter 1 0 [0] [1 / 4] (four Cx.conj ⟨0, -1⟩ ([1], [1]) ([1], [1]))).1 = ⟨0, -2⟩ ∧
    (four Cx.conj ⟨0, -1⟩ (Spec.turned (phase quarter 1 0 [0]) [1], Spec.turned (phase quarter 1 0 [1 / 4]) [1])
      (Spec.turned (phase quarter 1 0 [0]) [1], Spec.turned (phase quarter 1 0 [1 / 4]) [1])).1 = ⟨2, 0⟩ := by
  decide +kernel

/-- **`XStokes` and `FXStokes` disagree on `U` and `V` even when the delays of the polarizations agree**: rotating afterwards
is not the same as rotating first. -/
theorem C76_not_uv :
    (turn4 Cx.conj quarter 1 0 [0] [1 / 4] (four Cx.conj ⟨0, -1⟩ ([1], [0]) ([0], [⟨1, 1⟩]))).2.2 = (⟨0, -2⟩, ⟨0, 2⟩) ∧
    (four Cx.conj ⟨0, -1⟩ (Spec.turned (phase quarter 1 0 [0]) [1], Spec.turned (phase quarter 1 0 [0]) [0])
      (Spec.turned (phase quarter 1 0 [1 / 4]) [0], Spec.turned (phase quarter 1 0 [1 / 4]) [⟨1, 1⟩])).2.2 = (⟨-2, 0⟩, ⟨-2, 0⟩) := by
  decide +kernel

/-! ### examples -/

/-- Two stands with both polarizations. -/
def both : List Ant := [still 1 0 5, still 1 1 7, still 2 0 6, still 2 1 8]

example : Spec.Match (sel 0 both) (sel 1 both) := by
  refine ⟨rfl, ?_⟩
  have e1 : sel 0 both = [still 1 0 5, still 2 0 6] := rfl
  have e2 : sel 1 both = [still 1 1 7, still 2 1 8] := rfl
  rw [e1, e2]
  intro i j a b ha hb
  match i, j with
  | 0, 0 | 0, 1 | 1, 0 | 1, 1 => simp at ha hb; subst ha; subst hb; simp [still]
  | i + 2, _ => simp at ha
  | _, j + 2 => simp at hb

example : align up 1 2 (sel 0 both) (sel 1 both) = .ok ([[0, 0], [1, 1]], [[2, 2], [3, 3]]) := by decide +kernel

example : shown (fxMaster (label fun _ => 1) up 1 2 ['X', 'Y'] false true [10, 11, 20, 21] both) = .ok ([(1, 2)], [[10, 21, 100, 1, 2]]) := by
  decide +kernel

example : shown (fxStokes (label fun _ => 1) label4 up 1 2 true false [10, 11, 20, 21] both) =
    .ok ([(1, 1), (1, 2), (2, 2)], [[10, 11, 10, 11], [10, 11, 20, 21], [20, 21, 20, 21]]) := by
  decide +kernel

example : shown (fxStokes (label fun _ => 1) label4 up 1 2 true true [10, 11, 20, 21] both) = .error .index := by
  decide +kernel

example : shown (xStokes (label fun _ => 1) label4 (fun _ _ v => 7 :: v) up 1 2 true true [10, 11, 20, 21] both) =
    .ok ([(1, 1), (1, 2), (2, 2)], [[7, 10, 11, 10, 11, 100, 1, 1], [7, 10, 11, 20, 21, 100, 1, 2], [7, 20, 21, 20, 21, 100, 2, 2]]) := by
  decide +kernel

example : winsOf 8 2 1 1 1 [[0, 0]] = 4 ∧ winsOf 8 2 1 1 1 [[1, 1]] = 3 := by decide +kernel

example : ∀ a b, Cx.conj (a * b) = Cx.conj a * Cx.conj b := Cx.conj_mul

end Verif.FX
