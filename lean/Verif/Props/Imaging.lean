import Verif.Lemmas.Imaging
import Verif.Props.Gridder
/-!
# C79: images
-/
namespace Verif.Imaging
open Verif.CMem
open Verif.Gridder (Args Fns wProjection computePlanes square dft2 wKernel)
open Verif.Gridder.Spec (sumL)
open Lean.Grind (CommRing)
open Verif.FEngine (lround)

section
variable {C : Type} [CommRing C]

/-! ### gridding of data sets -/

/-- What the gridder gets are the visibilities of the channels asked for and their mirror images, each once, in the order of `w`. -/
theorem C79_points (conj : C → C) (order : List Rat → List Nat) (ho : Spec.Sorts order) (pol : String) (ds : DataSet C) (p : Pol C)
    (hp : ∃ name, ds.pols.find? (fun p => p.1 = pol) = some (name, p)) (nb nc : Nat) (h : Spec.Shape nb nc ds p) (chan : Option (List Nat))
    (hc : ∀ cs, chan = some cs → ∀ c ∈ cs, c < nc) :
    ∃ S : List (Spec.Point C),
      S.Perm (Spec.points nb nc chan ds p ++ (Spec.points nb nc chan ds p).map (Spec.mirror conj)) ∧ (S.map (·.w)).Pairwise (· ≤ ·) ∧
      prepare conj order pol chan ds = .ok (S.map (fun x => (x.u, x.v, x.w)), S.map (·.vis), S.map (·.wgt)) :=
  prepare_ok conj order ho pol ds p hp nb nc h chan hc

/-- A plane of the gridder is then narrower than the resolution, on both sides. -/
theorem C79_width (ss : Rat → Rat) (hs : ∀ x y, x ≤ y → ss x ≤ ss y) (w : List Rat) (hw : w.Pairwise (· ≤ ·)) (wRes : Rat) (h0 : 0 < wRes)
    (ps : List (Nat × Nat)) (h : computePlanes w.length wRes (w.map ss) = .ok ps) :
    ∀ p ∈ ps, ∀ i j, p.1 ≤ i → i < p.2 → p.1 ≤ j → j < p.2 → (w.map ss).getD i 0 < (w.map ss).getD j 0 + wRes := by
  intro p hp i j hi1 hi2 hj1 hj2
  have hl : (w.map ss).length = w.length := List.length_map _
  have h1 := (Gridder.C78_width wRes h0 (w.map ss) ps (by rw [hl]; exact h)).1 p hp i hi1 hi2
  have h2 := ((Gridder.C78_cover wRes (w.map ss) ps (by rw [hl]; exact h)).2 p hp).2
  rw [hl] at h2
  have h3 : (w.map ss).getD p.1 0 ≤ (w.map ss).getD j 0 := by
    have e1 : (w.map ss).getD p.1 0 = ss (w[p.1]'(by omega)) := by
      rw [List.getD, List.getElem?_map, List.getElem?_eq_getElem (by omega)]; rfl
    have e2 : (w.map ss).getD j 0 = ss (w[j]'(by omega)) := by
      rw [List.getD, List.getElem?_map, List.getElem?_eq_getElem (by omega)]; rfl
    rw [e1, e2]
    apply hs
    by_cases h : p.1 = j
    · subst h; exact Rat.le_refl
    · exact (List.pairwise_iff_getElem.mp hw) p.1 j (by omega) (by omega) (by omega)
  grind

/-- The number of cells on a side. -/
def cellsOn (k : Keys) : Nat := (lround (k.size / k.res)).toNat

/-- The plane is large enough for the visibilities. -/
structure Spec.Inside (k : Keys) (pts : List (Spec.Point C)) : Prop where
  size : 4 ≤ lround (k.size / k.res)
  u : ∀ x ∈ pts, -(cellsOn k : Rat) < x.u / k.res ∧ x.u / k.res < cellsOn k
  v : ∀ x ∈ pts, -(cellsOn k : Rat) < x.v / k.res ∧ x.v / k.res < cellsOn k

omit [CommRing C] in
theorem fits (conj : C → C) (k : Keys) (pts S : List (Spec.Point C)) (hS : S.Perm (both conj pts)) (h : Spec.Inside k pts) :
    Gridder.Spec.Fits (args k (S.map (fun x => (x.u, x.v, x.w)), S.map (·.vis), S.map (·.wgt))) := by
  have hm : ∀ x ∈ S, x ∈ pts ∨ ∃ y ∈ pts, Spec.mirror conj y = x := by
    intro x hx
    have := hS.mem_iff.mp hx
    unfold both at this
    simpa [List.mem_append, List.mem_map] using this
  have hd : ∀ y : Rat, -y / k.res = -(y / k.res) := by intro y; rw [Rat.div_def, Rat.div_def]; grind
  have hd2 : ∀ y : Rat, y / -k.res = -(y / k.res) := by intro y; grind
  refine ⟨by simp [args], by simp [args], by simp [args], by simp [args], ?_, ?_, ?_⟩
  · have := h.size; show 4 ≤ (lround (k.size / k.res)).toNat; omega
  · intro y hy
    show -(cellsOn k : Rat) ≤ y / k.res ∧ y / k.res < cellsOn k
    simp only [args, List.map_map, List.mem_map] at hy
    obtain ⟨x, hx, rfl⟩ := hy
    rcases hm x hx with h1 | ⟨z, hz, rfl⟩
    · have := h.u x h1
      simp only [Function.comp]; grind
    · have := h.u z hz
      simp only [Function.comp, Spec.mirror]; rw [hd]; grind
  · intro y hy
    show -(cellsOn k : Rat) ≤ y / -k.res ∧ y / -k.res < cellsOn k
    simp only [args, List.map_map, List.mem_map] at hy
    obtain ⟨x, hx, rfl⟩ := hy
    rw [hd2]
    rcases hm x hx with h1 | ⟨z, hz, rfl⟩
    · have := h.v x h1
      simp only [Function.comp]; grind
    · have := h.v z hz
      simp only [Function.comp, Spec.mirror]; rw [hd]; grind

/-- What one data set gives, with any phases: the image is the sum over planes of the image of the plane times the phase.  The planes are cut
from the points in the order of `w`. -/
theorem C79_image_partial (f : Fns C) (hk : f.kernel.length = 225) (conj : C → C) (order : List Rat → List Nat) (ho : Spec.Sorts order)
    (k : Keys) (static : Option C) (ds : DataSet C) (p : Pol C)
    (hp : ∃ name, ds.pols.find? (fun p => p.1 = k.pol) = some (name, p)) (nb nc : Nat) (h : Spec.Shape nb nc ds p)
    (hc : ∀ cs, k.chan = some cs → ∀ c ∈ cs, c < nc) (hin : Spec.Inside k (Spec.points nb nc k.chan ds p))
    (he : Gridder.Spec.Roots (cellsOn k) f.e) :
    ∃ S : List (Spec.Point C),
      S.Perm (Spec.points nb nc k.chan ds p ++ (Spec.points nb nc k.chan ds p).map (Spec.mirror conj)) ∧ (S.map (·.w)).Pairwise (· ≤ ·) ∧
      ∀ ps, computePlanes S.length k.wres ((S.map (·.w)).map f.ss) = .ok ps →
        ∃ im, buildOne f conj order k static none ds = .ok (static.getD (f.r (1 / ((cellsOn k * cellsOn k : Nat) : Rat))), im) ∧
          ∀ i j, i < cellsOn k → j < cellsOn k → dft2 f.e (-1) (cellsOn k) (square (cellsOn k) im.uv) i j =
            sumN (cellsOn k) (fun _ => 1) * sumN (cellsOn k) (fun _ => 1) * static.getD (f.r (1 / ((cellsOn k * cellsOn k : Nat) : Rat))) *
            sumL (ps.map fun pl => Gridder.Spec.phase f.ph (cellsOn k) k.res (Gridder.Spec.meanW (S.map (·.w)) pl) i j *
              dft2 f.e (-1) (cellsOn k) (Gridder.Spec.grid (args k (S.map (fun x => (x.u, x.v, x.w)), S.map (·.vis), S.map (·.wgt)))
                f.kernel (S.map (·.vis)) pl) i j) := by
  obtain ⟨S, hS, hw, hprep⟩ := C79_points conj order ho k.pol ds p hp nb nc h k.chan hc
  refine ⟨S, hS, hw, ?_⟩
  intro ps hps
  let a := args k (S.map (fun x => (x.u, x.v, x.w)), S.map (·.vis), S.map (·.wgt))
  have hfit : Gridder.Spec.Fits a := fits conj k _ S hS hin
  have hlen : a.u.length = S.length := by simp [a, args]
  have hwl : a.w = S.map (·.w) := by simp only [a, args, List.map_map]; rfl
  obtain ⟨uv, bm, corr, h1, -, -, -, h2⟩ := Gridder.C78_wprojection_partial f hk static a hfit he ps (by
    rw [hlen, hwl]; exact hps)
  refine ⟨⟨k.size, k.res, k.wres, uv, bm, corr⟩, ?_, ?_⟩
  · unfold buildOne
    simp only [Option.getD_none]
    rw [if_neg (by simp), hprep]
    simp only [Except.bind]
    rw [if_neg (by have := hin.size; omega)]
    show Except.map _ (wProjection f static a) = _
    rw [h1]
    rfl
  · intro i j hi hj
    have := (h2 i j hi hj).1
    rw [hwl] at this
    exact this

/-- Where the phase is one the uv plane is the sum over all visibilities and mirror images, in whatever order and planes they were. -/
theorem C79_total_partial (f : Fns C) (hk : f.kernel.length = 225) (conj : C → C) (order : List Rat → List Nat) (ho : Spec.Sorts order)
    (k : Keys) (ds : DataSet C) (p : Pol C)
    (hp : ∃ name, ds.pols.find? (fun p => p.1 = k.pol) = some (name, p)) (nb nc : Nat) (h : Spec.Shape nb nc ds p)
    (hc : ∀ cs, k.chan = some cs → ∀ c ∈ cs, c < nc) (hin : Spec.Inside k (Spec.points nb nc k.chan ds p))
    (he : Gridder.Spec.Roots (cellsOn k) f.e)
    (hr : sumN (cellsOn k) (fun _ => 1) * sumN (cellsOn k) (fun _ => 1) * f.r (1 / ((cellsOn k * cellsOn k : Nat) : Rat)) = 1)
    (hone : ∀ w i j, i < cellsOn k → j < cellsOn k → wKernel f.ph (cellsOn k) k.res w i j = 1)
    (hpl : ∀ S : List (Spec.Point C), S.Perm (Spec.points nb nc k.chan ds p ++ (Spec.points nb nc k.chan ds p).map (Spec.mirror conj)) →
      (S.map (·.w)).Pairwise (· ≤ ·) → ∃ ps, computePlanes S.length k.wres ((S.map (·.w)).map f.ss) = .ok ps) :
    ∃ s im, buildOne f conj order k none none ds = .ok (s, im) ∧ ∀ i j, i < cellsOn k → j < cellsOn k →
      square (cellsOn k) im.uv i j = sumL ((Spec.points nb nc k.chan ds p).map fun x =>
        x.vis * Spec.spot (cellsOn k) k.res f.kernel i j x.u x.v + conj x.vis * Spec.spot (cellsOn k) k.res f.kernel i j (-x.u) (-x.v)) ∧
      square (cellsOn k) im.bm i j = sumL ((Spec.points nb nc k.chan ds p).map fun x =>
        x.wgt * Spec.spot (cellsOn k) k.res f.kernel i j x.u x.v + x.wgt * Spec.spot (cellsOn k) k.res f.kernel i j (-x.u) (-x.v)) := by
  obtain ⟨S, hS, hw, hprep⟩ := C79_points conj order ho k.pol ds p hp nb nc h k.chan hc
  obtain ⟨ps, hps⟩ := hpl S hS hw
  let a := args k (S.map (fun x => (x.u, x.v, x.w)), S.map (·.vis), S.map (·.wgt))
  have hfit : Gridder.Spec.Fits a := fits conj k _ S hS hin
  have hlen : a.u.length = S.length := by simp [a, args]
  have hwl : a.w = S.map (·.w) := by simp only [a, args, List.map_map]; rfl
  obtain ⟨uv, bm, corr, h1, h2⟩ := Gridder.C78_total f hk a hfit he hr ps (by rw [hlen, hwl]; exact hps)
    (fun pl _ i j hi hj => hone _ i j hi hj)
  refine ⟨f.r (1 / ((a.n * a.n : Nat) : Rat)), ⟨k.size, k.res, k.wres, uv, bm, corr⟩, ?_, ?_⟩
  · unfold buildOne
    simp only [Option.getD_none]
    rw [if_neg (by simp), hprep]
    simp only [Except.bind]
    rw [if_neg (by have := hin.size; omega)]
    show Except.map _ (wProjection f none a) = _
    rw [h1]
    rfl
  · intro i j hi hj
    obtain ⟨g1, g2⟩ := h2 i j hi hj
    have split : ∀ F : Spec.Point C → C, sumL (S.map F) = sumL ((Spec.points nb nc k.chan ds p).map fun x => F x + F (Spec.mirror conj x)) := by
      intro F
      rw [sumL_perm (hS.map F), List.map_append, List.map_map, Gridder.sumL_append]
      generalize Spec.points nb nc k.chan ds p = l
      induction l with
      | nil => simp only [List.map_nil, sumL]; grind
      | cons x l ih =>
        simp only [List.map_cons, sumL] at ih ⊢
        rw [← ih]
        simp only [Function.comp]
        grind
    refine ⟨Eq.trans g1 ?_, Eq.trans g2 ?_⟩
    · have := sum_points k f.kernel S (·.vis) i j
      exact Eq.trans this (split _)
    · have := sum_points k f.kernel S (·.wgt) i j
      exact Eq.trans this (split _)

/-- Visibilities that are all at `w = 0`, as those of a flat array with the zenith as phase centre, are not imaged: there is no break
between planes, and the gridder writes before its array. -/
theorem C79_not_flat (f : Fns C) (conj : C → C) (order : List Rat → List Nat) (ho : Spec.Sorts order)
    (k : Keys) (h0 : 0 < k.wres) (static : Option C) (ds : DataSet C) (p : Pol C)
    (hp : ∃ name, ds.pols.find? (fun p => p.1 = k.pol) = some (name, p)) (nb nc : Nat) (h : Spec.Shape nb nc ds p)
    (hc : ∀ cs, k.chan = some cs → ∀ c ∈ cs, c < nc) (hn : 0 ≤ lround (k.size / k.res))
    (hw : ∀ x ∈ Spec.points nb nc k.chan ds p, x.w = 0) : buildOne f conj order k static none ds = .error .ub := by
  obtain ⟨S, hS, -, hprep⟩ := C79_points conj order ho k.pol ds p hp nb nc h k.chan hc
  have hz : ∀ x ∈ S, x.w = 0 := by
    intro x hx
    have := hS.mem_iff.mp hx
    simp only [List.mem_append, List.mem_map] at this
    rcases this with h1 | ⟨y, hy, rfl⟩
    · exact hw x h1
    · show -y.w = 0; rw [hw y hy]; rfl
  have hp := Gridder.C78_not_single k.wres ((S.map (·.w)).map f.ss) (by
    have ha : ∀ y ∈ (S.map (·.w)).map f.ss, y = f.ss 0 := by
      intro y hy
      simp only [List.map_map, List.mem_map] at hy
      obtain ⟨x, hx, rfl⟩ := hy
      simp only [Function.comp, hz x hx]
    intro y hy
    have hl : 0 < ((S.map (·.w)).map f.ss).length := List.length_pos_iff.mpr (by intro h; rw [h] at hy; exact absurd hy (by simp))
    rw [ha y hy, ha _ (Gridder.mem_getD _ _ _ hl)]
    grind)
  unfold buildOne
  simp only [Option.getD_none]
  rw [if_neg (by simp), hprep]
  simp only [Except.bind]
  rw [if_neg (by omega)]
  unfold wProjection
  rw [if_neg (by simp [args])]
  simp only [args, List.map_map, List.length_map] at hp ⊢
  rw [show computePlanes S.length k.wres (List.map (f.ss ∘ (fun x : Rat × Rat × Rat => x.2.2) ∘ fun x : Spec.Point C => (x.u, x.v, x.w)) S) = _ from hp]
  rfl

/-- The plane is Hermitian then, if no visibility is half way between cells, … -/
theorem C79_hermitian (n : Nat) (hn : 0 < n) (res : Rat) (kernel : List C) (conj : C → C) (hcj : Spec.Conj conj) (hreal : ∀ x ∈ kernel, conj x = x)
    (pts : List (Spec.Point C)) (hhalf : ∀ x ∈ pts, Spec.OffHalf (x.u / res) ∧ Spec.OffHalf (x.v / res)) (i j : Nat) (hi : i < n) (hj : j < n) :
    conj (sumL (pts.map fun x => x.vis * Spec.spot n res kernel i j x.u x.v + conj x.vis * Spec.spot n res kernel i j (-x.u) (-x.v))) =
    sumL (pts.map fun x => x.vis * Spec.spot n res kernel ((n - i) % n) ((n - j) % n) x.u x.v +
      conj x.vis * Spec.spot n res kernel ((n - i) % n) ((n - j) % n) (-x.u) (-x.v)) := by
  have hget : ∀ t, conj (kernel.getD t 0) = kernel.getD t 0 := by
    intro t
    by_cases ht : t < kernel.length
    · exact hreal _ (Gridder.mem_getD _ _ _ ht)
    · rw [List.getD, List.getElem?_eq_none (by omega)]; exact hcj.zero
  have hwt : ∀ c a, conj (Gridder.Spec.weight n kernel c a) = Gridder.Spec.weight n kernel c a := by
    intro c a
    unfold Gridder.Spec.weight
    rw [conj_sumN conj hcj]
    apply sumN_congr
    intro t _
    simp only
    split
    · exact hget _
    · exact hcj.zero
  have hsp : ∀ u v, conj (Spec.spot n res kernel i j u v) = Spec.spot n res kernel i j u v := by
    intro u v
    unfold Spec.spot
    rw [hcj.mul, hwt, hwt]
  have hd : ∀ y : Rat, -y / res = -(y / res) := by intro y; rw [Rat.div_def, Rat.div_def]; grind
  have hd2 : ∀ y : Rat, y / -res = -(y / res) := by intro y; grind
  have hnn : ∀ y : Rat, - -y = y := by intro y; grind
  rw [conj_sumL conj hcj]
  apply congrArg
  apply List.map_congr_left
  intro x hx
  obtain ⟨hu, hv⟩ := hhalf x hx
  have s1 : Spec.spot n res kernel ((n - i) % n) ((n - j) % n) (-x.u) (-x.v) = Spec.spot n res kernel i j x.u x.v := by
    unfold Spec.spot
    rw [hd2, hd2, hd, hd, weight_mirror n hn kernel (x.u / res) hu j hj]
    rw [weight_mirror n hn kernel (-(x.v / res)) (offHalf_neg _ hv) i hi]
  have s2 : Spec.spot n res kernel ((n - i) % n) ((n - j) % n) x.u x.v = Spec.spot n res kernel i j (-x.u) (-x.v) := by
    unfold Spec.spot
    rw [hd2, hd2, hd, hd]
    have e1 := weight_mirror n hn kernel (-(x.u / res)) (offHalf_neg _ hu) j hj
    have e2 := weight_mirror n hn kernel (x.v / res) hv i hi
    rw [hnn] at e1
    rw [e1, e2, hnn]
  rw [s1, s2, hcj.add, hcj.mul, hcj.mul, hsp, hsp, hcj.twice]
  grind

/-- … and the image is real: nothing is lost when the program keeps the real part. -/
theorem C79_real (n : Nat) (e : Rat → C) (conj : C → C) (hcj : Spec.Conj conj) (hec : ∀ x, conj (e x) = e (-x)) (hadd : ∀ x y, e (x + y) = e x * e y)
    (hint : ∀ m : Int, e m = 1) (hn : 0 < n) (uv : Nat → Nat → C) (huv : ∀ i j, i < n → j < n → conj (uv i j) = uv ((n - i) % n) ((n - j) % n))
    (i j : Nat) : conj (dft2 e 1 n uv i j) = dft2 e 1 n uv i j := by
  have hn0 : (n : Rat) ≠ 0 := by
    intro hc
    have := (Rat.natCast_inj (a := n) (b := 0)).mp hc
    omega
  have turn : ∀ (i a : Nat), a < n → ∃ m : Int, (1 : Rat) * (((i * ((n - a) % n) : Nat) : Rat) / n) = -(1 * (((i * a : Nat) : Rat) / n)) + m := by
    intro i a ha
    by_cases h0 : a = 0
    · subst h0
      refine ⟨0, ?_⟩
      rw [Nat.sub_zero, Nat.mod_self]
      simp
      rw [Rat.div_def]; grind
    · refine ⟨i, ?_⟩
      rw [Nat.mod_eq_of_lt (by omega), Nat.mul_sub]
      have hle : i * a ≤ i * n := Nat.mul_le_mul_left _ (by omega)
      have hs : ((i * n - i * a : Nat) : Rat) = ((i * n : Nat) : Rat) - ((i * a : Nat) : Rat) := by
        have : ((i * n - i * a + i * a : Nat) : Rat) = ((i * n : Nat) : Rat) := by rw [Nat.sub_add_cancel hle]
        rw [Rat.natCast_add] at this
        grind
      rw [hs]
      push_cast
      grind
  unfold dft2
  rw [conj_sumN conj hcj]
  have h1 : ∀ a, a < n → conj (sumN n fun b => uv a b * e (1 * (((i * a : Nat) : Rat) / n) + 1 * (((j * b : Nat) : Rat) / n))) =
      sumN n fun b => uv ((n - a) % n) ((n - b) % n) * e (1 * (((i * ((n - a) % n) : Nat) : Rat) / n) + 1 * (((j * ((n - b) % n) : Nat) : Rat) / n)) := by
    intro a ha
    rw [conj_sumN conj hcj]
    apply sumN_congr
    intro b hb
    obtain ⟨m1, e1⟩ := turn i a ha
    obtain ⟨m2, e2⟩ := turn j b hb
    rw [hcj.mul, huv a b ha hb, hec, e1, e2]
    congr 1
    have : -(1 * (((i * a : Nat) : Rat) / n)) + (m1 : Rat) + (-(1 * (((j * b : Nat) : Rat) / n)) + (m2 : Rat)) =
        -(1 * (((i * a : Nat) : Rat) / n) + 1 * (((j * b : Nat) : Rat) / n)) + ((m1 + m2 : Int) : Rat) := by push_cast; grind
    rw [this, hadd, hint]
    grind
  rw [sumN_congr n _ _ h1]
  rw [sumN_mirror n (fun a => sumN n fun b => uv a ((n - b) % n) * e (1 * (((i * a : Nat) : Rat) / n) + 1 * (((j * ((n - b) % n) : Nat) : Rat) / n)))]
  apply sumN_congr
  intro a _
  exact sumN_mirror n (fun b => uv a b * e (1 * (((i * a : Nat) : Rat) / n) + 1 * (((j * b : Nat) : Rat) / n)))

/-- The weights of the visibilities have no part in the uv plane: with `weighting='natural'` data and beam are not weighted alike. -/
theorem C79_not_weighted (f : Fns C) (static : Option C) (a : Args C) (g : List C) (r r' : C × List C × List C × List C)
    (h : wProjection f static a = .ok r) (h' : wProjection f static { a with wgt := g } = .ok r') : r'.2.1 = r.2.1 := by
  have key : ∀ b : Args C, ∀ q, wProjection f static b = .ok q → ∃ ps, computePlanes b.u.length b.wRes (b.w.map f.ss) = .ok ps ∧
      Gridder.gridAll f b (static.getD (f.r (1 / ((b.n * b.n : Nat) : Rat)))) ps b.vis = .ok q.2.1 := by
    intro b q hq
    unfold wProjection at hq
    simp only at hq
    split at hq
    · exact absurd hq (by simp)
    · revert hq
      cases computePlanes b.u.length b.wRes (b.w.map f.ss) with
      | error x => intro h0; exact absurd h0 (by simp [Except.bind])
      | ok ps =>
        simp only [Except.bind]
        cases hg : Gridder.gridAll f b (static.getD (f.r (1 / ((b.n * b.n : Nat) : Rat)))) ps b.vis with
        | error x => intro h0; exact absurd h0 (by simp)
        | ok g1 =>
          simp only
          cases Gridder.gridAll f b (static.getD (f.r (1 / ((b.n * b.n : Nat) : Rat)))) ps b.wgt with
          | error x => intro h0; exact absurd h0 (by simp)
          | ok g2 =>
            simp only
            cases Gridder.correction f.co f.r f.kernel b.n with
            | error x => intro h0; exact absurd h0 (by simp [Except.map])
            | ok c3 =>
              intro h0
              refine ⟨ps, rfl, ?_⟩
              rw [← Except.ok.inj h0]; exact hg
  obtain ⟨ps, h1, h2⟩ := key a r h
  obtain ⟨ps', h1', h2'⟩ := key _ r' h'
  have e1 : ps' = ps := by
    have : (Except.ok ps' : Run _) = .ok ps := Eq.trans h1'.symm h1
    exact Except.ok.inj this
  subst e1
  have : (Except.ok r'.2.1 : Run _) = .ok r.2.1 := Eq.trans h2'.symm h2
  exact Except.ok.inj this

/-- The mask is not looked at: flagged data are in the image as any other. -/
theorem C79_not_masked (f : Fns C) (conj : C → C) (order : List Rat → List Nat) (k : Keys) (static : Option C) (im : Option (Im C))
    (ds : DataSet C) (m : List (List Bool)) :
    buildOne f conj order k static im { ds with pols := ds.pols.map fun p => (p.1, { p.2 with mask := m }) } = buildOne f conj order k static im ds := by
  have : prepare conj order k.pol k.chan { ds with pols := ds.pols.map fun p => (p.1, { p.2 with mask := m }) } = prepare conj order k.pol k.chan ds := by
    unfold prepare
    simp only
    have hf : (ds.pols.map fun p => (p.1, ({ p.2 with mask := m } : Pol C))).find? (fun p => p.1 = k.pol) =
        (ds.pols.find? (fun p => p.1 = k.pol)).map fun p => (p.1, { p.2 with mask := m }) := by
      rw [List.find?_map]; rfl
    rw [hf]
    cases ds.pols.find? (fun p => p.1 = k.pol) with
    | none => rfl
    | some p => rfl
  unfold buildOne
  rw [this]

theorem buildOne_keys (f : Fns C) (conj : C → C) (order : List Rat → List Nat) (k : Keys) (static : Option C) (im : Option (Im C))
    (ds : DataSet C) (r : C × Im C) (h : buildOne f conj order k static im ds = .ok r) : r.2.size = k.size ∧ r.2.res = k.res ∧ r.2.wres = k.wres := by
  unfold buildOne at h
  simp only at h
  split at h
  · exact absurd h (by simp)
  · rename_i hk
    simp only [not_or, Decidable.not_not] at hk
    revert h
    cases prepare conj order k.pol k.chan ds with
    | error x => intro h; exact absurd h (by simp [Except.bind])
    | ok x =>
      simp only [Except.bind]
      split
      · intro h; exact absurd h (by simp)
      · cases wProjection f static (args k x) with
        | error y => intro h; exact absurd h (by simp [Except.map])
        | ok g =>
          intro h
          have := Except.ok.inj h
          subst this
          exact hk

theorem buildOne_fresh (f : Fns C) (conj : C → C) (order : List Rat → List Nat) (k : Keys) (static : Option C) (im : Im C)
    (h : im.size = k.size ∧ im.res = k.res ∧ im.wres = k.wres) (ds : DataSet C) :
    buildOne f conj order k static (some im) ds = buildOne f conj order k static none ds := by
  obtain ⟨h1, h2, h3⟩ := h
  cases im with
  | mk size res wres uv bm corr =>
    simp only at h1 h2 h3
    subst h1 h2 h3
    rfl

theorem build_append (f : Fns C) (conj : C → C) (order : List Rat → List Nat) (k : Keys) (static : Option C) (im : Option (Im C))
    (l m : List (DataSet C)) :
    build f conj order k static im (l ++ m) = (build f conj order k static im l).bind fun r => build f conj order k r.1 r.2 m := by
  induction l generalizing static im with
  | nil => rfl
  | cons ds l ih =>
    show (buildOne f conj order k static im ds).bind _ = ((buildOne f conj order k static im ds).bind _).bind _
    cases buildOne f conj order k static im ds with
    | error x => rfl
    | ok r => exact ih _ _

theorem build_keys (f : Fns C) (conj : C → C) (order : List Rat → List Nat) (k : Keys) (static : Option C) (im : Option (Im C))
    (ds : DataSet C) (l : List (DataSet C)) (r : Option C × Option (Im C)) (h : build f conj order k static im (ds :: l) = .ok r) :
    ∃ im', r.2 = some im' ∧ im'.size = k.size ∧ im'.res = k.res ∧ im'.wres = k.wres := by
  induction l generalizing static im ds with
  | nil =>
    unfold build at h
    cases hb : buildOne f conj order k static im ds with
    | error x => rw [hb] at h; exact absurd h (by simp [Except.bind])
    | ok q =>
      rw [hb] at h
      have := Except.ok.inj h
      subst this
      exact ⟨q.2, rfl, buildOne_keys f conj order k static im ds q hb⟩
  | cons d l ih =>
    unfold build at h
    cases hb : buildOne f conj order k static im ds with
    | error x => rw [hb] at h; exact absurd h (by simp [Except.bind])
    | ok q => rw [hb] at h; exact ih _ _ _ h

/-- A `VisibilityData` of several data sets is not imaged: what is returned is the image of the last data set, as if
the others were not there. -/
theorem C79_not_all (f : Fns C) (conj : C → C) (order : List Rat → List Nat) (k : Keys) (static : Option C) (im : Option (Im C))
    (l : List (DataSet C)) (hl : l ≠ []) (last : DataSet C) (r : Option C × Option (Im C)) (h : build f conj order k static im l = .ok r) :
    build f conj order k static im (l ++ [last]) = build f conj order k r.1 none [last] := by
  rw [build_append, h]
  simp only [Except.bind]
  cases l with
  | nil => exact absurd rfl hl
  | cons d l =>
    obtain ⟨im', h1, h2⟩ := build_keys f conj order k static im d l r h
    rw [h1]
    show (buildOne f conj order k r.1 (some im') last).bind _ = (buildOne f conj order k r.1 none last).bind _
    rw [buildOne_fresh f conj order k r.1 im' h2]

end

/-! The hypotheses can be met. -/

/-- An order that sorts. -/
def byMerge (w : List Rat) : List Nat := (List.range w.length).mergeSort fun a b => decide (w.getD a 0 ≤ w.getD b 0)

example : Spec.Sorts byMerge := by
  intro w
  refine ⟨List.mergeSort_perm _ _, ?_⟩
  rw [List.pairwise_map]
  have := List.pairwise_mergeSort (le := fun a b => decide (w.getD a 0 ≤ w.getD b 0)) (by
    intro a b c h1 h2
    simp only [decide_eq_true_eq] at *
    grind) (by
    intro a b
    simp only [Bool.or_eq_true, decide_eq_true_eq]
    grind) (List.range w.length)
  exact this.imp (by intro a b h; simpa using h)

/-- A baseline of two channels, and a plane for it. -/
def small : DataSet Cx := ⟨[[(1, 2, 3), (2, 1, 1)]], [("XX", ⟨[[⟨1, 1⟩, ⟨2, 0⟩]], [[1, 1]], [[false, true]]⟩)]⟩

def keys : Keys := ⟨4, 1, 1 / 10, "XX", some [1]⟩

example : Spec.Shape 1 2 small ⟨[[⟨1, 1⟩, ⟨2, 0⟩]], [[1, 1]], [[false, true]]⟩ := ⟨by decide, by decide, by decide⟩
example : (prepare Cx.conj (fun w => List.range w.length) "XX" (some [1]) small).toOption =
    some ([(2, 1, 1), (-2, -1, -1)], [⟨2, 0⟩, Cx.conj ⟨2, 0⟩], [1, 1]) := by decide +kernel
example : Spec.Inside keys (Spec.points 1 2 keys.chan small ⟨[[⟨1, 1⟩, ⟨2, 0⟩]], [[1, 1]], [[false, true]]⟩) :=
  ⟨by decide +kernel, by decide +kernel, by decide +kernel⟩
example : ∃ ps, computePlanes 2 keys.wres ([-1, 1].map id) = .ok ps := ⟨[(0, 1), (1, 2)], by decide +kernel⟩
example : Spec.Conj Cx.conj := ⟨Cx.conj_add, Cx.conj_mul, Cx.conj_zero, Cx.conj_conj⟩
example : Spec.OffHalf (3 / 4) := by
  intro k h
  have h1 : ((4 * k : Int) : Rat) = ((1 : Int) : Rat) := by push_cast; grind
  have := Rat.intCast_inj.mp h1
  omega

/-- A visibility half way between two cells, and its mirror image, are not put in mirrored cells. -/
theorem C79_not_half : Spec.spot 8 1 (List.replicate 225 (1 : Int)) 0 0 (5 / 2) 0 ≠ Spec.spot 8 1 (List.replicate 225 (1 : Int)) 0 0 (-5 / 2) 0 ∨
    Spec.spot 8 1 (List.replicate 225 (1 : Int)) 0 6 (5 / 2) 0 ≠ Spec.spot 8 1 (List.replicate 225 (1 : Int)) 0 2 (-5 / 2) 0 := by
  decide +kernel

/-! ### weighting -/

/-- Natural weighting gives the cells as they are, and neither it nor a taper changes the object. -/
theorem C79_natural (s : Planes) (tp : Option (List Rat)) :
    image .natural none s = (s, s.uv) ∧ bmImage .natural none s = (s, s.bm) ∧ (image .natural tp s).1 = s ∧ (bmImage .natural tp s).1 = s :=
  ⟨rfl, rfl, rfl, rfl⟩

theorem weigh_at (wt : Weighting) (hwt : wt ≠ .natural) (same : Bool) (bm data : List Cell) (i : Nat) :
    (weigh wt same bm data)[i]? = data[i]?.map fun x =>
      let y := scale x (match wt with
        | .briggs t => recip (((bm[i]?.map real).getD none).bind fun w => (s2 t (bm.map real)).map fun s => 1 + w * s)
        | _ => recip ((bm[i]?.map real).getD none))
      if (if same = true then some (real y) else bm[i]?.map real) = some (some 0) then some 0 else y := by
  cases wt with
  | natural => exact absurd rfl hwt
  | uniform =>
    unfold weigh blank
    cases hx : data[i]? with
    | none => simp only [List.getElem?_mapIdx, hx, Option.map_none]
    | some x => cases same <;> simp [List.getElem?_mapIdx, hx]
  | briggs t =>
    unfold weigh blank
    cases hx : data[i]? with
    | none => simp only [List.getElem?_mapIdx, hx, Option.map_none]
    | some x => cases same <;> simp [List.getElem?_mapIdx, hx]

theorem scale_recip (x : Cx) (w : Rat) (h : w ≠ 0) : scale (some x) (recip (some w)) = some ⟨x.re / w, x.im / w⟩ := by
  have hd : ∀ y : Rat, y * (1 / w) = y / w := by intro y; rw [Rat.div_def, Rat.div_def]; grind
  simp only [scale, recip, Option.bind_some, if_neg h, Option.map_some, hd]

theorem weigh_uniform (bm uv : List Cx) (h : bm.length = uv.length) :
    weigh .uniform false (bm.map some) (uv.map some) = (Spec.uniform bm uv).map some := by
  apply List.ext_getElem?
  intro i
  rw [weigh_at _ (by simp)]
  unfold Spec.uniform
  simp only [List.getElem?_map, List.getElem?_zipWith, Bool.false_eq_true, if_false]
  by_cases hi : i < uv.length
  · rw [List.getElem?_eq_getElem hi, List.getElem?_eq_getElem (by omega : i < bm.length)]
    simp only [Option.map_some, Option.getD_some, show ∀ z : Cx, real (some z) = some z.re from fun _ => rfl]
    congr 1
    by_cases h0 : (bm[i]'(by omega)).re = 0
    · rw [if_pos h0, if_pos (by rw [h0])]
    · rw [if_neg h0, if_neg (by intro h; exact h0 (Option.some.inj (Option.some.inj h))), scale_recip _ _ h0]
  · rw [List.getElem?_eq_none (by omega : uv.length ≤ i), List.getElem?_eq_none (by omega : bm.length ≤ i)]
    rfl

/-- Uniform weighting divides every cell by its weight, and leaves the result in the object. -/
theorem C79_uniform (bm uv : List Cx) (h : bm.length = uv.length) :
    image .uniform none ⟨uv.map some, bm.map some⟩ =
      (⟨(Spec.uniform bm uv).map some, bm.map some⟩, (Spec.uniform bm uv).map some) := by
  unfold image
  simp only
  rw [weigh_uniform bm uv h]
  rfl

/-- After an image with another weighting, an image with natural weighting is that image again, … -/
theorem C79_not_pure (wt : Weighting) (s : Planes) : (image .natural none (image wt none s).1).2 = (image wt none s).2 := rfl

/-- … and a second one with uniform weighting is divided by the weights twice. -/
theorem C79_not_repeatable : ∃ s : Planes, (image .uniform none (image .uniform none s).1).2 ≠ (image .uniform none s).2 ∧
    (image .natural none (image .uniform none s).1).2 ≠ (image .natural none s).2 :=
  ⟨⟨[some ⟨4, 0⟩], [some ⟨2, 0⟩]⟩, by decide +kernel⟩

/-- The beam with uniform weighting is not a number in every cell without weight: the test for zero looks at the weights after the division. -/
theorem C79_not_beam (s : Planes) (i : Nat) (x : Cx) (hx : s.bm[i]? = some (some x)) (h0 : x.re = 0) :
    (bmImage .uniform none s).2[i]? = some none := by
  show (weigh .uniform true s.bm s.bm)[i]? = _
  rw [weigh_at _ (by simp), hx]
  simp [real, recip, scale, h0]

/-- After a beam with uniform weighting, an image with uniform weighting has natural weighting, where there are no such cells. -/
theorem C79_not_order (bm uv : List Cx) (h : bm.length = uv.length) (hb : ∀ w ∈ bm, w.re ≠ 0) :
    (image .uniform none (bmImage .uniform none ⟨uv.map some, bm.map some⟩).1).2 = uv.map some := by
  have hcell : ∀ (i : Nat) (x : Cx), bm[i]? = some x → x.re ≠ 0 := fun i x hx => hb x (List.mem_of_getElem? hx)
  have e : (bmImage .uniform none ⟨uv.map some, bm.map some⟩).1 = ⟨uv.map some, (bm.map fun w => (⟨1, w.im / w.re⟩ : Cx)).map some⟩ := by
    show (⟨_, weigh .uniform true (bm.map some) (bm.map some)⟩ : Planes) = _
    congr 1
    apply List.ext_getElem?
    intro i
    rw [weigh_at _ (by simp)]
    simp only [List.getElem?_map]
    cases hi : bm[i]? with
    | none => rfl
    | some w =>
      have hw := hcell i w hi
      simp only [Option.map_some, Option.getD_some, if_true, show ∀ z : Cx, real (some z) = some z.re from fun _ => rfl]
      have h1 : w.re / w.re = 1 := by rw [Rat.div_def]; exact Rat.mul_inv_cancel _ hw
      rw [scale_recip _ _ hw, h1]
      rw [if_neg (by simp only [real, Option.map_some]; decide)]
  unfold image
  simp only
  rw [e]
  show weigh .uniform false _ _ = _
  rw [weigh_uniform _ _ (by simpa using h)]
  congr 1
  unfold Spec.uniform
  apply List.ext_getElem?
  intro i
  rw [List.getElem?_zipWith, List.getElem?_map]
  by_cases hi : i < uv.length
  · rw [List.getElem?_eq_getElem (by omega), List.getElem?_eq_getElem hi]
    simp only [Option.map_some]
    rw [if_neg (by decide)]
    have h1 : ∀ y : Rat, y / 1 = y := by intro y; grind
    rw [h1, h1]
  · rw [List.getElem?_eq_none (by omega), List.getElem?_eq_none (by omega)]; rfl

/-- Robust weighting, for the image and for the beam: a cell is divided by `1 + w S2`, and has nothing without weight. -/
theorem C79_briggs (t S : Rat) (same : Bool) (bm data : List Cx) (h : bm.length = data.length) (hsame : same = true → data = bm)
    (hS : s2 t ((bm.map some).map real) = some S) (hne : ∀ w ∈ bm, 1 + w.re * S ≠ 0) :
    weigh (.briggs t) same (bm.map some) (data.map some) =
      (List.zipWith (fun w x => if w.re = 0 then (0 : Cx) else ⟨x.re / (1 + w.re * S), x.im / (1 + w.re * S)⟩) bm data).map some := by
  apply List.ext_getElem?
  intro i
  rw [weigh_at _ (by simp)]
  simp only [List.getElem?_map, List.getElem?_zipWith, hS]
  by_cases hi : i < data.length
  · have hw := hne (bm[i]'(by omega)) (List.getElem_mem _)
    rw [List.getElem?_eq_getElem hi, List.getElem?_eq_getElem (by omega : i < bm.length)]
    simp only [Option.map_some, Option.getD_some, Option.bind_some, show ∀ z : Cx, real (some z) = some z.re from fun _ => rfl]
    rw [scale_recip _ _ hw]
    congr 1
    cases same with
    | false =>
      simp only [Bool.false_eq_true, if_false]
      by_cases h0 : (bm[i]'(by omega)).re = 0
      · rw [if_pos h0, if_pos (by rw [h0])]
      · rw [if_neg h0, if_neg (by intro h; exact h0 (Option.some.inj (Option.some.inj h)))]
    | true =>
      have := hsame rfl
      subst this
      simp only [if_true, show ∀ z : Cx, real (some z) = some z.re from fun _ => rfl]
      by_cases h0 : data[i].re = 0
      · rw [if_pos h0, if_pos (by rw [h0, Rat.div_def, Rat.zero_mul])]
      · rw [if_neg h0, if_neg (by
          intro h
          have := Option.some.inj (Option.some.inj h)
          apply h0
          have h2 := Rat.div_mul_cancel hw (a := data[i].re)
          rw [this, Rat.zero_mul] at h2
          exact h2.symm)]
  · rw [List.getElem?_eq_none (by omega : data.length ≤ i), List.getElem?_eq_none (by omega : bm.length ≤ i)]
    rfl

theorem sumO_some (l : List Rat) : sumO (l.map some) = some l.sum := by
  have key : ∀ (l : List Rat) (a : Rat),
      (l.map some).foldl (fun (a : Option Rat) x => a.bind fun a => x.map fun x => a + x) (some a) = some (a + l.sum) := by
    intro l
    induction l with
    | nil => intro a; simp [Rat.add_zero]
    | cons x l ih =>
      intro a
      simp only [List.map_cons, List.foldl_cons, Option.bind_some, Option.map_some, List.sum_cons]
      rw [ih]
      congr 1; grind
  unfold sumO
  rw [key, Rat.zero_add]

/-- The scale of the robust weighting is `25 t` over the mean of the weights, each counted with itself, … -/
theorem C79_robust (t : Rat) (bm : List Cx) (h : (bm.map fun w => w.re * w.re).sum ≠ 0) :
    s2 t ((bm.map some).map real) = some (25 * t * (bm.map Cx.re).sum / (bm.map fun w => w.re * w.re).sum) := by
  have e1 : (bm.map some).map real = (bm.map Cx.re).map some := by simp only [List.map_map]; rfl
  have e2 : ((bm.map Cx.re).map some).map (fun w => w.map fun w => w * w) = (bm.map fun w => w.re * w.re).map some := by
    simp only [List.map_map]; rfl
  unfold s2
  rw [e1, e2, sumO_some, sumO_some]
  simp only [Option.bind_some]
  rw [if_neg h]
  split
  · rename_i h0
    rw [h0]
    congr 1
    rw [Rat.div_def]; grind
  · rename_i h0
    congr 1
    grind

/-- … so that no cell is divided by zero if no weight is negative. -/
theorem C79_robust_pos (t : Rat) (ht : 0 ≤ t) (bm : List Cx) (hb : ∀ w ∈ bm, 0 ≤ w.re) (S : Rat)
    (hS : S = 25 * t * (bm.map Cx.re).sum / (bm.map fun w => w.re * w.re).sum) : ∀ w ∈ bm, 1 + w.re * S ≠ 0 := by
  have pos : ∀ l : List Rat, (∀ x ∈ l, 0 ≤ x) → 0 ≤ l.sum := by
    intro l
    induction l with
    | nil => intro _; simp
    | cons x l ih =>
      intro h
      rw [List.sum_cons]
      have h1 := h x (by simp)
      have h2 := ih (fun y hy => h y (by simp [hy]))
      grind
  have h1 : 0 ≤ (bm.map Cx.re).sum := pos _ (by
    intro x hx
    obtain ⟨w, hw, rfl⟩ := List.mem_map.mp hx
    exact hb w hw)
  have h2 : 0 ≤ (bm.map fun w => w.re * w.re).sum := pos _ (by
    intro x hx
    obtain ⟨w, hw, rfl⟩ := List.mem_map.mp hx
    exact Rat.mul_nonneg (hb w hw) (hb w hw))
  have h3 : 0 ≤ S := by
    rw [hS, Rat.div_def]
    exact Rat.mul_nonneg (Rat.mul_nonneg (Rat.mul_nonneg (by decide +kernel) ht) h1) (by
      rcases Rat.le_iff_lt_or_eq.mp h2 with h | h
      · exact Rat.le_of_lt (Rat.inv_pos.mpr h)
      · rw [← h]; decide +kernel)
  intro w hw
  have := Rat.mul_nonneg (hb w hw) h3
  grind

/-! ### positions -/

/-- In a plot the phase centre is where the coordinate system says, … -/
theorem C79_centre (n : Nat) (hn : 0 < n) : shifted n 0 = reference n := by
  unfold shifted roll reference
  rw [Nat.mod_eq_of_lt (by omega)]; omega

/-- … the coordinates for an image that is not shifted are right for an even number of pixels, … -/
theorem C79_unshift (h i : Nat) (hi : i < 2 * h) : unshifted (2 * h) (shifted (2 * h) i) = i := by
  unfold unshifted shifted roll
  rw [show 2 * h / 2 = h from by omega, Nat.mod_add_mod, show i + h + h = i + 2 * h from by omega, Nat.add_mod_right, Nat.mod_eq_of_lt hi]

/-- … and off by one pixel for an odd number. -/
theorem C79_not_unshift (h : Nat) (hh : 0 < h) : unshifted (2 * h + 1) (shifted (2 * h + 1) 0) = 2 * h ∧ 2 * h ≠ 0 := by
  refine ⟨?_, by omega⟩
  unfold unshifted shifted roll
  rw [show (2 * h + 1) / 2 = h from by omega, Nat.mod_add_mod, Nat.mod_eq_of_lt (by omega)]; omega

/-- A phase centre that is an `equ_posn` can be set but the coordinate system cannot be had. -/
theorem C79_not_posn (ra dec : Rat) : crval (some (.posn ra dec)) = .error .refused ∧ crval (some (.sky ra dec)) = .ok (ra, dec) ∧
    crval (some (.body ra dec)) = .ok (ra, dec) := ⟨rfl, rfl, rfl⟩

end Verif.Imaging
