import Verif.Lemmas.Gridder
/-!
# C78: gridding with w projection
-/
namespace Verif.Gridder
open Verif.CMem
open Lean.Grind (CommRing)
open Verif.FEngine (lround)

/-! ### the planes -/

/-- The planes are the stretches between the places where the value is `wRes` above the first value of the stretch, if there
are two planes or more, and 1024 or fewer; in every other case the function reads or writes outside of its arrays. -/
theorem C78_planes (wRes : Rat) (sw : List Rat) :
    computePlanes sw.length wRes sw =
      if sw ≠ [] ∧ Spec.cuts wRes sw ≠ [] ∧ (Spec.cuts wRes sw).length < 1024 then .ok (Spec.planes sw.length (Spec.cuts wRes sw))
      else .error .ub := computePlanes_eq wRes sw

theorem cuts_bounds (wRes : Rat) (sw : List Rat) (h : sw ≠ []) :
    (0 :: Spec.cuts wRes sw).Pairwise (· < ·) ∧ ∀ b ∈ 0 :: Spec.cuts wRes sw, b < sw.length := by
  have hl := List.length_pos_iff.mpr h
  obtain ⟨h1, h2⟩ := breaks_bounds wRes (sw.getD 0 0) 1 (sw.drop 1)
  rw [List.length_drop] at h1
  constructor
  · exact List.pairwise_cons.mpr ⟨fun b hb => by have := h1 b hb; omega, h2⟩
  · intro b hb
    rcases List.mem_cons.mp hb with rfl | hb
    · exact hl
    · have := h1 b hb; omega

/-- The planes are not empty and hold every visibility once, in order. -/
theorem C78_cover (wRes : Rat) (sw : List Rat) (ps : List (Nat × Nat)) (h : computePlanes sw.length wRes sw = .ok ps) :
    (ps.map fun p => List.range' p.1 (p.2 - p.1)).flatten = List.range sw.length ∧ ∀ p ∈ ps, p.1 < p.2 ∧ p.2 ≤ sw.length := by
  rw [C78_planes] at h
  split at h
  · rename_i hc
    obtain ⟨h1, h2⟩ := cuts_bounds wRes sw hc.1
    obtain ⟨h3, h4⟩ := zip_cover sw.length _ 0 h1 h2
    have := Except.ok.inj h
    subst this
    refine ⟨?_, fun p hp => ⟨(h4 p hp).2.1, (h4 p hp).2.2⟩⟩
    unfold Spec.planes
    rw [h3, List.range_eq_range']; rfl
  · exact absurd h (by simp)

/-- In a plane every value is less than `wRes` above the first, and planes begin `wRes` or more apart.  With values in order a
plane is narrower than `wRes`; with values out of order it has no lower bound. -/
theorem C78_width (wRes : Rat) (hw : 0 < wRes) (sw : List Rat) (ps : List (Nat × Nat)) (h : computePlanes sw.length wRes sw = .ok ps) :
    (∀ p ∈ ps, ∀ k, p.1 ≤ k → k < p.2 → sw.getD k 0 < sw.getD p.1 0 + wRes) ∧
    (∀ p ∈ (ps.map (·.1)).zip (ps.map (·.1)).tail, sw.getD p.1 0 + wRes ≤ sw.getD p.2 0) := by
  rw [C78_planes] at h
  split at h
  · rename_i hc
    have hl := List.length_pos_iff.mpr hc.1
    obtain ⟨h1, h2⟩ := breaks_width wRes hw sw (sw.drop 1) 0 1 rfl (by omega) hl (by
      intro k h1 h2
      have : k = 0 := by omega
      subst this; grind)
    have := Except.ok.inj h
    subst this
    refine ⟨h1, ?_⟩
    have e : (Spec.planes sw.length (Spec.cuts wRes sw)).map (·.1) = 0 :: Spec.cuts wRes sw := by
      unfold Spec.planes
      rw [show (fun (p : Nat × Nat) => p.1) = Prod.fst from rfl, List.map_fst_zip (by simp)]
    rw [e]
    exact h2
  · exact absurd h (by simp)

/-- Visibilities that fit in one plane, as of a snapshot near the zenith: `planeStop[-1]` is read (gridder.cpp:114). -/
theorem C78_not_single (wRes : Rat) (sw : List Rat) (h : ∀ x ∈ sw, x < sw.getD 0 0 + wRes) : computePlanes sw.length wRes sw = .error .ub := by
  have none : ∀ (l : List Rat) (i : Nat) (p : Rat), (∀ x ∈ l, x < p + wRes) → Spec.breaks wRes p i l = [] := by
    intro l
    induction l with
    | nil => intro i p _; rfl
    | cons x l ih =>
      intro i p h
      have := h x (by simp)
      simp only [Spec.breaks]
      rw [if_neg (by grind), ih _ _ (fun y hy => h y (by simp [hy]))]
  rw [C78_planes, if_neg]
  rintro ⟨_, h2, _⟩
  exact h2 (none _ _ _ (fun x hx => h x (List.mem_of_mem_drop hx)))

/-- One visibility, or all at the same `w`. -/
example : computePlanes 1 (1 / 10) [3] = .error .ub := by decide +kernel
example : computePlanes 3 (1 / 10) [3, 3, 3] = .error .ub := by decide +kernel

/-- The planes of a fan of visibilities, and more of them than there is space for. -/
example : computePlanes 4 1 [0, 1 / 2, 1, 3] = .ok [(0, 2), (2, 3), (3, 4)] := by decide +kernel

theorem breaks_fan (l i : Nat) (p : Nat) :
    Spec.breaks 1 (p : Rat) i ((List.range' (p + 1) l).map fun (k : Nat) => (k : Rat)) = List.range' i l := by
  induction l generalizing i p with
  | zero => rfl
  | succ l ih =>
    rw [List.range'_succ, List.map_cons, List.range'_succ]
    simp only [Spec.breaks]
    rw [if_pos (by push_cast; grind), ih]

theorem C78_not_many (n : Nat) (h : 1024 < n) :
    computePlanes n 1 ((List.range n).map fun (k : Nat) => (k : Rat)) = .error .ub := by
  have hl : ((List.range n).map fun (k : Nat) => (k : Rat)).length = n := by simp
  have := C78_planes 1 ((List.range n).map fun (k : Nat) => (k : Rat))
  rw [hl] at this
  rw [this, if_neg]
  rintro ⟨_, _, h3⟩
  have e : Spec.cuts 1 ((List.range n).map fun (k : Nat) => (k : Rat)) = List.range' 1 (n - 1) := by
    obtain ⟨m, rfl⟩ : ∃ m, n = m + 1 := ⟨n - 1, by omega⟩
    have := breaks_fan m 1 0
    unfold Spec.cuts
    rw [List.range_eq_range', List.range'_succ, List.map_cons, List.drop_succ_cons, List.drop_zero]
    exact this
  rw [e] at h3
  simp at h3
  omega

/-! ### gridding -/

section
variable {C : Type} [CommRing C]

/-- On a plane of four cells or more, with coordinates inside of it, the gridding stays inside of its arrays, and the
result is the sum over the visibilities of the value times two weights, of the distance along the rows and along the columns on a torus. -/
theorem C78_grid (a : Args C) (h : Spec.Fits a) (kernel : List C) (hk : kernel.length = 225) (x : List C)
    (hx : x.length = a.u.length) (pl : Nat × Nat) (hpl : pl.2 ≤ a.u.length) :
    ∃ g, gridPlane a kernel x pl = .ok g ∧ g.length = a.n * a.n ∧
      ∀ i j, i < a.n → j < a.n → square a.n g i j = Spec.grid a kernel x pl i j := by
  refine ⟨_, gridPlane_ok a h kernel hk x hx pl hpl, by simp, ?_⟩
  intro i j hi hj
  have hq : a.n * i + j < a.n * a.n := by
    have : a.n * (i + 1) ≤ a.n * a.n := Nat.mul_le_mul_left _ hi
    rw [Nat.mul_add] at this
    omega
  unfold square
  rw [List.getD, List.getElem?_map, List.getElem?_range hq]
  simp only [Option.map_some, Option.getD_some]
  rw [Nat.mul_add_div (by omega), Nat.mul_add_mod, Nat.div_eq_of_lt hj, Nat.mod_eq_of_lt hj, Nat.add_zero]

/-- The torus loses nothing: the weights of all cells add up to the sum of the kernel over the seven grid points. -/
theorem C78_mass (n : Nat) (hn : 0 < n) (kernel : List C) (c : Rat) :
    sumN n (Spec.weight n kernel c) = sumN 7 fun m => kernel.getD (Spec.steps c (lround c - 3 + m)) 0 := by
  unfold Spec.weight
  rw [sumN_comm]
  apply sumN_congr
  intro m _
  simp only
  have h0 := Int.emod_nonneg (lround c - 3 + (m : Int)) (show (n : Int) ≠ 0 by omega)
  have h1 := Int.emod_lt_of_pos (lround c - 3 + (m : Int)) (show 0 < (n : Int) by omega)
  generalize (lround c - 3 + (m : Int)) % (n : Int) = p at *
  obtain ⟨q, rfl⟩ : ∃ q : Nat, p = q := ⟨p.toNat, by omega⟩
  have := sumN_pick n q (by omega) (fun _ => (1 : C)) (kernel.getD (Spec.steps c (lround c - 3 + (m : Int))) 0)
  rw [show ∀ z : C, 1 * z = z from by intro z; grind] at this
  rw [← this]
  apply sumN_congr
  intro t _
  by_cases h : t = q
  · rw [if_pos h, if_pos (by omega)]; grind
  · rw [if_neg h, if_neg (by omega)]; grind

/-- Only cells at 3 or less from the nearest grid point, around the torus, have a weight. -/
theorem C78_support (n : Nat) (kernel : List C) (c : Rat) (a : Nat)
    (h : ∀ d : Int, -3 ≤ d → d ≤ 3 → (lround c + d) % (n : Int) ≠ a) : Spec.weight n kernel c a = 0 := by
  unfold Spec.weight
  refine Eq.trans (sumN_congr 7 _ (fun _ => 0) ?_) (sumN_zero 7)
  intro m hm
  simp only
  rw [if_neg]
  have := h (-3 + (m : Int)) (by omega) (by omega)
  rwa [show lround c + (-3 + (m : Int)) = lround c - 3 + m from by omega] at this

/-! ### projection -/

/-- The kernel is the phase for the distance from the centre, and zero below the horizon. -/
theorem C78_kernel (ph : Rat → Rat → C) (n : Nat) (res w : Rat) (i j : Nat) (hi : i < n) (hj : j < n) :
    wKernel ph n res w i j = Spec.phase ph n res w i j := by
  have sq : ∀ (k : Int), ((k : Rat) / n / res) * ((k : Rat) / n / res) = ((k * k : Int) : Rat) / ((n : Rat) * res * ((n : Rat) * res)) := by
    intro k
    push_cast
    rw [Rat.div_def, Rat.div_def, Rat.div_def, Rat.inv_mul_rev, Rat.inv_mul_rev]
    grind
  have e1 : ∀ i, i < n → (if i > n / 2 then (i : Int) - n else i) * (if i > n / 2 then (i : Int) - n else i) = ((Spec.off n i * Spec.off n i : Nat) : Int) := by
    intro i hi
    unfold Spec.off
    by_cases h : i > n / 2
    · rw [if_pos h, Nat.min_eq_right (by omega), Int.natCast_mul, show ((n - i : Nat) : Int) = -((i : Int) - n) from by omega, Int.neg_mul_neg]
    · rw [if_neg h, Nat.min_eq_left (by omega), Int.natCast_mul]
  have e2 : ∀ i, i < n → (if i > n / 2 then (n : Int) - i else i) * (if i > n / 2 then (n : Int) - i else i) = ((Spec.off n i * Spec.off n i : Nat) : Int) := by
    intro i hi
    unfold Spec.off
    by_cases h : i > n / 2
    · rw [if_pos h, Nat.min_eq_right (by omega), Int.natCast_mul, show ((n - i : Nat) : Int) = (n : Int) - i from by omega]
    · rw [if_neg h, Nat.min_eq_left (by omega), Int.natCast_mul]
  unfold wKernel Spec.phase
  simp only
  rw [sq, sq, e1 i hi, e2 j hj]
  have : ((((Spec.off n j * Spec.off n j : Nat) : Int) : Rat) / ((n : Rat) * res * ((n : Rat) * res)) +
      (((Spec.off n i * Spec.off n i : Nat) : Int) : Rat) / ((n : Rat) * res * ((n : Rat) * res))) = Spec.radius2 n res i j := by
    unfold Spec.radius2
    rw [Rat.div_def, Rat.div_def, Rat.div_def]
    push_cast
    grind
  rw [this]

/-- The kernel is even and treats rows and columns alike. -/
theorem C78_even (ph : Rat → Rat → C) (n : Nat) (res w : Rat) (i j : Nat) (hi : i < n) (hj : j < n) :
    wKernel ph n res w ((n - i) % n) ((n - j) % n) = wKernel ph n res w i j ∧ wKernel ph n res w j i = wKernel ph n res w i j := by
  let s (i : Nat) : Rat := ((if i > n / 2 then (n : Int) - i else i : Int) : Rat) / n / res
  have hM : ∀ i : Nat, (((if i > n / 2 then (i : Int) - n else i : Int) : Rat) / n / res) * (((if i > n / 2 then (i : Int) - n else i : Int) : Rat) / n / res)
      = s i * s i := by
    intro i
    simp only [s]
    by_cases h : i > n / 2
    · rw [if_pos h, if_pos h]; push_cast; grind
    · rw [if_neg h, if_neg h]
  have hk : ∀ i j, wKernel ph n res w i j = if s j * s j + s i * s i < 1 then ph w (s j * s j + s i * s i) else 0 := by
    intro i j
    unfold wKernel
    simp only
    rw [hM]
  have hs : ∀ i, i < n → s ((n - i) % n) * s ((n - i) % n) = s i * s i := by
    intro i hi
    by_cases h0 : i = 0
    · subst h0; rw [Nat.sub_zero, Nat.mod_self]
    · have e : (n - i) % n = n - i := Nat.mod_eq_of_lt (by omega)
      rw [e]
      simp only [s]
      by_cases h : i > n / 2
      · rw [if_pos h]
        by_cases h' : n - i > n / 2
        · omega
        · rw [if_neg h', show ((n - i : Nat) : Int) = (n : Int) - i from by omega]
      · rw [if_neg h]
        by_cases h' : n - i > n / 2
        · rw [if_pos h', show (n : Int) - ((n - i : Nat) : Int) = i from by omega]
        · have : n - i = i := by omega
          rw [if_neg h', this]
  constructor
  · rw [hk, hk, hs i hi, hs j hj]
  · rw [hk, hk, show s i * s i + s j * s j = s j * s j + s i * s i from by grind]

/-- What the whole function gives.  The arrays are not left; the image of the uv plane is the sum, over the planes, of the
image of the plane times the kernel for the mean of `w`, and that of the beam likewise; `norm` is that of the first call. -/
theorem C78_wprojection_partial (f : Fns C) (hk : f.kernel.length = 225) (static : Option C) (a : Args C) (h : Spec.Fits a)
    (he : Spec.Roots a.n f.e) (ps : List (Nat × Nat)) (hp : computePlanes a.u.length a.wRes (a.w.map f.ss) = .ok ps) :
    ∃ uv bm corr, wProjection f static a = .ok (static.getD (f.r (1 / ((a.n * a.n : Nat) : Rat))), uv, bm, corr) ∧
      uv.length = a.n * a.n ∧ bm.length = a.n * a.n ∧ correction f.co f.r f.kernel a.n = .ok corr ∧
      ∀ i j, i < a.n → j < a.n →
        dft2 f.e (-1) a.n (square a.n uv) i j =
          sumN a.n (fun _ => 1) * sumN a.n (fun _ => 1) * static.getD (f.r (1 / ((a.n * a.n : Nat) : Rat))) *
          Spec.sumL (ps.map fun pl => Spec.phase f.ph a.n a.res (Spec.meanW a.w pl) i j * dft2 f.e (-1) a.n (Spec.grid a f.kernel a.vis pl) i j) ∧
        dft2 f.e (-1) a.n (square a.n bm) i j =
          sumN a.n (fun _ => 1) * sumN a.n (fun _ => 1) * static.getD (f.r (1 / ((a.n * a.n : Nat) : Rat))) *
          Spec.sumL (ps.map fun pl => Spec.phase f.ph a.n a.res (Spec.meanW a.w pl) i j * dft2 f.e (-1) a.n (Spec.grid a f.kernel a.wgt pl) i j) := by
  have hlen : (a.w.map f.ss).length = a.u.length := by rw [List.length_map, h.w]
  have hcov := C78_cover a.wRes (a.w.map f.ss) ps (by rw [hlen]; exact hp)
  rw [hlen] at hcov
  have hpl : ∀ pl ∈ ps, pl.1 ≤ pl.2 ∧ pl.2 ≤ a.u.length := fun pl hpl => by have := hcov.2 pl hpl; omega
  obtain ⟨uv, e1, l1, v1⟩ := gridAll_ok f a h hk (static.getD (f.r (1 / ((a.n * a.n : Nat) : Rat)))) ps hpl a.vis h.vis
  obtain ⟨bm, e2, l2, v2⟩ := gridAll_ok f a h hk (static.getD (f.r (1 / ((a.n * a.n : Nat) : Rat)))) ps hpl a.wgt h.wgt
  obtain ⟨corr, e3⟩ : ∃ corr, correction f.co f.r f.kernel a.n = .ok corr := correction_some f.co f.r f.kernel hk a.n
  refine ⟨uv, bm, corr, ?_, l1, l2, e3, ?_⟩
  · unfold wProjection
    simp only
    rw [if_neg (by rw [h.v, h.w, h.vis, h.wgt]; simp), hp]
    simp only [Except.bind]
    rw [e1]
    simp only
    rw [e2]
    simp only
    rw [e3]
    rfl
  · intro i j hi hj
    have hph : ∀ pl, Spec.phase f.ph a.n a.res (Spec.meanW a.w pl) i j = wKernel f.ph a.n a.res (Spec.meanW a.w pl) i j :=
      fun pl => (C78_kernel _ _ _ _ i j hi hj).symm
    simp only [hph]
    exact ⟨image a.n f.e he _ ps _ _ _ v1 i j hi hj, image a.n f.e he _ ps _ _ _ v2 i j hi hj⟩

/-- Where the phase is one for all planes the planes make no difference: the uv plane is the sum over all visibilities. -/
theorem C78_total (f : Fns C) (hk : f.kernel.length = 225) (a : Args C) (h : Spec.Fits a) (he : Spec.Roots a.n f.e)
    (hr : sumN a.n (fun _ => 1) * sumN a.n (fun _ => 1) * f.r (1 / ((a.n * a.n : Nat) : Rat)) = 1)
    (ps : List (Nat × Nat)) (hp : computePlanes a.u.length a.wRes (a.w.map f.ss) = .ok ps)
    (hone : ∀ pl ∈ ps, ∀ i j, i < a.n → j < a.n → wKernel f.ph a.n a.res (Spec.meanW a.w pl) i j = 1) :
    ∃ uv bm corr, wProjection f none a = .ok (f.r (1 / ((a.n * a.n : Nat) : Rat)), uv, bm, corr) ∧
      ∀ i j, i < a.n → j < a.n →
        square a.n uv i j = sumN a.u.length (fun k => a.vis.getD k 0 * Spec.weight2 a f.kernel k i j) ∧
        square a.n bm i j = sumN a.u.length (fun k => a.wgt.getD k 0 * Spec.weight2 a f.kernel k i j) := by
  have hlen : (a.w.map f.ss).length = a.u.length := by rw [List.length_map, h.w]
  have hcov := C78_cover a.wRes (a.w.map f.ss) ps (by rw [hlen]; exact hp)
  rw [hlen] at hcov
  have hpl : ∀ pl ∈ ps, pl.1 ≤ pl.2 ∧ pl.2 ≤ a.u.length := fun pl hpl => by have := hcov.2 pl hpl; omega
  obtain ⟨uv, bm, corr, hw, -⟩ := C78_wprojection_partial f hk none a h he ps hp
  have hn : (none : Option C).getD (f.r (1 / ((a.n * a.n : Nat) : Rat))) = f.r (1 / ((a.n * a.n : Nat) : Rat)) := rfl
  rw [hn] at hw
  refine ⟨uv, bm, corr, hw, ?_⟩
  have key : ∀ x : List C, x.length = a.u.length → ∀ g, gridAll f a (f.r (1 / ((a.n * a.n : Nat) : Rat))) ps x = .ok g →
      ∀ i j, i < a.n → j < a.n → square a.n g i j = sumN a.u.length (fun k => x.getD k 0 * Spec.weight2 a f.kernel k i j) := by
    intro x hx g hg i j hi hj
    obtain ⟨g', e1, -, v1⟩ := gridAll_ok f a h hk (f.r (1 / ((a.n * a.n : Nat) : Rat))) ps hpl x hx
    have : g' = g := by rw [e1] at hg; exact Except.ok.inj hg
    subst this
    rw [v1 i j hi hj, ← sumL_range, ← hcov.1, sumL_flatten, List.map_map]
    apply congrArg Spec.sumL
    apply List.map_congr_left
    intro pl hpl'
    simp only [Function.comp]
    rw [sumL_range']
    show _ = Spec.grid a f.kernel x pl i j
    unfold project
    have e2 := dft2_congr f.e 1 a.n
      (fun b c => dft2 f.e (-1) a.n (Spec.grid a f.kernel x pl) b c * (wKernel f.ph a.n a.res (Spec.meanW a.w pl) b c * f.r (1 / ((a.n * a.n : Nat) : Rat))))
      (dft2 f.e (-1) a.n (fun b c => f.r (1 / ((a.n * a.n : Nat) : Rat)) * Spec.grid a f.kernel x pl b c)) (by
        intro b c hb hc
        rw [hone pl hpl' b c hb hc]
        unfold dft2
        rw [show ∀ z w : C, z * (1 * w) = w * z from by intro z w; grind, ← sumN_mul]
        apply sumN_congr; intro d _
        rw [← sumN_mul]
        apply sumN_congr; intro e' _
        grind) i j
    rw [e2, inversion' a.n f.e he _ i j hi hj]
    grind
  have hun : wProjection f none a = (gridAll f a (f.r (1 / ((a.n * a.n : Nat) : Rat))) ps a.vis).bind fun uv =>
      (gridAll f a (f.r (1 / ((a.n * a.n : Nat) : Rat))) ps a.wgt).bind fun bm =>
      (correction f.co f.r f.kernel a.n).map fun corr => (f.r (1 / ((a.n * a.n : Nat) : Rat)), uv, bm, corr) := by
    unfold wProjection
    simp only
    rw [if_neg (by rw [h.v, h.w, h.vis, h.wgt]; simp), hp]
    rfl
  obtain ⟨g1, e1, -⟩ := gridAll_ok f a h hk (f.r (1 / ((a.n * a.n : Nat) : Rat))) ps hpl a.vis h.vis
  obtain ⟨g2, e2, -⟩ := gridAll_ok f a h hk (f.r (1 / ((a.n * a.n : Nat) : Rat))) ps hpl a.wgt h.wgt
  obtain ⟨c3, e3⟩ := correction_some f.co f.r f.kernel hk a.n
  rw [hun, e1] at hw
  simp only [Except.bind] at hw
  rw [e2] at hw
  simp only at hw
  rw [e3] at hw
  have hw' := Except.ok.inj hw
  simp only [Prod.mk.injEq] at hw'
  obtain ⟨-, rfl, rfl, rfl⟩ := hw'
  intro i j hi hj
  exact ⟨key a.vis h.vis _ e1 i j hi hj, key a.wgt h.wgt _ e2 i j hi hj⟩

/-- The variable `norm` is static (gridder.cpp:215).  A second call in a process, on a plane of another size, gives an
image that is `n^2 / n0^2` times what it should be. -/
theorem C78_not_static (f : Fns C) (hk : f.kernel.length = 225) (a0 a : Args C) (h : Spec.Fits a) (he : Spec.Roots a.n f.e)
    (hr : sumN a0.n (fun _ => 1) * sumN a0.n (fun _ => 1) * f.r (1 / ((a0.n * a0.n : Nat) : Rat)) = 1)
    (ps : List (Nat × Nat)) (hp : computePlanes a.u.length a.wRes (a.w.map f.ss) = .ok ps)
    (s : C) (out : List C × List C × List C) (h0 : wProjection f none a0 = .ok (s, out)) :
    ∃ uv bm corr, wProjection f (some s) a = .ok (s, uv, bm, corr) ∧ ∀ i j, i < a.n → j < a.n →
      sumN a0.n (fun _ => 1) * sumN a0.n (fun _ => 1) * dft2 f.e (-1) a.n (square a.n uv) i j =
      sumN a.n (fun _ => 1) * sumN a.n (fun _ => 1) *
        Spec.sumL (ps.map fun pl => Spec.phase f.ph a.n a.res (Spec.meanW a.w pl) i j * dft2 f.e (-1) a.n (Spec.grid a f.kernel a.vis pl) i j) := by
  have hs : s = f.r (1 / ((a0.n * a0.n : Nat) : Rat)) := by
    unfold wProjection at h0
    simp only at h0
    split at h0
    · exact absurd h0 (by simp)
    · revert h0
      cases computePlanes a0.u.length a0.wRes (a0.w.map f.ss) with
      | error x => intro h0; exact absurd h0 (by simp [Except.bind])
      | ok ps0 =>
        simp only [Except.bind]
        cases gridAll f a0 ((none : Option C).getD (f.r (1 / ((a0.n * a0.n : Nat) : Rat)))) ps0 a0.vis with
        | error x => intro h0; exact absurd h0 (by simp)
        | ok g1 =>
          simp only
          cases gridAll f a0 ((none : Option C).getD (f.r (1 / ((a0.n * a0.n : Nat) : Rat)))) ps0 a0.wgt with
          | error x => intro h0; exact absurd h0 (by simp)
          | ok g2 =>
            simp only
            cases correction f.co f.r f.kernel a0.n with
            | error x => intro h0; exact absurd h0 (by simp [Except.map])
            | ok c3 =>
              intro h0
              exact (congrArg Prod.fst (Except.ok.inj h0)).symm
  obtain ⟨uv, bm, corr, h1, -, -, -, h2⟩ := C78_wprojection_partial f hk (some s) a h he ps hp
  refine ⟨uv, bm, corr, h1, ?_⟩
  intro i j hi hj
  rw [(h2 i j hi hj).1]
  show _ * (_ * s * _) = _
  rw [hs]
  grind

/-! ### correction -/

/-- The correction is a product of the transform of the kernel for the row and for the column, taken half a pixel from where the
row and the column are. -/
theorem C78_correction (co r : Rat → C) (kernel : List C) (hk : kernel.length = 225) (n : Nat) (hn : 7 ≤ n) :
    ∃ corr, correction co r kernel n = .ok corr ∧ corr.length = n * n ∧ ∀ i j, i < n → j < n → square n corr i j =
      (Spec.kernelTransform co kernel n ((((if i < n / 2 then i else n - i) : Nat) : Rat) + 1 / 2) * r (1 / 64)) *
      (Spec.kernelTransform co kernel n ((((if j < n / 2 then j else n - j) : Nat) : Rat) + 1 / 2) * r (1 / 64)) := by
  refine ⟨_, correction_ok co r kernel hk n, ?_, ?_⟩
  · rw [flat_square_length]
  · intro i j hi hj
    unfold square
    rw [flat_square_get n _ i j hi hj, pickOf_eq co r kernel n hn, pickOf_eq co r kernel n hn]

/-- For odd `n` the pixels on the two sides of the edge, equally far from the centre, are corrected differently. -/
theorem C78_not_odd (co r : Rat → C) (kernel : List C) (hk : kernel.length = 225) (h : Nat) (hn : 3 ≤ h) :
    ∃ corr, correction co r kernel (2 * h + 1) = .ok corr ∧
      square (2 * h + 1) corr h 0 =
        (Spec.kernelTransform co kernel (2 * h + 1) ((h : Rat) + 3 / 2) * r (1 / 64)) * (Spec.kernelTransform co kernel (2 * h + 1) (1 / 2) * r (1 / 64)) ∧
      square (2 * h + 1) corr (h + 1) 0 =
        (Spec.kernelTransform co kernel (2 * h + 1) ((h : Rat) + 1 / 2) * r (1 / 64)) * (Spec.kernelTransform co kernel (2 * h + 1) (1 / 2) * r (1 / 64)) := by
  obtain ⟨corr, h1, -, h2⟩ := C78_correction co r kernel hk (2 * h + 1) (by omega)
  have z : (((if 0 < (2 * h + 1) / 2 then 0 else 2 * h + 1 - 0 : Nat) : Nat) : Rat) + 1 / 2 = 1 / 2 := by
    rw [if_pos (by omega)]; grind
  refine ⟨corr, h1, ?_, ?_⟩
  · rw [h2 h 0 (by omega) (by omega), z, if_neg (by omega), show 2 * h + 1 - h = h + 1 from by omega]
    congr 3
    push_cast; grind
  · rw [h2 (h + 1) 0 (by omega) (by omega), z, if_neg (by omega), show 2 * h + 1 - (h + 1) = h from by omega]

end

/-! ### outside of the hypotheses -/

/-- Two visibilities on a plane of `n` cells. -/
def two (n : Nat) (u v : Rat) : Args Int := ⟨n, 1, 1, [u, 0], [v, 0], [0, 4], [1, 1], [1, 1]⟩

/-- The hypotheses can be met. -/
example : Spec.Fits (two 4 1 (-2)) where
  v := rfl
  w := rfl
  vis := rfl
  wgt := rfl
  size := by decide
  urange := by decide +kernel
  vrange := by decide +kernel

example : (gridPlane (two 4 1 (-2)) (List.replicate 225 1) [1, 1] (0, 1)).toOption.isSome := by decide +kernel
example : computePlanes 2 (1 : Rat) ([0, 4].map id) = .ok [(0, 1), (1, 2)] := by decide +kernel

/-- A plane of two cells, or of three: cells before and after the array are written. -/
theorem C78_not_small : gridPlane (two 2 0 0) (List.replicate 225 1) [1, 1] (0, 1) = .error .ub ∧
    gridPlane (two 3 0 (-14 / 5)) (List.replicate 225 1) [1, 1] (0, 1) = .error .ub := by decide +kernel

/-- A baseline that is longer than twice the plane: the visibility is put in other rows or outside of the array. -/
theorem C78_not_far : ((gridPlane (two 8 16 (-3)) (List.replicate 225 1) [1, 1] (0, 1)).toOption.map fun g => square 8 g 7 0) = some 1 ∧
    Spec.grid (two 8 16 (-3)) (List.replicate 225 1) [1, 1] (0, 1) 7 0 = 0 ∧
    gridPlane (two 8 16 0) (List.replicate 225 1) [1, 1] (0, 1) = .error .ub := by decide +kernel

end Verif.Gridder
