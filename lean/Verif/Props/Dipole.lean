import Verif.Spec.Dipole
import Mathlib.Tactic.Ring
import Mathlib.Tactic.Linarith
import Mathlib.Tactic.FieldSimp
import Mathlib.Tactic.Positivity
import Mathlib.Tactic.NormNum
/-! # C104: Mueller matrices, products of feeds, the fitted dipole and interpolation of beams -/
namespace Verif.Dipole
open Complex ComplexConjugate Spec

/-! ## Mueller matrices -/

/-- The matrix used for the inverse is the inverse. -/
theorem C104_inverse (r c : Nat) (hr : r < 4) (hc : c < 4) : sum4 (fun k => A r k * Ainv k c) = if r = c then 1 else 0 := by
  have h1 : r = 0 ∨ r = 1 ∨ r = 2 ∨ r = 3 := by omega
  have h2 : c = 0 ∨ c = 1 ∨ c = 2 ∨ c = 3 := by omega
  rcases h1 with rfl | rfl | rfl | rfl <;> rcases h2 with rfl | rfl | rfl | rfl <;>
    (apply Complex.ext <;> simp [sum4, A, Ainv] <;> norm_num)

/-- The Mueller matrix takes the Stokes parameters of a field to those of what the dipoles receive. -/
theorem C104_mueller (j : Jones) (x y : ℂ) (r : Nat) (hr : r < 4) :
    sum4 (fun c => mueller j r c * (stokes x y c : ℝ)) = ((stokes (receive j x y).1 (receive j x y).2 r : ℝ) : ℂ) := by
  have h1 : r = 0 ∨ r = 1 ∨ r = 2 ∨ r = 3 := by omega
  obtain ⟨a, b, c, d⟩ := j
  rcases h1 with rfl | rfl | rfl | rfl <;>
    (apply Complex.ext <;> simp [sum4, mueller, A, Ainv, kron, Jones.at, stokes, receive, normSq_apply] <;> ring)

/-- The Mueller matrix is real: nothing is lost by taking real parts. -/
theorem C104_mueller_real (j : Jones) (r c : Nat) (hr : r < 4) (hc : c < 4) : (mueller j r c).im = 0 := by
  have h1 : r = 0 ∨ r = 1 ∨ r = 2 ∨ r = 3 := by omega
  have h2 : c = 0 ∨ c = 1 ∨ c = 2 ∨ c = 3 := by omega
  obtain ⟨x, y, z, w⟩ := j
  rcases h1 with rfl | rfl | rfl | rfl <;> rcases h2 with rfl | rfl | rfl | rfl <;>
    (simp [sum4, mueller, A, Ainv, kron, Jones.at]; ring)

/-! ## Products -/

/-- I, Q and U are twice what unpolarised emission gives by the Mueller matrix. -/
theorem C104_products_partial (j : Jones) :
    response "I" j = some (2 * (mueller j 0 0).re) ∧ response "Q" j = some (2 * (mueller j 1 0).re) ∧ response "U" j = some (2 * (mueller j 2 0).re) := by
  obtain ⟨a, b, c, d⟩ := j
  refine ⟨?_, ?_, ?_⟩ <;>
    (simp [response, feeds, sum4, mueller, A, Ainv, kron, Jones.at, normSq_apply]; ring)

/-- V is always zero. -/
theorem C104_not_V (j : Jones) : response "V" j = some 0 := by
  obtain ⟨a, b, c, d⟩ := j
  simp [response, feeds]
  ring

/-- Dipoles may receive circular polarisation. -/
theorem C104_not_V_nonzero : ∃ j : Jones, (mueller j 3 0).re = 1 := by
  refine ⟨⟨1, 0, I, 0⟩, ?_⟩
  simp [sum4, mueller, A, Ainv, kron, Jones.at]
  norm_num

/-- XY and YX are conjugate, XX and YY are real and not negative, and U and Q are no more than I. -/
theorem C104_products (j : Jones) :
    (∃ p, feeds "XY" j = some p ∧ feeds "YX" j = some (conj p)) ∧
    (∃ a b q u, response "XX" j = some a ∧ response "YY" j = some b ∧ 0 ≤ a ∧ 0 ≤ b ∧ response "I" j = some (a + b) ∧ response "Q" j = some q ∧
      response "U" j = some u ∧ q = a - b ∧ q ^ 2 + u ^ 2 ≤ (a + b) ^ 2) := by
  constructor
  · exact ⟨j.xe * conj j.ye + j.xh * conj j.yh, by simp [feeds], by simp [feeds, mul_comm]⟩
  · refine ⟨normSq j.xe + normSq j.xh, normSq j.ye + normSq j.yh, normSq j.xe + normSq j.xh - (normSq j.ye + normSq j.yh),
      2 * (j.xe * conj j.ye + j.xh * conj j.yh).re, ?_, ?_, add_nonneg (normSq_nonneg _) (normSq_nonneg _),
      add_nonneg (normSq_nonneg _) (normSq_nonneg _), ?_, ?_, ?_, rfl, ?_⟩
    · simp [response, feeds]
    · simp [response, feeds]
    · simp [response, feeds]
    · simp [response, feeds]
    · simp [response, feeds]; ring
    · simp only [normSq_apply, add_re, mul_re, conj_re, conj_im]
      generalize j.xe.re = a1; generalize j.xe.im = a2; generalize j.xh.re = b1; generalize j.xh.im = b2
      generalize j.ye.re = c1; generalize j.ye.im = c2; generalize j.yh.re = d1; generalize j.yh.im = d2
      nlinarith [sq_nonneg (a1 * c2 - a2 * c1), sq_nonneg (a1 * d1 - b1 * c1), sq_nonneg (a1 * d2 - b2 * c1), sq_nonneg (a2 * d1 - b1 * c2),
        sq_nonneg (a2 * d2 - b2 * c2), sq_nonneg (b1 * d2 - b2 * d1)]

/-- Other products are an error. -/
theorem C104_products_unknown (pol : String) (j : Jones) (h : pol ∉ ["XX", "YY", "XY", "YX", "I", "Q", "U", "V"]) : response pol j = none := by
  simp only [List.mem_cons, List.not_mem_nil, or_false, not_or] at h
  simp [response, feeds, h]

/-! ## The fitted dipole -/

/-- The response is 1 at the zenith, for all azimuths. -/
theorem C104_zenith (e h : Plane) (az : ℝ) (he : e.alpha ≠ 0) (hh : h.alpha ≠ 0) : pattern e h (fun _ => 1) az 90 = 1 := by
  have z : Real.pi / 2 - 90 * Real.pi / 180 = 0 := by ring
  have p (q : Plane) (hq : q.alpha ≠ 0) : plane q 0 = 1 := by simp [plane, Real.zero_rpow hq]
  simp only [pattern, z, p e he, p h hh, one_mul]
  rw [Real.cos_sq_add_sin_sq, Real.sqrt_one]

/-- And 0 at the horizon. -/
theorem C104_horizon (e h : Plane) (corr : ℝ → ℝ) (az : ℝ) (he : e.delta ≠ 0) (hh : h.delta ≠ 0) : pattern e h corr az 0 = 0 := by
  have z : Real.pi / 2 - 0 * Real.pi / 180 = Real.pi / 2 := by ring
  have p (q : Plane) (hq : q.delta ≠ 0) : plane q (Real.pi / 2) = 0 := by
    have : 2 * (Real.pi / 2) / Real.pi = 1 := by field_simp
    simp [plane, this, Real.zero_rpow hq]
  rw [pattern, z, p e he, p h hh]
  simp

/-- A dipole looks the same from both of its ends and from both of its sides. -/
theorem C104_symmetric (e h : Plane) (corr : ℝ → ℝ) (az alt : ℝ) :
    pattern e h corr (az + 180) alt = pattern e h corr az alt ∧ pattern e h corr (-az) alt = pattern e h corr az alt := by
  have z : (az + 180) * Real.pi / 180 = az * Real.pi / 180 + Real.pi := by ring
  have w : -az * Real.pi / 180 = -(az * Real.pi / 180) := by ring
  constructor
  · simp only [pattern, z, Real.cos_add_pi, Real.sin_add_pi, mul_neg, neg_sq]
  · simp only [pattern, w, Real.cos_neg, Real.sin_neg, mul_neg, neg_sq]

/-- XX and YY are the pattern. -/
theorem C104_fitted (xe xh ye yh : Plane) (corr : ℝ → ℝ) (az alt : ℝ) (hx : 0 ≤ pattern xe xh corr az alt) (hy : 0 ≤ pattern ye yh corr az alt) :
    response "XX" (fittedJones xe xh ye yh corr az alt) = some (pattern xe xh corr az alt) ∧
    response "YY" (fittedJones xe xh ye yh corr az alt) = some (pattern ye yh corr az alt) := by
  constructor
  · simp [response, feeds, fittedJones, fitted, Real.mul_self_sqrt hx]
  · simp [response, feeds, fittedJones, fitted, Real.mul_self_sqrt hy]

/-- But the model makes unpolarised emission at the zenith fully polarised. -/
theorem C104_not_unpolarised (xe xh ye yh : Plane) (az : ℝ) (h1 : xe.alpha ≠ 0) (h2 : xh.alpha ≠ 0) (h3 : ye.alpha ≠ 0) (h4 : yh.alpha ≠ 0) :
    response "U" (fittedJones xe xh ye yh (fun _ => 1) az 90) = response "I" (fittedJones xe xh ye yh (fun _ => 1) az 90) ∧
    response "I" (fittedJones xe xh ye yh (fun _ => 1) az 90) = some 2 := by
  have fx : fitted xe xh (fun _ => 1) az 90 * fitted xe xh (fun _ => 1) az 90 = 1 / 2 := by
    rw [fitted, C104_zenith _ _ _ h1 h2, Real.mul_self_sqrt (by norm_num)]
  have e : fitted ye yh (fun _ => 1) az 90 = fitted xe xh (fun _ => 1) az 90 := by
    rw [fitted, fitted, C104_zenith _ _ _ h1 h2, C104_zenith _ _ _ h3 h4]
  constructor
  · simp [response, feeds, fittedJones, e]
  · simp [response, feeds, fittedJones, e, fx]
    norm_num

/-! ## Normalisation -/

/-- The fields are divided by the one with the greatest real part, not by the strongest: they need not be at most 1. -/
theorem C104_not_normalised : normalised [1, 5 * I] [0] = some ([1, 5 * I], [0]) := by
  have e : cmax [1, 5 * I, 0] = some 1 := by norm_num [cmax, lexLt]
  simp [normalised, e]

/-- What they are divided by is one of them, and has the greatest real part. -/
theorem C104_cmax (l : List ℂ) (m : ℂ) (h : cmax l = some m) : m ∈ l ∧ ∀ x ∈ l, x.re ≤ m.re := by
  have key (l : List ℂ) (a : ℂ) : (l.foldl (fun m x => if lexLt m x then x else m) a ∈ a :: l) ∧
      ∀ x ∈ a :: l, x.re ≤ (l.foldl (fun m x => if lexLt m x then x else m) a).re := by
    induction l generalizing a with
    | nil => simp
    | cons b l ih =>
      simp only [List.foldl_cons]
      by_cases hb : lexLt a b
      · simp only [if_pos hb]
        obtain ⟨h1, h2⟩ := ih b
        refine ⟨List.mem_cons_of_mem _ h1, ?_⟩
        intro x hx
        rcases List.mem_cons.1 hx with rfl | hx
        · have : x.re ≤ b.re := by rcases hb with hb | hb <;> [exact hb.le; exact hb.1.le]
          exact this.trans (h2 b (List.mem_cons_self ..))
        · exact h2 x hx
      · simp only [if_neg hb]
        obtain ⟨h1, h2⟩ := ih a
        refine ⟨?_, ?_⟩
        · rcases List.mem_cons.1 h1 with h1 | h1
          · rw [h1]; exact List.mem_cons_self ..
          · exact List.mem_cons_of_mem _ (List.mem_cons_of_mem _ h1)
        · intro x hx
          rcases List.mem_cons.1 hx with rfl | hx
          · exact h2 x (List.mem_cons_self ..)
          · rcases List.mem_cons.1 hx with rfl | hx
            · have : x.re ≤ a.re := by
                by_contra hc
                exact hb (Or.inl (not_le.1 hc))
              exact this.trans (h2 a (List.mem_cons_self ..))
            · exact h2 x (List.mem_cons_of_mem _ hx)
  match l, h with
  | a :: l, h =>
    simp only [cmax, Option.some.injEq] at h
    rw [← h]
    exact key l a

/-! ## Interpolation -/

theorem lin_neg (xs : List ℝ) (f : Nat → Option ℝ) (x : ℝ) : lin (xs.map (fun t => -t)) f (-x) = lin xs f x := by
  induction xs generalizing f with
  | nil => rfl
  | cons a l ih =>
    match l with
    | [] => rfl
    | b :: l =>
      have ih := ih (fun i => f (i + 1))
      simp only [List.map_cons] at ih ⊢
      unfold lin
      have c : ((-a ≤ -x ∧ -x ≤ -b) ∨ (-b ≤ -x ∧ -x ≤ -a)) ↔ ((a ≤ x ∧ x ≤ b) ∨ (b ≤ x ∧ x ≤ a)) := by
        constructor <;> rintro (h | h) <;> [right; left; right; left] <;> constructor <;> linarith [h.1, h.2]
      by_cases hc : (a ≤ x ∧ x ≤ b) ∨ (b ≤ x ∧ x ≤ a)
      · rw [if_pos hc, if_pos (c.2 hc)]
        have : (-x - -a) / (-b - -a) = (x - a) / (b - a) := by
          rw [show -x - -a = -(x - a) by ring, show -b - -a = -(b - a) by ring, neg_div_neg_eq]
        rw [this]
      · rw [if_neg hc, if_neg (fun h => hc (c.1 h)), ih]

theorem lin_at_up (xs : List ℝ) (f : Nat → Option ℝ) (hs : xs.Pairwise (· < ·)) (h2 : 2 ≤ xs.length) (i : Nat) (hi : i < xs.length)
    (hf : ∀ k < xs.length, (f k).isSome) : lin xs f xs[i] = f i := by
  induction xs generalizing f i with
  | nil => simp at hi
  | cons a l ih =>
    match l with
    | [] => simp at h2
    | b :: l =>
      have hab : a < b := (List.pairwise_cons.1 hs).1 b (List.mem_cons_self ..)
      have f0 := hf 0 (by simp)
      have f1 := hf 1 (by simp)
      obtain ⟨p, hp⟩ := Option.isSome_iff_exists.1 f0
      obtain ⟨q, hq⟩ := Option.isSome_iff_exists.1 f1
      unfold lin
      match i with
      | 0 =>
        rw [if_pos (Or.inl ⟨le_rfl, hab.le⟩), hp, hq]
        simp
      | 1 =>
        rw [if_pos (Or.inl ⟨hab.le, le_rfl⟩), hp, hq]
        have : b - a ≠ 0 := by linarith
        simp [div_self this]
      | i + 2 =>
        have hi' : i + 1 < (b :: l).length := by simp only [List.length_cons] at hi ⊢; omega
        have hl : i < l.length := by simp only [List.length_cons] at hi; omega
        have hb : b < l[i] := (List.pairwise_cons.1 (List.pairwise_cons.1 hs).2).1 _ (List.getElem_mem hl)
        have e : (a :: b :: l)[i + 2] = l[i] := rfl
        rw [e, if_neg (by rintro (h | h) <;> linarith [h.1, h.2])]
        have := ih (fun k => f (k + 1)) (List.pairwise_cons.1 hs).2 (by simp; omega) (i + 1) hi' (fun k hk => hf (k + 1) (by simpa using hk))
        exact this

/-- At the points of the grid the interpolation gives the value there, for axes that go up or down. -/
theorem C104_grid (xs : List ℝ) (f : Nat → Option ℝ) (hs : xs.Pairwise (· < ·) ∨ xs.Pairwise (· > ·)) (h2 : 2 ≤ xs.length) (i : Nat) (hi : i < xs.length)
    (hf : ∀ k < xs.length, (f k).isSome) : lin xs f xs[i] = f i := by
  rcases hs with hs | hs
  · exact lin_at_up xs f hs h2 i hi hf
  · rw [← lin_neg]
    have := lin_at_up (xs.map (fun t => -t)) f (by rw [List.pairwise_map]; exact hs.imp (fun h => neg_lt_neg h)) (by simpa using h2) i (by simpa using hi)
      (by simpa using hf)
    simpa using this

/-- Between values, and so a response that is not negative on the grid is not negative anywhere. -/
theorem C104_between (xs : List ℝ) (f : Nat → Option ℝ) (lo hi x v : ℝ) (hs : xs.Pairwise (· ≠ ·)) (hf : ∀ k p, f k = some p → lo ≤ p ∧ p ≤ hi) (h : lin xs f x = some v) :
    lo ≤ v ∧ v ≤ hi := by
  induction xs generalizing f with
  | nil => cases h
  | cons a l ih =>
    match l with
    | [] => cases h
    | b :: l =>
      unfold lin at h
      split at h
      · rename_i hc
        have hab : a ≠ b := (List.pairwise_cons.1 hs).1 b (List.mem_cons_self ..)
        rw [Option.bind_eq_some_iff] at h
        obtain ⟨p, hp, h⟩ := h
        rw [Option.map_eq_some_iff] at h
        obtain ⟨q, hq, h⟩ := h
        have hp := hf 0 p hp
        have hq := hf 1 q hq
        have t : 0 ≤ (x - a) / (b - a) ∧ (x - a) / (b - a) ≤ 1 := by
          rcases hc with hc | hc
          · have : 0 < b - a := by
              rcases lt_or_gt_of_ne hab with h | h
              · linarith
              · linarith [hc.1, hc.2]
            exact ⟨div_nonneg (by linarith [hc.1]) this.le, (div_le_one this).2 (by linarith [hc.2])⟩
          · have : 0 < a - b := by
              rcases lt_or_gt_of_ne hab with h | h
              · linarith [hc.1, hc.2]
              · linarith
            rw [show (x - a) / (b - a) = (a - x) / (a - b) by rw [← neg_div_neg_eq]; ring_nf]
            exact ⟨div_nonneg (by linarith [hc.2]) this.le, (div_le_one this).2 (by linarith [hc.1])⟩
        generalize (x - a) / (b - a) = t at *
        rw [← h]
        constructor <;> nlinarith [t.1, t.2, hp.1, hp.2, hq.1, hq.2]
      · exact ih _ (List.pairwise_cons.1 hs).2 (fun k p hk => hf (k + 1) p hk) h

/-- Outside of the grid there is no value. -/
theorem C104_outside (xs : List ℝ) (f : Nat → Option ℝ) (x : ℝ) (h : (∀ a ∈ xs, x < a) ∨ (∀ a ∈ xs, a < x)) : lin xs f x = none := by
  induction xs generalizing f with
  | nil => rfl
  | cons a l ih =>
    match l with
    | [] => rfl
    | b :: l =>
      unfold lin
      rw [if_neg]
      · apply ih
        rcases h with h | h
        · exact Or.inl fun y hy => h y (List.mem_cons_of_mem _ hy)
        · exact Or.inr fun y hy => h y (List.mem_cons_of_mem _ hy)
      · rcases h with h | h
        · have := h a (List.mem_cons_self ..)
          have := h b (List.mem_cons_of_mem _ (List.mem_cons_self ..))
          rintro (k | k) <;> linarith [k.1, k.2]
        · have := h a (List.mem_cons_self ..)
          have := h b (List.mem_cons_of_mem _ (List.mem_cons_self ..))
          rintro (k | k) <;> linarith [k.1, k.2]

/-- The whole interpolation at a point of the grid. -/
theorem C104_interpolate (freqs alts azs : List ℝ) (p : Nat → Nat → Nat → ℝ) (hf : freqs.Pairwise (· < ·)) (ha : alts.Pairwise (· < ·) ∨ alts.Pairwise (· > ·))
    (hz : azs.Pairwise (· < ·)) (h1 : 2 ≤ alts.length) (h2 : 2 ≤ azs.length) (i j k : Nat) (hi : i < freqs.length) (hj : j < alts.length) (hk : k < azs.length) :
    interpolate freqs alts azs (fun i j k => some (p i j k)) freqs[i] alts[j] azs[k] = some (p i j k) := by
  have g (i : Nat) : lin alts (fun j => lin azs (fun k => some (p i j k)) azs[k]) alts[j] = some (p i j k) := by
    have e : (fun j => lin azs (fun k => some (p i j k)) azs[k]) = fun j => some (p i j k) := by
      funext j
      exact C104_grid azs _ (Or.inl hz) h2 k hk (by simp)
    rw [e]
    exact C104_grid alts _ ha h1 j hj (by simp)
  unfold interpolate
  split
  · rename_i h
    simp only [g]
    exact C104_grid freqs _ (Or.inl hf) h i hi (by simp)
  · rename_i h
    have : i = 0 := by omega
    subst this
    exact g 0

/-- The values at 0 and at 360 degrees are the same, and so there is no step in the north. -/
theorem C104_closed (azs : List ℝ) (v : ℂ) (row : List ℂ) (hl : azs.length = (v :: row).length) (h : ∀ a ∈ azs, a < 360) :
    (closeAz azs (v :: row)).1.getLast? = some 360 ∧ (closeAz azs (v :: row)).2.getLast? = some v ∧ (closeAz azs (v :: row)).2.head? = some v ∧
    (closeAz azs (v :: row)).1.length = (closeAz azs (v :: row)).2.length := by
  have c : azs.all (· < 360) = true := by simpa using h
  simp only [closeAz, c, if_true]
  refine ⟨by simp, by rw [List.take_succ_cons, List.take_zero, List.getLast?_append]; rfl, by simp, by simp [hl]⟩

/-- Azimuths beyond have no value: there is no response for an azimuth of -10 degrees. -/
theorem C104_not_negative (alts azs : List ℝ) (p : Nat → Nat → Nat → Option ℝ) (f alt az : ℝ) (h : ∀ a ∈ azs, az < a) : interpolate [f] alts azs p f alt az = none := by
  have e : (fun j => lin azs (fun k => p 0 j k) az) = fun _ => none := by
    funext j
    exact C104_outside azs _ az (Or.inl h)
  simp only [interpolate, List.length_singleton, lt_self_iff_false, if_false, e]
  clear e h
  have key (alts : List ℝ) (x : ℝ) : lin alts (fun _ => none) x = none := by
    induction alts with
    | nil => rfl
    | cons a l ih =>
      match l, ih with
      | [], _ => rfl
      | b :: l, ih => unfold lin; split <;> [rfl; exact ih]
  exact key alts alt

/-- Half way between two points. -/
example : lin [90, 0] (fun i => if i = 0 then some 1 else some 0) 45 = some (1 / 2) := by
  norm_num [lin]

/-! ## Angles -/

/-- Numbers, and angles of astropy, are taken as the degrees they are; angles of ephem too if radians are asked for. -/
theorem C104_angles_partial (degrees : Bool) (az alt : Angle) (h : alt.isEphem = true → degrees = false) :
    (azOf degrees az).value = degreesOf degrees az ∧ (altOf degrees az alt).value = degreesOf degrees alt := by
  constructor
  · cases az <;> cases degrees <;> simp [azOf, Angle.isEphem, Angle.value, degreesOf]
  · cases az <;> cases alt <;> cases degrees <;> simp_all [azOf, altOf, Angle.isEphem, Angle.value, degreesOf]

/-- An altitude of ephem is taken as so many degrees as it has radians. -/
theorem C104_not_ephem (az : Angle) (r : ℝ) : (altOf true az (.ephem r)).value = r := by
  cases az <;> simp [altOf, azOf, Angle.isEphem, Angle.value]

end Verif.Dipole
