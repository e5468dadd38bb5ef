import Verif.Model.Deconv
import Verif.Props.Scatter
/-!
# C91: deconvolution
-/
namespace Verif.Deconv
open Finset

/-! ## Interpolation -/

theorem trunc_nonneg (x : ℝ) (h : 0 ≤ x) : trunc x = ⌊x⌋ := by rw [trunc, if_pos h]

theorem trunc_nat (x : ℝ) (h : 0 ≤ x) : (trunc x).toNat = ⌊x⌋₊ := by rw [trunc_nonneg x h]; rfl

theorem trunc_int (k : ℤ) : trunc (k : ℝ) = k := by unfold trunc; split_ifs <;> simp

theorem floor_succ_lt (n : ℕ) (x : ℝ) (h : 0 ≤ x) : ⌊x⌋₊ + 1 < n ↔ x < (n : ℝ) - 1 := by
  rcases n with _ | n
  · simp only [Nat.not_lt_zero, false_iff, not_lt]; push_cast; linarith
  · rw [Nat.add_lt_add_iff_right, Nat.floor_lt h]; push_cast; simp

/-- The value between four pixels. -/
theorem interpolate_eq (n : ℕ) (data : Img) (x y : ℝ) (hx : 0 ≤ x) (hy : 0 ≤ y) (hx' : x < (n : ℝ) - 1) (hy' : y < (n : ℝ) - 1) :
    interpolate n data x y = some (data ⌊x⌋₊ ⌊y⌋₊ * (⌊x⌋₊ + 1 - x) * (⌊y⌋₊ + 1 - y) + data (⌊x⌋₊ + 1) ⌊y⌋₊ * (x - ⌊x⌋₊) * (⌊y⌋₊ + 1 - y) +
        data ⌊x⌋₊ (⌊y⌋₊ + 1) * (⌊x⌋₊ + 1 - x) * (y - ⌊y⌋₊) + data (⌊x⌋₊ + 1) (⌊y⌋₊ + 1) * (x - ⌊x⌋₊) * (y - ⌊y⌋₊)) := by
  unfold interpolate
  rw [if_neg (by rw [not_or, not_lt, not_lt]; exact ⟨hx, hy⟩)]
  simp only [trunc_nat x hx, trunc_nat y hy]
  rw [if_pos ⟨(floor_succ_lt n x hx).2 hx', (floor_succ_lt n y hy).2 hy'⟩]

/-- There is a value in the image, without its last row and column. -/
theorem C91_inside (n : ℕ) (data : Img) (x y : ℝ) :
    (interpolate n data x y).isSome = true ↔ 0 ≤ x ∧ 0 ≤ y ∧ x < (n : ℝ) - 1 ∧ y < (n : ℝ) - 1 := by
  constructor
  · intro h
    unfold interpolate at h
    split_ifs at h with h1
    · simp at h
    · simp only at h
      split_ifs at h with h2
      · rw [not_or, not_lt, not_lt] at h1
        rw [trunc_nat x h1.1, trunc_nat y h1.2] at h2
        exact ⟨h1.1, h1.2, (floor_succ_lt n x h1.1).1 h2.1, (floor_succ_lt n y h1.2).1 h2.2⟩
      · simp at h
  · rintro ⟨h1, h2, h3, h4⟩
    rw [interpolate_eq n data x y h1 h2 h3 h4]; rfl

/-- Data that are linear along rows and columns are met exactly. -/
theorem C91_exact (n : ℕ) (data : Img) (a b c d : ℝ) (hd : ∀ i < n, ∀ j < n, data i j = a + b * i + c * j + d * i * j) (x y : ℝ)
    (hx : 0 ≤ x) (hy : 0 ≤ y) (hx' : x < (n : ℝ) - 1) (hy' : y < (n : ℝ) - 1) :
    interpolate n data x y = some (a + b * x + c * y + d * x * y) := by
  have h1 := (floor_succ_lt n x hx).2 hx'
  have h2 := (floor_succ_lt n y hy).2 hy'
  rw [interpolate_eq n data x y hx hy hx' hy', hd _ (by omega) _ (by omega), hd _ (by omega) _ (by omega), hd _ (by omega) _ (by omega),
    hd _ (by omega) _ (by omega)]
  congr 1
  push_cast
  ring

/-- At a pixel it is the value of the pixel. -/
theorem C91_pixel (n : ℕ) (data : Img) (i j : ℕ) (hi : i + 1 < n) (hj : j + 1 < n) : interpolate n data i j = some (data i j) := by
  have e : ∀ k : ℕ, k + 1 < n → (k : ℝ) < (n : ℝ) - 1 := by
    intro k hk
    have : ((k + 1 : ℕ) : ℝ) < n := by exact_mod_cast hk
    push_cast at this; linarith
  rw [interpolate_eq n data i j (Nat.cast_nonneg _) (Nat.cast_nonneg _) (e i hi) (e j hj)]
  simp

/-- It is never outside of the range of the data. -/
theorem C91_between (n : ℕ) (data : Img) (lo hi : ℝ) (hd : ∀ i < n, ∀ j < n, lo ≤ data i j ∧ data i j ≤ hi) (x y v : ℝ)
    (h : interpolate n data x y = some v) : lo ≤ v ∧ v ≤ hi := by
  obtain ⟨hx, hy, hx', hy'⟩ := (C91_inside n data x y).1 (by rw [h]; rfl)
  have h1 := (floor_succ_lt n x hx).2 hx'
  have h2 := (floor_succ_lt n y hy).2 hy'
  rw [interpolate_eq n data x y hx hy hx' hy'] at h
  have f1 := Nat.floor_le hx
  have f2 := Nat.lt_floor_add_one x
  have f3 := Nat.floor_le hy
  have f4 := Nat.lt_floor_add_one y
  have d1 := hd ⌊x⌋₊ (by omega) ⌊y⌋₊ (by omega)
  have d2 := hd (⌊x⌋₊ + 1) (by omega) ⌊y⌋₊ (by omega)
  have d3 := hd ⌊x⌋₊ (by omega) (⌊y⌋₊ + 1) (by omega)
  have d4 := hd (⌊x⌋₊ + 1) (by omega) (⌊y⌋₊ + 1) (by omega)
  have hv := Option.some.inj h
  generalize data ⌊x⌋₊ ⌊y⌋₊ = a at *
  generalize data (⌊x⌋₊ + 1) ⌊y⌋₊ = b at *
  generalize data ⌊x⌋₊ (⌊y⌋₊ + 1) = c at *
  generalize data (⌊x⌋₊ + 1) (⌊y⌋₊ + 1) = d at *
  obtain ⟨s, hs⟩ : ∃ s, s = x - ⌊x⌋₊ := ⟨_, rfl⟩
  obtain ⟨t, ht⟩ : ∃ t, t = y - ⌊y⌋₊ := ⟨_, rfl⟩
  have hs0 : 0 ≤ s := by linarith
  have hs1 : 0 ≤ 1 - s := by linarith
  have ht0 : 0 ≤ t := by linarith
  have ht1 : 0 ≤ 1 - t := by linarith
  have hv' : v = a * ((1 - s) * (1 - t)) + b * (s * (1 - t)) + c * ((1 - s) * t) + d * (s * t) := by
    rw [← hv, hs, ht]; ring
  have w1 := mul_nonneg hs1 ht1
  have w2 := mul_nonneg hs0 ht1
  have w3 := mul_nonneg hs1 ht0
  have w4 := mul_nonneg hs0 ht0
  have ws : (1 - s) * (1 - t) + s * (1 - t) + (1 - s) * t + s * t = 1 := by ring
  constructor
  · have := add_nonneg (add_nonneg (mul_nonneg (sub_nonneg.2 d1.1) w1) (mul_nonneg (sub_nonneg.2 d2.1) w2))
      (add_nonneg (mul_nonneg (sub_nonneg.2 d3.1) w3) (mul_nonneg (sub_nonneg.2 d4.1) w4))
    have e : v - lo * ((1 - s) * (1 - t) + s * (1 - t) + (1 - s) * t + s * t) = (a - lo) * ((1 - s) * (1 - t)) + (b - lo) * (s * (1 - t)) +
      ((c - lo) * ((1 - s) * t) + (d - lo) * (s * t)) := by rw [hv']; ring
    rw [ws] at e; linarith
  · have := add_nonneg (add_nonneg (mul_nonneg (sub_nonneg.2 d1.2) w1) (mul_nonneg (sub_nonneg.2 d2.2) w2))
      (add_nonneg (mul_nonneg (sub_nonneg.2 d3.2) w3) (mul_nonneg (sub_nonneg.2 d4.2) w4))
    have e : hi * ((1 - s) * (1 - t) + s * (1 - t) + (1 - s) * t + s * t) - v = (hi - a) * ((1 - s) * (1 - t)) + (hi - b) * (s * (1 - t)) +
      ((hi - c) * ((1 - s) * t) + (hi - d) * (s * t)) := by rw [hv']; ring
    rw [ws] at e; linarith

/-- Right ascensions on both sides of zero, as near as one likes, give the opposite side of the sky. -/
theorem C91_not_angle (ε : ℝ) :
    interpolate 2 (fun i _ => if i = 0 then 2 * Real.pi - ε else ε) (1 / 2) 0 = some Real.pi := by
  have e : ⌊(1 / 2 : ℝ)⌋₊ = 0 := by rw [Nat.floor_eq_zero]; norm_num
  rw [interpolate_eq 2 _ (1 / 2) 0 (by norm_num) (le_refl _) (by norm_num) (by norm_num), e]
  simp
  ring

/-! ## The peak -/

/-- The peak is in the box and no value of the box is larger. -/
theorem C91_peak (B : Box) (w : Img) (p : ℕ × ℕ) (h : peak B w = some p) :
    B.r0 ≤ p.1 ∧ p.1 < B.r1 ∧ B.c0 ≤ p.2 ∧ p.2 < B.c1 ∧
      ∀ i j, B.r0 ≤ i → i < B.r1 → B.c0 ≤ j → j < B.c1 → w i j ≤ w p.1 p.2 := by
  unfold peak at h
  split_ifs at h with hb
  have hwd : 0 < B.c1 - B.c0 := by omega
  have hN : 0 < (B.r1 - B.r0) * (B.c1 - B.c0) := Nat.mul_pos (by omega) hwd
  have hlt := Scatter.peak_lt (fun k => w (B.r0 + k / (B.c1 - B.c0)) (B.c0 + k % (B.c1 - B.c0))) _ hN
  have hp := Option.some.inj h
  have hd : Scatter.peak (fun k => w (B.r0 + k / (B.c1 - B.c0)) (B.c0 + k % (B.c1 - B.c0))) ((B.r1 - B.r0) * (B.c1 - B.c0)) / (B.c1 - B.c0) <
    B.r1 - B.r0 := Nat.div_lt_of_lt_mul (lt_of_lt_of_eq hlt (Nat.mul_comm _ _))
  have hm := Nat.mod_lt (Scatter.peak (fun k => w (B.r0 + k / (B.c1 - B.c0)) (B.c0 + k % (B.c1 - B.c0)))
    ((B.r1 - B.r0) * (B.c1 - B.c0))) hwd
  rw [← hp]
  refine ⟨by simp, by simp only; omega, by simp, by simp only; omega, ?_⟩
  intro i j h1 h2 h3 h4
  have hk : (i - B.r0) * (B.c1 - B.c0) + (j - B.c0) < (B.r1 - B.r0) * (B.c1 - B.c0) := by
    have : (i - B.r0 + 1) * (B.c1 - B.c0) ≤ (B.r1 - B.r0) * (B.c1 - B.c0) := Nat.mul_le_mul_right _ (by omega)
    rw [Nat.add_mul, Nat.one_mul] at this
    omega
  have := (Scatter.C89_peak (fun k => w (B.r0 + k / (B.c1 - B.c0)) (B.c0 + k % (B.c1 - B.c0))) _ _ hk).1
  have e1 : ((i - B.r0) * (B.c1 - B.c0) + (j - B.c0)) / (B.c1 - B.c0) = i - B.r0 := by
    rw [Nat.mul_comm, Nat.mul_add_div hwd, Nat.div_eq_of_lt (by omega), Nat.add_zero]
  have e2 : ((i - B.r0) * (B.c1 - B.c0) + (j - B.c0)) % (B.c1 - B.c0) = j - B.c0 := by
    rw [Nat.mul_comm, Nat.mul_add_mod, Nat.mod_eq_of_lt (by omega)]
  rw [e1, e2, show B.r0 + (i - B.r0) = i by omega, show B.c0 + (j - B.c0) = j by omega] at this
  exact this

theorem peak_isSome (B : Box) (w : Img) (h1 : B.r0 < B.r1) (h2 : B.c0 < B.c1) : ∃ p, peak B w = some p := by
  unfold peak; rw [if_pos ⟨h1, h2⟩]; exact ⟨_, rfl⟩

/-! ## Components -/

/-- The product of two images. -/
noncomputable def inner (n : ℕ) (F a : Img) : ℝ := ∑ i ∈ range n, ∑ j ∈ range n, F i j * a i j

theorem inner_update (n : ℕ) (F a : Img) (i j : ℕ) (hi : i < n) (hj : j < n) (v : ℝ) :
    inner n F (Function.update a i (Function.update (a i) j (a i j + v))) = inner n F a + F i j * v := by
  have e : ∀ k l, F k l * Function.update a i (Function.update (a i) j (a i j + v)) k l =
      F k l * a k l + if k = i then (if l = j then F i j * v else 0) else 0 := by
    intro k l
    by_cases hk : k = i
    · subst hk
      by_cases hl : l = j
      · subst hl; simp; ring
      · simp [hl]
    · simp [hk]
  unfold inner
  simp only [e, sum_add_distrib]
  congr 1
  rw [sum_eq_single i]
  · simp only [if_true]
    rw [sum_ite_eq' (range n) j, if_pos (mem_range.2 hj)]
  · intro k _ hk; simp [hk]
  · intro hk; exact absurd (mem_range.2 hi) hk

theorem index_nat (n : ℕ) (i : ℕ) (h : i < n) : index n (i : ℤ) = some i := by
  unfold index; rw [if_pos ⟨by omega, by omega⟩]; rfl

theorem inner_addAt (n : ℕ) (F a : Img) (i j : ℕ) (hi : i < n) (hj : j < n) (v : ℝ) :
    ∃ a', addAt n a i j v = some a' ∧ inner n F a' = inner n F a + F i j * v ∧
      a' = Function.update a i (Function.update (a i) j (a i j + v)) := by
  unfold addAt
  rw [index_nat n i hi, index_nat n j hj]
  exact ⟨_, rfl, inner_update n F a i j hi hj v, rfl⟩

theorem side_floor (x : ℝ) (h : 0 ≤ x) : side x (⌊x⌋₊ : ℤ) = ⌊x⌋₊ + 1 - x ∧ side x ((⌊x⌋₊ : ℤ) + 1) = x - ⌊x⌋₊ := by
  have f1 := Nat.floor_le h
  have f2 := Nat.lt_floor_add_one x
  unfold side
  push_cast
  rw [if_neg (by linarith), if_pos (by linarith)]
  constructor <;> ring

/-- A component is shared by the pixels in the way in which values between pixels are found: the two are adjoint. -/
theorem C91_deposit_partial (n : ℕ) (a : Img) (x y v : ℝ) (hx : 0 ≤ x) (hy : 0 ≤ y) (hx' : x < (n : ℝ) - 1) (hy' : y < (n : ℝ) - 1) :
    ∃ a', deposit n a x y v = some a' ∧ (∀ F, inner n F a' = inner n F a + v * (interpolate n F x y).getD 0) ∧
      ((∀ i j, 0 ≤ a i j) → 0 ≤ v → ∀ i j, 0 ≤ a' i j) := by
  have h1 := (floor_succ_lt n x hx).2 hx'
  have h2 := (floor_succ_lt n y hy).2 hy'
  have ex : trunc x = (⌊x⌋₊ : ℤ) := by rw [trunc_nonneg x hx, Int.natCast_floor_eq_floor hx]
  have ey : trunc y = (⌊y⌋₊ : ℤ) := by rw [trunc_nonneg y hy, Int.natCast_floor_eq_floor hy]
  have c1 : (⌊x⌋₊ : ℤ) + 1 = ((⌊x⌋₊ + 1 : ℕ) : ℤ) := by push_cast; rfl
  have c2 : (⌊y⌋₊ : ℤ) + 1 = ((⌊y⌋₊ + 1 : ℕ) : ℤ) := by push_cast; rfl
  have f1 := Nat.floor_le hx
  have f2 := Nat.lt_floor_add_one x
  have f3 := Nat.floor_le hy
  have f4 := Nat.lt_floor_add_one y
  unfold deposit
  simp only [ex, ey, (side_floor x hx).1, (side_floor x hx).2, (side_floor y hy).1, (side_floor y hy).2]
  rw [c1, c2]
  have step : ∀ (a : Img) (i j : ℕ) (v : ℝ), i < n → j < n → ∃ a', addAt n a i j v = some a' ∧ (∀ F, inner n F a' = inner n F a + F i j * v) ∧
      ((∀ i j, 0 ≤ a i j) → 0 ≤ v → ∀ i j, 0 ≤ a' i j) := by
    intro a i j v hi hj
    obtain ⟨a', g1, _, g3⟩ := inner_addAt n (fun _ _ => 0) a i j hi hj v
    refine ⟨a', g1, fun F => by rw [g3]; exact inner_update n F a i j hi hj v, ?_⟩
    intro ha hv k l
    rw [g3]
    by_cases hk : k = i
    · subst hk
      by_cases hl : l = j
      · subst hl; simpa using add_nonneg (ha k l) hv
      · simpa [hl] using ha k l
    · simpa [hk] using ha k l
  obtain ⟨a1, e1, i1, p1⟩ := step a ⌊x⌋₊ ⌊y⌋₊ (v * ((⌊x⌋₊ + 1 - x) * (⌊y⌋₊ + 1 - y))) (by omega) (by omega)
  obtain ⟨a2, e2, i2, p2⟩ := step a1 ⌊x⌋₊ (⌊y⌋₊ + 1) (v * ((⌊x⌋₊ + 1 - x) * (y - ⌊y⌋₊))) (by omega) (by omega)
  obtain ⟨a3, e3, i3, p3⟩ := step a2 (⌊x⌋₊ + 1) ⌊y⌋₊ (v * ((x - ⌊x⌋₊) * (⌊y⌋₊ + 1 - y))) (by omega) (by omega)
  obtain ⟨a4, e4, i4, p4⟩ := step a3 (⌊x⌋₊ + 1) (⌊y⌋₊ + 1) (v * ((x - ⌊x⌋₊) * (y - ⌊y⌋₊))) (by omega) (by omega)
  refine ⟨a4, ?_, ?_, ?_⟩
  · rw [e1, Option.bind_some, e2, Option.bind_some, e3, Option.bind_some, e4]
  · intro F
    rw [i4, i3, i2, i1, interpolate_eq n F x y hx hy hx' hy', Option.getD_some]
    ring
  · intro ha hv
    have q1 : 0 ≤ (⌊x⌋₊ : ℝ) + 1 - x := by linarith
    have q2 : 0 ≤ x - ⌊x⌋₊ := by linarith
    have q3 : 0 ≤ (⌊y⌋₊ : ℝ) + 1 - y := by linarith
    have q4 : 0 ≤ y - ⌊y⌋₊ := by linarith
    exact p4 (p3 (p2 (p1 ha (mul_nonneg hv (mul_nonneg q1 q3))) (mul_nonneg hv (mul_nonneg q1 q4)))
      (mul_nonneg hv (mul_nonneg q2 q3))) (mul_nonneg hv (mul_nonneg q2 q4))

theorem inner_one (n : ℕ) (a : Img) : inner n (fun _ _ => 1) a = total n a := by simp [inner, total]

/-- So the flux of a component is kept, and its place. -/
theorem C91_flux_partial (n : ℕ) (a : Img) (x y v : ℝ) (hx : 0 ≤ x) (hy : 0 ≤ y) (hx' : x < (n : ℝ) - 1) (hy' : y < (n : ℝ) - 1) :
    ∃ a', deposit n a x y v = some a' ∧ total n a' = total n a + v ∧
      inner n (fun i _ => i) a' = inner n (fun i _ => i) a + v * x ∧ inner n (fun _ j => j) a' = inner n (fun _ j => j) a + v * y := by
  obtain ⟨a', h1, h2, _⟩ := C91_deposit_partial n a x y v hx hy hx' hy'
  refine ⟨a', h1, ?_, ?_, ?_⟩
  · rw [← inner_one, ← inner_one, h2, C91_exact n _ 1 0 0 0 (by intros; ring) x y hx hy hx' hy']; simp
  · rw [h2, C91_exact n _ 0 1 0 0 (by intros; ring) x y hx hy hx' hy']; simp
  · rw [h2, C91_exact n _ 0 0 1 0 (by intros; ring) x y hx hy hx' hy']; simp

/-- A component in the last row is an exception, even in the middle of a pixel where the next row would get nothing. -/
theorem C91_not_last (n : ℕ) (a : Img) (x y v : ℝ) (hx : (n : ℝ) - 1 ≤ x) (hn : 0 < n) : deposit n a x y v = none := by
  have hn1 : (1 : ℝ) ≤ n := by exact_mod_cast hn
  have h0 : 0 ≤ x := by linarith
  have ex : trunc x = ⌊x⌋ := trunc_nonneg x h0
  have hf : (n : ℤ) - 1 ≤ ⌊x⌋ := Int.le_floor.2 (by push_cast; linarith)
  have hi : index n (⌊x⌋ + 1) = none := by
    unfold index; rw [if_neg (by omega), if_neg (by omega)]
  unfold deposit addAt
  rw [ex, hi]
  cases index n ⌊x⌋ <;> cases index n (trunc y) <;> cases index n (trunc y + 1) <;> simp

/-- A position just outside of the first row changes the flux. -/
theorem C91_not_outside (n : ℕ) (a : Img) (x v : ℝ) (j : ℕ) (hx : x < 0) (hx1 : -1 < x) (hn : 1 < n) (hj : j + 1 < n) :
    ∃ a', deposit n a x j v = some a' ∧ total n a' = total n a + v * (1 + 2 * x) := by
  have ex : trunc x = ((0 : ℕ) : ℤ) := by
    unfold trunc
    rw [if_neg (by linarith)]
    have : ⌈x⌉ = 0 := Int.ceil_eq_zero_iff.2 ⟨hx1, hx.le⟩
    rw [this]; rfl
  have ej : trunc (j : ℝ) = (j : ℤ) := by have := trunc_int j; push_cast at this; exact this
  have s1 : side x ((0 : ℕ) : ℤ) = x + 1 := by
    unfold side; push_cast; rw [if_pos (by linarith)]; ring
  have s2 : side x (((0 : ℕ) : ℤ) + 1) = x := by
    unfold side; push_cast; rw [if_pos (by linarith)]; ring
  have s3 : side (j : ℝ) (j : ℤ) = 1 := by unfold side; push_cast; rw [if_neg (by simp)]; ring
  have s4 : side (j : ℝ) ((j : ℤ) + 1) = 0 := by unfold side; push_cast; rw [if_pos (by simp)]; ring
  unfold deposit
  rw [ex, ej, s1, s2, s3, s4, show ((0 : ℕ) : ℤ) + 1 = ((1 : ℕ) : ℤ) from rfl, show (j : ℤ) + 1 = ((j + 1 : ℕ) : ℤ) by push_cast; rfl]
  obtain ⟨a1, e1, i1, _⟩ := inner_addAt n (fun _ _ => 1) a 0 j (by omega) (by omega) (v * ((x + 1) * 1))
  obtain ⟨a2, e2, i2, _⟩ := inner_addAt n (fun _ _ => 1) a1 0 (j + 1) (by omega) (by omega) (v * ((x + 1) * 0))
  obtain ⟨a3, e3, i3, _⟩ := inner_addAt n (fun _ _ => 1) a2 1 j (by omega) (by omega) (v * (x * 1))
  obtain ⟨a4, e4, i4, _⟩ := inner_addAt n (fun _ _ => 1) a3 1 (j + 1) (by omega) (by omega) (v * (x * 0))
  refine ⟨a4, ?_, ?_⟩
  · rw [e1, Option.bind_some, e2, Option.bind_some, e3, Option.bind_some, e4]
  · rw [← inner_one, ← inner_one, i4, i3, i2, i1]; ring

/-! ## Passes -/

/-- A peak near the first row, as near as half the width of the beam, is an exception: the slice for its fit is empty. -/
theorem C91_not_border (E : Env) (sources : Bool) (B : Box) (s : St) (p : ℕ × ℕ) (hp : peak B s.working = some p) (h : p.1 < E.h)
    (hn : 2 * E.h + 1 ≤ E.n) : pass E sources B s = none := by
  have : locate E s.working p = none := by
    unfold locate fitBox sliceStart
    simp only
    rw [if_neg]
    rw [not_and_or]
    left
    rw [if_pos (by omega)]
    omega
  unfold pass
  rw [hp, Option.bind_some]
  simp only [this, Option.bind_none]

/-- A position of the passes is a multiple of a fifth of a pixel. -/
def Fifth (q : ℝ × ℝ) : Prop := ∃ k l : ℤ, q = ((k : ℝ) / 5, (l : ℝ) / 5)

theorem index_fifth (k l : ℤ) : beamIndex ((k : ℝ) / 5, (l : ℝ) / 5) = (k, l) := by
  unfold beamIndex
  simp only
  rw [div_mul_cancel₀ _ (by norm_num), div_mul_cancel₀ _ (by norm_num), trunc_int, trunc_int]

/-- Inside of the image. -/
def Inside (n : ℕ) (q : ℝ × ℝ) : Prop := 0 ≤ q.1 ∧ 0 ≤ q.2 ∧ q.1 < (n : ℝ) - 1 ∧ q.2 < (n : ℝ) - 1

/-- The beam of a position in the image. -/
noncomputable def beamAt (E : Env) (q : ℝ × ℝ) : Img :=
  E.beam ((interpolate E.n E.ra q.1 q.2).getD 0) ((interpolate E.n E.dec q.1 q.2).getD 0)

/-- All beams kept are those of their positions. -/
def CacheOK (E : Env) (cache : List ((ℤ × ℤ) × Img)) : Prop :=
  ∀ e ∈ cache, e.2 = beamAt E ((e.1.1 : ℝ) / 5, (e.1.2 : ℝ) / 5)

/-- A beam that is found again is the one of the position. -/
theorem C91_lookup (E : Env) (cache : List ((ℤ × ℤ) × Img)) (q d : ℝ × ℝ) (hc : CacheOK E cache) (hq : Fifth q)
    (hd : E.beam d.1 d.2 = beamAt E q) : (lookup E cache q d).1 = beamAt E q ∧ CacheOK E (lookup E cache q d).2 := by
  obtain ⟨k, l, rfl⟩ := hq
  unfold lookup
  rw [index_fifth]
  cases hl : cache.lookup (k, l) with
  | some b =>
    have : ((k, l), b) ∈ cache := by
      clear hc hd
      induction cache with
      | nil => simp at hl
      | cons e t ih =>
        obtain ⟨ke, be⟩ := e
        rw [List.lookup_cons] at hl
        by_cases hk : (k, l) = ke
        · subst hk; simp at hl; simp [hl]
        · have : ((k, l) == ke) = false := by simpa using hk
          rw [this] at hl
          exact List.mem_cons_of_mem _ (ih hl)
    exact ⟨hc _ this, hc⟩
  | none =>
    refine ⟨hd, ?_⟩
    intro e he
    rcases List.mem_cons.1 he with rfl | he
    · exact hd
    · exact hc e he

/-- What is true during the passes: the image is the residuals and the beams of the components, and the components are on the pixels. -/
structure Inv (E : Env) (img : Img) (c : List (ℝ × ℝ × ℝ)) (s : St) : Prop where
  inside : ∀ e ∈ c, Inside E.n e.2 ∧ 0 ≤ e.1
  working : ∀ i j, s.working i j = img i j - (c.map fun e => E.gain * e.1 * beamAt E e.2 i j).sum
  cleaned : ∀ F, inner E.n F s.cleaned = (c.map fun e => E.gain * e.1 * (interpolate E.n F e.2.1 e.2.2).getD 0).sum
  nonneg : 0 ≤ E.gain → ∀ i j, 0 ≤ s.cleaned i j
  cache : CacheOK E s.cache

theorem start_inv (E : Env) (img : Img) : Inv E img [] (start img) :=
  ⟨by simp, by simp [start], by simp [start, inner], fun _ i j => le_refl _, by intro e he; simp [start] at he⟩

/-- Fits to peaks stay in the image, on the side of the first row and column. -/
def Fits (E : Env) : Prop := ∀ w p q, locate E w p = some q → 0 ≤ q.1 ∧ 0 ≤ q.2

theorem locate_fifth (E : Env) (w : Img) (p : ℕ × ℕ) (q : ℝ × ℝ) (h : locate E w p = some q) : Fifth q := by
  unfold locate at h
  simp only at h
  split_ifs at h
  obtain ⟨f, _, hf⟩ := Option.map_eq_some_iff.1 h
  exact ⟨_, _, hf.symm⟩

/-- A pass that removes a component keeps all that, and removes a part of the largest value. -/
theorem C91_pass (E : Env) (sources : Bool) (hs : sources = true ∨ Fits E) (B : Box) (img : Img) (c : List (ℝ × ℝ × ℝ)) (s s' : St)
    (hi : Inv E img c s) (h : pass E sources B s = some (.removed s')) :
    ∃ v q p, peak B s.working = some p ∧ v = s.working p.1 p.2 ∧ 0 ≤ v ∧ Inv E img ((v, q) :: c) s' ∧
      ∀ i j, s'.working i j = s.working i j - E.gain * v * beamAt E q i j := by
  unfold pass at h
  obtain ⟨p, hp, h⟩ := Option.bind_eq_some_iff.1 h
  simp only at h
  obtain ⟨q0, hq0, h⟩ := Option.bind_eq_some_iff.1 h
  split_ifs at h with hv
  · simp at h
  obtain ⟨cl, hcl, h⟩ := Option.map_eq_some_iff.1 h
  have hfifth0 := locate_fifth E _ _ _ hq0
  -- the position and its direction
  have hdir : ∃ q d, direct E sources p q0 = (q, d) ∧ Fifth q ∧ Inside E.n q ∧ E.beam d.1 d.2 = beamAt E q := by
    cases hr : interpolate E.n E.ra q0.1 q0.2 with
    | some r =>
      have hin : Inside E.n q0 := (C91_inside E.n E.ra q0.1 q0.2).1 (by rw [hr]; rfl)
      obtain ⟨dd, hdd⟩ := Option.isSome_iff_exists.1 ((C91_inside E.n E.dec q0.1 q0.2).2 hin)
      refine ⟨q0, (r, dd), ?_, hfifth0, hin, ?_⟩
      · unfold direct; rw [hr, hdd]; rfl
      · unfold beamAt; rw [hr, hdd]; rfl
    | none =>
      cases hsrc : sources with
      | false =>
        rw [hsrc] at hs hcl
        have hf := (hs.resolve_left (by simp)) _ _ _ hq0
        have hno : ¬ (Inside E.n q0) := by
          intro hin
          have := (C91_inside E.n E.ra q0.1 q0.2).2 hin
          rw [hr] at this; simp at this
        have e1 : (direct E false p q0).1 = q0 := by unfold direct; rw [hr]; rfl
        rw [e1] at hcl
        have hn : 0 < E.n := by
          by_contra h0
          have h00 : E.n = 0 := by omega
          unfold locate fitBox at hq0
          simp [h00] at hq0
        exfalso
        by_cases hx : (E.n : ℝ) - 1 ≤ q0.1
        · rw [C91_not_last E.n _ _ _ _ hx hn] at hcl; simp at hcl
        · by_cases hy : (E.n : ℝ) - 1 ≤ q0.2
          · have hf2 : (E.n : ℤ) - 1 ≤ ⌊q0.2⌋ := Int.le_floor.2 (by push_cast; linarith)
            have hi2 : index E.n (⌊q0.2⌋ + 1) = none := by
              unfold index; rw [if_neg (by omega), if_neg (by omega)]
            unfold deposit addAt at hcl
            rw [trunc_nonneg _ hf.2, hi2] at hcl
            cases hh : index E.n (trunc q0.1) <;> cases hh2 : index E.n ⌊q0.2⌋ <;> simp [hh, hh2] at hcl
          · exact hno ⟨hf.1, hf.2, not_le.1 hx, not_le.1 hy⟩
      | true =>
        rw [hsrc] at hcl
        have e1 : (direct E true p q0).1 = ((p.1 : ℝ), (p.2 : ℝ)) := by unfold direct; rw [hr]; rfl
        rw [e1] at hcl
        have hn : 0 < E.n := by
          by_contra h0
          have h00 : E.n = 0 := by omega
          unfold locate fitBox at hq0
          simp [h00] at hq0
        have hx : (p.1 : ℝ) < (E.n : ℝ) - 1 := by
          by_contra hx
          rw [C91_not_last E.n _ _ _ _ (not_lt.1 hx) hn] at hcl; simp at hcl
        have hy : (p.2 : ℝ) < (E.n : ℝ) - 1 := by
          by_contra hy
          have hf2 : (E.n : ℤ) - 1 ≤ ⌊(p.2 : ℝ)⌋ := Int.le_floor.2 (by push_cast; linarith)
          have hi2 : index E.n (⌊(p.2 : ℝ)⌋ + 1) = none := by
            unfold index; rw [if_neg (by omega), if_neg (by omega)]
          unfold deposit addAt at hcl
          simp only at hcl
          rw [trunc_nonneg (p.2 : ℝ) (Nat.cast_nonneg _), hi2] at hcl
          cases hh : index E.n (trunc (p.1 : ℝ)) <;> cases index E.n ⌊(p.2 : ℝ)⌋ <;> simp [hh] at hcl
        have hx1 : p.1 + 1 < E.n := by
          have : ((p.1 + 1 : ℕ) : ℝ) < E.n := by push_cast; linarith
          exact_mod_cast this
        have hy1 : p.2 + 1 < E.n := by
          have : ((p.2 + 1 : ℕ) : ℝ) < E.n := by push_cast; linarith
          exact_mod_cast this
        refine ⟨((p.1 : ℝ), (p.2 : ℝ)), (E.ra p.1 p.2, E.dec p.1 p.2), ?_, ⟨p.1 * 5, p.2 * 5, ?_⟩,
          ⟨Nat.cast_nonneg _, Nat.cast_nonneg _, hx, hy⟩, ?_⟩
        · unfold direct
          rw [hr]
          simp only [if_true]
          rw [C91_pixel E.n E.dec p.1 p.2 hx1 hy1]
          rfl
        · push_cast
          rw [mul_div_cancel_right₀ _ (by norm_num), mul_div_cancel_right₀ _ (by norm_num)]
        · unfold beamAt
          rw [C91_pixel E.n E.ra p.1 p.2 hx1 hy1, C91_pixel E.n E.dec p.1 p.2 hx1 hy1]
          rfl
  obtain ⟨q, d, hqd, hfi, hin, hbeam⟩ := hdir
  rw [hqd] at hcl h
  simp only at hcl h
  have hlook := C91_lookup E s.cache q d hi.cache hfi hbeam
  obtain ⟨a', ha', hF, hnn⟩ := C91_deposit_partial E.n s.cleaned q.1 q.2 (E.gain * s.working p.1 p.2) hin.1 hin.2.1 hin.2.2.1 hin.2.2.2
  have ea : a' = cl := by rw [ha'] at hcl; exact Option.some.inj hcl
  have hs' : s' = ⟨fun i j => s.working i j - E.gain * s.working p.1 p.2 * (lookup E s.cache q d).1 i j, cl, (lookup E s.cache q d).2⟩ := by
    injection h with h; exact h.symm
  refine ⟨s.working p.1 p.2, q, p, hp, rfl, not_lt.1 hv, ⟨?_, ?_, ?_, ?_, ?_⟩, ?_⟩
  · intro e he
    rcases List.mem_cons.1 he with rfl | he
    · exact ⟨hin, not_lt.1 hv⟩
    · exact hi.inside e he
  · intro i j
    rw [hs']
    simp only
    rw [hlook.1, hi.working i j, List.map_cons, List.sum_cons]
    ring
  · intro F
    rw [hs']
    simp only
    rw [← ea, hF, hi.cleaned F, List.map_cons, List.sum_cons]
    ring
  · intro hg
    rw [hs', ← ea]
    exact hnn (hi.nonneg hg) (mul_nonneg hg (not_lt.1 hv))
  · rw [hs']; exact hlook.2
  · intro i j
    rw [hs']
    simp only
    rw [hlook.1]

/-- After any number of passes the image is the residuals and the beams of components that are on the pixels. -/
theorem C91_loop (E : Env) (sources : Bool) (hs : sources = true ∨ Fits E) (B : Box) (stop : Img → Bool) (img : Img) (k : ℕ)
    (c : List (ℝ × ℝ × ℝ)) (s s' : St) (hi : Inv E img c s) (h : loop E sources B stop k s = some s') :
    ∃ d, d.length ≤ k ∧ Inv E img (d ++ c) s' := by
  induction k generalizing c s with
  | zero =>
    unfold loop at h
    rw [← Option.some.inj h]
    exact ⟨[], le_refl _, hi⟩
  | succ k ih =>
    unfold loop at h
    obtain ⟨r, hr, h⟩ := Option.bind_eq_some_iff.1 h
    cases r with
    | negative =>
      rw [← Option.some.inj h]
      exact ⟨[], by simp, hi⟩
    | removed s1 =>
      obtain ⟨v, q, p, _, _, _, hinv, _⟩ := C91_pass E sources hs B img c s s1 hi hr
      simp only at h
      split_ifs at h
      · rw [← Option.some.inj h]
        exact ⟨[(v, q)], by simp, hinv⟩
      · obtain ⟨d, hd1, hd2⟩ := ih _ _ hinv h
        refine ⟨d ++ [(v, q)], by simp; omega, ?_⟩
        rw [List.append_assoc]
        exact hd2

/-- The passes of all sources too. -/
theorem C91_sources (E : Env) (img : Img) (k : ℕ) (l : List (Box × (Img → Bool))) (c : List (ℝ × ℝ × ℝ)) (s s' : St)
    (hi : Inv E img c s) (h : cleanSources E k l s = some s') : ∃ d, d.length ≤ k * l.length ∧ Inv E img (d ++ c) s' := by
  induction l generalizing c s with
  | nil =>
    unfold cleanSources at h
    rw [← Option.some.inj h]
    exact ⟨[], by simp, hi⟩
  | cons b l ih =>
    unfold cleanSources at h
    obtain ⟨s1, h1, h⟩ := Option.bind_eq_some_iff.1 h
    obtain ⟨d1, g1, g2⟩ := C91_loop E true (Or.inl rfl) b.1 b.2 img k c s s1 hi h1
    obtain ⟨d2, g3, g4⟩ := ih _ _ g2 h
    refine ⟨d2 ++ d1, ?_, by rw [List.append_assoc]; exact g4⟩
    rw [List.length_append, List.length_cons, Nat.mul_succ]
    omega

/-- So no flux is lost: the components on the pixels are as much as the beams were multiplied with. -/
theorem C91_clean_flux (E : Env) (sources : Bool) (hs : sources = true ∨ Fits E) (B : Box) (stop : Img → Bool) (img : Img) (k : ℕ) (s : St)
    (h : loop E sources B stop k (start img) = some s) :
    ∃ c : List (ℝ × ℝ × ℝ), c.length ≤ k ∧
      (∀ i j, img i j = s.working i j + (c.map fun e => E.gain * e.1 * beamAt E e.2 i j).sum) ∧
      total E.n s.cleaned = (c.map fun e => E.gain * e.1).sum ∧ (0 ≤ E.gain → ∀ i j, 0 ≤ s.cleaned i j) := by
  obtain ⟨c, h1, h2⟩ := C91_loop E sources hs B stop img k [] _ _ (start_inv E img) h
  rw [List.append_nil] at h2
  refine ⟨c, h1, fun i j => by rw [h2.working i j]; ring, ?_, h2.nonneg⟩
  rw [← inner_one, h2.cleaned]
  congr 1
  apply List.map_congr_left
  intro e he
  obtain ⟨⟨g1, g2, g3, g4⟩, _⟩ := h2.inside e he
  rw [C91_exact E.n _ 1 0 0 0 (by intros; ring) _ _ g1 g2 g3 g4]
  simp

/-- It ends because the test says so, because the peak is negative, or with the number of passes. -/
theorem C91_end (E : Env) (sources : Bool) (B : Box) (stop : Img → Bool) (k : ℕ) (s s' : St) (h : loop E sources B stop k s = some s') :
    stop s'.working = true ∨ pass E sources B s' = some .negative ∨
      ∃ t : ℕ → St, t 0 = s ∧ t k = s' ∧ ∀ j < k, pass E sources B (t j) = some (.removed (t (j + 1))) := by
  induction k generalizing s with
  | zero =>
    unfold loop at h
    exact Or.inr (Or.inr ⟨fun _ => s, rfl, Option.some.inj h, by omega⟩)
  | succ k ih =>
    unfold loop at h
    obtain ⟨r, hr, h⟩ := Option.bind_eq_some_iff.1 h
    cases r with
    | negative =>
      rw [← Option.some.inj h]
      exact Or.inr (Or.inl hr)
    | removed s1 =>
      simp only at h
      split_ifs at h with hst
      · rw [← Option.some.inj h]; exact Or.inl hst
      · rcases ih s1 h with g | g | ⟨t, g1, g2, g3⟩
        · exact Or.inl g
        · exact Or.inr (Or.inl g)
        · refine Or.inr (Or.inr ⟨fun j => if j = 0 then s else t (j - 1), rfl, by simpa using g2, ?_⟩)
          intro j hj
          rcases j with _ | j
          · simp [g1, hr]
          · simpa using g3 j (by omega)

/-- A peak that its own beam has in full loses the part of the gain. -/
theorem C91_peak_part (E : Env) (sources : Bool) (hs : sources = true ∨ Fits E) (B : Box) (img : Img) (c : List (ℝ × ℝ × ℝ)) (s s' : St)
    (hi : Inv E img c s) (h : pass E sources B s = some (.removed s')) (hb : ∀ q i j, beamAt E q i j ≤ 1) (hg : 0 ≤ E.gain) :
    ∃ p, peak B s.working = some p ∧ (1 - E.gain) * s.working p.1 p.2 ≤ s'.working p.1 p.2 := by
  obtain ⟨v, q, p, hp, rfl, hv, _, hw⟩ := C91_pass E sources hs B img c s s' hi h
  refine ⟨p, hp, ?_⟩
  rw [hw]
  have := mul_le_mul_of_nonneg_left (hb q p.1 p.2) (mul_nonneg hg hv)
  linarith

/-- An image of ones and a beam of ones. -/
noncomputable def ones : Env := ⟨2, 0, fun _ _ => 0, fun _ _ => 0, fun _ _ _ => some (0, 0), fun x => ⌊x⌋, fun _ _ _ _ => 1, 1 / 2⟩

example : Fits ones ∧ ∃ s, pass ones false ⟨0, 2, 0, 2⟩ (start fun _ _ => 1) = some (.removed s) ∧ s.working 0 0 = 1 / 2 := by
  constructor
  · intro w p q h
    unfold locate at h
    simp only at h
    split_ifs at h
    have e : ∀ k : ℕ, quantise ones (k - (0 : ℕ) + 0) = k := by
      intro k
      unfold quantise ones
      have : ((k : ℝ) - (0 : ℕ) + 0) * 5 = ((k * 5 : ℕ) : ℝ) := by push_cast; ring
      simp only
      rw [this, Int.floor_natCast]
      push_cast
      rw [mul_div_cancel_right₀ _ (by norm_num)]
    have h := Option.some.inj h
    rw [← h]
    simp only
    exact ⟨by rw [show ones.h = 0 from rfl, e]; exact Nat.cast_nonneg _, by rw [show ones.h = 0 from rfl, e]; exact Nat.cast_nonneg _⟩
  · have hp : peak ⟨0, 2, 0, 2⟩ (start fun _ _ => 1).working = some (0, 0) := by
      simp [peak, start, Scatter.peak]
    have hl : locate ones (start fun _ _ => 1).working (0, 0) = some (0, 0) := by
      simp [locate, ones, fitBox, sliceStart, quantise]
    have hr : interpolate ones.n ones.ra 0 0 = some 0 := by
      have := C91_pixel ones.n ones.ra 0 0 (by decide) (by decide)
      rw [Nat.cast_zero] at this; exact this
    obtain ⟨a', ha, _⟩ := C91_deposit_partial 2 (fun _ _ => 0) 0 0 (1 / 2 * 1) (le_refl _) (le_refl _) (by norm_num) (by norm_num)
    refine ⟨⟨fun _ _ => 1 - 1 / 2 * 1 * 1, a', [((0, 0), fun _ _ => 1)]⟩, ?_, by norm_num⟩
    · unfold pass
      rw [hp, Option.bind_some]
      simp only [hl, Option.bind_some]
      rw [if_neg (by simp [start])]
      have hd : direct ones false (0, 0) (0, 0) = ((0, 0), 0, 0) := by
        unfold direct
        simp only [hr]
        rw [show interpolate ones.n ones.dec 0 0 = some 0 from hr]; rfl
      rw [hd]
      have : deposit ones.n (start fun _ _ => 1).cleaned 0 0 (ones.gain * (start fun _ _ => 1).working 0 0) = some a' := ha
      simp only [this, Option.map_some]
      simp [start, ones, lookup, beamIndex, trunc]

/-! ## The restored image -/

theorem largest_spec (n : ℕ) (hn : 0 < n) (w : Img) :
    (∃ i < n, ∃ j < n, largest n w = w i j) ∧ ∀ i < n, ∀ j < n, w i j ≤ largest n w := by
  have := C91_peak ⟨0, n, 0, n⟩ w
  have hp : peak ⟨0, n, 0, n⟩ w = some (Scatter.peak (fun k => w (k / n) (k % n)) (n * n) / n,
      Scatter.peak (fun k => w (k / n) (k % n)) (n * n) % n) := by
    unfold peak; rw [if_pos ⟨hn, hn⟩]; simp
  obtain ⟨_, h2, _, h4, h5⟩ := this _ hp
  exact ⟨⟨_, h2, _, h4, rfl⟩, fun i hi j hj => h5 i j (Nat.zero_le _) hi (Nat.zero_le _) hj⟩

/-- The restored components have the largest value of what was removed. -/
theorem C91_restore (n : ℕ) (hn : 0 < n) (conv : Img → Img) (img : Img) (s : St) (r : Img) (h : restore n conv img s = some r)
    (h1 : 0 < largest n (conv s.cleaned)) (h2 : 0 ≤ largest n fun i j => img i j - s.working i j) :
    largest n r = largest n fun i j => img i j - s.working i j := by
  unfold restore at h
  simp only at h
  split_ifs at h
  have hr := Option.some.inj h
  obtain ⟨⟨i, hi, j, hj, he⟩, hle⟩ := largest_spec n hn (conv s.cleaned)
  obtain ⟨⟨i', hi', j', hj', he'⟩, hle'⟩ := largest_spec n hn r
  generalize largest n (fun i j => img i j - s.working i j) = M at *
  have hk : 0 ≤ M / largest n (conv s.cleaned) := div_nonneg h2 h1.le
  apply le_antisymm
  · rw [he', ← hr]
    simp only
    calc conv s.cleaned i' j' * (M / largest n (conv s.cleaned)) ≤ largest n (conv s.cleaned) * (M / largest n (conv s.cleaned)) :=
          mul_le_mul_of_nonneg_right (hle i' hi' j' hj') hk
      _ = M := by rw [mul_div_cancel₀ _ h1.ne']
  · calc M = conv s.cleaned i j * (M / largest n (conv s.cleaned)) := by rw [← he, mul_div_cancel₀ _ h1.ne']
      _ = r i j := by rw [← hr]
      _ ≤ largest n r := hle' i hi j hj

/-- An image without positive values has no result, since nothing is removed and zero is divided by zero. -/
theorem C91_not_dark (E : Env) (conv : Img → Img) (hc : conv (fun _ _ => 0) = fun _ _ => 0) (stop : Img → Bool) (k : ℕ) (img : Img)
    (hd : ∀ i < E.n, ∀ j < E.n, img i j < 0) : clean E conv stop k img = none := by
  unfold clean
  split_ifs with hk
  · rfl
  · obtain ⟨k, rfl⟩ := Nat.exists_eq_succ_of_ne_zero hk
    unfold loop pass
    cases hp : peak ⟨0, E.n, 0, E.n⟩ (start img).working with
    | none => rfl
    | some p =>
      obtain ⟨_, h2, _, h4, _⟩ := C91_peak _ _ _ hp
      have hv : (start img).working p.1 p.2 < 0 := hd _ h2 _ h4
      simp only [Option.bind_some, hv, if_true]
      cases locate E (start img).working p with
      | none => rfl
      | some q =>
        simp only [Option.bind_some]
        unfold restore
        simp only [start, hc]
        have : largest E.n (fun _ _ => 0) = 0 := rfl
        rw [if_pos this]; rfl

/-! ## The minor cycle -/

theorem roll_lt (n : ℕ) (hn : 0 < n) (k : ℤ) (i : ℕ) : roll n k i < n := by
  unfold roll
  have h1 := Int.emod_nonneg ((i : ℤ) - k) (show (n : ℤ) ≠ 0 by omega)
  have h2 := Int.emod_lt_of_pos ((i : ℤ) - k) (show (0 : ℤ) < n by omega)
  omega

theorem roll_roll (n : ℕ) (hn : 0 < n) (k : ℤ) (i : ℕ) (hi : i < n) : roll n (-k) (roll n k i) = i := by
  unfold roll
  have h1 := Int.emod_nonneg ((i : ℤ) - k) (show (n : ℤ) ≠ 0 by omega)
  rw [Int.toNat_of_nonneg h1, sub_neg_eq_add, Int.emod_add_emod, sub_add_cancel, Int.emod_eq_of_lt (by omega) (by omega)]
  rfl

theorem sum_roll (n : ℕ) (hn : 0 < n) (k : ℤ) (f : ℕ → ℝ) : ∑ i ∈ range n, f (roll n k i) = ∑ i ∈ range n, f i := by
  refine sum_nbij' (roll n k) (roll n (-k)) ?_ ?_ ?_ ?_ ?_
  · intro i _; exact mem_range.2 (roll_lt n hn k i)
  · intro i _; exact mem_range.2 (roll_lt n hn (-k) i)
  · intro i hi; exact roll_roll n hn k i (mem_range.1 hi)
  · intro i hi
    have := roll_roll n hn (-k) i (mem_range.1 hi)
    rwa [neg_neg] at this
  · intro i _; rfl

/-- The middle of the beam is put on the peak, and nothing of the beam is lost. -/
theorem C91_rolled (n : ℕ) (beam : Img) (p : ℕ × ℕ) (h1 : p.1 < n) (h2 : p.2 < n) :
    rolled n beam p p.1 p.2 = beam (n / 2) (n / 2) ∧ total n (rolled n beam p) = total n beam := by
  have hn : 0 < n := by omega
  have e : ∀ k : ℕ, k < n → roll n ((k : ℤ) - (n / 2 : ℕ)) k = n / 2 := by
    intro k hk
    unfold roll
    have hlt : n / 2 < n := Nat.div_lt_self hn (by omega)
    rw [sub_sub_cancel, Int.emod_eq_of_lt (by omega) (by omega)]
    rfl
  constructor
  · unfold rolled; rw [e p.1 h1, e p.2 h2]
  · unfold total rolled
    rw [sum_roll n hn _ fun i => ∑ j ∈ range n, beam i (roll n ((p.2 : ℤ) - (n / 2 : ℕ)) j)]
    exact sum_congr rfl fun i _ => sum_roll n hn _ fun j => beam i j

theorem minor_inv (n : ℕ) (beam : Img) (gain : ℝ) (stop : ℝ → Img → Bool) (k : ℕ) (w c w' c' : Img)
    (h : minorLoop n beam gain stop k w c = some (w', c')) : total n c' + total n w' = total n c + total n w := by
  induction k generalizing w c with
  | zero => unfold minorLoop at h; cases h; rfl
  | succ k ih =>
    unfold minorLoop at h
    obtain ⟨p, hp, h⟩ := Option.bind_eq_some_iff.1 h
    obtain ⟨_, p2, _, p4, _⟩ := C91_peak _ _ _ hp
    split_ifs at h
    · cases h; rfl
    · rw [ih _ _ h, ← inner_one n (Function.update c _ _), inner_update n _ c p.1 p.2 p2 p4, inner_one]
      unfold total
      simp only [sum_sub_distrib]
      ring

/-- The minor cycle keeps the sum of the image for any beam. -/
theorem C91_minor (n : ℕ) (beam : Img) (gain : ℝ) (stop : ℝ → Img → Bool) (k : ℕ) (img r : Img)
    (h : minorCycle n beam gain stop k img = some r) : total n r = total n img := by
  unfold minorCycle at h
  obtain ⟨⟨w, c⟩, h1, h2⟩ := Option.map_eq_some_iff.1 h
  have := minor_inv n beam gain stop k _ _ _ _ h1
  rw [← h2]
  unfold total at this ⊢
  simp only [sum_add_distrib]
  rw [this]
  simp

/-- With a beam of a single pixel it changes nothing. -/
theorem C91_minor_point (n : ℕ) (beam : Img) (hb : ∀ i < n, ∀ j < n, beam i j = if i = n / 2 ∧ j = n / 2 then 1 else 0) (gain : ℝ)
    (stop : ℝ → Img → Bool) (k : ℕ) (img r : Img) (h : minorCycle n beam gain stop k img = some r) (i j : ℕ) (hi : i < n) (hj : j < n) :
    r i j = img i j := by
  have hn : 0 < n := by omega
  have e : ∀ k l : ℕ, k < n → l < n → (roll n ((k : ℤ) - (n / 2 : ℕ)) l = n / 2 ↔ l = k) := by
    intro k l hk hl
    have hlt : n / 2 < n := Nat.div_lt_self hn (by omega)
    have e0 : ∀ k : ℕ, k < n → roll n ((k : ℤ) - (n / 2 : ℕ)) k = n / 2 := by
      intro k hk
      unfold roll
      rw [sub_sub_cancel, Int.emod_eq_of_lt (by omega) (by omega)]
      rfl
    constructor
    · intro hr
      have := roll_roll n hn ((k : ℤ) - (n / 2 : ℕ)) l hl
      have h2 := roll_roll n hn ((k : ℤ) - (n / 2 : ℕ)) k hk
      rw [hr] at this
      rw [e0 k hk] at h2
      exact this.symm.trans h2
    · rintro rfl; exact e0 l hl
  have hroll : ∀ p : ℕ × ℕ, p.1 < n → p.2 < n → ∀ i < n, ∀ j < n, rolled n beam p i j = if i = p.1 ∧ j = p.2 then 1 else 0 := by
    intro p h1 h2 i hi j hj
    unfold rolled
    rw [hb _ (roll_lt n hn _ _) _ (roll_lt n hn _ _)]
    simp only [e p.1 i h1 hi, e p.2 j h2 hj]
  have key : ∀ (k : ℕ) (w c w' c' : Img), minorLoop n beam gain stop k w c = some (w', c') → ∀ i < n, ∀ j < n, c' i j + w' i j = c i j + w i j := by
    intro k
    induction k with
    | zero => intro w c w' c' h; unfold minorLoop at h; cases h; intros; rfl
    | succ k ih =>
      intro w c w' c' h i hi j hj
      unfold minorLoop at h
      obtain ⟨p, hp, h⟩ := Option.bind_eq_some_iff.1 h
      obtain ⟨_, p2, _, p4, _⟩ := C91_peak _ _ _ hp
      simp only at p2 p4
      split_ifs at h
      · cases h; rfl
      · rw [ih _ _ _ _ h i hi j hj]
        have ht : total n (fun i j => gain * w p.1 p.2 * rolled n beam p i j) = gain * w p.1 p.2 := by
          unfold total
          simp only [← mul_sum]
          have := (C91_rolled n beam p p2 p4).2
          unfold total at this
          rw [this]
          have : ∀ i ∈ range n, ∑ j ∈ range n, beam i j = if i = n / 2 then 1 else 0 := by
            intro i hi
            have hlt : n / 2 < n := Nat.div_lt_self hn (by omega)
            rw [sum_congr rfl fun j hj => hb i (mem_range.1 hi) j (mem_range.1 hj)]
            by_cases h0 : i = n / 2
            · simp [h0, hlt]
            · simp [h0]
          rw [sum_congr rfl this, sum_ite_eq' (range n) (n / 2), if_pos (mem_range.2 (Nat.div_lt_self hn (by omega)))]
          ring
        simp only
        rw [ht, hroll p p2 p4 i hi j hj]
        by_cases h1 : i = p.1
        · subst h1
          by_cases h2 : j = p.2
          · subst h2; simp
          · simp [h2]
        · simp [h1]
  unfold minorCycle at h
  obtain ⟨⟨w, c⟩, h1, h2⟩ := Option.map_eq_some_iff.1 h
  rw [← h2]
  have := key k _ _ _ _ h1 i hi j hj
  simpa using this

/-! ## Least squares -/

theorem lsqPass_none (L : LEnv) (img : Img) (s : LS) (h : L.sim (advance L s) = none) :
    lsqPass L img s = ({ s with mdl := advance L s }, some .nothing) := by
  simp only [lsqPass, h]

theorem lsqPass_some (L : LEnv) (img m : Img) (s : LS) (h : L.sim (advance L s) = some m) :
    lsqPass L img s =
      if L.rms (fun i j => img i j - m i j) - s.oldRMS > 0 then
        (⟨advance L s, some fun i j => advance L s i j * L.scale, s.oldDiff, s.oldDiff,
          fun i j => L.minor (fun i j => img i j - m i j) i j * (1 / L.scale), s.oldRMS⟩, some .residuals)
      else if |L.rms (fun i j => img i j - m i j) - s.oldRMS| < L.rtol then
        (⟨advance L s, some fun i j => advance L s i j * L.scale, L.minor fun i j => img i j - m i j, s.oldDiff,
          fun i j => L.minor (fun i j => img i j - m i j) i j * (1 / L.scale), s.oldRMS⟩, some .tolerance)
      else
        (⟨advance L s, some fun i j => advance L s i j * L.scale, L.minor fun i j => img i j - m i j,
          L.minor fun i j => img i j - m i j, fun i j => L.minor (fun i j => img i j - m i j) i j * (1 / L.scale),
          L.rms fun i j => img i j - m i j⟩, none) := by
  simp only [lsqPass, h]

/-- The model is never negative. -/
theorem C91_lsq_nonneg (L : LEnv) (img : Img) (k : ℕ) (s : LS) (h : ∀ i j, 0 ≤ s.mdl i j) (i j : ℕ) :
    0 ≤ (lsqLoop L img k s).1.mdl i j := by
  have ha : ∀ s i j, 0 ≤ advance L s i j := by
    intro s i j; unfold advance; split_ifs with h
    · exact le_refl _
    · exact (not_le.1 h).le
  induction k generalizing s with
  | zero => exact h i j
  | succ k ih =>
    have hp : ∀ i j, 0 ≤ (lsqPass L img s).1.mdl i j := by
      intro i j
      cases hm : L.sim (advance L s) with
      | none => rw [lsqPass_none L img s hm]; exact ha s i j
      | some m => rw [lsqPass_some L img m s hm]; split_ifs <;> exact ha s i j
    unfold lsqLoop
    cases hq : lsqPass L img s with
    | mk s' e =>
      rw [hq] at hp
      cases e with
      | some e => exact hp i j
      | none => exact ih s' hp

/-- The deviation never grows from pass to pass, and falls by the tolerance when there is another pass. -/
theorem C91_lsq_rms (L : LEnv) (img : Img) (s : LS) :
    (lsqPass L img s).1.oldRMS ≤ s.oldRMS ∧
      ((lsqPass L img s).2 = none → (lsqPass L img s).1.oldRMS ≤ s.oldRMS - L.rtol) := by
  cases hm : L.sim (advance L s) with
  | none => rw [lsqPass_none L img s hm]; simp
  | some m =>
    rw [lsqPass_some L img m s hm]
    split_ifs with h1 h2
    · simp
    · simp
    · refine ⟨by simp only; linarith, fun _ => ?_⟩
      simp only
      rw [not_lt, abs_of_nonpos (by linarith)] at h2
      linarith

theorem lsq_rms_loop (L : LEnv) (img : Img) (k : ℕ) (s : LS) : (lsqLoop L img k s).1.oldRMS ≤ s.oldRMS := by
  induction k generalizing s with
  | zero => exact le_refl _
  | succ k ih =>
    unfold lsqLoop
    have := (C91_lsq_rms L img s).1
    cases hq : lsqPass L img s with
    | mk s' e =>
      rw [hq] at this
      cases e with
      | some e => exact this
      | none => exact le_trans (ih s') this

/-- With a positive tolerance the passes end by themselves, since deviations are not negative. -/
theorem C91_lsq_ends (L : LEnv) (img : Img) (hr : ∀ w, 0 ≤ L.rms w) (k : ℕ) (hk : 0 < k) (s : LS) (h : s.oldRMS < k * L.rtol) :
    (lsqLoop L img k s).2 ≠ .iteration := by
  have key : ∀ (k : ℕ) (s : LS), (lsqLoop L img k s).2 = .iteration → 0 < k → k * L.rtol ≤ s.oldRMS := by
    intro k
    induction k with
    | zero => intro s _ h; omega
    | succ k ih =>
      intro s hi _
      unfold lsqLoop at hi
      have h1 := (C91_lsq_rms L img s).2
      cases hm : L.sim (advance L s) with
      | none => rw [lsqPass_none L img s hm] at hi; simp at hi
      | some m =>
        rw [lsqPass_some L img m s hm] at hi h1
        by_cases c1 : L.rms (fun i j => img i j - m i j) - s.oldRMS > 0
        · rw [if_pos c1] at hi; simp at hi
        by_cases c2 : |L.rms (fun i j => img i j - m i j) - s.oldRMS| < L.rtol
        · rw [if_neg c1, if_pos c2] at hi; simp at hi
        · rw [if_neg c1, if_neg c2] at hi h1
          simp only at hi h1
          have h2 := h1 trivial
          rcases Nat.eq_zero_or_pos k with rfl | hk
          · have := hr fun i j => img i j - m i j
            push_cast; linarith
          · have h3 := ih _ hi hk
            simp only at h3
            push_cast; linarith
  intro hi
  have := key k s hi hk
  linarith

/-- A model that explains the image stays. -/
theorem C91_lsq_fixed (L : LEnv) (img : Img) (hm : L.minor (fun _ _ => 0) = fun _ _ => 0) (s : LS) (h0 : ∀ i j, 0 ≤ s.mdl i j)
    (hd : ∀ i j, s.diffScaled i j = 0) (hs : L.sim s.mdl = some img) :
    (lsqPass L img s).1.mdl = s.mdl ∧ ∀ i j, (lsqPass L img s).1.diffScaled i j = 0 := by
  have ha : advance L s = s.mdl := by
    funext i j
    unfold advance
    rw [hd i j, zero_mul, add_zero]
    split_ifs with h
    · exact (le_antisymm h (h0 i j)).symm
    · rfl
  rw [lsqPass_some L img img s (by rw [ha]; exact hs)]
  simp only [sub_self, hm, ha]
  split_ifs <;> simp

/-- What a pass adds to the model is a part of the residuals, where they are not too negative. -/
theorem C91_lsq_step (L : LEnv) (img m : Img) (s : LS) (h : L.sim (advance L s) = some m) (hn : (lsqPass L img s).2 = none) (i j : ℕ)
    (hp : 0 < advance L s i j + L.minor (fun i j => img i j - m i j) i j / L.scale * L.gain) :
    advance L (lsqPass L img s).1 i j = advance L s i j + L.minor (fun i j => img i j - m i j) i j / L.scale * L.gain := by
  rw [lsqPass_some L img m s h] at hn ⊢
  split_ifs at hn ⊢
  · unfold advance at hp ⊢
    simp only [mul_one_div]
    rw [if_neg (not_le.2 hp)]

/-- When the deviation has grown the model is not put back: the residuals are those before and the model that is restored is the
one that made it worse. -/
theorem C91_not_restored (L : LEnv) (img simImg : Img) (s : LS) (h : L.sim (advance L s) = some simImg)
    (hw : L.rms (fun i j => img i j - simImg i j) > s.oldRMS) :
    (lsqPass L img s).2 = some .residuals ∧ (lsqPass L img s).1.mdl = advance L s ∧
      (lsqPass L img s).1.mdl2 = some (fun i j => advance L s i j * L.scale) ∧ (lsqPass L img s).1.diff = s.oldDiff := by
  rw [lsqPass_some L img simImg s h, if_pos (by linarith)]
  exact ⟨rfl, rfl, rfl, rfl⟩

/-- Without passes, or with nothing to simulate in the first, there is no result. -/
theorem C91_not_nothing (L : LEnv) (conv : Img → Img) (k : ℕ) (img : Img) (top : ℝ) (mask : ℕ → ℕ → Bool)
    (h : k = 0 ∨ L.sim (advance L (lsqStart L img top mask)) = none) : lsq L conv k img top mask = none := by
  unfold lsq
  rcases h with rfl | h
  · rfl
  · cases k with
    | zero => rfl
    | succ k =>
      unfold lsqLoop
      rw [lsqPass_none L img _ h]
      rfl

/-- The first pass is with the model of the start: the largest value everywhere, and nothing where there is no sky. -/
theorem C91_lsq_first (L : LEnv) (img : Img) (top : ℝ) (mask : ℕ → ℕ → Bool) (hs : 0 ≤ L.scale) (i j : ℕ) :
    advance L (lsqStart L img top mask) i j = if mask i j then 0 else max top 0 * L.scale := by
  unfold advance lsqStart
  simp only [zero_mul, add_zero]
  cases mask i j with
  | true => simp
  | false =>
    simp only [Bool.false_eq_true, if_false]
    split_ifs with h
    · exact (le_antisymm h (mul_nonneg (le_max_right _ _) hs)).symm
    · rfl

end Verif.Deconv
