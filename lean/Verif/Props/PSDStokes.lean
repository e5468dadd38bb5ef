import Verif.Props.PSD
/-!
# C75: energy, Stokes parameters and examples
-/
namespace Verif.PSD
open Verif.CMem Verif.FEngine
open Lean.Grind (CommRing)

/-! ## Energy -/

section
variable {C : Type} [CommRing C]

/-- The number `n`. -/
def num (n : Nat) : C := sumN n fun _ => 1

/-- What the exponentials of a transform of length `n` satisfy. -/
structure Roots (n : Nat) (e : Rat → C) (conj : C → C) : Prop where
  add : ∀ p r : Int, e (((p + r : Int) : Rat) / (n : Rat)) = e ((p : Rat) / (n : Rat)) * e ((r : Rat) / (n : Rat))
  conj : ∀ p : Int, conj (e ((p : Rat) / (n : Rat))) = e (((-p : Int) : Rat) / (n : Rat))
  sum : ∀ m : Int, sumN n (fun b => e (((m * (b : Int) : Int) : Rat) / (n : Rat))) = if (n : Int) ∣ m then num n else 0

/-- A conjugation. -/
structure IsConj (conj : C → C) : Prop where
  add : ∀ a b, conj (a + b) = conj a + conj b
  mul : ∀ a b, conj (a * b) = conj a * conj b

theorem conj_zero {conj : C → C} (h : IsConj conj) : conj 0 = 0 := by
  have := h.add 0 0
  rw [show (0 : C) + 0 = 0 by grind] at this
  grind

theorem conj_sumN {conj : C → C} (h : IsConj conj) (n : Nat) (f : Nat → C) : conj (sumN n f) = sumN n fun t => conj (f t) := by
  induction n with
  | zero => exact conj_zero h
  | succ n ih => simp only [sumN]; rw [h.add, ih]

/-- A sum with one term. -/
theorem sumN_single (n : Nat) (f : Nat → C) (t : Nat) (ht : t < n) (h : ∀ u, u < n → u ≠ t → f u = 0) : sumN n f = f t := by
  induction n with
  | zero => omega
  | succ n ih =>
    rw [sumN]
    by_cases e : t = n
    · subst e
      have : sumN t f = sumN t (fun _ => (0 : C)) := sumN_congr t f _ (fun u hu => h u (by omega) (by omega))
      rw [this, sumN_zero]
      grind
    · rw [ih (by omega) (fun u hu hne => h u (by omega) hne), h n (by omega) (fun e' => e e'.symm)]
      grind

theorem sumN_mul_right (c : C) (n : Nat) (f : Nat → C) : sumN n (fun t => f t * c) = sumN n f * c := by
  induction n with
  | zero => simp only [sumN]; grind
  | succ n ih => simp only [sumN, ih]; grind

/-- Parseval's theorem for the transform. -/
theorem parseval {n : Nat} (hn : 0 < n) {e : Rat → C} {conj : C → C} (hr : Roots n e conj) (hc : IsConj conj) (x : Nat → C) :
    sumN n (fun b => dft e n x b * conj (dft e n x b)) = num n * sumN n fun t => x t * conj (x t) := by
  have step : ∀ b, dft e n x b * conj (dft e n x b) =
      sumN n fun t => sumN n fun u => x t * conj (x u) * e (((((u : Int) - (t : Int)) * (b : Int) : Int) : Rat) / (n : Rat)) := by
    intro b
    unfold dft
    rw [conj_sumN hc, ← sumN_mul_right]
    apply sumN_congr
    intro t _
    rw [← sumN_mul]
    apply sumN_congr
    intro u _
    have e1 : -((b : Rat) * (t : Rat) / (n : Rat)) = ((-((b : Int) * (t : Int)) : Int) : Rat) / (n : Rat) := by
      rw [Rat.intCast_neg, Rat.intCast_mul, Rat.intCast_natCast, Rat.intCast_natCast]; grind
    have e2 : -((b : Rat) * (u : Rat) / (n : Rat)) = ((-((b : Int) * (u : Int)) : Int) : Rat) / (n : Rat) := by
      rw [Rat.intCast_neg, Rat.intCast_mul, Rat.intCast_natCast, Rat.intCast_natCast]; grind
    rw [e1, e2, hc.mul, hr.conj]
    have : ((u : Int) - (t : Int)) * (b : Int) = -((b : Int) * (t : Int)) + - -((b : Int) * (u : Int)) := by grind
    rw [this, hr.add]
    grind
  rw [sumN_congr n _ _ (fun b _ => step b), sumN_comm, ← sumN_mul]
  apply sumN_congr
  intro t ht
  rw [sumN_comm]
  have inner : ∀ u, u < n → (sumN n fun b => x t * conj (x u) * e (((((u : Int) - (t : Int)) * (b : Int) : Int) : Rat) / (n : Rat))) =
      x t * conj (x u) * (if (n : Int) ∣ ((u : Int) - (t : Int)) then num n else 0) := by
    intro u _
    rw [sumN_mul, hr.sum]
  rw [sumN_congr n _ _ inner, sumN_single n _ t ht]
  · rw [if_pos (by rw [Int.sub_self]; exact Int.dvd_zero _)]
    grind
  · intro u hu hne
    rw [if_neg]
    · grind
    · rintro ⟨z, hz⟩
      have : z = 0 := by
        rcases Int.lt_trichotomy z 0 with h | h | h
        · have := Int.mul_le_mul_of_nonneg_left (show z ≤ -1 by omega) (show (0 : Int) ≤ n by omega)
          omega
        · exact h
        · have := Int.mul_le_mul_of_nonneg_left (show 1 ≤ z by omega) (show (0 : Int) ≤ n by omega)
          omega
      rw [this, Int.mul_zero] at hz
      omega

/-- Summing over channels in order of frequency is summing over all of them. -/
theorem sumN_turn (n : Nat) (f : Nat → C) : (sumN n fun k => f ((k + (n - n / 2)) % n)) = sumN n f := by
  have split : ∀ m l (g : Nat → C), sumN (m + l) g = sumN m g + sumN l fun t => g (m + t) := by
    intro m l g
    induction l with
    | zero => simp only [Nat.add_zero, sumN]; grind
    | succ l ih => rw [← Nat.add_assoc]; simp only [sumN]; rw [ih]; grind
  have h1 := split (n / 2) (n - n / 2) (fun k => f ((k + (n - n / 2)) % n))
  have h2 := split (n - n / 2) (n / 2) f
  rw [show n / 2 + (n - n / 2) = n by omega] at h1
  rw [show n - n / 2 + n / 2 = n by omega] at h2
  rw [h1, h2]
  have a1 : (sumN (n / 2) fun k => f ((k + (n - n / 2)) % n)) = sumN (n / 2) fun t => f (n - n / 2 + t) := by
    apply sumN_congr
    intro t ht
    rw [Nat.mod_eq_of_lt (by omega)]
    congr 1; omega
  have a2 : (sumN (n - n / 2) fun t => f ((n / 2 + t + (n - n / 2)) % n)) = sumN (n - n / 2) f := by
    apply sumN_congr
    intro t ht
    rw [Nat.mod_eq_sub_mod (by omega), Nat.mod_eq_of_lt (a := n / 2 + t + (n - n / 2) - n) (by omega)]
    congr 1; omega
  rw [a1, a2]
  grind

/-- The power of a window is kept: for complex data and one tap, the power spectrum of a window summed over channels is the length of the
transform times the power of the weighted samples.  The program divides the sums by this length. -/
theorem C75_energy {a : Args C} {step : Nat} (hre : a.real = false) (ht : a.nTap = 1) (hn : 0 < a.nChan) {conj : C → C}
    (hr : Roots a.nChan a.e conj) (hc : IsConj conj) (i j : Nat) :
    sumN a.nChan (fun k => Spec.at' a step i j k * conj (Spec.at' a step i j k)) =
      num a.nChan * sumN a.nChan fun t =>
        (FEngine.Spec.row (still a) i (FEngine.Spec.start (still a) step i j + (t : Nat)) * FEngine.Spec.weight a t) *
          conj (FEngine.Spec.row (still a) i (FEngine.Spec.start (still a) step i j + (t : Nat)) * FEngine.Spec.weight a t) := by
  have hl : a.len = a.nChan := by unfold Args.len; rw [hre]; rfl
  have hs : ∀ b, FEngine.Spec.spectrum (still a) step i j b = dft a.e a.nChan (fun t =>
      FEngine.Spec.row (still a) i (FEngine.Spec.start (still a) step i j + (t : Nat)) * FEngine.Spec.weight a t) b := by
    intro b
    unfold FEngine.Spec.spectrum
    have : (still a).nTap = 1 := ht
    rw [this]
    simp only [sumN]
    have hl' : (still a).len = a.nChan := hl
    rw [hl']
    have h0 : ∀ t, 0 * a.nChan + t = t := by intro t; omega
    simp only [h0]
    unfold dft
    rw [show ∀ x : C, 0 + x = x by intro x; grind]
    rfl
  have hb : ∀ k, FEngine.Spec.bin a k = (k + (a.nChan - a.nChan / 2)) % a.nChan := by
    intro k; unfold FEngine.Spec.bin; rw [hre]; rfl
  unfold Spec.at'
  simp only [hb, hs]
  rw [sumN_turn a.nChan (fun b => dft a.e a.nChan _ b * conj (dft a.e a.nChan _ b))]
  exact parseval hn hr hc _

end

/-! ## Stokes parameters -/

/-- The terms of `U` and `V` are twice the real and imaginary part of `X` times the conjugate of `Y`, as in the Stokes X engine. -/
theorem C75_cross (x y : Cx) : x * Cx.conj y + y * Cx.conj x = ⟨iquv 2 x y, 0⟩ ∧
    (x * Cx.conj y - y * Cx.conj x) * ⟨0, -1⟩ = ⟨iquv 3 x y, 0⟩ ∧
    x * Cx.conj x + y * Cx.conj y = ⟨iquv 0 x y, 0⟩ ∧ x * Cx.conj x - y * Cx.conj y = ⟨iquv 1 x y, 0⟩ := by
  refine ⟨?_, ?_, ?_, ?_⟩ <;> apply Cx.ext' <;> simp [iquv, Cx.norm] <;> grind

theorem sq_nonneg (x : Rat) : 0 ≤ x * x := by
  rcases Rat.le_total (a := 0) (b := x) with h | h
  · exact Rat.mul_nonneg h h
  · have := Rat.mul_nonneg (show 0 ≤ -x by grind) (show 0 ≤ -x by grind)
    grind

theorem norm_nonneg (x : Cx) : 0 ≤ Cx.norm x := by
  have := sq_nonneg x.re
  have := sq_nonneg x.im
  unfold Cx.norm; grind

/-- A single window is fully polarized. -/
theorem pure (x y : Cx) : iquv 0 x y * iquv 0 x y =
    iquv 1 x y * iquv 1 x y + iquv 2 x y * iquv 2 x y + iquv 3 x y * iquv 3 x y := by
  unfold iquv Cx.norm
  simp only
  grind

theorem lt_sq {a b : Rat} (ha : 0 ≤ a) (h : a < b) : a * a < b * b := by
  have h1 : 0 < b - a := by grind
  have h2 : 0 < b + a := by grind
  have := Rat.mul_pos h1 h2
  grind

/-- The sum of two polarized signals is at most as polarized. -/
theorem triangle (i q u v i' q' u' v' : Rat) (hi : 0 ≤ i) (hi' : 0 ≤ i') (h : q * q + u * u + v * v ≤ i * i)
    (h' : q' * q' + u' * u' + v' * v' ≤ i' * i') :
    (q + q') * (q + q') + (u + u') * (u + u') + (v + v') * (v + v') ≤ (i + i') * (i + i') := by
  have hcs : (q * q' + u * u' + v * v') ≤ i * i' := by
    rcases Rat.le_total (a := q * q' + u * u' + v * v') (b := i * i') with hle | hle
    · exact hle
    · by_cases he : q * q' + u * u' + v * v' = i * i'
      · rw [he]; exact Rat.le_refl
      · exfalso
        have hlt : i * i' < q * q' + u * u' + v * v' := by grind
        have hsq := lt_sq (Rat.mul_nonneg hi hi') hlt
        have l1 := sq_nonneg (q * u' - u * q')
        have l2 := sq_nonneg (q * v' - v * q')
        have l3 := sq_nonneg (u * v' - v * u')
        have m1 := Rat.mul_nonneg (show 0 ≤ i * i - (q * q + u * u + v * v) by grind) (show 0 ≤ i' * i' from sq_nonneg i')
        have m2 := Rat.mul_nonneg (show 0 ≤ q * q + u * u + v * v by have := sq_nonneg q; have := sq_nonneg u; have := sq_nonneg v; grind)
          (show 0 ≤ i' * i' - (q' * q' + u' * u' + v' * v') by grind)
        grind
  grind

/-- For all data the polarized power is at most the total power, and the total power is not negative. -/
theorem C75_polarized (a b : Args Cx) (step i k : Nat) :
    0 ≤ Spec.total (iquv 0) a b step i k ∧
    Spec.total (iquv 1) a b step i k * Spec.total (iquv 1) a b step i k + Spec.total (iquv 2) a b step i k * Spec.total (iquv 2) a b step i k +
      Spec.total (iquv 3) a b step i k * Spec.total (iquv 3) a b step i k ≤ Spec.total (iquv 0) a b step i k * Spec.total (iquv 0) a b step i k := by
  unfold Spec.total
  generalize Spec.good a b step i = l
  have key : ∀ (l : List Nat) (i0 q0 u0 v0 : Rat), 0 ≤ i0 → q0 * q0 + u0 * u0 + v0 * v0 ≤ i0 * i0 →
      let s := fun pol z => (l.map fun j => iquv pol (Spec.at' a step i j k) (Spec.at' b step i j k)).foldl (· + ·) z
      0 ≤ s 0 i0 ∧ s 1 q0 * s 1 q0 + s 2 u0 * s 2 u0 + s 3 v0 * s 3 v0 ≤ s 0 i0 * s 0 i0 := by
    intro l
    induction l with
    | nil => intro i0 q0 u0 v0 h0 h; exact ⟨h0, h⟩
    | cons j l ih =>
      intro i0 q0 u0 v0 h0 h
      simp only [List.map_cons, List.foldl_cons]
      have hp := pure (Spec.at' a step i j k) (Spec.at' b step i j k)
      have hn : 0 ≤ iquv 0 (Spec.at' a step i j k) (Spec.at' b step i j k) := by
        have := norm_nonneg (Spec.at' a step i j k)
        have := norm_nonneg (Spec.at' b step i j k)
        show 0 ≤ Cx.norm _ + Cx.norm _
        grind
      apply ih
      · grind
      · apply triangle _ _ _ _ _ _ _ _ h0 hn h
        rw [hp]; exact Rat.le_refl
  exact key l 0 0 0 0 (by decide +kernel) (by decide +kernel)

/-- A power spectrum is not negative. -/
theorem C75_power (a b : Args Cx) (step i k : Nat) : 0 ≤ Spec.total (power 0) a b step i k := by
  unfold Spec.total
  generalize Spec.good a b step i = l
  have key : ∀ (l : List Nat) (z : Rat), 0 ≤ z → 0 ≤ (l.map fun j => power 0 (Spec.at' a step i j k) (Spec.at' b step i j k)).foldl (· + ·) z := by
    intro l
    induction l with
    | nil => exact fun z hz => hz
    | cons j l ih =>
      intro z hz
      rw [List.map_cons, List.foldl_cons]
      apply ih
      have := norm_nonneg (Spec.at' a step i j k)
      unfold power
      grind
  exact key l 0 (by decide +kernel)

/-! ## Examples -/

/-- `exp(2πi x)` at multiples of a quarter. -/
def quarter (x : Rat) : Cx :=
  match ((4 * x).floor % 4).toNat with
  | 0 => ⟨1, 0⟩
  | 1 => ⟨0, 1⟩
  | 2 => ⟨-1, 0⟩
  | _ => ⟨0, -1⟩

/-- One stand, transforms of `n` samples with an overlap of `o`. -/
def args (n N : Nat) (o : Int) (data : List Cx) : Args Cx where
  real := false
  nStand := 1
  nSamps := N
  nChan := n
  nTap := 1
  overlap := o
  sr := 1
  data := data
  freq := fun _ => 0
  delay := fun _ _ => 0
  window := none
  over := fun x => decide (100 ≤ Cx.norm x)
  e := quarter
  g := 1

/-- A wave of frequency 1/4 in eight samples, the last of them clipped: only the first window counts. -/
def tone : Args Cx := args 4 8 1 [⟨1, 0⟩, ⟨0, 1⟩, ⟨-1, 0⟩, ⟨0, -1⟩, ⟨1, 0⟩, ⟨0, 1⟩, ⟨-1, 0⟩, ⟨0, -10⟩]

theorem tone_ok : Ok (still tone) 4 1 where
  size := rfl
  steps := by decide
  pos := by decide
  overlap := rfl
  divides := rfl
  taps := by decide
  window := by intro w h; cases h

/-- The power is in channel 3 of -2, -1, 0 and 1 quarters: the sum is 16, over 4 samples times one window. -/
example : spec tone = .ok [(0, 4), (0, 4), (0, 4), (16, 4)] := by decide +kernel
example : stokes tone 1 8 (tone.data.map (fun z => z * Cx.I)) =
    .ok [(0, 4), (0, 4), (0, 4), (32, 4), (0, 4), (0, 4), (0, 4), (0, 4), (0, 4), (0, 4), (0, 4), (0, 4), (0, 4), (0, 4), (0, 4), (-32, 4)] := by
  decide +kernel

theorem quarter_eq (p : Int) : quarter ((p : Rat) / (4 : Nat)) =
    match (p % 4).toNat with | 0 => ⟨1, 0⟩ | 1 => ⟨0, 1⟩ | 2 => ⟨-1, 0⟩ | _ => ⟨0, -1⟩ := by
  unfold quarter
  rw [show 4 * ((p : Rat) / (4 : Nat)) = (p : Rat) by
    have : ((4 : Nat) : Rat) = 4 := rfl
    rw [this]; grind, Rat.floor_intCast]

/-- `quarter` has the properties for transforms of 4 samples. -/
theorem quarter_roots : Roots 4 quarter Cx.conj where
  add p r := by
    rw [quarter_eq, quarter_eq, quarter_eq]
    have hp : p % 4 = 0 ∨ p % 4 = 1 ∨ p % 4 = 2 ∨ p % 4 = 3 := by omega
    have hr : r % 4 = 0 ∨ r % 4 = 1 ∨ r % 4 = 2 ∨ r % 4 = 3 := by omega
    rw [Int.add_emod]
    rcases hp with h | h | h | h <;> rcases hr with h' | h' | h' | h' <;> rw [h, h'] <;> decide +kernel
  conj p := by
    rw [quarter_eq, quarter_eq]
    have hp : (p % 4 = 0 ∧ -p % 4 = 0) ∨ (p % 4 = 1 ∧ -p % 4 = 3) ∨ (p % 4 = 2 ∧ -p % 4 = 2) ∨ (p % 4 = 3 ∧ -p % 4 = 1) := by omega
    rcases hp with h | h | h | h <;> rw [h.1, h.2] <;> decide +kernel
  sum m := by
    simp only [sumN, quarter_eq]
    have hm : (m % 4 = 0 ∧ ((4 : Nat) : Int) ∣ m) ∨ (m % 4 = 1 ∧ ¬((4 : Nat) : Int) ∣ m) ∨ (m % 4 = 2 ∧ ¬((4 : Nat) : Int) ∣ m) ∨ (m % 4 = 3 ∧ ¬((4 : Nat) : Int) ∣ m) := by
      omega
    rcases hm with ⟨h, h'⟩ | ⟨h, h'⟩ | ⟨h, h'⟩ | ⟨h, h'⟩
    · rw [if_pos h', Int.mul_emod, h, Int.mul_emod m, h, Int.mul_emod m, h, Int.mul_emod m, h]; decide +kernel
    · rw [if_neg h', Int.mul_emod, h, Int.mul_emod m, h, Int.mul_emod m, h, Int.mul_emod m, h]; decide +kernel
    · rw [if_neg h', Int.mul_emod, h, Int.mul_emod m, h, Int.mul_emod m, h, Int.mul_emod m, h]; decide +kernel
    · rw [if_neg h', Int.mul_emod, h, Int.mul_emod m, h, Int.mul_emod m, h, Int.mul_emod m, h]; decide +kernel

example : IsConj Cx.conj := ⟨Cx.conj_add, Cx.conj_mul⟩
example : stokes tone 1 7 tone.data = .error .refused := by decide +kernel

/-- No window, or none without a clipped sample: 0 divided by 0 in all channels. -/
theorem C75_not_number : spec (args 4 3 1 [1, 1, 1]) = .ok [(0, 0), (0, 0), (0, 0), (0, 0)] ∧
    spec (args 2 2 1 [⟨10, 0⟩, 1]) = .ok [(0, 0), (0, 0)] := by decide +kernel

/-- An overlap that does not divide the length of the transform: samples beyond the end are read. -/
theorem C75_not_inside : spec (args 4 7 3 (List.replicate 7 1)) = .error .ub ∧ (args 4 7 3 (List.replicate 7 1)).nChan % 2 = 0 := by decide +kernel

/-- Real data of 12 samples with an overlap of 3 and transforms of 4: windows are counted in steps of 1. -/
theorem C75_not_inside_real : spec { args 2 12 3 (List.replicate 12 1) with real := true } = .error .ub := by decide +kernel

end Verif.PSD
