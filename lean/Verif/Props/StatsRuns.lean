import Verif.Props.Stats
import Mathlib.Tactic.FieldSimp
import Mathlib.Tactic.Ring
import Mathlib.Tactic.LinearCombination
import Mathlib.Tactic.Linarith
import Mathlib.Tactic.Positivity
import Mathlib.Data.Nat.Choose.Basic
import Mathlib.Data.Nat.Cast.Order.Ring
import Mathlib.Algebra.Order.Ring.Rat
/-!
# C84: the mean and the variance of the number of runs are those over all arrangements
-/
namespace Verif.Stats
open Spec

/-- The list of arrangements has each of them. -/
theorem C84_arrangements (p q : Nat) (l : List Bool) :
    l ∈ arrangements p q ↔ l.count true = p ∧ l.count false = q := by
  induction l generalizing p q with
  | nil =>
    match p, q with
    | 0, 0 => simp [arrangements]
    | p + 1, 0 => simp [arrangements]
    | 0, q + 1 => simp [arrangements]
    | p + 1, q + 1 => simp [arrangements]
  | cons a l ih =>
    match p, q with
    | 0, 0 => cases a <;> simp [arrangements]
    | p + 1, 0 => cases a <;> simp [arrangements, ih]
    | 0, q + 1 => cases a <;> simp [arrangements, ih]
    | p + 1, q + 1 => cases a <;> simp [arrangements, ih]

/-- Once each. -/
theorem C84_arrangements_nodup (p q : Nat) : (arrangements p q).Nodup := by
  match p, q with
  | 0, 0 => simp [arrangements]
  | p + 1, 0 =>
    rw [arrangements]
    exact (C84_arrangements_nodup p 0).map (fun a b h => by simpa using h)
  | 0, q + 1 =>
    rw [arrangements]
    exact (C84_arrangements_nodup 0 q).map (fun a b h => by simpa using h)
  | p + 1, q + 1 =>
    rw [arrangements]
    refine List.Nodup.append ((C84_arrangements_nodup p (q + 1)).map (fun a b h => by simpa using h))
      ((C84_arrangements_nodup (p + 1) q).map (fun a b h => by simpa using h)) ?_
    intro x hx hy
    simp at hx hy
    obtain ⟨_, _, rfl⟩ := hx
    obtain ⟨_, _, h⟩ := hy
    simp at h

/-- The sum of something over all arrangements. -/
def total (f : List Bool → ℚ) (p q : Nat) : ℚ := ((arrangements p q).map f).sum

/-- How many there are. -/
def W (p q : Nat) : ℚ := total (fun _ => 1) p q

theorem sum_map_add (l : List (List Bool)) (f g : List Bool → ℚ) :
    (l.map fun x => f x + g x).sum = (l.map f).sum + (l.map g).sum := by
  induction l with
  | nil => simp
  | cons a l ih => simp only [List.map_cons, List.sum_cons, ih]; ring

theorem sum_map_mul (l : List (List Bool)) (c : ℚ) (f : List Bool → ℚ) :
    (l.map fun x => c * f x).sum = c * (l.map f).sum := by
  induction l with
  | nil => simp
  | cons a l ih => simp only [List.map_cons, List.sum_cons, ih]; ring

theorem total_add (f g : List Bool → ℚ) (p q : Nat) : total (fun x => f x + g x) p q = total f p q + total g p q :=
  sum_map_add _ f g

theorem total_mul (c : ℚ) (f : List Bool → ℚ) (p q : Nat) : total (fun x => c * f x) p q = c * total f p q :=
  sum_map_mul _ c f

theorem total_succ (f : List Bool → ℚ) (p q : Nat) : total f (p + 1) (q + 1) =
    total (fun l => f (true :: l)) p (q + 1) + total (fun l => f (false :: l)) (p + 1) q := by
  simp [total, arrangements, Function.comp_def]

theorem total_left (f : List Bool → ℚ) (p : Nat) : total f (p + 1) 0 = total (fun l => f (true :: l)) p 0 := by
  simp [total, arrangements, Function.comp_def]

theorem total_right (f : List Bool → ℚ) (q : Nat) : total f 0 (q + 1) = total (fun l => f (false :: l)) 0 q := by
  simp [total, arrangements, Function.comp_def]

theorem W_zero (p : Nat) : W p 0 = 1 ∧ W 0 p = 1 := by
  unfold W
  induction p with
  | zero => simp [total, arrangements]
  | succ p ih => rw [total_left, total_right]; exact ih

theorem W_succ (p q : Nat) : W (p + 1) (q + 1) = W p (q + 1) + W (p + 1) q := total_succ _ p q

/-- There are as many arrangements as there are choices. -/
theorem C84_choose (p q : Nat) : ((arrangements p q).length : ℚ) = (p + q).choose p := by
  have e : ∀ p q, W p q = (p + q).choose p := by
    intro p q
    induction p generalizing q with
    | zero => rw [(W_zero q).2]; simp
    | succ p ihp =>
      induction q with
      | zero => rw [(W_zero _).1]; simp
      | succ q ihq =>
        rw [W_succ, ihp, ihq, show p + 1 + (q + 1) = (p + 1 + q) + 1 by omega, Nat.choose_succ_succ,
          show p + (q + 1) = p + 1 + q by omega]
        push_cast; rfl
  rw [← e]
  simp [W, total]

/-- A fraction of the arrangements start with one value. -/
theorem W_ratio (p q : Nat) : ((p : ℚ) + 1) * W (p + 1) q = (p + 1 + q) * W p q ∧
    ((q : ℚ) + 1) * W p (q + 1) = (p + q + 1) * W p q := by
  have h : ∀ n, ∀ p q : Nat, p + q = n → ((p : ℚ) + 1) * W (p + 1) q = (p + 1 + q) * W p q ∧
      ((q : ℚ) + 1) * W p (q + 1) = (p + q + 1) * W p q := by
    intro n
    induction n with
    | zero =>
      intro p q h
      obtain ⟨rfl, rfl⟩ : p = 0 ∧ q = 0 := by omega
      simp [W_zero]
    | succ n ih =>
      intro p q h
      match p, q with
      | 0, 0 => omega
      | p + 1, 0 =>
        have h1 := (ih p 0 (by omega)).2
        rw [W_succ, (W_zero _).1, (W_zero _).1]
        rw [(W_zero _).1] at h1
        push_cast at h1 ⊢
        exact ⟨by ring, by linear_combination h1⟩
      | 0, q + 1 =>
        have h1 := (ih 0 q (by omega)).1
        rw [W_succ, (W_zero _).2, (W_zero _).2]
        rw [(W_zero _).2] at h1
        push_cast at h1 ⊢
        exact ⟨by linear_combination h1, by ring⟩
      | p + 1, q + 1 =>
        have h1 := ih p (q + 1) (by omega)
        have h2 := ih (p + 1) q (by omega)
        rw [W_succ (p + 1) q, W_succ p (q + 1)]
        push_cast at h1 h2 ⊢
        constructor
        · linear_combination h2.1 - h2.2
        · linear_combination h1.2 - h1.1
  exact h _ p q rfl

theorem W_down (p q : Nat) : ((p : ℚ) + q + 2) * W p (q + 1) = (p + 1) * W (p + 1) (q + 1) ∧
    ((p : ℚ) + q + 2) * W (p + 1) q = (q + 1) * W (p + 1) (q + 1) := by
  have h1 := (W_ratio p (q + 1)).1
  have h2 := (W_ratio (p + 1) q).2
  push_cast at h1 h2
  exact ⟨by linear_combination -h1, by linear_combination -h2⟩

/-- The first and second moments of the changes after a first value. -/
def A1 (p q : Nat) : ℚ := total (fun l => (changes (true :: l) : ℚ)) p q
def B1 (p q : Nat) : ℚ := total (fun l => (changes (false :: l) : ℚ)) p q
def A2 (p q : Nat) : ℚ := total (fun l => (changes (true :: l) : ℚ) ^ 2) p q
def B2 (p q : Nat) : ℚ := total (fun l => (changes (false :: l) : ℚ) ^ 2) p q

theorem changes_same (b : Bool) (l : List Bool) : (changes (b :: b :: l) : ℚ) = changes (b :: l) := by
  rw [changes_cons]; cases b <;> simp [change]

theorem changes_diff (b c : Bool) (h : b ≠ c) (l : List Bool) :
    (changes (b :: c :: l) : ℚ) = changes (c :: l) + 1 := by
  rw [changes_cons]; cases b <;> cases c <;> simp_all [change] <;> ring

theorem A1_succ (p q : Nat) : A1 (p + 1) (q + 1) = A1 p (q + 1) + (B1 (p + 1) q + W (p + 1) q) := by
  unfold A1 B1 W
  rw [total_succ, ← total_add]
  simp only [changes_same, changes_diff true false (by decide)]

theorem B1_succ (p q : Nat) : B1 (p + 1) (q + 1) = (A1 p (q + 1) + W p (q + 1)) + B1 (p + 1) q := by
  unfold A1 B1 W
  rw [total_succ, ← total_add]
  simp only [changes_same, changes_diff false true (by decide)]

theorem A2_succ (p q : Nat) :
    A2 (p + 1) (q + 1) = A2 p (q + 1) + (B2 (p + 1) q + 2 * B1 (p + 1) q + W (p + 1) q) := by
  unfold A2 B2 B1 W
  rw [total_succ, ← total_mul, ← total_add, ← total_add]
  simp only [changes_same, changes_diff true false (by decide)]
  congr 1
  congr 1
  funext l
  ring

theorem B2_succ (p q : Nat) :
    B2 (p + 1) (q + 1) = (A2 p (q + 1) + 2 * A1 p (q + 1) + W p (q + 1)) + B2 (p + 1) q := by
  unfold A2 B2 A1 W
  rw [total_succ, ← total_mul, ← total_add, ← total_add]
  simp only [changes_same, changes_diff false true (by decide)]
  congr 1
  congr 1
  funext l
  ring

theorem edge (p : Nat) : A1 p 0 = 0 ∧ B1 0 p = 0 ∧ A2 p 0 = 0 ∧ B2 0 p = 0 := by
  unfold A1 B1 A2 B2
  induction p with
  | zero => simp [total, arrangements, changes]
  | succ p ih =>
    rw [total_left, total_right, total_left, total_right]
    simp only [changes_same]
    exact ih

theorem edge' (p : Nat) : A1 0 (p + 1) = 1 ∧ B1 (p + 1) 0 = 1 ∧ A2 0 (p + 1) = 1 ∧ B2 (p + 1) 0 = 1 := by
  have h := edge p
  have w := W_zero p
  unfold A1 B1 A2 B2 at *
  unfold W at w
  rw [total_left, total_right, total_left, total_right]
  simp only [changes_diff true false (by decide), changes_diff false true (by decide)]
  have e : ∀ x : ℚ, (x + 1) ^ 2 = x ^ 2 + 2 * x + 1 := fun x => by ring
  simp only [e, total_add, total_mul, h, w]
  norm_num

theorem first_moment (n : Nat) : ∀ p q : Nat, p + q = n → ((p : ℚ) + q) * A1 p q = W p q * (q * (2 * p + 1)) ∧
    ((p : ℚ) + q) * B1 p q = W p q * (p * (2 * q + 1)) := by
  induction n with
  | zero =>
    intro p q h
    obtain ⟨rfl, rfl⟩ : p = 0 ∧ q = 0 := by omega
    simp
  | succ n ih =>
    intro p q h
    match p, q with
    | 0, 0 => omega
    | p + 1, 0 => simp [edge, edge', W_zero]
    | 0, q + 1 => simp [edge, edge', W_zero]
    | p + 1, q + 1 =>
      have h1 := (ih p (q + 1) (by omega)).1
      have h2 := (ih (p + 1) q (by omega)).2
      have w := W_down p q
      rw [A1_succ, B1_succ]
      have hn : ((p : ℚ) + q + 1) ≠ 0 := by positivity
      have hm : ((p : ℚ) + q + 2) ≠ 0 := by positivity
      generalize W (p + 1) (q + 1) = w0 at *
      have w1 : W p (q + 1) = (p + 1) * w0 / (p + q + 2) := by rw [eq_div_iff hm]; linear_combination w.1
      have w2 : W (p + 1) q = (q + 1) * w0 / (p + q + 2) := by rw [eq_div_iff hm]; linear_combination w.2
      push_cast at h1 h2 ⊢
      have a1 : A1 p (q + 1) = W p (q + 1) * ((q + 1) * (2 * p + 1)) / (p + q + 1) := by
        rw [eq_div_iff hn]; linear_combination h1
      have b1 : B1 (p + 1) q = W (p + 1) q * ((p + 1) * (2 * q + 1)) / (p + q + 1) := by
        rw [eq_div_iff hn]; linear_combination h2
      rw [a1, b1, w1, w2]
      constructor
      · field_simp; ring
      · field_simp; ring

/-- The polynomial of the second moment. -/
def P2 (p q : ℚ) : ℚ := 4 * p ^ 2 * q ^ 2 + 4 * p * q ^ 2 - 3 * p * q + q ^ 2 - q

theorem second_moment (n : Nat) : ∀ p q : Nat, p + q = n →
    ((p : ℚ) + q) * (p + q - 1) * A2 p q = W p q * P2 p q ∧
    ((p : ℚ) + q) * (p + q - 1) * B2 p q = W p q * P2 q p := by
  induction n with
  | zero =>
    intro p q h
    obtain ⟨rfl, rfl⟩ : p = 0 ∧ q = 0 := by omega
    simp [P2]
  | succ n ih =>
    intro p q h
    match p, q with
    | 0, 0 => omega
    | p + 1, 0 => simp [edge, edge', W_zero, P2]; ring
    | 0, q + 1 => simp [edge, edge', W_zero, P2]; ring
    | p + 1, q + 1 =>
      by_cases h0 : p = 0 ∧ q = 0
      · obtain ⟨rfl, rfl⟩ := h0
        rw [A2_succ, B2_succ, W_succ]
        simp [edge', W_zero, P2]; norm_num
      have hp : ((p : ℚ) + q) ≠ 0 := by
        have : (0 : ℚ) < ((p + q : Nat) : ℚ) := by exact_mod_cast (by omega : 0 < p + q)
        push_cast at this
        exact ne_of_gt this
      have h1 := (ih p (q + 1) (by omega)).1
      have h2 := (ih (p + 1) q (by omega)).2
      have f1 := (first_moment _ p (q + 1) rfl).1
      have f2 := (first_moment _ (p + 1) q rfl).2
      have w := W_down p q
      rw [A2_succ, B2_succ]
      have hn : ((p : ℚ) + q + 1) ≠ 0 := by positivity
      have hm : ((p : ℚ) + q + 2) ≠ 0 := by positivity
      generalize W (p + 1) (q + 1) = w0 at *
      have w1 : W p (q + 1) = (p + 1) * w0 / (p + q + 2) := by rw [eq_div_iff hm]; linear_combination w.1
      have w2 : W (p + 1) q = (q + 1) * w0 / (p + q + 2) := by rw [eq_div_iff hm]; linear_combination w.2
      push_cast at h1 h2 f1 f2 ⊢
      have a1 : A1 p (q + 1) = W p (q + 1) * ((q + 1) * (2 * p + 1)) / (p + q + 1) := by
        rw [eq_div_iff hn]; linear_combination f1
      have b1 : B1 (p + 1) q = W (p + 1) q * ((p + 1) * (2 * q + 1)) / (p + q + 1) := by
        rw [eq_div_iff hn]; linear_combination f2
      have hnp : ((p : ℚ) + q + 1) * (p + q) ≠ 0 := mul_ne_zero hn hp
      have a2 : A2 p (q + 1) = W p (q + 1) * P2 p (q + 1) / ((p + q + 1) * (p + q)) := by
        rw [eq_div_iff hnp]; linear_combination h1
      have b2 : B2 (p + 1) q = W (p + 1) q * P2 q (p + 1) / ((p + q + 1) * (p + q)) := by
        rw [eq_div_iff hnp]; linear_combination h2
      rw [a1, b1, a2, b2, w1, w2]
      unfold P2
      constructor
      · field_simp; ring
      · field_simp; ring

theorem total_changes (p q : Nat) :
    total (fun l => (changes l : ℚ)) (p + 1) (q + 1) = A1 p (q + 1) + B1 (p + 1) q := total_succ _ p q

/-- The mean of line 69 is the average of the number of runs over all the arrangements of the data. -/
theorem C84_mean (p q : Nat) (h : 1 ≤ p + q) :
    ((arrangements p q).map fun l => ((countRuns l).1 : ℚ)).sum = (arrangements p q).length * meanRuns p q := by
  have e : ((arrangements p q).map fun l => ((countRuns l).1 : ℚ)).sum = total (fun l => 1 + (changes l : ℚ)) p q := by
    simp [total, countRuns]
  have ew : ((arrangements p q).length : ℚ) = W p q := by simp [W, total]
  rw [e, ew, total_add]
  unfold meanRuns
  match p, q with
  | 0, 0 => omega
  | p + 1, 0 =>
    rw [total_left (fun l => (changes l : ℚ))]
    have := (edge p).1; unfold A1 at this
    have w := (W_zero (p + 1)).1; unfold W at *
    rw [this, w]; simp
  | 0, q + 1 =>
    rw [total_right (fun l => (changes l : ℚ))]
    have := (edge q).2.1; unfold B1 at this
    have w := (W_zero (q + 1)).2; unfold W at *
    rw [this, w]; simp
  | p + 1, q + 1 =>
    rw [total_changes]
    have f1 := (first_moment _ p (q + 1) rfl).1
    have f2 := (first_moment _ (p + 1) q rfl).2
    have w := W_down p q
    have hn : ((p : ℚ) + q + 1) ≠ 0 := by positivity
    have hm : ((p : ℚ) + q + 2) ≠ 0 := by positivity
    change W (p + 1) (q + 1) + _ = _
    generalize W (p + 1) (q + 1) = w0 at *
    have w1 : W p (q + 1) = (p + 1) * w0 / (p + q + 2) := by rw [eq_div_iff hm]; linear_combination w.1
    have w2 : W (p + 1) q = (q + 1) * w0 / (p + q + 2) := by rw [eq_div_iff hm]; linear_combination w.2
    push_cast at f1 f2 ⊢
    have a1 : A1 p (q + 1) = W p (q + 1) * ((q + 1) * (2 * p + 1)) / (p + q + 1) := by
      rw [eq_div_iff hn]; linear_combination f1
    have b1 : B1 (p + 1) q = W (p + 1) q * ((p + 1) * (2 * q + 1)) / (p + q + 1) := by
      rw [eq_div_iff hn]; linear_combination f2
    rw [a1, b1, w1, w2]
    have hk : ((p : ℚ) + 1 + (q + 1)) ≠ 0 := by positivity
    field_simp; ring

/-- The variance of line 70 is the average of the square of the difference from the mean. -/
theorem C84_variance (p q : Nat) (h : 2 ≤ p + q) :
    ((arrangements p q).map fun l => (((countRuns l).1 : ℚ) - meanRuns p q) ^ 2).sum =
      (arrangements p q).length * varRuns p q := by
  have hmean := C84_mean p q (by omega)
  have e : ((arrangements p q).map fun l => (((countRuns l).1 : ℚ) - meanRuns p q) ^ 2).sum =
      total (fun l => (changes l : ℚ) ^ 2) p q + 2 * (1 - meanRuns p q) * total (fun l => (changes l : ℚ)) p q +
        (1 - meanRuns p q) ^ 2 * W p q := by
    unfold W
    rw [← total_mul, ← total_mul, ← total_add, ← total_add]
    unfold total
    congr 1
    apply List.map_congr_left
    intro l _
    simp only [countRuns]
    push_cast
    ring
  have ew : ((arrangements p q).length : ℚ) = W p q := by simp [W, total]
  have et : total (fun l => (changes l : ℚ)) p q = W p q * (meanRuns p q - 1) := by
    have e1 : ((arrangements p q).map fun l => ((countRuns l).1 : ℚ)).sum =
        total (fun l => 1 + (changes l : ℚ)) p q := by
      simp [total, countRuns]
    rw [e1, ew, total_add] at hmean
    change W p q + _ = _ at hmean
    linear_combination hmean
  rw [e, ew, et]
  match p, q with
  | 0, 0 => omega
  | p + 1, 0 =>
    rw [total_left]
    have := (edge p).2.2.1; unfold A2 at this
    rw [this, (W_zero (p + 1)).1]; simp [meanRuns, varRuns]
  | 0, q + 1 =>
    rw [total_right]
    have := (edge q).2.2.2; unfold B2 at this
    rw [this, (W_zero (q + 1)).2]; simp [meanRuns, varRuns]
  | p + 1, q + 1 =>
    have es : total (fun l => (changes l : ℚ) ^ 2) (p + 1) (q + 1) = A2 p (q + 1) + B2 (p + 1) q := total_succ _ p q
    rw [es]
    have h1 := (second_moment _ p (q + 1) rfl).1
    have h2 := (second_moment _ (p + 1) q rfl).2
    have w := W_down p q
    have hn : ((p : ℚ) + q + 1) ≠ 0 := by positivity
    have hm : ((p : ℚ) + q + 2) ≠ 0 := by positivity
    generalize W (p + 1) (q + 1) = w0 at *
    have w1 : W p (q + 1) = (p + 1) * w0 / (p + q + 2) := by rw [eq_div_iff hm]; linear_combination w.1
    have w2 : W (p + 1) q = (q + 1) * w0 / (p + q + 2) := by rw [eq_div_iff hm]; linear_combination w.2
    by_cases h0 : p = 0 ∧ q = 0
    · obtain ⟨rfl, rfl⟩ := h0
      rw [(edge' 0).2.2.1, (edge' 0).2.2.2]
      simp [W_zero] at w1
      simp [meanRuns, varRuns]
      linarith
    have hp : ((p : ℚ) + q) ≠ 0 := by
      have : (0 : ℚ) < ((p + q : Nat) : ℚ) := by exact_mod_cast (by omega : 0 < p + q)
      push_cast at this
      exact ne_of_gt this
    have hnp : ((p : ℚ) + q + 1) * (p + q) ≠ 0 := mul_ne_zero hn hp
    push_cast at h1 h2
    have a2 : A2 p (q + 1) = W p (q + 1) * P2 p (q + 1) / ((p + q + 1) * (p + q)) := by
      rw [eq_div_iff hnp]; linear_combination h1
    have b2 : B2 (p + 1) q = W (p + 1) q * P2 q (p + 1) / ((p + q + 1) * (p + q)) := by
      rw [eq_div_iff hnp]; linear_combination h2
    rw [a2, b2, w1, w2]
    unfold P2 meanRuns varRuns
    push_cast
    have hk : ((p : ℚ) + 1 + (q + 1)) ≠ 0 := by positivity
    have hk' : ((p : ℚ) + 1 + (q + 1) - 1) ≠ 0 := by
      rw [show ((p : ℚ) + 1 + (q + 1) - 1) = p + q + 1 by ring]; exact hn
    field_simp
    ring

example : arrangements 1 2 = [[true, false, false], [false, true, false], [false, false, true]] := by simp [arrangements]
example : meanRuns 1 2 = 7 / 3 ∧ varRuns 1 2 = 2 / 9 := by decide +kernel

end Verif.Stats
