import Verif.Model.Dedisp
import Verif.Spec.Dedisp
import Verif.Lemmas.CMem
/-!
# Lemmas on dedispersion
-/
namespace Verif.Dedisp
open Verif.CMem
open Lean.Grind (CommRing)

/-! ## Sums -/

section sums
variable {C : Type} [CommRing C]

theorem sumN_split (n m : Nat) (f : Nat → C) : sumN (n + m) f = sumN n f + sumN m (fun t => f (n + t)) := by
  induction m with
  | zero => simp only [sumN, Nat.add_zero]; grind
  | succ m ih => rw [← Nat.add_assoc]; simp only [sumN, ih]; grind

/-- A sum of terms that are zero outside `a, ..., a+m-1`. -/
theorem sumN_window (N a m : Nat) (h : a + m ≤ N) (f : Nat → C) (h1 : ∀ q, q < a → f q = 0) (h2 : ∀ q, a + m ≤ q → q < N → f q = 0) :
    sumN N f = sumN m (fun j => f (a + j)) := by
  obtain ⟨r, rfl⟩ := Nat.exists_eq_add_of_le h
  rw [sumN_split, sumN_split]
  have e1 : sumN a f = 0 := by rw [sumN_congr _ _ _ h1, sumN_zero]
  have e2 : sumN r (fun t => f (a + m + t)) = 0 := by
    rw [sumN_congr _ _ _ (fun t ht => h2 (a + m + t) (by omega) (by omega)), sumN_zero]
  rw [e1, e2]; grind

theorem sumN_back (n : Nat) (f : Nat → C) : sumN n (fun t => f (n - 1 - t)) = sumN n f := by
  induction n generalizing f with
  | zero => rfl
  | succ n ih =>
    rw [sumN_front]
    have e0 : f (n + 1 - 1 - 0) = f n := by congr 1
    rw [e0]
    have : sumN n (fun t => f (n + 1 - 1 - (t + 1))) = sumN n f := by
      rw [← ih f]
      apply sumN_congr
      intro t ht
      congr 1; omega
    rw [this]
    simp only [sumN]; grind

end sums

/-! ## Exponentials -/

section exp
variable {C : Type} [CommRing C] {e : Rat → C}

theorem exp_nat (h : Spec.Exp e) (n : Nat) : e (n : Rat) = 1 := by
  induction n with
  | zero =>
    have := h.add 0 1
    rw [h.one] at this
    have e0 : (0 : Rat) + 1 = 1 := by grind
    rw [e0, h.one] at this
    have z : ((0 : Nat) : Rat) = 0 := rfl
    rw [z]; grind
  | succ n ih =>
    have c : ((n + 1 : Nat) : Rat) = (n : Rat) + 1 := by push_cast; rfl
    rw [c, h.add, ih, h.one]; grind

theorem exp_int (h : Spec.Exp e) (n : Int) : e (n : Rat) = 1 := by
  rcases Int.le_total 0 n with hn | hn
  · obtain ⟨m, rfl⟩ := Int.eq_ofNat_of_zero_le hn
    exact exp_nat h m
  · obtain ⟨m, hm⟩ := Int.eq_ofNat_of_zero_le (show 0 ≤ -n by omega)
    have hn' : n = -(m : Int) := by omega
    have s := h.add (n : Rat) (m : Rat)
    have z : (n : Rat) + (m : Rat) = ((0 : Nat) : Rat) := by
      rw [hn']
      have : ((-(m : Int) : Int) : Rat) = -(m : Rat) := by push_cast; rfl
      rw [this]
      have : ((0 : Nat) : Rat) = 0 := rfl
      grind
    rw [z, exp_nat h 0, exp_nat h m] at s
    grind

theorem exp_shift (h : Spec.Exp e) (x : Rat) (n : Int) : e (x + n) = e x := by
  rw [h.add, exp_int h]; grind

theorem kernel_period (h : Spec.Exp e) (inv : C) (chirp : List C) (d : Int) :
    Spec.kernel e inv chirp (d + chirp.length) = Spec.kernel e inv chirp d := by
  unfold Spec.kernel
  apply congrArg
  apply sumN_congr
  intro k hk
  apply congrArg
  have : (((k : Int) * (d + chirp.length) : Int) : Rat) / (chirp.length : Rat) = ((k * d : Int) : Rat) / chirp.length + ((k : Int) : Rat) := by
    have n0 : (chirp.length : Rat) ≠ 0 := by
      intro x
      have : chirp.length = 0 := by exact_mod_cast x
      omega
    push_cast
    grind
  rw [this, exp_shift h]

end exp

/-! ## Arrays -/

section arrays
variable {α : Type}

theorem assign_len (n : Nat) (s : List α) (h : s.length = n) : assign n s = some s := by simp [assign, h]

theorem drop_take_get (x : List α) (a n q : Nat) (h : q < n) : ((x.drop a).take n)[q]? = x[a + q]? := by
  rw [List.getElem?_take, if_pos h, List.getElem?_drop]

/-- Enough samples before and after. -/
structure Enough (N : Nat) (x : List α) (prev next : Option (List α)) : Prop where
  before : ∀ p, prev = some p → N / 4 ≤ p.length
  after : ∀ q, next = some q → 3 * (N / 4) ≤ q.length + x.length % N

theorem sig_in (z : α) (x : List α) (prev next : Option (List α)) (n : Nat) (h : n < x.length) :
    x[n]? = some (Spec.sig z x prev next (n : Int)) := by
  unfold Spec.sig
  rw [if_neg (by omega), if_pos (by omega), List.getElem?_eq_getElem h]
  simp [h]

theorem window_spec (z : α) (M size : Nat) (x : List α) (prev next : Option (List α)) (hx : x.length = size) (hM : 0 < M)
    (hs : 4 * M ≤ size) (hE : Enough (4 * M) x prev next) (i : Nat) (hi : i ≤ 2 * (size / (4 * M))) :
    ∃ w, window z (4 * M) size x prev next i = some w ∧ w.length = 4 * M
      ∧ ∀ q, q < 4 * M → w[q]? = some (Spec.sig z x prev next ((2 * M * i : Nat) - (M : Int) + q)) := by
  have e2 : 4 * M / 2 = 2 * M := by omega
  have e4 : 4 * M / 4 = M := by omega
  unfold window
  simp only [e2, e4]
  by_cases h0 : i = 0
  · subst h0
    rw [if_pos (by omega)]
    have es : (-(((2 * M * 0 : Nat) : Int) - (M : Int))).toNat = M := by omega
    simp only [es]
    have hd : ∃ hd, before z M prev = some hd ∧ hd.length = M
        ∧ ∀ q, q < M → hd[q]? = some (Spec.sig z x prev next (-(M : Int) + q)) := by
      cases prev with
      | none =>
        refine ⟨_, rfl, by simp, ?_⟩
        intro q hq
        unfold Spec.sig
        rw [if_pos (by omega)]
        simp [hq]
      | some p =>
        have hp := hE.before p rfl
        rw [e4] at hp
        have hl : (p.drop (p.length - M)).length = M := by simp; omega
        refine ⟨_, assign_len _ _ hl, hl, ?_⟩
        intro q hq
        unfold Spec.sig
        rw [if_pos (by omega)]
        simp only
        rw [if_neg (by omega), List.getElem?_drop]
        have : ((p.length : Int) + (-(M : Int) + q)).toNat = p.length - M + q := by omega
        rw [this, List.getElem?_eq_getElem (by omega)]
        simp [show p.length - M + q < p.length by omega]
    obtain ⟨hd, e1, l1, g1⟩ := hd
    have hl : (x.take (4 * M - M)).length = 4 * M - M := by simp; omega
    rw [e1, assign_len _ _ hl]
    refine ⟨_, rfl, by simp [l1]; omega, ?_⟩
    intro q hq
    have e : ((2 * M * 0 : Nat) : Int) - (M : Int) + q = -(M : Int) + q := by omega
    rw [e]
    by_cases hq' : q < M
    · rw [List.getElem?_append_left (by omega), g1 q hq']
    · rw [List.getElem?_append_right (by omega), l1, List.getElem?_take, if_pos (by omega), sig_in z x prev next _ (by omega)]
      congr 2
      omega
  · obtain ⟨j, rfl⟩ := Nat.exists_eq_succ_of_ne_zero h0
    have em : 2 * M * (j + 1) = 2 * M * j + 2 * M := Nat.mul_succ _ _
    simp only [Nat.succ_eq_add_one] at hi ⊢
    rw [if_neg (by omega)]
    have es : (((2 * M * (j + 1) : Nat) : Int) - (M : Int)).toNat = 2 * M * j + M := by omega
    simp only [es]
    have ec : ((2 * M * (j + 1) : Nat) : Int) - (M : Int) = ((2 * M * j + M : Nat) : Int) := by omega
    simp only [ec]
    have hb : 2 * M * (j + 1) ≤ 4 * M * (size / (4 * M)) := by
      have := Nat.mul_le_mul_left (2 * M) hi
      calc 2 * M * (j + 1) ≤ 2 * M * (2 * (size / (4 * M))) := this
        _ = 4 * M * (size / (4 * M)) := by grind
    have hdiv := Nat.div_add_mod size (4 * M)
    have hmod : size % (4 * M) < 4 * M := Nat.mod_lt _ (by omega)
    have hst : 2 * M * j + M < size := by omega
    split
    · rename_i hlt
      have hd : ∃ tl, after z (4 * M - (size - (2 * M * j + M))) next = some tl
          ∧ tl.length = 4 * M - (size - (2 * M * j + M))
          ∧ ∀ q, q < 4 * M - (size - (2 * M * j + M)) → tl[q]? = some (Spec.sig z x prev next ((size : Int) + q)) := by
        cases next with
        | none =>
          refine ⟨_, rfl, by simp, ?_⟩
          intro q hq
          unfold Spec.sig
          rw [if_neg (by omega), if_neg (by omega)]
          simp [hq]
        | some p =>
          have hp := hE.after p rfl
          rw [e4, hx] at hp
          have hl : (p.take (4 * M - (size - (2 * M * j + M)))).length = 4 * M - (size - (2 * M * j + M)) := by
            simp; omega
          refine ⟨_, assign_len _ _ hl, hl, ?_⟩
          intro q hq
          unfold Spec.sig
          rw [if_neg (by omega), if_neg (by omega)]
          simp only
          have : ((size : Int) + q - x.length).toNat = q := by omega
          rw [this, List.getElem?_take, if_pos hq]
          simp at hl
          rw [List.getElem?_eq_getElem (by omega)]
          simp [show q < p.length by omega]
      obtain ⟨tl, e1, l1, g1⟩ := hd
      have hl : (x.drop (2 * M * j + M)).length = size - (2 * M * j + M) := by simp [hx]
      rw [e1, assign_len _ _ hl]
      refine ⟨_, rfl, by simp [l1, hx]; omega, ?_⟩
      intro q hq
      by_cases hq' : q < size - (2 * M * j + M)
      · rw [List.getElem?_append_left (by omega), List.getElem?_drop, sig_in z x prev next _ (by omega)]
        congr 2
      · rw [List.getElem?_append_right (by omega), hl, g1 _ (by omega)]
        congr 2
        omega
    · rename_i hge
      refine ⟨_, rfl, by simp; omega, ?_⟩
      intro q hq
      rw [drop_take_get _ _ _ _ hq, sig_in z x prev next _ (by omega)]
      congr 2

theorem place_spec (M i : Nat) (out w : List α) (hw : w.length = 4 * M) (hi : 2 * M * i ≤ out.length) :
    ∃ o, place (4 * M) i out w = some o ∧ o.length = out.length
      ∧ ∀ n, o[n]? = if 2 * M * i ≤ n ∧ n < 2 * M * i + 2 * M ∧ n < out.length then w[n - 2 * M * i + M]? else out[n]? := by
  have e2 : 4 * M / 2 = 2 * M := by omega
  have e4 : 4 * M / 4 = M := by omega
  unfold place
  simp only [e2, e4]
  have hl : ((w.drop M).take (M + 2 * M - (2 * M * i + 2 * M - out.length) - M)).length
      = 2 * M * i + 2 * M - (2 * M * i + 2 * M - out.length) - 2 * M * i := by
    simp [hw]; omega
  rw [assign_len _ _ hl]
  refine ⟨_, rfl, by simp [hw]; omega, ?_⟩
  intro n
  have l1 : (out.take (2 * M * i)).length = 2 * M * i := by simp; omega
  simp only
  by_cases h1 : n < 2 * M * i
  · rw [if_neg (by omega), List.append_assoc, List.getElem?_append_left (by omega), List.getElem?_take, if_pos h1]
  · rw [List.append_assoc, List.getElem?_append_right (by omega), l1]
    by_cases h2 : n < 2 * M * i + 2 * M ∧ n < out.length
    · rw [if_pos ⟨by omega, h2⟩, List.getElem?_append_left (by omega), drop_take_get _ _ _ _ (by omega), Nat.add_comm]
    · rw [if_neg (by omega), List.getElem?_append_right (by omega), hl, List.getElem?_drop]
      congr 1
      omega

end arrays

/-! ## The filter -/

section filter
variable {C : Type} [CommRing C] {e : Rat → C}

theorem fft_length (x : List C) : (fft e x).length = x.length := by simp [fft]

theorem filter_length (inv : C) (chirp x : List C) (h : x.length = chirp.length) : (filter e inv chirp x).length = x.length := by
  simp [filter, ifft, fft, h]

theorem sumN_mulr (c : C) (n : Nat) (f : Nat → C) : sumN n (fun t => f t * c) = sumN n f * c := by
  rw [sumN_congr n _ (fun t => c * f t) (fun t _ => by grind), sumN_mul]; grind

/-- The filter is a circular convolution. -/
theorem filter_get (h : Spec.Exp e) (inv : C) (chirp x : List C) (hl : x.length = chirp.length) (p : Nat) (hp : p < x.length) :
    (filter e inv chirp x)[p]? = some (sumN x.length fun q => x.getD q 0 * Spec.kernel e inv chirp ((p : Int) - q)) := by
  have hz : (List.zipWith (· * ·) (fft e x) chirp).length = x.length := by simp [fft, hl]
  unfold filter ifft
  rw [List.getElem?_map, List.getElem?_range (by omega), hz]
  simp only [Option.map_some]
  congr 1
  have e1 : (sumN x.length fun k => (List.zipWith (· * ·) (fft e x) chirp).getD k 0 * e (((k * p : Nat) : Rat) / x.length))
      = sumN x.length fun k => sumN x.length fun q => x.getD q 0 * (chirp.getD k 0 * e (((k * ((p : Int) - q) : Int) : Rat) / x.length)) := by
    apply sumN_congr
    intro k hk
    have g : (List.zipWith (· * ·) (fft e x) chirp).getD k 0
        = (sumN x.length fun q => x.getD q 0 * e (-((k * q : Nat) : Rat) / x.length)) * chirp.getD k 0 := by
      have hk' : k < chirp.length := by omega
      rw [List.getD_eq_getElem?_getD, List.getElem?_zipWith]
      simp [fft, hk, hk']
    rw [g, ← sumN_mulr, ← sumN_mulr]
    apply sumN_congr
    intro q _
    have a : ((((k : Int) * ((p : Int) - q) : Int)) : Rat) / (x.length : Rat) = -((k * q : Nat) : Rat) / x.length + ((k * p : Nat) : Rat) / x.length := by
      have n0 : (x.length : Rat) ≠ 0 := by
        intro h0
        have : x.length = 0 := by exact_mod_cast h0
        omega
      push_cast
      grind
    rw [a, h.add]
    grind
  rw [e1, sumN_comm]
  rw [← sumN_mul]
  apply sumN_congr
  intro q _
  unfold Spec.kernel
  rw [sumN_mul, ← hl]
  grind

/-- A short response in the middle half of a window. -/
theorem circular_lin (M : Nat) (k : Int → C) (hp : ∀ d, k (d + (4 * M : Nat)) = k d) (hs : Spec.Short (4 * M) k) (s : Int → C)
    (p : Nat) (h1 : M ≤ p) (h2 : p < 3 * M) :
    (sumN (4 * M) fun q => s q * k ((p : Int) - q)) = Spec.lin (4 * M) k s p := by
  have e2 : 4 * M / 2 = 2 * M := by omega
  have e4 : 4 * M / 4 = M := by omega
  rw [Spec.Short, e4] at hs
  rw [sumN_window (4 * M) (p - M) (2 * M + 1) (by omega)]
  · rw [← sumN_back]
    unfold Spec.lin
    rw [e2, e4]
    apply sumN_congr
    intro j hj
    have a : (p : Int) - ((p - M + (2 * M + 1 - 1 - j) : Nat) : Int) = (j : Int) - M := by omega
    have b : ((p - M + (2 * M + 1 - 1 - j) : Nat) : Int) = (p : Int) - ((j : Int) - M) := by omega
    rw [a, b]
    grind
  · intro q hq
    rw [hs _ (by omega) (by omega)]; grind
  · intro q hq hq'
    rw [← hp, hs _ (by omega) (by omega)]; grind

theorem lin_congr (M : Nat) (k s s' : Int → C) (n m : Int)
    (h : ∀ d : Int, -(M : Int) ≤ d → d ≤ M → s (n + d) = s' (m + d)) : Spec.lin (4 * M) k s n = Spec.lin (4 * M) k s' m := by
  have e2 : 4 * M / 2 = 2 * M := by omega
  have e4 : 4 * M / 4 = M := by omega
  unfold Spec.lin
  rw [e2, e4]
  apply sumN_congr
  intro j hj
  apply congrArg
  have := h (-((j : Int) - M)) (by omega) (by omega)
  rw [Int.sub_eq_add_neg, Int.sub_eq_add_neg (a := m)]
  exact this

end filter

/-! ## The loop -/

section loop
variable {C T : Type} [CommRing C]

/-- The part of the output that is computed. -/
def Done (M nSets : Nat) (prev next : Bool) (j n : Nat) : Prop :=
  n < 2 * M * j ∧ (n < 2 * M → prev = true) ∧ (4 * M * nSets ≤ n → next = true)

instance (M nSets : Nat) (prev next : Bool) (j n : Nat) : Decidable (Done M nSets prev next j n) := by
  unfold Done; infer_instance

/-- The output after `j` windows. -/
structure Inv (M nSets : Nat) (zT : T) (prev next : Bool) (size : Nat) (G : Nat → T) (F : Nat → C) (j : Nat) (out : List T × List C) : Prop where
  lenT : out.1.length = size
  lenD : out.2.length = size
  time : ∀ n, n < size → out.1[n]? = some (if Done M nSets prev next j n then G n else zT)
  data : ∀ n, n < size → out.2[n]? = some (if Done M nSets prev next j n then F n else 0)

theorem loop_eq (zT : T) (N nSets : Nat) (f : List C → List C) (t : List T) (x : List C)
    (prev next : Option (List T × List C)) (is : List Nat) (out : List T × List C) :
    loop zT N nSets f t x prev next is out = is.foldlM (step zT N nSets f t x prev next) out := rfl

theorem done_skip (M nSets : Nat) (prev next : Bool) (j n : Nat) (hj : j ≤ 2 * nSets)
    (h : (j = 0 ∧ prev = false) ∨ (j = 2 * nSets ∧ next = false)) : Done M nSets prev next (j + 1) n ↔ Done M nSets prev next j n := by
  unfold Done
  have em : 2 * M * (j + 1) = 2 * M * j + 2 * M := Nat.mul_succ _ _
  rcases h with ⟨rfl, hp⟩ | ⟨rfl, hn⟩
  · constructor
    · rintro ⟨h1, h2, _⟩
      have := h2 (by omega)
      rw [hp] at this; cases this
    · rintro ⟨h1, _⟩; omega
  · have e4 : 4 * M * nSets = 2 * M * (2 * nSets) := by grind
    constructor
    · rintro ⟨h1, h2, h3⟩
      by_cases h : n < 2 * M * (2 * nSets)
      · exact ⟨h, h2, h3⟩
      · have := h3 (by omega)
        rw [hn] at this; cases this
    · rintro ⟨h1, h2, h3⟩
      exact ⟨by omega, h2, h3⟩

theorem done_place (M nSets : Nat) (prev next : Bool) (j n : Nat) (hj : j ≤ 2 * nSets) (hM : 0 < M)
    (h1 : ¬ (j = 0 ∧ prev = false)) (h2 : ¬ (j = 2 * nSets ∧ next = false)) :
    Done M nSets prev next (j + 1) n ↔ Done M nSets prev next j n ∨ (2 * M * j ≤ n ∧ n < 2 * M * j + 2 * M) := by
  unfold Done
  have em : 2 * M * (j + 1) = 2 * M * j + 2 * M := Nat.mul_succ _ _
  have e4 : 4 * M * nSets = 2 * M * (2 * nSets) := by grind
  constructor
  · rintro ⟨a, b, c⟩
    by_cases h : n < 2 * M * j
    · exact Or.inl ⟨h, b, c⟩
    · exact Or.inr (by omega)
  · rintro (⟨a, b, c⟩ | ⟨a, b⟩)
    · exact ⟨by omega, b, c⟩
    · refine ⟨by omega, ?_, ?_⟩
      · intro hn
        have : j = 0 := by
          rcases Nat.eq_zero_or_pos j with h | h
          · exact h
          · have := Nat.mul_le_mul_left (2 * M) h
            omega
        cases prev
        · exact absurd ⟨this, rfl⟩ h1
        · rfl
      · intro hn
        have : j = 2 * nSets := by
          rcases Nat.lt_or_ge j (2 * nSets) with h | h
          · have := Nat.mul_le_mul_left (2 * M) (show j + 1 ≤ 2 * nSets from h)
            omega
          · omega
        cases next
        · exact absurd ⟨this, rfl⟩ h2
        · rfl

theorem step_spec (M : Nat) (hM : 0 < M) (zT : T) (f : List C → List C) (t : List T) (x : List C)
    (prev next : Option (List T × List C)) (ht : t.length = x.length) (hs : 4 * M ≤ x.length)
    (hT : Enough (4 * M) t (prev.map (·.1)) (next.map (·.1))) (hD : Enough (4 * M) x (prev.map (·.2)) (next.map (·.2)))
    (hf : ∀ w : List C, w.length = 4 * M → (f w).length = 4 * M) (F : Nat → C)
    (hF : ∀ i w, i ≤ 2 * (x.length / (4 * M)) → w.length = 4 * M →
      (∀ q, q < 4 * M → w[q]? = some (Spec.sig 0 x (prev.map (·.2)) (next.map (·.2)) ((2 * M * i : Nat) - (M : Int) + q))) →
      ∀ n, 2 * M * i ≤ n → n < 2 * M * i + 2 * M → (f w)[n - 2 * M * i + M]? = some (F n))
    (j : Nat) (hj : j ≤ 2 * (x.length / (4 * M))) (out : List T × List C)
    (hI : Inv M (x.length / (4 * M)) zT prev.isSome next.isSome x.length (fun n => Spec.sig zT t (prev.map (·.1)) (next.map (·.1)) n) F j out) :
    ∃ o, step zT (4 * M) (x.length / (4 * M)) f t x prev next out j = some o
      ∧ Inv M (x.length / (4 * M)) zT prev.isSome next.isSome x.length (fun n => Spec.sig zT t (prev.map (·.1)) (next.map (·.1)) n) F (j + 1) o := by
  obtain ⟨tw, e1, l1, g1⟩ := window_spec zT M x.length t _ _ ht hM hs hT j hj
  obtain ⟨dw, e2, l2, g2⟩ := window_spec (0 : C) M x.length x _ _ rfl hM hs hD j hj
  unfold step
  rw [e1]
  simp only [Option.bind_some]
  rw [e2]
  simp only [Option.bind_some]
  by_cases h1 : j = 0 ∧ prev.isNone = true
  · rw [if_pos h1]
    have hd := fun n => done_skip M (x.length / (4 * M)) prev.isSome next.isSome j n hj (Or.inl ⟨h1.1, by simpa using h1.2⟩)
    refine ⟨out, rfl, hI.lenT, hI.lenD, ?_, ?_⟩
    · intro n hn; rw [hI.time n hn]; simp only [hd]
    · intro n hn; rw [hI.data n hn]; simp only [hd]
  · rw [if_neg h1]
    by_cases h2 : j = 2 * (x.length / (4 * M)) ∧ next.isNone = true
    · rw [if_pos h2]
      have hd := fun n => done_skip M (x.length / (4 * M)) prev.isSome next.isSome j n hj (Or.inr ⟨h2.1, by simpa using h2.2⟩)
      refine ⟨out, rfl, hI.lenT, hI.lenD, ?_, ?_⟩
      · intro n hn; rw [hI.time n hn]; simp only [hd]
      · intro n hn; rw [hI.data n hn]; simp only [hd]
    · rw [if_neg h2]
      have hb : 2 * M * j ≤ x.length := by
        have a := Nat.mul_le_mul_left (2 * M) hj
        have b := Nat.div_mul_le_self x.length (4 * M)
        have c : 2 * M * (2 * (x.length / (4 * M))) = x.length / (4 * M) * (4 * M) := by grind
        omega
      obtain ⟨ot, p1, q1, r1⟩ := place_spec M j out.1 tw l1 (by rw [hI.lenT]; exact hb)
      obtain ⟨od, p2, q2, r2⟩ := place_spec M j out.2 (f dw) (hf _ l2) (by rw [hI.lenD]; exact hb)
      rw [p1, p2]
      have hd := fun n => done_place M (x.length / (4 * M)) prev.isSome next.isSome j n hj hM
        (by intro h; exact h1 ⟨h.1, by simpa using h.2⟩) (by intro h; exact h2 ⟨h.1, by simpa using h.2⟩)
      refine ⟨(ot, od), rfl, by rw [q1, hI.lenT], by rw [q2, hI.lenD], ?_, ?_⟩
      · intro n hn
        show ot[n]? = _
        rw [r1, hI.lenT]
        by_cases hh : 2 * M * j ≤ n ∧ n < 2 * M * j + 2 * M
        · rw [if_pos ⟨hh.1, hh.2, hn⟩, if_pos ((hd n).mpr (Or.inr hh)), g1 _ (by omega)]
          congr 2
          omega
        · rw [if_neg (fun y => hh ⟨y.1, y.2.1⟩), hI.time n hn]
          simp only [hd, hh, or_false]
      · intro n hn
        show od[n]? = _
        rw [r2, hI.lenD]
        by_cases hh : 2 * M * j ≤ n ∧ n < 2 * M * j + 2 * M
        · rw [if_pos ⟨hh.1, hh.2, hn⟩, if_pos ((hd n).mpr (Or.inr hh)), hF j dw hj l2 g2 n hh.1 hh.2]
        · rw [if_neg (fun y => hh ⟨y.1, y.2.1⟩), hI.data n hn]
          simp only [hd, hh, or_false]

theorem foldlM_range {β : Type} (g : β → Nat → Option β) (P : Nat → β → Prop) (m : Nat)
    (h : ∀ j, j < m → ∀ b, P j b → ∃ b', g b j = some b' ∧ P (j + 1) b') (b : β) (h0 : P 0 b) :
    ∃ b', (List.range m).foldlM g b = some b' ∧ P m b' := by
  induction m with
  | zero => exact ⟨b, rfl, h0⟩
  | succ m ih =>
    obtain ⟨b', e, p⟩ := ih (fun j hj => h j (by omega))
    obtain ⟨b'', e', p'⟩ := h m (by omega) b' p
    refine ⟨b'', ?_, p'⟩
    rw [List.range_succ, List.foldlM_append, e]
    simp [e']

end loop

end Verif.Dedisp
