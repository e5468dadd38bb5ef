import Verif.Model.CMem
/-!
# Flat arrays: reads, writes and sums
-/
namespace Verif.CMem
open Lean.Grind (CommRing)

theorem rd_ok {α : Type} (m : List α) (p : Int) (d : α) (h0 : 0 ≤ p) (h : p.toNat < m.length) :
    rd m p = .ok (m.getD p.toNat d) := by
  unfold rd
  rw [if_neg (by omega), List.getElem?_eq_getElem h]
  simp [List.getD, List.getElem?_eq_getElem h]

theorem rd_ub {α : Type} (m : List α) (p : Int) (h : p < 0 ∨ (m.length : Int) ≤ p) : rd m p = .error .ub := by
  unfold rd
  by_cases h0 : p < 0
  · rw [if_pos h0]
  · rw [if_neg h0, List.getElem?_eq_none (by omega)]

theorem all_ok {α β : Type} (f : α → Run β) (g : α → β) (l : List α) (h : ∀ a ∈ l, f a = .ok (g a)) :
    all f l = .ok (l.map g) := by
  induction l with
  | nil => rfl
  | cons a l ih =>
    unfold all
    rw [h a List.mem_cons_self, ih (fun b hb => h b (List.mem_cons_of_mem _ hb))]
    rfl

/-- A loop in which an iteration has undefined behaviour and those before give a result or the same. -/
theorem all_ub {α β : Type} (f : α → Run β) (l : List α) (a : α) (ha : a ∈ l) (hf : f a = .error .ub)
    (h : ∀ b ∈ l, f b ≠ .error .refused) : all f l = .error .ub := by
  induction l with
  | nil => simp at ha
  | cons b l ih =>
    unfold all
    cases hb : f b with
    | error x =>
      cases x with
      | ub => rfl
      | refused => exact absurd hb (h b List.mem_cons_self)
    | ok v =>
      have : a ∈ l := by
        rcases List.mem_cons.1 ha with e | e
        · rw [e, hb] at hf; cases hf
        · exact e
      show ((all f l).bind _ : Run _) = _
      rw [ih this (fun c hc => h c (List.mem_cons_of_mem _ hc))]
      rfl

theorem all_not_refused {α β : Type} (f : α → Run β) (l : List α) (h : ∀ b ∈ l, f b ≠ .error .refused) :
    all f l ≠ .error .refused := by
  induction l with
  | nil => intro x; cases x
  | cons b l ih =>
    unfold all
    have hb := h b List.mem_cons_self
    have hl := ih (fun c hc => h c (List.mem_cons_of_mem _ hc))
    cases hfb : f b with
    | error x => cases x with
      | ub => intro x; cases x
      | refused => exact absurd hfb hb
    | ok v =>
      show ((all f l).bind _ : Run _) ≠ _
      cases hfl : all f l with
      | error x => cases x with
        | ub => intro x; cases x
        | refused => exact absurd hfl hl
      | ok v => intro x; cases x

theorem wrs_ok {α : Type} (m : List α) (ws : List (Int × α)) (h : ∀ w ∈ ws, 0 ≤ w.1 ∧ w.1 < m.length)
    (hn : (ws.map (·.1)).Nodup) :
    ∃ m', wrs m ws = .ok m' ∧ m'.length = m.length ∧ (∀ w ∈ ws, m'[w.1.toNat]? = some w.2) ∧
      ∀ p : Nat, (p : Int) ∉ ws.map (·.1) → m'[p]? = m[p]? := by
  induction ws generalizing m with
  | nil => exact ⟨m, rfl, rfl, by simp, by simp⟩
  | cons w ws ih =>
    have hw := h w List.mem_cons_self
    rw [List.map_cons, List.nodup_cons] at hn
    have hs : wr m w = .ok (m.set w.1.toNat w.2) := by unfold wr; rw [if_pos hw]
    have ⟨m', h1, h2, h3, h4⟩ := ih (m.set w.1.toNat w.2)
      (by intro x hx; rw [List.length_set]; exact h x (List.mem_cons_of_mem _ hx)) hn.2
    refine ⟨m', ?_, ?_, ?_, ?_⟩
    · unfold wrs; rw [hs]; exact h1
    · rw [h2, List.length_set]
    · intro x hx
      rcases List.mem_cons.1 hx with e | e
      · subst e
        rw [h4 _ (by rw [Int.toNat_of_nonneg hw.1]; exact hn.1)]
        rw [List.getElem?_set_self (by omega)]
      · exact h3 x e
    · intro p hp
      rw [List.map_cons, List.mem_cons, _root_.not_or] at hp
      rw [h4 p hp.2, List.getElem?_set_ne (by omega)]

/-! ## Sums -/

variable {C : Type} [CommRing C]

theorem sumN_congr (n : Nat) (f g : Nat → C) (h : ∀ t, t < n → f t = g t) : sumN n f = sumN n g := by
  induction n with
  | zero => rfl
  | succ n ih => simp only [sumN]; rw [ih (fun t ht => h t (by omega)), h n (by omega)]

theorem sumN_mul (c : C) (n : Nat) (f : Nat → C) : sumN n (fun t => c * f t) = c * sumN n f := by
  induction n with
  | zero => simp only [sumN]; grind
  | succ n ih => simp only [sumN, ih]; grind

theorem sumN_add (n : Nat) (f g : Nat → C) : sumN n (fun t => f t + g t) = sumN n f + sumN n g := by
  induction n with
  | zero => simp only [sumN]; grind
  | succ n ih => simp only [sumN, ih]; grind

theorem sumN_zero (n : Nat) : sumN n (fun _ => (0 : C)) = 0 := by
  induction n with
  | zero => rfl
  | succ n ih => simp only [sumN, ih]; grind

theorem sumN_comm (n m : Nat) (f : Nat → Nat → C) :
    sumN n (fun i => sumN m (fun j => f i j)) = sumN m (fun j => sumN n (fun i => f i j)) := by
  induction n with
  | zero => simp only [sumN]; rw [sumN_zero]
  | succ n ih => simp only [sumN]; rw [ih, sumN_add]

theorem sumN_front (n : Nat) (f : Nat → C) : sumN (n + 1) f = f 0 + sumN n (fun t => f (t + 1)) := by
  induction n with
  | zero => simp only [sumN]; grind
  | succ n ih => rw [sumN, ih]; simp only [sumN]; grind

/-! ## No exceptions -/

theorem bind_not_refused {α β : Type} (x : Run α) (f : α → Run β) (hx : x ≠ .error .refused)
    (hf : ∀ v, f v ≠ .error .refused) : x.bind f ≠ .error .refused := by
  cases x with
  | error y => cases y with
    | ub => intro h; cases h
    | refused => exact absurd rfl hx
  | ok v => exact hf v

theorem map_not_refused {α β : Type} (x : Run α) (f : α → β) (hx : x ≠ .error .refused) : x.map f ≠ .error .refused := by
  cases x with
  | error y => cases y with
    | ub => intro h; cases h
    | refused => exact absurd rfl hx
  | ok v => intro h; cases h

theorem rd_not_refused {α : Type} (m : List α) (p : Int) : rd m p ≠ .error .refused := by
  unfold rd
  split
  · intro h; cases h
  · split <;> (intro h; cases h)

theorem cdiv_not_refused (x y : Int) : cdiv x y ≠ .error .refused := by
  unfold cdiv; split <;> (intro h; cases h)

end Verif.CMem
