import Verif.Props.FEngine
/-!
# C73: where the F engine reads outside its data, and examples
-/
namespace Verif.FEngine
open Verif.CMem
open Lean.Grind (CommRing)

/-- `N` samples of one stand, complex, no delay. -/
def plain (len : Nat) (o : Int) (N : Nat) : Args Int where
  real := false
  nStand := 1
  nSamps := N
  nChan := len
  nTap := 1
  overlap := o
  sr := 1
  data := List.replicate N 0
  freq := fun _ => 0
  delay := fun _ _ => 0
  window := none
  over := fun _ => false
  e := fun _ => 1
  g := 1

theorem tapSum_not_refused {C : Type} [CommRing C] (a : Args C) (out : List C) (k : Nat) : a.tapSum out k ≠ .error .refused := by
  unfold Args.tapSum
  have : ∀ (l : List Nat) (x : Run C), x ≠ .error .refused →
      l.foldl (fun acc l => acc.bind fun s => (rd out ((k + (l + 1) * a.stride : Nat) : Int)).map (fun v => s + v)) x ≠ .error .refused := by
    intro l
    induction l with
    | nil => exact fun x hx => hx
    | cons b l ih =>
      intro x hx
      exact ih _ (bind_not_refused _ _ hx (fun s => map_not_refused _ _ (rd_not_refused _ _)))
  exact this _ _ (rd_not_refused _ _)

theorem sample_not_refused {C : Type} [CommRing C] (a : Args C) (i : Nat) (s : Int) (k : Nat) : a.sample i s k ≠ .error .refused := by
  unfold Args.sample
  simp only
  split
  · intro h; cases h
  · exact rd_not_refused _ _

theorem block_not_refused {C : Type} [CommRing C] (a : Args C) (n i j : Nat) : a.block n i j ≠ .error .refused := by
  unfold Args.block
  refine bind_not_refused _ _ (map_not_refused _ _ (cdiv_not_refused _ _)) fun start => ?_
  refine bind_not_refused _ _ (all_not_refused _ _ fun k _ => sample_not_refused _ _ _ _) fun raw => ?_
  refine bind_not_refused _ _ ?_ fun ins => ?_
  · unfold Args.weigh
    split
    · intro h; cases h
    · exact all_not_refused _ _ fun k _ => map_not_refused _ _ (rd_not_refused _ _)
  refine bind_not_refused _ _ (all_not_refused _ _ fun k _ => map_not_refused _ _ (tapSum_not_refused _ _ _)) fun ws => ?_
  intro h; cases h

theorem plain_fifo (len : Nat) (o : Int) (N i : Nat) : (plain len o N).fifo i = 0 := by
  unfold Args.fifo plain
  simp only
  decide +kernel

theorem plain_fifoMax (len : Nat) (o : Int) (N : Nat) : (plain len o N).fifoMax = 0 := by
  unfold Args.fifoMax
  simp only [plain_fifo]
  rfl

/-- A window whose transform begins after the end of the data makes the run undefined. -/
theorem plain_ub (len o s q : Nat) (ho : 0 < o) (hlen : 0 < len) (hs : s = len / o) (hs0 : 0 < s) (hq : q = len / s)
    (m : Nat) (hm : q ≤ m) (hover : s * m ≤ len * (m - q) / o) : (plain len o (s * m)).run = .error .ub := by
  have hn : nFFT (plain len o (s * m)).nSamps (plain len o (s * m)).fifoMax (plain len o (s * m)).len (plain len o (s * m)).overlap =
      .ok ((m - q + 1 : Nat) : Int) := by
    rw [plain_fifoMax]
    have hl : (plain len o (s * m)).len = len := rfl
    have hN : (plain len o (s * m)).nSamps = s * m := rfl
    have hO : (plain len o (s * m)).overlap = (o : Int) := rfl
    rw [hl, hN, hO]
    unfold nFFT cdiv
    rw [if_neg (by omega)]
    have h1 : (len : Int).tdiv (o : Int) = (s : Nat) := by rw [Int.tdiv_eq_ediv_of_nonneg (by omega), hs]; rfl
    rw [h1]
    show ((if (s : Int) = 0 then (.error Fault.ub : Run Int) else _).bind _) = _
    rw [if_neg (by omega)]
    show ((if (s : Int) = 0 then (.error Fault.ub : Run Int) else _).bind _) = _
    rw [if_neg (by omega)]
    have h2 : (len : Int).tdiv (s : Int) = (q : Nat) := by rw [Int.tdiv_eq_ediv_of_nonneg (by omega), hq]; rfl
    have h3 : (((s * m : Nat) : Int) - 0).tdiv (s : Int) = (m : Nat) := by
      rw [Int.sub_zero, Int.natCast_mul]; exact Int.mul_tdiv_cancel_left _ (by omega)
    rw [h2, h3]
    show Except.ok _ = _
    congr 1
    omega
  unfold Args.run
  rw [hn]
  show (if ((m - q + 1 : Nat) : Int) < 0 then (.error .refused : Run _) else _) = _
  rw [if_neg (show ¬((m - q + 1 : Nat) : Int) < 0 by omega)]
  simp only [Int.toNat_natCast]
  have hb : (plain len o (s * m)).block (m - q + 1) ((m - q) / (m - q + 1)) ((m - q) % (m - q + 1)) = .error .ub := by
    rw [Nat.div_eq_of_lt (by omega), Nat.mod_eq_of_lt (by omega)]
    unfold Args.block
    have hst : (plain len o (s * m)).secStart 0 (m - q) = .ok ((len * (m - q) / o : Nat) : Int) := by
      unfold Args.secStart cdiv
      rw [plain_fifo]
      have hl : (plain len o (s * m)).len = len := rfl
      have hO : (plain len o (s * m)).overlap = (o : Int) := rfl
      rw [hl, hO, if_neg (by omega), Int.tdiv_eq_ediv_of_nonneg (by omega)]
      show Except.ok _ = _
      congr 1
      simp
    rw [hst]
    show ((all _ _).bind _ : Run _) = _
    rw [all_ub _ _ 0 (List.mem_range.2 (by show 0 < len * 1; omega)) _ (fun b _ => sample_not_refused _ _ _ _)]
    · rfl
    · unfold Args.sample
      simp only
      have hN : (plain len o (s * m)).nSamps * 0 = 0 := by omega
      have ht : ((plain len o (s * m)).nTap : Int) - 1 = 0 := rfl
      rw [hN, ht, Int.mul_zero]
      rw [if_neg (by omega)]
      apply rd_ub
      right
      show ((List.replicate (s * m) (0 : Int)).length : Int) ≤ _
      rw [List.length_replicate]
      omega
  rw [all_ub (fun ij => (plain len o (s * m)).block (m - q + 1) (ij / (m - q + 1)) (ij % (m - q + 1))) _ (m - q)
    (List.mem_range.2 (by show m - q < 1 * (m - q + 1); omega)) hb (fun b _ => block_not_refused _ _ _ _)]
  rfl

/-- Whenever the number of overlapped windows does not divide the length of the transform, there is an amount of data for which
the F engine reads beyond its end: the number of windows is computed with the rounded down step, their positions without rounding
(core.cpp:174, 286, 428). -/
theorem C73_not_inside (len o : Nat) (ho : 0 < o) (hle : o ≤ len) (hnd : ¬o ∣ len) : ∃ N, (plain len o N).run = .error .ub := by
  have hs0 : 0 < len / o := Nat.div_pos hle ho
  refine ⟨len / o * (len * (len / (len / o))), ?_⟩
  have hq : len / (len / o) = len / (len / o) := rfl
  generalize hs : len / o = s at *
  generalize hqq : len / s = q at *
  have hsum : o * s + len % o = len := by rw [← hs]; exact Nat.div_add_mod len o
  have hr : 0 < len % o := Nat.pos_of_ne_zero (fun e => hnd (Nat.dvd_of_mod_eq_zero e))
  apply plain_ub len o s q ho (by omega) hs.symm hs0 hqq.symm
  · have : 1 * q ≤ len * q := Nat.mul_le_mul (by omega) (Nat.le_refl q)
    omega
  · rw [Nat.le_div_iff_mul_le ho]
    generalize hm : len * q = m
    have h1 : len * (m - q) = len * m - len * q := Nat.mul_sub len m q
    have h2 : len * m = o * s * m + len % o * m := by rw [← Nat.add_mul, hsum]
    have h3 : 1 * m ≤ len % o * m := Nat.mul_le_mul hr (Nat.le_refl m)
    have h4 : s * m * o = o * s * m := by rw [Nat.mul_comm, Nat.mul_assoc]
    omega

/-- More overlapped windows than samples in a transform, or none, is a division by zero for all data. -/
theorem C73_not_many {C : Type} [CommRing C] (a : Args C) (h : a.overlap = 0 ∨ (a.len : Int) < a.overlap) : a.run = .error .ub := by
  have : nFFT a.nSamps a.fifoMax a.len a.overlap = .error .ub := by
    unfold nFFT cdiv
    rcases h with h | h
    · rw [if_pos h]; rfl
    · by_cases h0 : a.overlap = 0
      · rw [if_pos h0]; rfl
      · rw [if_neg h0]
        have : (a.len : Int).tdiv a.overlap = 0 := by
          rw [Int.tdiv_eq_ediv_of_nonneg (by omega)]; exact Int.ediv_eq_zero_of_lt (by omega) h
        rw [this]; rfl
  unfold Args.run
  rw [this]
  rfl

/-- Two stands; the first has only zeros and the second only ones. -/
def two : Args Int where
  real := false
  nStand := 2
  nSamps := 9
  nChan := 3
  nTap := 1
  overlap := 2
  sr := 1
  data := List.replicate 9 0 ++ List.replicate 9 1
  freq := fun _ => 0
  delay := fun _ _ => 0
  window := none
  over := fun _ => false
  e := fun _ => 1
  g := 1

/-- With an overlap of 2 and 3 channels the last of the 7 windows of the first stand is made of samples of the second stand. -/
theorem C73_not_own : nFFT two.nSamps two.fifoMax two.len two.overlap = .ok 7 ∧
    two.block 7 0 6 = .ok ([(6, 3), (13, 3), (20, 3)], (6, 1)) := by decide +kernel

/-! ## Examples -/

/-- Two stands of 10 samples, transforms of 4, two per transform length, delays of 0 and 1 sample. -/
def ex : Args Int where
  real := true
  nStand := 2
  nSamps := 10
  nChan := 2
  nTap := 1
  overlap := 2
  sr := 1
  data := [1, 2, 3, 4, 5, 6, 7, 8, 9, 10, 0, 1, 2, 3, 4, 5, 6, 7, 8, 99]
  freq := fun k => (k : Rat) / 4
  delay := fun i _ => (i : Rat)
  window := none
  over := fun x => 50 ≤ x
  e := fun _ => 1
  g := 1

theorem ex_ok : Ok ex 2 2 where
  size := rfl
  steps := by decide
  pos := by decide
  overlap := rfl
  divides := rfl
  taps := by decide
  window := by intro w h; cases h

example : Spec.windows ex 2 = 3 := by decide +kernel
example : ex.run = .ok ([10, 18, 26, 10, 18, 26, 10, 18, 26, 10, 18, 26], [1, 1, 1, 1, 1, 1]) := by decide +kernel
example : { ex with overlap := 4 }.run = .ok ([10, 14, 18, 22, 26, 30, 10, 14, 18, 22, 26, 30, 10, 14, 18, 22, 26, 0, 10, 14, 18, 22, 26, 0], [1, 1, 1, 1, 1, 1, 1, 1, 1, 1, 1, 0]) := by
  decide +kernel

/-- A filter bank of two taps: the first windows reach before the first sample and are counted as valid. -/
theorem C73_not_full : { ex with nTap := 2, overlap := 1 }.run = .ok ([10, 36, 10, 36, 10, 36, 10, 36], [1, 1, 1, 1]) := by
  decide +kernel

/-- A wave (`C73_wave`): the sign as `e` of half turns, two stands with delays of no and one sample, and the
wave in the second channel. -/
def waves : Args Int where
  real := false
  nStand := 2
  nSamps := 6
  nChan := 2
  nTap := 1
  overlap := 1
  sr := 1
  data := [1, 1, 1, 1, 1, 1, -1, -1, -1, -1, -1, -1]
  freq := fun k => (k : Rat) / 2 
  delay := fun i _ => (i : Rat)
  window := none
  over := fun _ => false
  e := fun x => if (2 * x).floor % 2 = 0 then 1 else -1
  g := 1

example : waves.run = .ok ([0, 0, 2, 2, 0, 0, 2, 2], [1, 1, 1, 1]) := by decide +kernel

end Verif.FEngine
