import Verif.Spec.Beam
import Verif.Lemmas.CMem
import Verif.Lemmas.FEngine
/-!
# Lemmas for beam forming
-/
namespace Verif.Beam
open Verif.CMem

/-! ### loops -/

theorem fold_ok {σ : Type} (n : Nat) (f : σ → Nat → Run σ) (g : Nat → σ) (h : ∀ i, i < n → f (g i) i = .ok (g (i + 1))) :
    (List.range n).foldl (fun (acc : Run σ) i => acc.bind fun s => f s i) (.ok (g 0)) = .ok (g n) := by
  induction n with
  | zero => rfl
  | succ n ih =>
    rw [List.range_succ, List.foldl_append, ih (fun i hi => h i (by omega))]
    exact h n (by omega)

theorem wrs_front {α : Type} (d : α) (p : List α) (b : Nat) (hb : b ≤ p.length) (h : Nat → α) :
    wrs p ((List.range b).map fun (tb : Nat) => ((tb : Int), h tb)) =
      .ok ((List.range p.length).map fun tb => if tb < b then h tb else p.getD tb d) := by
  obtain ⟨m, h1, h2, h3, h4⟩ := wrs_ok p ((List.range b).map fun (tb : Nat) => ((tb : Int), h tb)) (by
    intro w hw
    obtain ⟨tb, ht, rfl⟩ := List.mem_map.mp hw
    have := List.mem_range.mp ht
    simp; omega) (by
    rw [List.map_map]
    show (List.map (fun tb : Nat => (tb : Int)) (List.range b)).Nodup
    rw [List.nodup_iff_pairwise_ne, List.pairwise_map]
    exact (List.pairwise_lt_range).imp (fun hab => by omega))
  rw [h1]
  congr 1
  apply List.ext_getElem?
  intro q
  by_cases hq : q < p.length
  · rw [List.getElem?_map, List.getElem?_range hq]
    simp only [Option.map_some]
    by_cases hqb : q < b
    · rw [if_pos hqb]
      have := h3 ((q : Int), h q) (List.mem_map.mpr ⟨q, List.mem_range.mpr hqb, rfl⟩)
      simpa using this
    · rw [if_neg hqb, h4 q]
      · simp [List.getD, hq]
      · intro hm
        rw [List.map_map] at hm
        obtain ⟨tb, ht, e⟩ := List.mem_map.mp hm
        have := List.mem_range.mp ht
        simp at e; omega
  · rw [List.getElem?_eq_none (by omega), List.getElem?_eq_none (by simp; omega)]

theorem blocks_flat {α : Type} (n : Nat) (F : Nat → α) :
    ((starts n).map fun t => (List.range (min blockDim (n - t))).map fun tb => F (t + tb)).flatten = (List.range n).map F := by
  have key : ∀ m, (((List.range m).map (· * blockDim)).map fun t => (List.range (min blockDim (n - t))).map fun tb => F (t + tb)).flatten =
      (List.range (min (m * blockDim) n)).map F := by
    intro m
    induction m with
    | zero => simp
    | succ m ih =>
      rw [List.range_succ, List.map_append, List.map_append, List.flatten_append, ih]
      simp only [List.map_cons, List.map_nil, List.flatten_cons, List.flatten_nil, List.append_nil]
      have e : min ((m + 1) * blockDim) n = min (m * blockDim) n + min blockDim (n - m * blockDim) := by
        unfold blockDim; omega
      rw [e, show List.range (min (m * blockDim) n + min blockDim (n - m * blockDim)) = _ from List.range_add, List.map_append]
      congr 1
      by_cases h : m * blockDim ≤ n
      · rw [Nat.min_eq_left h, List.map_map]
        rfl
      · have : min blockDim (n - m * blockDim) = 0 := by omega
        rw [this]; rfl
  unfold starts
  rw [key]
  congr 2
  unfold blockDim
  omega

theorem rows_flat {α : Type} (m n : Nat) (F : Nat → α) :
    ((List.range m).map fun c => (List.range n).map fun t => F (c * n + t)).flatten = (List.range (m * n)).map F := by
  induction m with
  | zero => simp
  | succ m ih =>
    rw [List.range_succ, List.map_append, List.flatten_append, ih, Nat.succ_mul]
    simp only [List.map_cons, List.map_nil, List.flatten_cons, List.flatten_nil, List.append_nil]
    rw [List.range_add, List.map_append, List.map_map]
    rfl

theorem count_ok (n : Nat) (v : List Nat) (h : n = v.length) : count n v = .ok (Spec.chosen v) := by
  subst h
  unfold count Spec.chosen
  have := fold_ok v.length (fun s i => (rd v (i : Int)).map fun w => s + (if w ≠ 0 then 1 else 0))
    (fun i => (v.take i).countP (· ≠ 0)) (by
      intro i hi
      rw [rd_ok v i 0 (by omega) (by omega)]
      simp only [Except.map, Int.toNat_natCast]
      rw [List.take_add_one, List.countP_append, List.getElem?_eq_getElem hi]
      simp [List.getD, hi, List.countP_cons])
  simp only [List.take_zero, List.countP_nil, List.take_length] at this
  exact this

open Lean.Grind (CommRing)

section
variable {C : Type} [CommRing C] (mk : Rat → Rat → C)
variable (cplx : Bool) (ninput nchan ntime : Nat) (coeffs : List C) (data : List Rat) (v : List Nat)

/-- Addresses of samples are inside the data. -/
theorem inside {m c n t i k : Nat} (hi : i < k) (hc : c < m) (ht : t < n) : (i * m + c) * n + t < k * m * n := by
  have h1 : i * m + c < k * m := by
    have : (i + 1) * m ≤ k * m := Nat.mul_le_mul_right _ hi
    rw [Nat.succ_mul] at this; omega
  have : (i * m + c + 1) * n ≤ k * m * n := Nat.mul_le_mul_right _ h1
  rw [Nat.succ_mul] at this
  omega

omit [CommRing C] in
theorem sample_ok (hd : data.length = (if cplx then 2 else 1) * (ninput * nchan * ntime)) (i c t tb : Nat) (hi : i < ninput)
    (hc : c < nchan) (ht : t + tb < ntime) :
    sample mk cplx data (rowAt cplx nchan ntime i c t) tb = .ok (Spec.sample mk cplx data nchan ntime i c (t + tb)) := by
  have hin := inside (n := ntime) hi hc ht
  have e : i * nchan * ntime + c * ntime + t + tb = (i * nchan + c) * ntime + (t + tb) := by rw [Nat.add_mul]; omega
  have e2 : i * nchan * ntime * 2 + c * ntime * 2 + t * 2 + 2 * tb = 2 * ((i * nchan + c) * ntime + (t + tb)) := by
    rw [← e]; omega
  unfold sample rowAt Spec.sample
  cases cplx with
  | true =>
    simp only [if_true]
    rw [e2]
    simp only [if_true] at hd
    rw [rd_ok data _ 0 (by omega) (by omega), rd_ok data _ 0 (by omega) (by omega)]
    simp only [Except.bind, Except.map, Int.toNat_natCast]
  | false =>
    simp only [Bool.false_eq_true, if_false]
    rw [e]
    simp only [Bool.false_eq_true, if_false] at hd
    rw [rd_ok data _ 0 (by omega) (by omega)]
    simp only [Except.map, Int.toNat_natCast]

/-- What input `i` adds. -/
def part (c t i : Nat) : C :=
  if v.getD i 0 = 0 then 0 else coeffs.getD (i * nchan + c) 0 * Spec.sample mk cplx data nchan ntime i c t

/-- The scratch array after `i` inputs. -/
def scratch (c t b i : Nat) : List C :=
  (List.range blockDim).map fun tb => if tb < b then sumN i (part mk cplx nchan ntime coeffs data v c (t + tb)) else 0

theorem addInput_ok (hd : data.length = (if cplx then 2 else 1) * (ninput * nchan * ntime)) (hl : coeffs.length = ninput * nchan)
    (hv : v.length = ninput) (i c t b : Nat) (hi : i < ninput) (hc : c < nchan) (hb : b ≤ blockDim) (ht : t + b ≤ ntime) :
    addInput mk cplx nchan ntime coeffs data v c t b (scratch mk cplx nchan ntime coeffs data v c t b i) i =
      .ok (scratch mk cplx nchan ntime coeffs data v c t b (i + 1)) := by
  have hcl : i * nchan + c < coeffs.length := by
    have : (i + 1) * nchan ≤ ninput * nchan := Nat.mul_le_mul_right _ hi
    rw [Nat.succ_mul] at this; omega
  unfold addInput
  rw [rd_ok coeffs _ 0 (by omega) (by omega), rd_ok v _ 0 (by omega) (by omega)]
  simp only [Except.bind, Int.toNat_natCast]
  rw [all_ok _ (fun tb : Nat => ((tb : Int), sumN (i + 1) (part mk cplx nchan ntime coeffs data v c (t + tb)))) (List.range b) (by
    intro tb htb
    have htb := List.mem_range.mp htb
    have hs := sample_ok mk cplx ninput nchan ntime data hd i c t tb hi hc (by omega)
    rw [hs]
    simp only
    rw [rd_ok _ _ 0 (by omega) (by simp [scratch]; omega)]
    simp only [Except.map, Int.toNat_natCast]
    congr 2
    have : (scratch mk cplx nchan ntime coeffs data v c t b i).getD tb 0 = sumN i (part mk cplx nchan ntime coeffs data v c (t + tb)) := by
      simp [scratch, List.getD, htb, show tb < blockDim by omega]
    rw [this]
    show _ = _ + part mk cplx nchan ntime coeffs data v c (t + tb) i
    unfold part
    by_cases h0 : v.getD i 0 = 0
    · rw [if_pos h0, if_neg (by rw [h0]; simp)]; grind
    · rw [if_neg h0, if_pos h0]; grind)]
  simp only
  rw [wrs_front (0 : C) _ b (by simp [scratch]; omega)]
  congr 1
  unfold scratch
  rw [List.length_map, List.length_range]
  apply List.map_congr_left
  intro tb htb
  have htb := List.mem_range.mp htb
  by_cases hlt : tb < b
  · rw [if_pos hlt, if_pos hlt]
  · rw [if_neg hlt, if_neg hlt]
    simp [List.getD, htb, hlt]

theorem block_ok (hd : data.length = (if cplx then 2 else 1) * (ninput * nchan * ntime)) (hl : coeffs.length = ninput * nchan)
    (hv : v.length = ninput) (k : Rat) (pol c t : Nat) (hc : c < nchan) (ht : t < ntime) :
    block mk cplx ninput nchan ntime coeffs data v k pol c t =
      .ok ((List.range (min blockDim (ntime - t))).map fun tb => (((pol * nchan * ntime + c * ntime + (t + tb) : Nat) : Int),
        sumN ninput (part mk cplx nchan ntime coeffs data v c (t + tb)) * mk k 0)) := by
  have hb : min blockDim (ntime - t) ≤ blockDim := Nat.min_le_left _ _
  have hbt : t + min blockDim (ntime - t) ≤ ntime := by omega
  unfold block
  simp only
  have h0 : List.replicate blockDim (0 : C) = scratch mk cplx nchan ntime coeffs data v c t (min blockDim (ntime - t)) 0 := by
    unfold scratch
    apply List.ext_getElem?
    intro q
    by_cases hq : q < blockDim
    · simp [hq, sumN]
    · simp [hq]
  rw [h0, fold_ok ninput (fun p i => addInput mk cplx nchan ntime coeffs data v c t (min blockDim (ntime - t)) p i)
    (scratch mk cplx nchan ntime coeffs data v c t (min blockDim (ntime - t)))
    (fun i hi => addInput_ok mk cplx ninput nchan ntime coeffs data v hd hl hv i c t _ hi hc hb hbt)]
  show all _ _ = _
  apply all_ok
  intro tb htb
  have htb := List.mem_range.mp htb
  rw [rd_ok _ _ 0 (by omega) (by simp [scratch]; omega)]
  simp only [Except.map, Int.toNat_natCast]
  have : (scratch mk cplx nchan ntime coeffs data v c t (min blockDim (ntime - t)) ninput).getD tb 0 =
      sumN ninput (part mk cplx nchan ntime coeffs data v c (t + tb)) := by
    simp only [scratch, List.getD, List.getElem?_map, List.getElem?_range (show tb < blockDim by omega), Option.map_some,
      Option.getD_some, if_pos htb]
  rw [this]
  rw [show pol * nchan * ntime + c * ntime + t + tb = pol * nchan * ntime + c * ntime + (t + tb) from by omega]

theorem onePol_ok (hd : data.length = (if cplx then 2 else 1) * (ninput * nchan * ntime)) (hl : coeffs.length = ninput * nchan)
    (hv : v.length = ninput) (pol : Nat) :
    onePol mk cplx ninput nchan ntime coeffs data v pol =
      .ok ((List.range (nchan * ntime)).map fun q => (((pol * nchan * ntime + q : Nat) : Int),
        sumN ninput (part mk cplx nchan ntime coeffs data v (q / ntime) (q % ntime)) * mk (inv (Spec.chosen v)) 0)) := by
  unfold onePol
  rw [count_ok ninput v hv.symm]
  simp only [Except.bind]
  rw [all_ok _ (fun c => (List.range ntime).map fun t => (((pol * nchan * ntime + (c * ntime + t) : Nat) : Int),
        sumN ninput (part mk cplx nchan ntime coeffs data v ((c * ntime + t) / ntime) ((c * ntime + t) % ntime)) * mk (inv (Spec.chosen v)) 0))
    (List.range nchan) (by
      intro c hc
      have hc := List.mem_range.mp hc
      rw [all_ok _ (fun t => (List.range (min blockDim (ntime - t))).map fun tb => (((pol * nchan * ntime + c * ntime + (t + tb) : Nat) : Int),
        sumN ninput (part mk cplx nchan ntime coeffs data v c (t + tb)) * mk (inv (Spec.chosen v)) 0)) (starts ntime) (by
          intro t ht
          have : t < ntime := by
            unfold starts at ht
            obtain ⟨q, hq, rfl⟩ := List.mem_map.mp ht
            have := List.mem_range.mp hq
            unfold blockDim at *
            omega
          exact block_ok mk cplx ninput nchan ntime coeffs data v hd hl hv _ pol c t hc this)]
      simp only [Except.map]
      rw [blocks_flat ntime (fun t => (((pol * nchan * ntime + c * ntime + t : Nat) : Int),
        sumN ninput (part mk cplx nchan ntime coeffs data v c t) * mk (inv (Spec.chosen v)) 0))]
      congr 1
      apply List.map_congr_left
      intro t ht
      have ht := List.mem_range.mp ht
      rw [show (c * ntime + t) / ntime = c from by rw [Nat.mul_comm, Nat.mul_add_div (by omega), Nat.div_eq_of_lt ht, Nat.add_zero],
        show (c * ntime + t) % ntime = t from by rw [Nat.mul_comm, Nat.mul_add_mod, Nat.mod_eq_of_lt ht]]
      rw [Nat.add_assoc])]
  simp only [Except.map]
  rw [rows_flat nchan ntime (fun q => (((pol * nchan * ntime + q : Nat) : Int),
        sumN ninput (part mk cplx nchan ntime coeffs data v (q / ntime) (q % ntime)) * mk (inv (Spec.chosen v)) 0))]

end

end Verif.Beam
