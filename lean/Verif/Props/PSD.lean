import Verif.Lemmas.PSD
import Verif.Lemmas.CMem
/-!
# C75: power spectra
-/
namespace Verif.PSD
open Verif.CMem Verif.FEngine
open Lean.Grind (CommRing)

section
variable {C R : Type} [CommRing C] [CommRing R]

/-- `nFFT` without delays. -/
theorem number {a : Args C} {step o : Nat} (h : Ok (still a) step o) (hn : a.len ≤ a.nSamps) :
    nFFT a.nSamps 0 a.len a.overlap = .ok (FEngine.Spec.windows (still a) step : Nat) := by
  have := windows_eq h (by rw [still_fifoMax]; show (a.len : Int) ≤ (a.nSamps : Int) - 0; omega)
  rw [still_fifoMax] at this
  exact this

/-- The rows before they are turned. -/
def rowsOf (np : Nat) (q : Nat → C → C → R) (a b : Args C) (step n : Nat) : List (List R) :=
  (List.range np).flatMap fun pol => (List.range a.nStand).map fun i => (List.range a.nChan).map fun k => upto (q pol) a b step i k n

theorem rowsOf_length (np : Nat) (q : Nat → C → C → R) (a b : Args C) (step n : Nat) : (rowsOf np q a b step n).length = np * a.nStand := by
  unfold rowsOf
  have := flat_length np a.nStand (fun pol i => (List.range a.nChan).map fun k => upto (q pol) a b step i k n)
  rw [this, Nat.mul_comm]

theorem rowsOf_get (np : Nat) (q : Nat → C → C → R) (a b : Args C) (step n pol i : Nat) (hp : pol < np) (hi : i < a.nStand) :
    (rowsOf np q a b step n)[a.nStand * pol + i]? = some ((List.range a.nChan).map fun k => upto (q pol) a b step i k n) := by
  unfold rowsOf
  exact flat_get np a.nStand (fun pol i => (List.range a.nChan).map fun k => upto (q pol) a b step i k n) pol i hp hi

theorem rowsOf_mem (np : Nat) (q : Nat → C → C → R) (a b : Args C) (step n : Nat) : ∀ r ∈ rowsOf np q a b step n, r.length = a.nChan := by
  intro r hr
  unfold rowsOf at hr
  rw [List.mem_flatMap] at hr
  obtain ⟨pol, _, hr⟩ := hr
  rw [List.mem_map] at hr
  obtain ⟨i, _, rfl⟩ := hr
  simp

/-- Entry of rows of equal length one after the other. -/
theorem flatten_get {α : Type} (n : Nat) (rows : List (List α)) (hr : ∀ r ∈ rows, r.length = n) (x k : Nat) (r : List α)
    (hx : rows[x]? = some r) (hk : k < n) : rows.flatten[n * x + k]? = r[k]? := by
  induction rows generalizing x with
  | nil => simp at hx
  | cons a rows ih =>
    have ha := hr a List.mem_cons_self
    rw [List.flatten_cons]
    cases x with
    | zero =>
      simp at hx
      subst hx
      rw [Nat.mul_zero, Nat.zero_add, List.getElem?_append_left (by omega)]
    | succ x =>
      rw [List.getElem?_append_right (by rw [ha, Nat.mul_succ]; omega)]
      rw [← ih (fun r h => hr r (List.mem_cons_of_mem _ h)) x (by simpa using hx)]
      congr 1
      rw [ha, Nat.mul_succ]; omega

theorem flatten_length {α : Type} (n : Nat) (rows : List (List α)) (hr : ∀ r ∈ rows, r.length = n) : rows.flatten.length = n * rows.length := by
  induction rows with
  | nil => simp
  | cons a rows ih =>
    rw [List.flatten_cons, List.length_append, ih (fun r h => hr r (List.mem_cons_of_mem _ h)), hr a List.mem_cons_self, List.length_cons,
      Nat.mul_succ, Nat.add_comm]

/-- All sums of all stands. -/
theorem all_sums (np : Nat) (q : Nat → C → C → R) {a : Args C} {d : List C} {step o : Nat} (h : Ok (still a) step o)
    (h' : Ok (still (other a d)) step o) :
    all (sums np q a d (FEngine.Spec.windows (still a) step)) (List.range a.nStand) = .ok ((List.range a.nStand).map fun i =>
      ((List.range np).map (fun pol => (List.range a.nChan).map fun k => upto (q pol) a (other a d) step i k (FEngine.Spec.windows (still a) step)),
        (Spec.good a (other a d) step i).length)) := by
  apply all_ok
  intro i hi
  rw [sums_ok np q h h' i _ (List.mem_range.1 hi) (Nat.le_refl _), good_eq]

/-- The array before it is turned. -/
theorem psd_eq (np : Nat) (q : Nat → C → C → R) (a b : Args C) (step n : Nat) (g : Nat → Nat) :
    ((List.range np).flatMap fun pol => ((List.range a.nStand).map fun i =>
      ((List.range np).map (fun pol => (List.range a.nChan).map fun k => upto (q pol) a b step i k n), g i)).flatMap fun r => r.1.getD pol []) =
    (rowsOf np q a b step n).flatten := by
  unfold rowsOf
  rw [List.flatMap_def, List.flatMap_def, List.flatten_flatten, List.map_map]
  congr 1
  apply List.map_congr_left
  intro pol hp
  simp only [Function.comp]
  rw [List.flatMap_def, List.map_map]
  congr 1
  apply List.map_congr_left
  intro i _
  simp only [Function.comp]
  rw [List.getD_eq_getElem?_getD, List.getElem?_map, List.getElem?_range (List.mem_range.1 hp)]
  rfl

omit [CommRing R] in
theorem counts_get (np nStand nChan : Nat) (g : Nat → Nat) (S : List (Sums R)) (hs : S.map (·.2) = (List.range nStand).map g)
    (len pol i k : Nat) (hp : pol < np) (hi : i < nStand) (hk : k < nChan) :
    ((List.range np).flatMap fun _ => S.flatMap fun r => List.replicate nChan (len * r.2))[nChan * (nStand * pol + i) + k]? = some (len * g i) ∧
    ((List.range np).flatMap fun _ => S.flatMap fun r => List.replicate nChan (len * r.2)).length = np * nStand * nChan := by
  have e : (S.flatMap fun r => List.replicate nChan (len * r.2)) = ((List.range nStand).map fun i => List.replicate nChan (len * g i)).flatten := by
    rw [List.flatMap_def]
    congr 1
    have : S.map (fun r => List.replicate nChan (len * r.2)) = (S.map (·.2)).map fun c => List.replicate nChan (len * c) := by
      rw [List.map_map]; rfl
    rw [this, hs, List.map_map]
    rfl
  rw [e]
  have e2 : ((List.range np).flatMap fun _ => ((List.range nStand).map fun i => List.replicate nChan (len * g i)).flatten) =
      ((List.range np).flatMap fun _ => (List.range nStand).map fun i => List.replicate nChan (len * g i)).flatten := by
    rw [List.flatMap_def, List.flatMap_def, List.flatten_flatten, List.map_map]
    rfl
  rw [e2]
  have hm : ∀ r ∈ ((List.range np).flatMap fun _ => (List.range nStand).map fun i => List.replicate nChan (len * g i)), r.length = nChan := by
    intro r hr
    rw [List.mem_flatMap] at hr
    obtain ⟨_, _, hr⟩ := hr
    rw [List.mem_map] at hr
    obtain ⟨_, _, rfl⟩ := hr
    simp
  constructor
  · rw [flatten_get nChan _ hm (nStand * pol + i) k (List.replicate nChan (len * g i))
      (flat_get np nStand (fun _ i => List.replicate nChan (len * g i)) pol i hp hi) hk]
    rw [List.getElem?_replicate, if_pos hk]
  · rw [flatten_length nChan _ hm, flat_length, Nat.mul_comm, Nat.mul_comm nStand]

/-- With an overlap that divides the length of the transform, room for a window, and an even number of channels or real data:
every access is inside the arrays, and each cell has the sum over the windows that count of what they add at the channel
of this frequency, and the length of the transform times their number. -/
theorem C75_value_partial [DecidableEq R] (np : Nat) (q : Nat → C → C → R) {a : Args C} {d : List C} {step o : Nat} (h : Ok (still a) step o)
    (h' : Ok (still (other a d)) step o) (hn : a.len ≤ a.nSamps) (hev : a.real = true ∨ a.nChan % 2 = 0) :
    ∃ out, run np q a d = .ok out ∧ out.length = np * a.nStand * a.nChan ∧
      ∀ pol i k, pol < np → i < a.nStand → k < a.nChan →
        out[a.nChan * (a.nStand * pol + i) + k]? =
          some (Spec.total (q pol) a (other a d) step i k, a.len * (Spec.good a (other a d) step i).length) := by
  unfold run
  rw [number h hn]
  simp only [Except.bind, Int.toNat_natCast]
  rw [all_sums np q h h']
  simp only
  rw [psd_eq]
  have hsn : (((List.range a.nStand).map fun i =>
      ((List.range np).map (fun pol => (List.range a.nChan).map fun k => upto (q pol) a (other a d) step i k (FEngine.Spec.windows (still a) step)),
        (Spec.good a (other a d) step i).length)).map (·.2)) = (List.range a.nStand).map fun i => (Spec.good a (other a d) step i).length := by
    rw [List.map_map]; rfl
  have htot : ∀ pol i k, FEngine.Spec.bin a k = k → upto (q pol) a (other a d) step i k (FEngine.Spec.windows (still a) step) =
      Spec.total (q pol) a (other a d) step i k := by
    intro pol i k hb
    unfold upto Spec.total Spec.at'
    rw [good_eq, hb]
    have : FEngine.Spec.bin (other a d) k = k := hb
    rw [this]
  have hlen := rowsOf_length np q a (other a d) step (FEngine.Spec.windows (still a) step)
  have hmem := rowsOf_mem np q a (other a d) step (FEngine.Spec.windows (still a) step)
  cases hre : a.real with
  | true =>
    simp only [if_true, Except.map]
    refine ⟨_, rfl, ?_, ?_⟩
    · rw [List.length_zip, flatten_length _ _ hmem, hlen]
      by_cases hz : np = 0 ∨ a.nStand = 0 ∨ a.nChan = 0
      · rcases hz with e | e | e <;> simp [e]
      · rw [(counts_get np a.nStand a.nChan _ _ hsn a.len 0 0 0 (by omega) (by omega) (by omega)).2, Nat.mul_comm a.nChan]
        omega
    · intro pol i k hp hi hk
      rw [List.getElem?_zip_eq_some]
      refine ⟨?_, (counts_get np a.nStand a.nChan _ _ hsn a.len pol i k hp hi hk).1⟩
      rw [flatten_get a.nChan _ hmem (a.nStand * pol + i) k _ (rowsOf_get np q a (other a d) step _ pol i hp hi) hk,
        List.getElem?_map, List.getElem?_range hk]
      simp only [Option.map_some]
      rw [htot pol i k (by unfold FEngine.Spec.bin; rw [hre]; rfl)]
  | false =>
    have hev : a.nChan % 2 = 0 := by rcases hev with e | e; · rw [hre] at e; cases e
                                     · exact e
    simp only [Bool.false_eq_true, if_false]
    rw [shiftAll_ok np a.nStand a.nChan hev _ hmem hlen]
    simp only
    rw [whole_halves]
    simp only [Except.map]
    have hmem' : ∀ r ∈ (rowsOf np q a (other a d) step (FEngine.Spec.windows (still a) step)).map turn, r.length = a.nChan := by
      intro r hr
      rw [List.mem_map] at hr
      obtain ⟨r', hr', rfl⟩ := hr
      rw [turn_length, hmem r' hr']
    refine ⟨_, rfl, ?_, ?_⟩
    · rw [List.length_zip, flatten_length _ _ hmem', List.length_map, hlen]
      by_cases hz : np = 0 ∨ a.nStand = 0 ∨ a.nChan = 0
      · rcases hz with e | e | e <;> simp [e]
      · rw [(counts_get np a.nStand a.nChan _ _ hsn a.len 0 0 0 (by omega) (by omega) (by omega)).2, Nat.mul_comm a.nChan]
        omega
    · intro pol i k hp hi hk
      rw [List.getElem?_zip_eq_some]
      refine ⟨?_, (counts_get np a.nStand a.nChan _ _ hsn a.len pol i k hp hi hk).1⟩
      rw [flatten_get a.nChan _ hmem' (a.nStand * pol + i) k _ (by rw [List.getElem?_map, rowsOf_get np q a (other a d) step _ pol i hp hi]; rfl) hk]
      rw [turn_get _ _ (by simp; exact hk)]
      simp only [List.length_map, List.length_range]
      have hb : FEngine.Spec.bin a k = (k + (a.nChan - a.nChan / 2)) % a.nChan := by
        unfold FEngine.Spec.bin; rw [hre]; rfl
      rw [List.getElem?_map, List.getElem?_range (Nat.mod_lt _ (by omega))]
      simp only [Option.map_some]
      congr 1
      unfold upto Spec.total Spec.at'
      rw [good_eq, hb]
      have : FEngine.Spec.bin (other a d) k = (k + (a.nChan - a.nChan / 2)) % a.nChan := hb
      rw [this]

/-- Complex data with an odd number of channels: for all data the last row is read beyond the end of the array. -/
theorem C75_not_odd [DecidableEq R] (np : Nat) (q : Nat → C → C → R) {a : Args C} {d : List C} {step o : Nat} (h : Ok (still a) step o)
    (h' : Ok (still (other a d)) step o) (hn : a.len ≤ a.nSamps) (hr : a.real = false) (hod : a.nChan % 2 = 1) (hp : 0 < np) (hs : 0 < a.nStand) :
    run np q a d = .error .ub := by
  unfold run
  rw [number h hn]
  simp only [Except.bind, Int.toNat_natCast]
  rw [all_sums np q h h']
  simp only
  rw [psd_eq, hr]
  simp only [Bool.false_eq_true, if_false]
  rw [shiftAll_ub np a.nStand a.nChan hod hp hs _ (by
    rw [halves_length, flatten_length _ _ (rowsOf_mem np q a (other a d) step _), rowsOf_length, Nat.mul_comm a.nChan])]
  rfl

/-- An overlap of 0 or above the length of the transform divides by zero. -/
theorem C75_not_many [DecidableEq R] (np : Nat) (q : Nat → C → C → R) (a : Args C) (d : List C)
    (h : a.overlap = 0 ∨ (a.len : Int) < a.overlap) : run np q a d = .error .ub := by
  have : nFFT a.nSamps 0 a.len a.overlap = .error .ub := by
    unfold nFFT cdiv
    rcases h with h | h
    · rw [if_pos h]; rfl
    · by_cases h0 : a.overlap = 0
      · rw [if_pos h0]; rfl
      · rw [if_neg h0]
        have : (a.len : Int).tdiv a.overlap = 0 := by
          rw [Int.tdiv_eq_ediv_of_nonneg (by omega)]; exact Int.ediv_eq_zero_of_lt (by omega) h
        rw [this]; rfl
  unfold run
  rw [this]
  rfl

end

end Verif.PSD
