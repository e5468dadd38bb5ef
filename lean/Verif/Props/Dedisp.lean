import Verif.Lemmas.Dedisp
/-!
# C82: dedispersion
-/
namespace Verif.Dedisp
open Verif.CMem
open Lean.Grind (CommRing)

/-! ## Delays -/

theorem foldl_max (l : List Rat) (a : Rat) :
    (∀ x ∈ a :: l, x ≤ l.foldl (fun a b => if a < b then b else a) a) ∧ l.foldl (fun a b => if a < b then b else a) a ∈ a :: l := by
  induction l generalizing a with
  | nil => simp
  | cons b l ih =>
    have h := ih (if a < b then b else a)
    simp only [List.foldl_cons]
    constructor
    · intro x hx
      have hb := h.1 (if a < b then b else a) List.mem_cons_self
      simp only [List.mem_cons] at hx
      rcases hx with rfl | rfl | hx
      · split at hb <;> grind
      · split at hb <;> grind
      · exact h.1 x (List.mem_cons_of_mem _ hx)
    · have := h.2
      simp only [List.mem_cons] at this ⊢
      rcases this with h | h
      · rw [h]; split <;> simp
      · exact Or.inr (Or.inr h)

/-- The highest of the frequencies. -/
theorem max_spec (l : List Rat) (h : l ≠ []) : maxR l ∈ l ∧ ∀ f ∈ l, f ≤ maxR l := by
  cases l with
  | nil => exact absurd rfl h
  | cons a l => exact ⟨(foldl_max l a).2, (foldl_max l a).1⟩

theorem D_pos : 0 < D := by unfold D; grind

/-- The delay of one frequency after another. -/
def lag (dm f g : Rat) : Rat := dm * D * ((1000000 / f) ^ 2 - (1000000 / g) ^ 2)

/-- Delays are relative to the highest frequency, which has none; no delay is negative, and lower frequencies are later. -/
theorem C82_delay (l : List Rat) (h2 : 2 ≤ l.length) (hp : ∀ f ∈ l, 0 < f) (dm : Rat) (hd : 0 < dm) :
    ∃ g ∈ l, (∀ f ∈ l, f ≤ g) ∧ delay l dm = .inr (l.map fun f => lag dm f g) ∧ lag dm g g = 0
      ∧ (∀ f ∈ l, 0 ≤ lag dm f g) ∧ ∀ f ∈ l, ∀ f' ∈ l, f < f' → lag dm f' g < lag dm f g := by
  have hn : l ≠ [] := by intro h; rw [h] at h2; simp at h2
  obtain ⟨m1, m2⟩ := max_spec l hn
  have key : ∀ f f' : Rat, 0 < f → f < f' → lag dm f' (maxR l) < lag dm f (maxR l) := by
    intro f f' hf hff
    have hf' : 0 < f' := by grind
    have e : lag dm f (maxR l) - lag dm f' (maxR l) = dm * D * (1000000 / f - 1000000 / f') * (1000000 / f + 1000000 / f') := by
      unfold lag; grind
    have e1 : (1000000 : Rat) / f - 1000000 / f' = 1000000 * (f' - f) * (f⁻¹ * f'⁻¹) := by grind
    have i1 : 0 < f⁻¹ := Rat.inv_pos.mpr hf
    have i2 : 0 < f'⁻¹ := Rat.inv_pos.mpr hf'
    have p1 : 0 < (1000000 : Rat) / f - 1000000 / f' := by
      rw [e1]
      exact Rat.mul_pos (Rat.mul_pos (by decide) (by grind)) (Rat.mul_pos i1 i2)
    have p2 : 0 < (1000000 : Rat) / f + 1000000 / f' := by
      have a : 0 < 1000000 * f⁻¹ := Rat.mul_pos (by decide) i1
      have b : 0 < 1000000 * f'⁻¹ := Rat.mul_pos (by decide) i2
      grind
    have p3 : 0 < dm * D := Rat.mul_pos hd D_pos
    have := Rat.mul_pos (Rat.mul_pos p3 p1) p2
    grind
  have z : lag dm (maxR l) (maxR l) = 0 := by unfold lag; grind
  refine ⟨maxR l, m1, m2, ?_, z, ?_, fun f hf f' _ h => key f f' (hp f hf) h⟩
  · match l, h2 with
    | [], h => simp at h
    | [_], h => simp at h
    | a :: b :: l, _ => rfl
  · intro f hf
    by_cases h : f = maxR l
    · rw [h, z]; exact Rat.le_refl
    · have h' := m2 f hf
      have := key f (maxR l) (hp f hf) (by grind)
      grind

/-- A single frequency has its delay after an infinite one. -/
theorem C82_delay_single (f dm : Rat) : delay [f] dm = .inl (dm * D * (1000000 / f) ^ 2) := by
  simp only [delay]
  congr 1
  grind

/-! ## Incoherent dedispersion -/

section incoherent
variable {α : Type}

theorem roll_get (col : List α) (d : Int) (t : Nat) (h : t < col.length) :
    (roll col d)[t]? = col[(((t : Int) + d) % col.length).toNat]? := by
  have hL : (0 : Int) < col.length := by omega
  have h0 := Int.emod_nonneg d (show (col.length : Int) ≠ 0 by omega)
  have h1 := Int.emod_lt_of_pos d hL
  unfold roll
  simp only
  have e : ((t : Int) + d) % col.length = ((t : Int) + d % col.length) % col.length := by simp
  rw [e]
  by_cases hh : (t : Int) + d % col.length < col.length
  · rw [List.getElem?_append_left (by simp; omega), List.getElem?_drop, Int.emod_eq_of_lt (by omega) hh]
    congr 1; omega
  · rw [List.getElem?_append_right (by simp; omega), List.getElem?_take, if_pos (by simp; omega)]
    have : ((t : Int) + d % col.length) % col.length = (t : Int) + d % col.length - col.length := by
      rw [← Int.sub_emod_right, Int.emod_eq_of_lt (by omega) (by omega)]
    rw [this]
    congr 1
    simp only [List.length_drop]
    omega

theorem roll_length (col : List α) (d : Int) : (roll col d).length = col.length := by
  unfold roll
  simp only [List.length_append, List.length_drop, List.length_take]
  rcases Nat.eq_zero_or_pos col.length with h | h
  · omega
  · have := Int.emod_lt_of_pos d (show (0 : Int) < col.length by omega)
    omega

/-- Wrapping around: what was `d` later, around the column. -/
theorem C82_wrap (col : List α) (d : Int) : (column col d none).length = col.length
    ∧ ∀ t, t < col.length → (column col d none)[t]? = col[(((t : Int) + d) % col.length).toNat]? :=
  ⟨roll_length col d, fun t h => roll_get col d t h⟩

/-- Filling: what was `d` later, or the value to fill with. -/
theorem C82_fill (col : List α) (d : Nat) (v : α) : (column col d (some v)).length = col.length
    ∧ ∀ t, t < col.length → (column col d (some v))[t]? = if t + d < col.length then col[t + d]? else some v := by
  unfold column
  simp only
  by_cases hd : (0 : Int) < d
  · rw [if_pos hd]
    have hl := roll_length col (d : Int)
    refine ⟨by simp [hl]; omega, ?_⟩
    intro t ht
    by_cases h : t + d < col.length
    · rw [if_pos h, List.getElem?_append_left (by simp [hl]; omega), List.getElem?_take, if_pos (by simp [hl]; omega), roll_get _ _ _ ht]
      rw [Int.emod_eq_of_lt (by omega) (by omega)]
      congr 1
    · rw [if_neg h, List.getElem?_append_right (by simp [hl]; omega), List.getElem?_replicate, if_pos (by simp [hl]; omega)]
  · rw [if_neg hd]
    have : d = 0 := by omega
    subst this
    refine ⟨roll_length _ _, ?_⟩
    intro t ht
    rw [if_pos (by omega), roll_get _ _ _ ht, Int.emod_eq_of_lt (by omega) (by omega)]
    congr 1

/-- Delays to the other side are undone, around the column. -/
theorem C82_back (col : List α) (d : Int) : column (column col d none) (-d) none = col := by
  apply List.ext_getElem?
  intro t
  have hl : (column col d none).length = col.length := (C82_wrap col d).1
  by_cases ht : t < col.length
  · rw [(C82_wrap _ _).2 t (by omega), hl]
    have hL : (0 : Int) < col.length := by omega
    have h0 := Int.emod_nonneg ((t : Int) + -d) (show (col.length : Int) ≠ 0 by omega)
    have h1 := Int.emod_lt_of_pos ((t : Int) + -d) hL
    rw [(C82_wrap col d).2 _ (by omega)]
    have : ((((((t : Int) + -d) % col.length).toNat : Int) + d) % col.length) = t := by
      rw [Int.toNat_of_nonneg h0, Int.emod_add_emod]
      rw [show (t : Int) + -d + d = t by omega, Int.emod_eq_of_lt (by omega) (by omega)]
    rw [this]
    rfl
  · rw [List.getElem?_eq_none (show (column (column col d none) (-d) none).length ≤ t by rw [(C82_wrap _ _).1, hl]; omega),
      List.getElem?_eq_none (show col.length ≤ t by omega)]

/-- A pulse that is later by its delay in every channel is in step afterwards, in either mode. -/
theorem C82_incoherent (freq : List Rat) (h2 : 2 ≤ freq.length) (cols : List (List α)) (hc : cols.length = freq.length)
    (tInt dm : Rat) (fill : Option α) (zero : α) :
    ∃ ds out, steps freq dm tInt = some ds ∧ ds.length = freq.length
      ∧ incoherent freq cols tInt dm fill zero = some out ∧ out.length = cols.length
      ∧ (∀ i : Nat, i < freq.length → ds[i]? = (freq[i]?).map fun f => roundHalfEven (lag dm f (maxR freq) / tInt))
      ∧ ∀ (i : Nat) col d, cols[i]? = some col → ds[i]? = some d → out[i]? = some (column col d fill)
        ∧ (column col d fill).length = col.length
        ∧ ∀ t, t < col.length → 0 ≤ (t : Int) + d → (t : Int) + d < col.length →
          (column col d fill)[t]? = Spec.late col d t := by
  have hd : delay freq dm = .inr (freq.map fun f => lag dm f (maxR freq)) := by
    match freq, h2 with
    | [], h => simp at h
    | [_], h => simp at h
    | a :: b :: l, _ => rfl
  have hs : steps freq dm tInt = some ((freq.map fun f => lag dm f (maxR freq)).map fun t => roundHalfEven (t / tInt)) := by
    unfold steps
    rw [hd, if_neg (by intro h; rw [h] at h2; simp at h2)]
  refine ⟨_, cols.mapIdx fun i col => match ((freq.map fun f => lag dm f (maxR freq)).map fun t => roundHalfEven (t / tInt))[i]? with
      | some d => column col d fill
      | none => List.replicate col.length zero, hs, by simp, ?_, by simp, ?_, ?_⟩
  · unfold incoherent
    rw [hs]
    simp only [Option.bind_some]
    rw [if_neg (by simp; omega)]
    rfl
  · intro i hi
    simp [List.getElem?_map]
    rfl
  · intro i col d hcol hdi
    have hl : (column col d fill).length = col.length := by
      cases fill with
      | none => exact (C82_wrap col d).1
      | some v =>
        unfold column
        simp only
        split
        · simp [roll_length]; omega
        · exact roll_length _ _
    refine ⟨?_, hl, ?_⟩
    · rw [List.getElem?_mapIdx, hcol]
      simp only [Option.map_some, hdi]
    · intro t ht h0 h1
      unfold Spec.late
      rw [if_pos h0]
      cases fill with
      | none => rw [(C82_wrap col d).2 t ht, Int.emod_eq_of_lt h0 h1]
      | some v =>
        rcases Int.lt_or_le 0 d with h | h
        · obtain ⟨m, rfl⟩ := Int.eq_ofNat_of_zero_le (show 0 ≤ d by omega)
          rw [(C82_fill col m v).2 t ht, if_pos (by omega)]
          congr 1
        · unfold column
          simp only
          rw [if_neg (by omega), roll_get _ _ _ ht, Int.emod_eq_of_lt h0 h1]

/-- Spectra with a single channel are an exception. -/
theorem C82_not_single (f tInt dm : Rat) (cols : List (List α)) (fill : Option α) (zero : α) :
    incoherent [f] cols tInt dm fill zero = none := rfl

/-- More frequencies than channels are an exception; channels without a frequency come out zero. -/
theorem C82_columns (freq : List Rat) (cols : List (List α)) (tInt dm : Rat) (fill : Option α) (zero : α) :
    (cols.length < freq.length → incoherent freq cols tInt dm fill zero = none)
    ∧ ∀ out, incoherent freq cols tInt dm fill zero = some out → ∀ i col, freq.length ≤ i → cols[i]? = some col →
      out[i]? = some (List.replicate col.length zero) := by
  have hl : ∀ ds, steps freq dm tInt = some ds → ds.length = freq.length := by
    intro ds h
    unfold steps at h
    by_cases h0 : freq = []
    · rw [if_pos h0] at h; cases h
    · rw [if_neg h0] at h
      match freq, h with
      | [_], h => simp [delay] at h
      | a :: b :: l, h =>
        simp only [delay, Option.some.injEq] at h
        rw [← h]; simp
  constructor
  · intro h
    unfold incoherent
    cases hs : steps freq dm tInt with
    | none => rfl
    | some ds =>
      simp only [Option.bind_some]
      rw [if_pos (by rw [hl ds hs]; exact h)]
  · intro out ho i col hi hc
    unfold incoherent at ho
    cases hs : steps freq dm tInt with
    | none => rw [hs] at ho; cases ho
    | some ds =>
      rw [hs] at ho
      simp only [Option.bind_some] at ho
      split at ho
      · cases ho
      · rw [Option.some.injEq] at ho
        rw [← ho, List.getElem?_mapIdx, hc, Option.map_some, List.getElem?_eq_none (by rw [hl ds hs]; exact hi)]

/-- Negative delays are not filled but wrapped. -/
theorem C82_not_fill (col : List α) (d : Int) (hd : d ≤ 0) (v : α) : column col d (some v) = column col d none := by
  unfold column
  simp only
  rw [if_neg (by omega)]

/-- As for a negative dispersion measure: the last integration comes back as the first. -/
theorem C82_not_fill_negative : incoherent [(50000000 : Rat), 100000000] [[1, 2, 3, 4], [5, 6, 7, 8]] 1 (-1 / 2) (some (0 : Nat)) 0
    = some [[4, 1, 2, 3], [5, 6, 7, 8]] := by decide +kernel

example : incoherent [(50000000 : Rat), 100000000] [[1, 2, 3, 4], [5, 6, 7, 8]] 1 (1 / 2) (some (0 : Nat)) 0
    = some [[2, 3, 4, 0], [5, 6, 7, 8]] := by decide +kernel

end incoherent

/-! ## The size of the window -/

/-- Twice the samples of the band, and up to the next power of two. -/
theorem C82_size (x : Rat) (hx : 1 / 2 < x) : ∃ k : Nat, powers x = some (2 * 2 ^ k) ∧ 2 * x ≤ ((2 * 2 ^ k : Nat) : Rat)
    ∧ ((2 * 2 ^ k : Nat) : Rat) < 4 * x := by
  unfold powers
  rw [if_neg (by grind), if_neg (by grind), if_neg (by grind)]
  by_cases h1 : x ≤ 1
  · rw [if_pos h1]
    refine ⟨0, rfl, ?_, ?_⟩
    · have : ((2 * 2 ^ 0 : Nat) : Rat) = 2 := by decide
      grind
    · have : ((2 * 2 ^ 0 : Nat) : Rat) = 2 := by decide
      grind
  · rw [if_neg h1]
    refine ⟨_, rfl, ?_⟩
    have hc1 : x ≤ (x.ceil : Rat) := Rat.le_ceil
    have hc2 : (x.ceil : Rat) < x + 1 := Rat.ceil_lt
    have h2 : 2 ≤ x.ceil := by
      have : (1 : Rat) < (x.ceil : Rat) := by grind
      have : (1 : Int) < x.ceil := by exact_mod_cast this
      omega
    obtain ⟨c, hc⟩ := Int.eq_ofNat_of_zero_le (show 0 ≤ x.ceil by omega)
    have hcN : x.ceil.toNat = c := by omega
    rw [hcN]
    have hcR : (x.ceil : Rat) = (c : Rat) := by rw [hc]; rfl
    rw [hcR] at hc1 hc2
    have h2' : 2 ≤ c := by omega
    have b1 := Nat.lt_log2_self (n := c - 1)
    have b2 := Nat.log2_self_le (n := c - 1) (by omega)
    generalize (c - 1).log2 = k at b1 b2 ⊢
    constructor
    · have : c ≤ 2 ^ (k + 1) := by omega
      have : (c : Rat) ≤ ((2 ^ (k + 1) : Nat) : Rat) := by exact_mod_cast this
      have e : ((2 * 2 ^ (k + 1) : Nat) : Rat) = 2 * ((2 ^ (k + 1) : Nat) : Rat) := by push_cast; rfl
      rw [e]; grind
    · have : 2 ^ k + 1 ≤ c := by omega
      have : ((2 ^ k + 1 : Nat) : Rat) ≤ (c : Rat) := by exact_mod_cast this
      have e : ((2 * 2 ^ (k + 1) : Nat) : Rat) = 4 * ((2 ^ k + 1 : Nat) : Rat) - 4 := by push_cast; grind
      rw [e]; grind

/-- The example of the documentation, lines 160-163: at 74 MHz with 19.6 MS/s and a dispersion measure of 10 the window has
about 268 million points. -/
theorem C82_size_doc : sampleSize 74000000 19600000 10 = some 268435456 := by
  have h1 : (67108864 : Rat) < bandSamples 74000000 19600000 10 := by decide +kernel
  have h2 : bandSamples 74000000 19600000 10 ≤ 134217728 := by decide +kernel
  obtain ⟨k, e, b1, b2⟩ := C82_size (bandSamples 74000000 19600000 10) (by grind)
  unfold sampleSize
  rw [e]
  have c1 : (134217728 : Nat) < 2 * 2 ^ k := by
    have : ((134217728 : Nat) : Rat) < ((2 * 2 ^ k : Nat) : Rat) := by
      have : ((134217728 : Nat) : Rat) = 134217728 := rfl
      grind
    exact_mod_cast this
  have c2 : 2 * 2 ^ k < (536870912 : Nat) := by
    have : ((2 * 2 ^ k : Nat) : Rat) < ((536870912 : Nat) : Rat) := by
      have : ((536870912 : Nat) : Rat) = 536870912 := rfl
      grind
    exact_mod_cast this
  have k1 : 26 < k := (Nat.pow_lt_pow_iff_right (a := 2) (by omega)).mp (by omega)
  have k2 : k < 28 := (Nat.pow_lt_pow_iff_right (a := 2) (by omega)).mp (by omega)
  have : k = 27 := by omega
  subst this
  rfl

/-- Up to a quarter of a sample there is no window, as without dispersion. -/
theorem C82_not_size (x : Rat) (h0 : 0 ≤ x) (hx : x ≤ 1 / 4) : powers x = some 0 := by
  unfold powers
  rw [if_neg (by grind), if_pos hx]

/-- Up to half a sample the window is one sample. -/
theorem C82_size_one (x : Rat) (h0 : 1 / 4 < x) (hx : x ≤ 1 / 2) : powers x = some 1 := by
  unfold powers
  rw [if_neg (by grind), if_neg (by grind), if_pos hx]

/-- No window for a negative dispersion measure. -/
theorem C82_size_negative (x : Rat) (h0 : x < 0) : powers x = none := by
  unfold powers
  rw [if_pos h0]

/-! ## Coherent dedispersion -/

section coherent
variable {C T : Type} [CommRing C] {e : Rat → C}

/-- A window of the loop starts with nothing done. -/
theorem inv_zero (M nSets : Nat) (zT : T) (prev next : Bool) (size : Nat) (G : Nat → T) (F : Nat → C) :
    Inv M nSets zT prev next size G F 0 (List.replicate size zT, List.replicate size 0) := by
  have hd : ∀ n, ¬ Done M nSets prev next 0 n := by
    intro n h
    have := h.1
    omega
  refine ⟨by simp, by simp, ?_, ?_⟩
  · intro n hn; rw [if_neg (hd n)]; simp [hn]
  · intro n hn; rw [if_neg (hd n)]; simp [hn]

/-- What is computed: all windows from the first, or second without samples before, to the last, or the last but one
without samples after. -/
def covered (M size : Nat) (prev next : Bool) (n : Nat) : Prop :=
  Done M (size / (4 * M)) prev next (2 * (size / (4 * M)) + 1) n

instance (M size : Nat) (prev next : Bool) (n : Nat) : Decidable (covered M size prev next n) := by
  unfold covered; infer_instance

theorem covered_iff (M size : Nat) (prev next : Bool) (n : Nat) : covered M size prev next n ↔
    (prev = true ∨ 2 * M ≤ n) ∧ n < 4 * M * (size / (4 * M)) + (if next then 2 * M else 0) := by
  unfold covered Done
  have e : 2 * M * (2 * (size / (4 * M)) + 1) = 4 * M * (size / (4 * M)) + 2 * M := by grind
  rw [e]
  generalize 4 * M * (size / (4 * M)) = X
  cases prev <;> cases next <;> simp <;> omega

/-- The circular convolution of the window of a sample. -/
def circ (M : Nat) (k : Int → C) (s : Int → C) (n : Nat) : C :=
  sumN (4 * M) fun q => s ((2 * M * (n / (2 * M)) : Nat) - (M : Int) + q) * k (((n % (2 * M) + M : Nat) : Int) - q)

/-- The data of `coherent`. -/
structure Good (M : Nat) (t : List T) (x : List C) (prev next : Option (List T × List C)) : Prop where
  pos : 0 < M
  times : t.length = x.length
  size : 4 * M ≤ x.length
  et : Enough (4 * M) t (prev.map (·.1)) (next.map (·.1))
  ed : Enough (4 * M) x (prev.map (·.2)) (next.map (·.2))

theorem loop_circ (he : Spec.Exp e) (inv : C) (chirp : List C) (M : Nat) (hc : chirp.length = 4 * M) (zT : T) (t : List T) (x : List C)
    (prev next : Option (List T × List C)) (h : Good M t x prev next) :
    ∃ out, loop zT (4 * M) (x.length / (4 * M)) (filter e inv chirp) t x prev next (List.range (2 * (x.length / (4 * M)) + 1))
        (List.replicate x.length zT, List.replicate x.length 0) = some out
      ∧ out.1.length = x.length ∧ out.2.length = x.length
      ∧ ∀ n, n < x.length →
        out.1[n]? = some (if covered M x.length prev.isSome next.isSome n then t.getD n zT else zT)
        ∧ out.2[n]? = some (if covered M x.length prev.isSome next.isSome n
            then circ M (Spec.kernel e inv chirp) (Spec.sig 0 x (prev.map (·.2)) (next.map (·.2))) n else 0) := by
  have hf : ∀ w : List C, w.length = 4 * M → (filter e inv chirp w).length = 4 * M := by
    intro w hw; rw [filter_length _ _ _ (by omega), hw]
  have hF : ∀ i w, i ≤ 2 * (x.length / (4 * M)) → w.length = 4 * M →
      (∀ q, q < 4 * M → w[q]? = some (Spec.sig 0 x (prev.map (·.2)) (next.map (·.2)) ((2 * M * i : Nat) - (M : Int) + q))) →
      ∀ n, 2 * M * i ≤ n → n < 2 * M * i + 2 * M →
        (filter e inv chirp w)[n - 2 * M * i + M]?
          = some (circ M (Spec.kernel e inv chirp) (Spec.sig 0 x (prev.map (·.2)) (next.map (·.2))) n) := by
    intro i w _ hw hq n h1 h2
    have hM := h.pos
    have hdiv : n / (2 * M) = i := by
      apply Nat.div_eq_of_lt_le
      · rw [Nat.mul_comm]; exact h1
      · rw [Nat.mul_comm, Nat.mul_succ]; exact h2
    have hmod : n % (2 * M) = n - 2 * M * i := by
      have := Nat.div_add_mod n (2 * M)
      rw [hdiv] at this
      omega
    rw [filter_get he inv chirp w (by omega) _ (by omega), hw]
    unfold circ
    rw [hdiv, hmod]
    congr 1
    apply sumN_congr
    intro q hq'
    rw [List.getD_eq_getElem?_getD, hq q hq']
    rfl
  obtain ⟨out, e1, hI⟩ := foldlM_range (step zT (4 * M) (x.length / (4 * M)) (filter e inv chirp) t x prev next)
    (Inv M (x.length / (4 * M)) zT prev.isSome next.isSome x.length (fun n => Spec.sig zT t (prev.map (·.1)) (next.map (·.1)) n)
      (circ M (Spec.kernel e inv chirp) (Spec.sig 0 x (prev.map (·.2)) (next.map (·.2))))) (2 * (x.length / (4 * M)) + 1)
    (fun j hj out hI => step_spec M h.pos zT _ t x prev next h.times h.size h.et h.ed hf _ hF j (by omega) out hI) _
    (inv_zero M _ zT _ _ _ _ _)
  refine ⟨out, e1, hI.lenT, hI.lenD, ?_⟩
  intro n hn
  refine ⟨?_, hI.data n hn⟩
  rw [hI.time n hn]
  congr 1
  have := sig_in zT t (prev.map (·.1)) (next.map (·.1)) n (by rw [h.times]; exact hn)
  by_cases hd : Done M (x.length / (4 * M)) prev.isSome next.isSome (2 * (x.length / (4 * M)) + 1) n
  · rw [if_pos hd, if_pos (show covered _ _ _ _ _ from hd), List.getD_eq_getElem?_getD, this]; rfl
  · rw [if_neg hd, if_neg (show ¬ covered _ _ _ _ _ from hd)]

/-- The circular convolution in the middle of a window is the filter, for a short response. -/
theorem circ_lin (he : Spec.Exp e) (inv : C) (chirp : List C) (M : Nat) (hM : 0 < M) (hc : chirp.length = 4 * M)
    (hs : Spec.Short (4 * M) (Spec.kernel e inv chirp)) (s : Int → C) (n : Nat) :
    circ M (Spec.kernel e inv chirp) s n = Spec.lin (4 * M) (Spec.kernel e inv chirp) s n := by
  unfold circ
  have hm : n % (2 * M) < 2 * M := Nat.mod_lt _ (by omega)
  have := Nat.div_add_mod n (2 * M)
  rw [circular_lin M (Spec.kernel e inv chirp) (fun d => by rw [← hc]; exact kernel_period he inv chirp d) hs
    (fun y => s ((2 * M * (n / (2 * M)) : Nat) - (M : Int) + y)) (n % (2 * M) + M) (by omega) (by omega)]
  apply lin_congr
  intro d _ _
  congr 1
  omega

/-- The key, the window and the chirp of a call agree with an empty cache. -/
def Valid (chirp : Key → Nat → List C) (cache : Cache C) : Prop :=
  ∀ key v, cache.lookup key = some v → ∃ N, sampleSize key.freq key.rate key.dm = some N ∧ N ≠ 0 ∧ v = (N, chirp key N)

/-- **Coherent dedispersion.**  With enough samples, the times of the samples computed are those given, and a sample is that
of the stream filtered with the response of the chirp, if it is confined to a quarter of the window on both sides; samples
and times not computed are zero. -/
theorem C82_coherent_partial (he : Spec.Exp e) (inv : Nat → C) (chirp : Key → Nat → List C) (zT : T) (cache : Cache C) (key : Key) (M : Nat)
    (ch : List C) (caching : Bool) (cache' : Cache C) (hl : lookup chirp cache key caching = some ((4 * M, ch), cache'))
    (hc : ch.length = 4 * M) (hs : Spec.Short (4 * M) (Spec.kernel e (inv (4 * M)) ch)) (t : List T) (x : List C)
    (prev next : Option (List T × List C)) (h : Good M t x prev next) :
    ∃ out, coherent e inv chirp zT cache key t x prev next caching = some (out, cache')
      ∧ out.1.length = x.length ∧ out.2.length = x.length
      ∧ ∀ n, n < x.length →
        out.1[n]? = some (if covered M x.length prev.isSome next.isSome n then t.getD n zT else zT)
        ∧ out.2[n]? = some (if covered M x.length prev.isSome next.isSome n
            then Spec.lin (4 * M) (Spec.kernel e (inv (4 * M)) ch) (Spec.sig 0 x (prev.map (·.2)) (next.map (·.2))) n else 0) := by
  obtain ⟨out, e1, l1, l2, g⟩ := loop_circ he (inv (4 * M)) ch M hc zT t x prev next h
  refine ⟨out, ?_, l1, l2, ?_⟩
  · unfold coherent
    rw [hl]
    simp only [Option.bind_some]
    have := Nat.div_pos h.size (by have := h.pos; omega)
    rw [if_neg (by omega), e1]
    rfl
  · intro n hn
    refine ⟨(g n hn).1, ?_⟩
    rw [(g n hn).2, circ_lin he _ _ _ h.pos hc hs]

/-- Without the assumption on the response: the circular convolution of the window the sample is in the middle half of. -/
theorem C82_circular (he : Spec.Exp e) (inv : Nat → C) (chirp : Key → Nat → List C) (zT : T) (cache : Cache C) (key : Key) (M : Nat)
    (ch : List C) (caching : Bool) (cache' : Cache C) (hl : lookup chirp cache key caching = some ((4 * M, ch), cache'))
    (hc : ch.length = 4 * M) (t : List T) (x : List C) (prev next : Option (List T × List C)) (h : Good M t x prev next) :
    ∃ out, coherent e inv chirp zT cache key t x prev next caching = some (out, cache')
      ∧ out.1.length = x.length ∧ out.2.length = x.length
      ∧ ∀ n, n < x.length →
        out.1[n]? = some (if covered M x.length prev.isSome next.isSome n then t.getD n zT else zT)
        ∧ out.2[n]? = some (if covered M x.length prev.isSome next.isSome n
            then circ M (Spec.kernel e (inv (4 * M)) ch) (Spec.sig 0 x (prev.map (·.2)) (next.map (·.2))) n else 0) := by
  obtain ⟨out, e1, l1, l2, g⟩ := loop_circ he (inv (4 * M)) ch M hc zT t x prev next h
  refine ⟨out, ?_, l1, l2, g⟩
  unfold coherent
  rw [hl]
  simp only [Option.bind_some]
  have := Nat.div_pos h.size (by have := h.pos; omega)
  rw [if_neg (by omega), e1]
  rfl

/-- What is computed, with and without samples before and after. -/
theorem C82_covered (M size n : Nat) :
    (covered M size false false n ↔ 2 * M ≤ n ∧ n < size - size % (4 * M))
    ∧ (covered M size true false n ↔ n < size - size % (4 * M))
    ∧ (covered M size false true n ↔ 2 * M ≤ n ∧ n < size - size % (4 * M) + 2 * M)
    ∧ (covered M size true true n ↔ n < size - size % (4 * M) + 2 * M) := by
  have h := Nat.div_add_mod size (4 * M)
  have e : size - size % (4 * M) = 4 * M * (size / (4 * M)) := by omega
  rw [e]
  simp [covered_iff]

/-- Everything is computed between samples before and after if not more than half a window is left over. -/
theorem C82_all (M size : Nat) (hr : size % (4 * M) ≤ 2 * M) (n : Nat) (hn : n < size) : covered M size true true n := by
  rw [(C82_covered M size n).2.2.2]
  have := Nat.mod_le size (4 * M)
  omega

/-- Otherwise the rest is not, samples after or not. -/
theorem C82_not_all (M size : Nat) (prev next : Bool) (hr : 2 * M < size % (4 * M)) : ¬ covered M size prev next (size - 1) := by
  rw [covered_iff]
  have h := Nat.div_add_mod size (4 * M)
  cases next <;> simp <;> omega

/-- The pieces of a stream are filtered as the stream is: a piece at `o` with its neighbours. -/
theorem C82_stream (M : Nat) (s k : Int → C) (o : Int) (x p q : List C) (hM : 0 < M)
    (hx : ∀ n, n < x.length → x.getD n 0 = s (o + n)) (hp : ∀ n, n < p.length → p.getD n 0 = s (o - p.length + n))
    (hq : ∀ n, n < q.length → q.getD n 0 = s (o + x.length + n)) (h : Enough (4 * M) x (some p) (some q))
    (n : Nat) (hc : covered M x.length true true n) :
    Spec.lin (4 * M) k (Spec.sig 0 x (some p) (some q)) n = Spec.lin (4 * M) k s (o + n) := by
  apply lin_congr
  intro d h1 h2
  have b := h.before p rfl
  have a := h.after q rfl
  have e4 : 4 * M / 4 = M := by omega
  rw [e4] at a b
  rw [(C82_covered M x.length n).2.2.2] at hc
  have := Nat.mod_le x.length (4 * M)
  unfold Spec.sig
  by_cases c1 : (n : Int) + d < 0
  · rw [if_pos c1]
    simp only
    rw [if_neg (by omega), hp _ (by omega)]
    congr 1; omega
  · rw [if_neg c1]
    by_cases c2 : (n : Int) + d < x.length
    · rw [if_pos c2, hx _ (by omega)]
      congr 1; omega
    · rw [if_neg c2]
      simp only
      rw [hq _ (by omega)]
      congr 1; omega

/-- Without samples after, the last quarter of a window before the end of what is computed is filtered as if the stream went
on with zeros; only before that it is that of the stream. -/
theorem C82_stream_end (M : Nat) (s k : Int → C) (o : Int) (x p : List C) (hM : 0 < M)
    (hx : ∀ n, n < x.length → x.getD n 0 = s (o + n)) (hp : ∀ n, n < p.length → p.getD n 0 = s (o - p.length + n))
    (h : Enough (4 * M) x (some p) none) (n : Nat) (hn : n + M < x.length) :
    Spec.lin (4 * M) k (Spec.sig 0 x (some p) none) n = Spec.lin (4 * M) k s (o + n) := by
  apply lin_congr
  intro d h1 h2
  have b := h.before p rfl
  have e4 : 4 * M / 4 = M := by omega
  rw [e4] at b
  unfold Spec.sig
  by_cases c1 : (n : Int) + d < 0
  · rw [if_pos c1]
    simp only
    rw [if_neg (by omega), hp _ (by omega)]
    congr 1; omega
  · rw [if_neg c1]
    rw [if_pos (by omega), hx _ (by omega)]
    congr 1; omega

/-- A response that is a delay delays the stream. -/
theorem C82_shift (M : Nat) (k s : Int → C) (tau : Int) (ht : -(M : Int) ≤ tau ∧ tau ≤ M)
    (hk : ∀ d, -(M : Int) ≤ d → d ≤ M → k d = if d = tau then 1 else 0) (n : Int) :
    Spec.lin (4 * M) k s n = s (n - tau) := by
  have e2 : 4 * M / 2 = 2 * M := by omega
  have e4 : 4 * M / 4 = M := by omega
  unfold Spec.lin
  rw [e2, e4]
  rw [sumN_window (2 * M + 1) (tau + M).toNat 1 (by omega)]
  · simp only [sumN]
    rw [hk _ (by omega) (by omega), if_pos (by omega)]
    have : n - (((tau + M).toNat + 0 : Nat) - (M : Int)) = n - tau := by omega
    rw [this]; grind
  · intro q hq
    rw [hk _ (by omega) (by omega), if_neg (by omega)]; grind
  · intro q h1 h2
    rw [hk _ (by omega) (by omega), if_neg (by omega)]; grind

/-- Sums of streams are filtered one by one. -/
theorem C82_linear (M : Nat) (k : Int → C) (m : Nat) (s : Nat → Int → C) (n : Nat) :
    circ M k (fun y => sumN m fun i => s i y) n = sumN m fun i => circ M k (s i) n := by
  unfold circ
  rw [sumN_comm]
  apply sumN_congr
  intro q _
  rw [sumN_mulr]

/-- A tone at a frequency of the window is multiplied by the value of the chirp there, whatever the chirp. -/
theorem C82_tone (he : Spec.Exp e) (M : Nat) (hM : 0 < M) (inv : C) (chirp : List C) (hc : chirp.length = 4 * M)
    (hinv : inv * (sumN (4 * M) fun _ => 1) = 1)
    (hsum : ∀ m : Int, (sumN (4 * M) fun b => e (((m * b : Int) : Rat) / (4 * M : Nat))) = if ((4 * M : Nat) : Int) ∣ m then (sumN (4 * M) fun _ => 1) else 0)
    (A : C) (k0 : Nat) (hk : k0 < 4 * M) (s : Int → C) (hs : ∀ n, s n = A * e (((k0 * n : Int) : Rat) / (4 * M : Nat))) (n : Nat) :
    circ M (Spec.kernel e inv chirp) s n = chirp.getD k0 0 * s n := by
  have n0 : ((4 * M : Nat) : Rat) ≠ 0 := by
    intro h0
    have : 4 * M = 0 := by exact_mod_cast h0
    omega
  have hdm := Nat.div_add_mod n (2 * M)
  unfold circ Spec.kernel
  rw [hc]
  have step1 : ∀ q, q < 4 * M → s ((2 * M * (n / (2 * M)) : Nat) - (M : Int) + q) *
      (inv * sumN (4 * M) fun k => chirp.getD k 0 * e ((((k : Int) * (((n % (2 * M) + M : Nat) : Int) - q) : Int) : Rat) / (4 * M : Nat)))
      = sumN (4 * M) fun k => (inv * A * chirp.getD k 0 * e ((((k0 : Int) * (((2 * M * (n / (2 * M)) : Nat) : Int) - M) + (k : Int) * ((n % (2 * M) + M : Nat) : Int) : Int) : Rat) / (4 * M : Nat)))
          * e (((((k0 : Int) - k) * q : Int) : Rat) / (4 * M : Nat)) := by
    intro q _
    rw [hs, ← sumN_mul, ← sumN_mul]
    apply sumN_congr
    intro k _
    have : ((((k0 : Int) * (((2 * M * (n / (2 * M)) : Nat) : Int) - M) + (k : Int) * ((n % (2 * M) + M : Nat) : Int) : Int) : Rat) / (4 * M : Nat))
        + (((((k0 : Int) - k) * q : Int) : Rat) / (4 * M : Nat))
        = (((k0 * (((2 * M * (n / (2 * M)) : Nat) : Int) - (M : Int) + q) : Int) : Rat) / (4 * M : Nat))
        + ((((k : Int) * (((n % (2 * M) + M : Nat) : Int) - q) : Int) : Rat) / (4 * M : Nat)) := by
      simp only [Rat.intCast_add, Rat.intCast_sub, Rat.intCast_mul]
      grind
    have h2 := he.add ((((k0 : Int) * (((2 * M * (n / (2 * M)) : Nat) : Int) - M) + (k : Int) * ((n % (2 * M) + M : Nat) : Int) : Int) : Rat) / (4 * M : Nat))
      (((((k0 : Int) - k) * q : Int) : Rat) / (4 * M : Nat))
    rw [this, he.add] at h2
    grind
  rw [sumN_congr _ _ _ step1, sumN_comm]
  have step2 : ∀ k, k < 4 * M → (sumN (4 * M) fun q => (inv * A * chirp.getD k 0 * e ((((k0 : Int) * (((2 * M * (n / (2 * M)) : Nat) : Int) - M) + (k : Int) * ((n % (2 * M) + M : Nat) : Int) : Int) : Rat) / (4 * M : Nat)))
          * e (((((k0 : Int) - k) * q : Int) : Rat) / (4 * M : Nat)))
      = if k = k0 then chirp.getD k0 0 * s n else 0 := by
    intro k hk'
    rw [sumN_mul, hsum]
    by_cases h : k = k0
    · subst h
      rw [if_pos ⟨0, by omega⟩, if_pos rfl, hs]
      have : ((k : Int) * (((2 * M * (n / (2 * M)) : Nat) : Int) - M) + (k : Int) * ((n % (2 * M) + M : Nat) : Int) : Int) = k * n := by
        rw [← Int.mul_add]
        congr 1
        omega
      rw [this]
      grind
    · rw [if_neg h, if_neg]
      · grind
      · rintro ⟨c, hc'⟩
        rcases Int.lt_trichotomy c 0 with h' | h' | h'
        · have := Int.mul_le_mul_of_nonneg_left (show c ≤ -1 by omega) (show (0 : Int) ≤ ((4 * M : Nat) : Int) by omega)
          omega
        · subst h'; omega
        · have := Int.mul_le_mul_of_nonneg_left (show 1 ≤ c by omega) (show (0 : Int) ≤ ((4 * M : Nat) : Int) by omega)
          omega
  rw [sumN_congr _ _ _ step2, sumN_window (4 * M) k0 1 (by omega)]
  · simp only [sumN]
    rw [if_pos (by omega)]
    grind
  · intro q hq; rw [if_neg (by omega)]
  · intro q h1 h2; rw [if_neg (by omega)]

end coherent

/-! ## The chirp -/

/-- The phase dispersion gives to a frequency, in turns; `C82_group` says why. -/
def ism (dm f : Rat) : Rat := dm * D * 1000000000000 / f

/-- The delay after an infinite frequency. -/
def lag0 (dm f : Rat) : Rat := dm * D * (1000000 / f) ^ 2

/-- The delay of a group of waves is the slope of their phase: between two frequencies it is between their delays. -/
theorem C82_group (dm f g : Rat) (hd : 0 < dm) (hf : 0 < f) (hg : f < g) :
    lag0 dm g < -((ism dm g - ism dm f) / (g - f)) ∧ -((ism dm g - ism dm f) / (g - f)) < lag0 dm f := by
  have hg0 : 0 < g := by grind
  have i1 : 0 < f⁻¹ := Rat.inv_pos.mpr hf
  have i2 : 0 < g⁻¹ := Rat.inv_pos.mpr hg0
  have hK : 0 < dm * D * 1000000000000 := Rat.mul_pos (Rat.mul_pos hd D_pos) (by decide)
  have e1 : -((ism dm g - ism dm f) / (g - f)) = dm * D * 1000000000000 * (f⁻¹ * g⁻¹) := by
    have : g - f ≠ 0 := by grind
    unfold ism
    grind
  have e2 : lag0 dm g = dm * D * 1000000000000 * (g⁻¹ * g⁻¹) := by unfold lag0; grind
  have e3 : lag0 dm f = dm * D * 1000000000000 * (f⁻¹ * f⁻¹) := by unfold lag0; grind
  have hi : g⁻¹ < f⁻¹ := by
    have : f⁻¹ - g⁻¹ = (g - f) * (f⁻¹ * g⁻¹) := by grind
    have := Rat.mul_pos (show 0 < g - f by grind) (Rat.mul_pos i1 i2)
    grind
  have p1 := Rat.mul_pos hK (Rat.mul_pos (show 0 < f⁻¹ - g⁻¹ by grind) i2)
  have p2 := Rat.mul_pos hK (Rat.mul_pos (show 0 < f⁻¹ - g⁻¹ by grind) i1)
  rw [e1, e2, e3]
  constructor <;> grind

/-- The chirp undoes the phase of dispersion, up to a constant and the delay of the centre. -/
theorem C82_chirp (f0 dm f : Rat) (h0 : f0 ≠ 0) (hf : f ≠ 0) :
    ism dm f + phase f0 dm f = 2 * f0 * lag0 dm f0 + -(f * lag0 dm f0) := by
  unfold ism phase lag0
  have e : f0 / 1000000 + (f / 1000000 - f0 / 1000000) = f / 1000000 := by grind
  rw [e]
  grind

/-- The centre needs no correction. -/
theorem C82_chirp_centre (f0 dm : Rat) : phase f0 dm f0 = 0 := by
  unfold phase
  grind

/-- The sum of the frequencies of a window. -/
theorem sum_range (g : Nat → Rat) (n : Nat) : ((List.range (n + 1)).map g).sum = ((List.range n).map g).sum + g n := by
  rw [List.range_succ, List.map_append, List.sum_append]
  simp [Rat.add_zero]

theorem sum_lower (r f : Rat) (n : Nat) :
    ((List.range n).map fun k : Nat => (k : Rat) * r + f).sum = ((n : Rat) * ((n : Rat) - 1) / 2) * r + n * f := by
  induction n with
  | zero => simp; grind
  | succ n ih =>
    rw [sum_range, ih]
    push_cast
    grind

theorem sum_upper (r f N : Rat) (m n : Nat) :
    ((List.range n).map fun k : Nat => (((m + k : Nat) : Rat) - N) * r + f).sum
      = ((n : Rat) * ((n : Rat) - 1) / 2 + n * (m - N)) * r + n * f := by
  induction n with
  | zero => simp; grind
  | succ n ih =>
    rw [sum_range, ih]
    push_cast
    grind

/-- The centre of the channels of a window is half a channel below the frequency given. -/
theorem C82_centre (M : Nat) (hM : 0 < M) (freq rate : Rat) :
    centre (channels (2 * M) freq rate) = freq - rate / (2 * M : Nat) / 2 := by
  have n0 : (M : Rat) ≠ 0 := by
    intro h0
    have : M = 0 := by exact_mod_cast h0
    omega
  have e : channels (2 * M) freq rate = ((List.range M).map fun k : Nat => (k : Rat) * (rate / (2 * M : Nat)) + freq)
      ++ ((List.range M).map fun k : Nat => (((M + k : Nat) : Rat) - (2 * M : Nat)) * (rate / (2 * M : Nat)) + freq) := by
    unfold channels
    have : (2 * M - 1) / 2 + 1 = M := by omega
    rw [this, show 2 * M = M + M by omega, List.range_add, List.map_append, List.map_map]
    congr 1
    · apply List.map_congr_left
      intro k hk
      rw [List.mem_range] at hk
      rw [if_pos hk]
    · apply List.map_congr_left
      intro k hk
      simp only [Function.comp]
      rw [if_neg (by omega)]
  unfold centre
  rw [e, List.sum_append, sum_lower, sum_upper]
  simp only [List.length_append, List.length_map, List.length_range]
  push_cast
  grind

/-! ## The wings -/

/-- The samples a window has for the response on either side, a quarter of it, are those of half the band delay; the upper half
of the band needs less, the lower half more, but not more than the whole. -/
theorem C82_wings (freq rate dm : Rat) (hd : 0 < dm) (hr : 0 < rate) (hf : rate / 2 < freq) :
    lag dm freq (freq + rate / 2) * rate < bandSamples freq rate dm / 2
    ∧ bandSamples freq rate dm / 2 < lag dm (freq - rate / 2) freq * rate
    ∧ lag dm (freq - rate / 2) freq * rate < bandSamples freq rate dm := by
  have hK : 0 < dm * D * 1000000000000 * rate := Rat.mul_pos (Rat.mul_pos (Rat.mul_pos hd D_pos) (by decide)) hr
  have i0 : 0 < freq⁻¹ := Rat.inv_pos.mpr (by grind)
  have i1 : 0 < (freq - rate / 2)⁻¹ := Rat.inv_pos.mpr (by grind)
  have i2 : 0 < (freq + rate / 2)⁻¹ := Rat.inv_pos.mpr (by grind)
  have hb : bandSamples freq rate dm
      = dm * D * 1000000000000 * rate * ((freq - rate / 2)⁻¹ * (freq - rate / 2)⁻¹ - (freq + rate / 2)⁻¹ * (freq + rate / 2)⁻¹) := by
    unfold bandSamples; grind
  have hl : lag dm (freq - rate / 2) freq * rate
      = dm * D * 1000000000000 * rate * ((freq - rate / 2)⁻¹ * (freq - rate / 2)⁻¹ - freq⁻¹ * freq⁻¹) := by
    unfold lag; grind
  have hu : lag dm freq (freq + rate / 2) * rate
      = dm * D * 1000000000000 * rate * (freq⁻¹ * freq⁻¹ - (freq + rate / 2)⁻¹ * (freq + rate / 2)⁻¹) := by
    unfold lag; grind
  have pa : (freq - rate / 2) * (freq - rate / 2)⁻¹ = 1 := Rat.mul_inv_cancel _ (by grind)
  have pc : (freq + rate / 2) * (freq + rate / 2)⁻¹ = 1 := Rat.mul_inv_cancel _ (by grind)
  have pb : freq * freq⁻¹ = 1 := Rat.mul_inv_cancel _ (by grind)
  rw [hb, hl, hu]
  generalize (freq - rate / 2)⁻¹ = a at *
  generalize (freq + rate / 2)⁻¹ = c at *
  generalize freq⁻¹ = b at *
  generalize dm * D * 1000000000000 * rate = K at *
  have sq : 0 ≤ (a - c) * (a - c) := by
    rcases (Rat.le_total : a - c ≤ 0 ∨ 0 ≤ a - c) with h | h
    · have := Rat.mul_nonneg (show 0 ≤ -(a - c) by grind) (show 0 ≤ -(a - c) by grind)
      grind
    · exact Rat.mul_nonneg h h
  have q1 : a * c - b * b = rate / 2 * (rate / 2) * (a * c) * (b * b) := by grind
  have q2 := Rat.mul_pos (Rat.mul_pos (Rat.mul_pos (show 0 < rate / 2 by grind) (show 0 < rate / 2 by grind)) (Rat.mul_pos i1 i2)) (Rat.mul_pos i0 i0)
  have conv : 0 < a * a + c * c - 2 * (b * b) := by grind
  have q3 : b - c = rate / 2 * (b * c) := by grind
  have q4 := Rat.mul_pos (show 0 < rate / 2 by grind) (Rat.mul_pos i0 i2)
  have bc : 0 < (b - c) * (b + c) := Rat.mul_pos (by grind) (by grind)
  have m1 := Rat.mul_pos hK conv
  have m2 := Rat.mul_pos hK bc
  refine ⟨?_, ?_, ?_⟩ <;> grind

/-- For every band there are dispersion measures for which a quarter of the window is too short for the bottom of the band. -/
theorem C82_not_wings (freq rate : Rat) (hr : 0 < rate) (hf : rate / 2 < freq) (k : Nat) :
    ∃ dm N, 0 < dm ∧ sampleSize freq rate dm = some N ∧ N = 2 * 2 ^ k ∧ (N : Rat) / 4 < lag dm (freq - rate / 2) freq * rate := by
  have w1 := C82_wings freq rate 1 (by decide) hr hf
  have hS : 0 < bandSamples freq rate 1 := by
    have := w1.2
    grind
  have hp : (0 : Rat) < ((2 ^ k : Nat) : Rat) := by exact_mod_cast Nat.two_pow_pos k
  have hd : 0 < ((2 ^ k : Nat) : Rat) / bandSamples freq rate 1 := by
    have := Rat.mul_pos hp (Rat.inv_pos.mpr hS)
    grind
  have hb : bandSamples freq rate (((2 ^ k : Nat) : Rat) / bandSamples freq rate 1) = ((2 ^ k : Nat) : Rat) := by
    have e : ∀ d, bandSamples freq rate d = d * bandSamples freq rate 1 := by intro d; unfold bandSamples; grind
    rw [e]
    grind
  have h1 : (1 : Rat) ≤ ((2 ^ k : Nat) : Rat) := by exact_mod_cast Nat.two_pow_pos k
  obtain ⟨j, e1, e2, e3⟩ := C82_size ((2 ^ k : Nat) : Rat) (by grind)
  have e2' : 2 * 2 ^ k ≤ 2 * 2 ^ j := by
    have : ((2 * 2 ^ k : Nat) : Rat) ≤ ((2 * 2 ^ j : Nat) : Rat) := by push_cast at e2 ⊢; exact e2
    exact_mod_cast this
  have e3' : 2 * 2 ^ j < 4 * 2 ^ k := by
    have : ((2 * 2 ^ j : Nat) : Rat) < ((4 * 2 ^ k : Nat) : Rat) := by push_cast at e3 ⊢; exact e3
    exact_mod_cast this
  have hjk : j = k := by
    have a : k ≤ j := (Nat.pow_le_pow_iff_right (by omega)).mp (show 2 ^ k ≤ 2 ^ j by omega)
    have b : j < k + 1 := (Nat.pow_lt_pow_iff_right (a := 2) (by omega)).mp (by rw [Nat.pow_succ]; omega)
    omega
  subst hjk
  have w := (C82_wings freq rate _ hd hr hf).2.1
  rw [hb] at w
  refine ⟨_, 2 * 2 ^ j, hd, by unfold sampleSize; rw [hb, e1], rfl, ?_⟩
  have : ((2 * 2 ^ j : Nat) : Rat) / 4 = ((2 ^ j : Nat) : Rat) / 2 := by push_cast; grind
  rw [this]
  exact w

/-! ## The cache and exceptions -/

section cache
variable {C T : Type} [CommRing C] {e : Rat → C}

omit [CommRing C] in
theorem lookup_cons (key key' : Key) (v : Nat × List C) (cache : Cache C) :
    List.lookup key' ((key, v) :: cache) = if key' = key then some v else cache.lookup key' := by
  rw [List.lookup_cons]
  by_cases h : key' = key
  · simp [h]
  · rw [if_neg h, beq_eq_false_iff_ne.mpr h]

/-- With a cache from earlier calls the result is that without, and the cache stays as good. -/
theorem C82_cache (inv : Nat → C) (chirp : Key → Nat → List C) (zT : T) (cache : Cache C) (hv : Valid chirp cache) (key : Key)
    (t : List T) (x : List C) (prev next : Option (List T × List C)) (caching : Bool) :
    (coherent e inv chirp zT cache key t x prev next caching).map (·.1) = (coherent e inv chirp zT [] key t x prev next false).map (·.1)
    ∧ ∀ r, lookup chirp cache key caching = some r → Valid chirp r.2 := by
  have hl : (lookup chirp cache key caching).map (·.1) = (lookup chirp [] key false).map (·.1) := by
    unfold lookup
    cases h : List.lookup key cache with
    | none =>
      simp only [List.lookup_nil]
      cases sampleSize key.freq key.rate key.dm with
      | none => rfl
      | some N =>
        simp only [Option.bind_some]
        split <;> rfl
    | some v =>
      obtain ⟨N, h1, h2, h3⟩ := hv key v h
      simp only [List.lookup_nil, h1, Option.bind_some]
      rw [if_neg h2, h3]
      rfl
  constructor
  · unfold coherent
    cases h1 : lookup chirp cache key caching with
    | none =>
      rw [h1] at hl
      cases h2 : lookup chirp [] key false with
      | none => rfl
      | some r => rw [h2] at hl; simp at hl
    | some r =>
      rw [h1] at hl
      cases h2 : lookup chirp [] key false with
      | none => rw [h2] at hl; simp at hl
      | some r' =>
        rw [h2] at hl
        obtain ⟨⟨N, ch⟩, c⟩ := r
        obtain ⟨⟨N', ch'⟩, c'⟩ := r'
        simp only [Option.map_some, Option.some.injEq, Prod.mk.injEq] at hl
        obtain ⟨rfl, rfl⟩ := hl
        simp only [Option.bind_some]
        split
        · rfl
        · simp only [Option.map_map]
          rfl
  · intro r hr
    unfold lookup at hr
    cases h : List.lookup key cache with
    | some v =>
      rw [h] at hr
      simp only [Option.some.injEq] at hr
      rw [← hr]
      exact hv
    | none =>
      rw [h] at hr
      simp only at hr
      cases hN : sampleSize key.freq key.rate key.dm with
      | none => rw [hN] at hr; simp at hr
      | some N =>
        rw [hN] at hr
        simp only [Option.bind_some] at hr
        by_cases h0 : N = 0
        · rw [if_pos h0] at hr; cases hr
        · rw [if_neg h0] at hr
          simp only [Option.some.injEq] at hr
          rw [← hr]
          cases caching
          · exact hv
          · simp only [if_true]
            intro key' v' hk
            rw [lookup_cons] at hk
            by_cases hkk : key' = key
            · rw [if_pos hkk] at hk
              subst hkk
              exact ⟨N, hN, h0, by simpa using hk.symm⟩
            · rw [if_neg hkk] at hk
              exact hv key' v' hk

omit [CommRing C] in
/-- A call after another, with any caching, has the chirp of its own parameters. -/
theorem C82_cache_empty (chirp : Key → Nat → List C) : Valid chirp ([] : Cache C) := by
  intro key v h
  simp at h

/-- Less data than a window are refused. -/
theorem C82_refused (inv : Nat → C) (chirp : Key → Nat → List C) (zT : T) (cache : Cache C) (key : Key) (N : Nat) (ch : List C)
    (caching : Bool) (cache' : Cache C) (hl : lookup chirp cache key caching = some ((N, ch), cache'))
    (t : List T) (x : List C) (prev next : Option (List T × List C)) (h : x.length < N) :
    coherent e inv chirp zT cache key t x prev next caching = none := by
  unfold coherent
  rw [hl]
  simp only [Option.bind_some]
  rw [if_pos (Nat.div_eq_of_lt h)]

/-- Without dispersion there is an exception. -/
theorem C82_not_zero (inv : Nat → C) (chirp : Key → Nat → List C) (zT : T) (freq rate : Rat) (taper : Bool) (dt : Nat)
    (t : List T) (x : List C) (prev next : Option (List T × List C)) (caching : Bool) :
    coherent e inv chirp zT [] ⟨freq, rate, 0, taper, dt⟩ t x prev next caching = none := by
  have : sampleSize freq rate 0 = some 0 := by
    unfold sampleSize
    have : bandSamples freq rate 0 = 0 := by unfold bandSamples; grind
    rw [this]
    exact C82_not_size 0 (by decide) (by grind)
  unfold coherent lookup
  simp [this]

omit [CommRing C] in
/-- Too few samples before are refused, but a single one is taken for all of them. -/
theorem C82_before (z : C) (M : Nat) (p : List C) : (p.length < M → p.length ≠ 1 → before z M (some p) = none)
    ∧ ∀ v, p = [v] → before z M (some p) = some (List.replicate M v) ∨ M = 0 := by
  constructor
  · intro h1 h2
    unfold before assign
    simp only
    rw [if_neg (by simp; omega)]
    have : p.length - M = 0 := by omega
    rw [this, List.drop_zero]
    match p, h2 with
    | [], _ => rfl
    | [_], h => simp at h
    | _ :: _ :: _, _ => rfl
  · rintro v rfl
    by_cases hM : M = 0
    · exact Or.inr hM
    · left
      unfold before assign
      simp only [List.length_cons, List.length_nil]
      have : 0 + 1 - M = 0 := by omega
      rw [this]
      simp only [List.drop_zero, List.length_cons, List.length_nil]
      split
      · have : M = 1 := by omega
        subst this
        rfl
      · rfl

/-- With a window of one sample, for a weak dispersion, nothing is computed: times and samples are all zero. -/
theorem C82_not_one (inv : Nat → C) (chirp : Key → Nat → List C) (zT : T) (cache : Cache C) (key : Key) (ch : List C)
    (caching : Bool) (cache' : Cache C) (hl : lookup chirp cache key caching = some ((1, ch), cache'))
    (t : List T) (x : List C) (hx : x ≠ []) :
    coherent e inv chirp zT cache key t x none none caching
      = some ((List.replicate x.length zT, List.replicate x.length 0), cache') := by
  have hpos : 0 < x.length := List.length_pos_iff.mpr hx
  have hw : ∀ {α : Type} (z : α) (y : List α) (i : Nat), window z 1 x.length y none none i = some ((y.drop 0).take 1) := by
    intro α z y i
    unfold window
    simp only [show 1 / 2 = 0 by omega, Nat.zero_mul]
    rw [if_neg (by omega)]
    simp only [show ((0 : Nat) : Int) - ((0 : Nat) : Int) = 0 by omega, Int.toNat_zero]
    rw [if_neg (by omega)]
  have hp : ∀ {α : Type} (o w : List α) (i : Nat), place 1 i o w = some o := by
    intro α o w i
    unfold place
    simp only [show 1 / 2 = 0 by omega, Nat.zero_mul]
    simp [assign]
  have hs : ∀ (l : List Nat) (o : List T × List C), l.foldlM (step zT 1 (x.length / 1) (filter e (inv 1) ch) t x none none) o = some o := by
    intro l o
    induction l with
    | nil => rfl
    | cons i l ih =>
      rw [List.foldlM_cons]
      have : step zT 1 (x.length / 1) (filter e (inv 1) ch) t x none none o i = some o := by
        unfold step
        simp only [Option.map_none, hw, Option.bind_some, hp, Option.map_some]
        split
        · rfl
        · split <;> rfl
      rw [this]
      exact ih
  unfold coherent
  rw [hl]
  simp only [Option.bind_some]
  rw [if_neg (by rw [Nat.div_one]; omega), loop_eq, hs]
  rfl

end cache

end Verif.Dedisp
