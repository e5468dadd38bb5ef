import Verif.Lemmas.FEngine
import Verif.Spec.XEngine
import Verif.Props.Baselines
/-!
# C74: the X engines
-/
namespace Verif.XEngine
open Verif.CMem
open Lean.Grind (CommRing)

/-! ## Baselines -/

theorem mapper_eq (n : Nat) : mapper n = Baselines.indexPairs n 0 := by
  unfold mapper Baselines.indexPairs Baselines.row
  rfl

theorem mapper_length (n : Nat) : (mapper n).length = nBL n := by
  have := Baselines.length_auto n
  rw [mapper_eq]
  unfold nBL
  rw [Nat.mul_comm (n + 1) n]
  omega

theorem mem_mapper (n s1 s2 : Nat) : (s1, s2) ∈ mapper n ↔ s1 ≤ s2 ∧ s2 < n := by
  rw [mapper_eq, Baselines.mem_indexPairs]
  omega

/-- The stands of baseline `bl`. -/
def pair (n bl : Nat) : Nat × Nat := (mapper n).getD bl (0, 0)

theorem mapAt_ok (n bl : Nat) (h : bl < nBL n) : mapAt n bl = .ok (pair n bl) := by
  unfold mapAt pair
  rw [if_neg (by rw [mapper_length]; omega), rd_ok _ _ (0, 0) (by omega) (by rw [mapper_length]; simpa using h)]
  simp

theorem pair_bounds (n bl : Nat) (h : bl < nBL n) : (pair n bl).1 ≤ (pair n bl).2 ∧ (pair n bl).2 < n := by
  have hm : pair n bl ∈ mapper n := by
    unfold pair
    rw [List.getD_eq_getElem?_getD, List.getElem?_eq_getElem (by rw [mapper_length]; exact h)]
    exact List.getElem_mem _
  exact (mem_mapper n _ _).1 hm

/-- Each pair of stands, in order, is exactly one baseline; there are `nBL` of them, so that `mapper` is exactly filled. -/
theorem C74_baselines (n : Nat) : (mapper n).length = nBL n ∧
    (∀ bl, bl < nBL n → (pair n bl).1 ≤ (pair n bl).2 ∧ (pair n bl).2 < n) ∧
    ∀ s1 s2, s1 ≤ s2 → s2 < n → ∃ bl, bl < nBL n ∧ pair n bl = (s1, s2) ∧ ∀ bl', bl' < nBL n → pair n bl' = (s1, s2) → bl' = bl := by
  refine ⟨mapper_length n, pair_bounds n, ?_⟩
  intro s1 s2 h1 h2
  have hm := (mem_mapper n s1 s2).2 ⟨h1, h2⟩
  obtain ⟨bl, hb, he⟩ := List.mem_iff_getElem.1 hm
  rw [mapper_length] at hb
  refine ⟨bl, hb, ?_, ?_⟩
  · unfold pair
    rw [List.getD_eq_getElem?_getD, List.getElem?_eq_getElem (by rw [mapper_length]; exact hb), he]; rfl
  · intro bl' hb' he'
    have hp := Baselines.indexPairs_sorted n 0
    rw [← mapper_eq] at hp
    rw [List.pairwise_iff_getElem] at hp
    unfold pair at he'
    rw [List.getD_eq_getElem?_getD, List.getElem?_eq_getElem (by rw [mapper_length]; exact hb')] at he'
    simp only [Option.getD_some] at he'
    have irr : ∀ p : Nat × Nat, ¬Baselines.Before p p := by
      intro p hp; unfold Baselines.Before at hp; omega
    rcases Nat.lt_trichotomy bl bl' with h | h | h
    · have := hp bl bl' (by rw [mapper_length]; exact hb) (by rw [mapper_length]; exact hb') h
      rw [he, he'] at this
      exact absurd this (irr _)
    · exact h.symm
    · have := hp bl' bl (by rw [mapper_length]; exact hb') (by rw [mapper_length]; exact hb) h
      rw [he, he'] at this
      exact absurd this (irr _)

/-! ## Products -/

variable {C : Type}

/-- Arrays of the right size, with flags that are 0 or 1. -/
structure Ok (nStand nChan nFFT : Nat) (x : Sig C) : Prop where
  data : x.data.length = nStand * nChan * nFFT
  valid : x.valid.length = nStand * nFFT
  flags : ∀ v ∈ x.valid, v ≤ 1

theorem and_flag (a b : Nat) (ha : a ≤ 1) (hb : b ≤ 1) : a &&& b = if (a == 1 && b == 1) then 1 else 0 := by
  have : a = 0 ∨ a = 1 := by omega
  have : b = 0 ∨ b = 1 := by omega
  rcases ‹a = 0 ∨ a = 1› with rfl | rfl <;> rcases ‹b = 0 ∨ b = 1› with rfl | rfl <;> decide

theorem flag_le {nStand nChan nFFT : Nat} {x : Sig C} (h : Ok nStand nChan nFFT x) (p : Nat) : x.valid.getD p 0 ≤ 1 := by
  rw [List.getD_eq_getElem?_getD]
  cases hp : x.valid[p]? with
  | none => simp
  | some v => exact h.flags v (List.mem_of_getElem? hp)

theorem row_lt {nStand s nFFT f : Nat} (hs : s < nStand) (hf : f < nFFT) : s * nFFT + f < nStand * nFFT := by
  rw [Nat.mul_comm s, Nat.mul_comm nStand]; exact FEngine.pair_lt hf hs

theorem cell_lt {nStand s nChan c nFFT f : Nat} (hs : s < nStand) (hc : c < nChan) (hf : f < nFFT) :
    s * nChan * nFFT + c * nFFT + f < nStand * nChan * nFFT := by
  rw [← Nat.add_mul]
  exact row_lt (row_lt hs hc) hf

theorem nAct_ok {nStand nChan nFFT : Nat} {x y : Sig C} (hx : Ok nStand nChan nFFT x) (hy : Ok nStand nChan nFFT y)
    (s1 s2 : Nat) (h1 : s1 < nStand) (h2 : s2 < nStand) :
    nAct nFFT x.valid (s1 * nFFT) y.valid (s2 * nFFT) = .ok (Spec.common nFFT x s1 y s2).length := by
  have key : ∀ n, n ≤ nFFT → (List.range n).foldl (fun (acc : Run Nat) f => acc.bind fun s =>
      (rd x.valid ((s1 * nFFT + f : Nat) : Int)).bind fun a => (rd y.valid ((s2 * nFFT + f : Nat) : Int)).map fun b => s + (a &&& b)) (.ok 0) =
      .ok ((List.range n).filter fun f => Spec.good nFFT x s1 f && Spec.good nFFT y s2 f).length := by
    intro n
    induction n with
    | zero => intro _; rfl
    | succ n ih =>
      intro hn
      rw [List.range_succ, List.foldl_append, ih (by omega), List.filter_append, List.length_append]
      simp only [List.foldl_cons, List.foldl_nil]
      have b1 := row_lt (f := n) h1 (by omega : n < nFFT)
      have b2 := row_lt (f := n) h2 (by omega : n < nFFT)
      rw [rd_ok x.valid _ 0 (by omega) (by rw [hx.valid, Int.toNat_natCast]; exact b1),
        rd_ok y.valid _ 0 (by omega) (by rw [hy.valid, Int.toNat_natCast]; exact b2)]
      show Except.ok _ = _
      congr 1
      simp only [Int.toNat_natCast]
      rw [and_flag _ _ (flag_le hx _) (flag_le hy _)]
      congr 1
      unfold Spec.good
      rw [List.filter_cons]
      split <;> simp_all
  exact key nFFT (Nat.le_refl _)

variable [CommRing C]

theorem dotc_ok (conj : C → C) (x y : List C) (n p q : Nat) (hx : ∀ f, f < n → p + f < x.length)
    (hy : ∀ f, f < n → q + f < y.length) :
    dotc conj n x p y q = .ok (sumN n fun f => conj (x.getD (p + f) 0) * y.getD (q + f) 0) := by
  have key : ∀ m, m ≤ n → (List.range m).foldl (fun (acc : Run C) f => acc.bind fun s =>
    (rd x ((p + f : Nat) : Int)).bind fun a => (rd y ((q + f : Nat) : Int)).map fun b => s + conj a * b) (.ok 0) =
      .ok (sumN m fun f => conj (x.getD (p + f) 0) * y.getD (q + f) 0) := by
    intro m
    induction m with
    | zero => intro _; rfl
    | succ m ih =>
      intro hm
      rw [List.range_succ, List.foldl_append, ih (by omega)]
      simp only [List.foldl_cons, List.foldl_nil]
      rw [rd_ok x _ 0 (by omega) (by rw [Int.toNat_natCast]; exact hx m (by omega)),
        rd_ok y _ 0 (by omega) (by rw [Int.toNat_natCast]; exact hy m (by omega))]
      rfl
  exact key n (Nat.le_refl _)

/-- Sum over all windows when the others are zero. -/
theorem sum_filter (n : Nat) (g : Nat → C) (p : Nat → Bool) (h : ∀ f, f < n → p f = false → g f = 0) :
    sumN n g = (((List.range n).filter p).map g).foldl (· + ·) 0 := by
  induction n with
  | zero => rfl
  | succ n ih =>
    rw [sumN, ih (fun f hf => h f (by omega)), List.range_succ, List.filter_append, List.map_append, List.foldl_append]
    cases hp : p n with
    | true => simp [hp]
    | false =>
      simp [hp]
      rw [h n (by omega) hp]
      grind

/-- Windows that are not valid are zero, as the F engine gives them. -/
def Zeroed (nStand nChan nFFT : Nat) (x : Sig C) : Prop :=
  ∀ s c f, s < nStand → c < nChan → f < nFFT → Spec.good nFFT x s f = false → Spec.spectrum nChan nFFT x s c f = 0

theorem dot_vis {nStand nChan nFFT : Nat} {x y : Sig C} (conj : C → C) (hc0 : conj 0 = 0) (hx : Ok nStand nChan nFFT x)
    (hy : Ok nStand nChan nFFT y) (zx : Zeroed nStand nChan nFFT x) (zy : Zeroed nStand nChan nFFT y)
    (s1 s2 c : Nat) (h1 : s1 < nStand) (h2 : s2 < nStand) (hc : c < nChan) :
    dotc conj nFFT y.data (s2 * nChan * nFFT + c * nFFT) x.data (s1 * nChan * nFFT + c * nFFT) =
      .ok (Spec.vis conj nChan nFFT x s1 y s2 c).1 := by
  rw [dotc_ok]
  · congr 1
    unfold Spec.vis Spec.common
    simp only
    rw [← sum_filter]
    · apply sumN_congr
      intro f hf
      unfold Spec.spectrum
      grind
    · intro f hf hg
      rw [Bool.and_eq_false_iff] at hg
      rcases hg with hg | hg
      · rw [zx s1 c f h1 hc hf hg]; grind
      · rw [zy s2 c f h2 hc hf hg, hc0]; grind
  · intro f hf; rw [hy.data]; exact cell_lt h2 hc hf
  · intro f hf; rw [hx.data]; exact cell_lt h1 hc hf

theorem product_ok {nStand nChan nFFT : Nat} {x y : Sig C} (conj : C → C) (hc0 : conj 0 = 0) (hx : Ok nStand nChan nFFT x)
    (hy : Ok nStand nChan nFFT y) (zx : Zeroed nStand nChan nFFT x) (zy : Zeroed nStand nChan nFFT y)
    (s1 s2 c : Nat) (h1 : s1 < nStand) (h2 : s2 < nStand) (hc : c < nChan) :
    product conj nChan nFFT x s1 y s2 c = .ok (Spec.vis conj nChan nFFT x s1 y s2 c) := by
  unfold product
  rw [nAct_ok hx hy s1 s2 h1 h2]
  show ((dotc _ _ _ _ _ _).map _ : Run _) = _
  rw [dot_vis conj hc0 hx hy zx zy s1 s2 c h1 h2 hc]
  rfl

/-! ## Writing -/

/-- The writes of one product. -/
def rows (nStand nChan pol : Nat) (g : Nat → Nat → Nat → C × Nat) : List (List (Int × (C × Nat))) :=
  (List.range (nBL nStand)).map fun bl => (List.range nChan).map fun c =>
    (((pol * nBL nStand * nChan + bl * nChan + c : Nat) : Int), g (pair nStand bl).1 (pair nStand bl).2 c)

omit [CommRing C] in
theorem writes_ok (nStand nChan pol : Nat) (f : Nat → Nat → Nat → Run (C × Nat)) (g : Nat → Nat → Nat → C × Nat)
    (h : ∀ s1 s2 c, s1 < nStand → s2 < nStand → c < nChan → f s1 s2 c = .ok (g s1 s2 c)) :
    writes nStand nChan pol f = .ok (rows nStand nChan pol g) := by
  unfold writes rows
  apply all_ok
  intro bl hbl
  have hbl := List.mem_range.1 hbl
  rw [mapAt_ok _ _ hbl]
  have hb := pair_bounds nStand bl hbl
  show all _ _ = _
  apply all_ok
  intro c hc
  rw [h _ _ c (by omega) hb.2 (List.mem_range.1 hc)]
  rfl

omit [CommRing C] in
theorem rows_addresses (nStand nChan pol : Nat) (g : Nat → Nat → Nat → C × Nat) :
    ((rows nStand nChan pol g).flatten.map (·.1)) =
      (List.range' (pol * nBL nStand * nChan) (nBL nStand * nChan)).map (fun p => ((p : Nat) : Int)) := by
  unfold rows
  have key : ∀ n, (((List.range n).map fun bl => (List.range nChan).map fun c =>
      (((pol * nBL nStand * nChan + bl * nChan + c : Nat) : Int), g (pair nStand bl).1 (pair nStand bl).2 c)).flatten.map (·.1)) =
      (List.range' (pol * nBL nStand * nChan) (n * nChan)).map (fun p => ((p : Nat) : Int)) := by
    intro n
    induction n with
    | zero => simp
    | succ n ih =>
      rw [List.range_succ, List.map_append, List.flatten_append, List.map_append, ih, Nat.succ_mul]
      rw [← List.range'_append_1, List.map_append]
      congr 1
      simp only [List.map_cons, List.map_nil, List.flatten_cons, List.flatten_nil, List.append_nil, List.map_map]
      rw [List.range'_eq_map_range, List.map_map]
      rfl
  exact key (nBL nStand)

/-- All writes of `k` products are to different cells of an array of `k` times the size, and all cells are written. -/
theorem write_all (nStand nChan k : Nat) (g : Nat → Nat → Nat → Nat → C × Nat) :
    ∃ out, wrs (List.replicate (k * nBL nStand * nChan) ((0 : C), 1))
        ((List.range k).map fun pol => rows nStand nChan pol (g pol)).flatten.flatten = .ok out ∧
      out.length = k * nBL nStand * nChan ∧
      ∀ pol bl c, pol < k → bl < nBL nStand → c < nChan →
        out[pol * nBL nStand * nChan + bl * nChan + c]? = some (g pol (pair nStand bl).1 (pair nStand bl).2 c) := by
  have ha : ∀ k, (((List.range k).map fun pol => rows nStand nChan pol (g pol)).flatten.flatten.map (·.1)) =
      (List.range (k * nBL nStand * nChan)).map (fun p => ((p : Nat) : Int)) := by
    intro k
    induction k with
    | zero => simp
    | succ k ih =>
      rw [List.range_succ, List.map_append, List.flatten_append, List.flatten_append, List.map_append, ih]
      rw [show (k + 1) * nBL nStand * nChan = k * nBL nStand * nChan + nBL nStand * nChan by rw [Nat.succ_mul, Nat.add_mul]]
      rw [List.range_eq_range', List.range_eq_range', ← List.range'_append_1, List.map_append, Nat.zero_add]
      congr 1
      simp only [List.map_cons, List.map_nil, List.flatten_cons, List.flatten_nil, List.append_nil]
      exact rows_addresses nStand nChan k (g k)
  have ⟨out, h1, h2, h3, _⟩ := wrs_ok (List.replicate (k * nBL nStand * nChan) ((0 : C), 1))
    ((List.range k).map fun pol => rows nStand nChan pol (g pol)).flatten.flatten
    (by
      intro w hw
      have : w.1 ∈ (((List.range k).map fun pol => rows nStand nChan pol (g pol)).flatten.flatten.map (·.1)) :=
        List.mem_map.2 ⟨w, hw, rfl⟩
      rw [ha, List.mem_map] at this
      obtain ⟨p, hp, e⟩ := this
      have := List.mem_range.1 hp
      rw [List.length_replicate]
      omega)
    (by
      rw [ha]
      unfold List.Nodup
      rw [List.pairwise_map]
      apply List.Pairwise.imp _ (List.nodup_range (n := k * nBL nStand * nChan))
      intro a b hne e
      exact hne (Int.ofNat.inj e))
  refine ⟨out, h1, by rw [h2, List.length_replicate], ?_⟩
  intro pol bl c hp hb hc
  have := h3 (((pol * nBL nStand * nChan + bl * nChan + c : Nat) : Int), g pol (pair nStand bl).1 (pair nStand bl).2 c) (by
    rw [List.mem_flatten]
    refine ⟨(List.range nChan).map fun c => (((pol * nBL nStand * nChan + bl * nChan + c : Nat) : Int),
      g pol (pair nStand bl).1 (pair nStand bl).2 c),
      List.mem_flatten.2 ⟨_, List.mem_map.2 ⟨pol, List.mem_range.2 hp, rfl⟩, ?_⟩, ?_⟩
    · unfold rows
      exact List.mem_map.2 ⟨bl, List.mem_range.2 hb, rfl⟩
    · exact List.mem_map.2 ⟨c, List.mem_range.2 hc, rfl⟩)
  exact this

/-- `XEngine2`: all reads and writes are inside the arrays, every cell of the output is written once, and the visibility of every
baseline and channel is the mean over the windows that are valid for both stands. -/
theorem C74_two {nStand nChan nFFT : Nat} {x y : Sig C} (conj : C → C) (hc0 : conj 0 = 0) (hx : Ok nStand nChan nFFT x)
    (hy : Ok nStand nChan nFFT y) (zx : Zeroed nStand nChan nFFT x) (zy : Zeroed nStand nChan nFFT y) :
    ∃ out, two conj nStand nChan nFFT x y = .ok out ∧ out.length = nBL nStand * nChan ∧
      ∀ bl c, bl < nBL nStand → c < nChan →
        out[bl * nChan + c]? = some (Spec.vis conj nChan nFFT x (pair nStand bl).1 y (pair nStand bl).2 c) := by
  have ⟨out, h1, h2, h3⟩ := write_all nStand nChan 1 (fun _ s1 s2 c => Spec.vis conj nChan nFFT x s1 y s2 c)
  rw [Nat.one_mul] at h1 h2
  refine ⟨out, ?_, h2, ?_⟩
  · unfold two
    rw [writes_ok nStand nChan 0 _ (fun s1 s2 c => Spec.vis conj nChan nFFT x s1 y s2 c)
      (fun s1 s2 c a b d => product_ok conj hc0 hx hy zx zy s1 s2 c a b d)]
    rw [← h1]
    show wrs _ _ = _
    congr 1
    simp
  · intro bl c hb hc
    have := h3 0 bl c (by omega) hb hc
    simpa using this

/-- The four signals of each product, `XX`, `XY`, `YX`, `YY`. -/
def first (x y : Sig C) (pol : Nat) : Sig C := if pol < 2 then x else y
def second (x y : Sig C) (pol : Nat) : Sig C := if pol % 2 = 0 then x else y

/-- `XEngine3` of core.cpp: the same for the four products `XX`, `XY`, `YX` and `YY`. -/
theorem C74_linear {nStand nChan nFFT : Nat} {x y : Sig C} (conj : C → C) (hc0 : conj 0 = 0) (hx : Ok nStand nChan nFFT x)
    (hy : Ok nStand nChan nFFT y) (zx : Zeroed nStand nChan nFFT x) (zy : Zeroed nStand nChan nFFT y) :
    ∃ out, linear conj nStand nChan nFFT x y = .ok out ∧ out.length = 4 * nBL nStand * nChan ∧
      ∀ pol bl c, pol < 4 → bl < nBL nStand → c < nChan →
        out[pol * nBL nStand * nChan + bl * nChan + c]? =
          some (Spec.vis conj nChan nFFT (first x y pol) (pair nStand bl).1 (second x y pol) (pair nStand bl).2 c) := by
  have ⟨out, h1, h2, h3⟩ := write_all nStand nChan 4
    (fun pol s1 s2 c => Spec.vis conj nChan nFFT (first x y pol) s1 (second x y pol) s2 c)
  refine ⟨out, ?_, h2, h3⟩
  unfold linear
  rw [writes_ok nStand nChan 0 _ (fun s1 s2 c => Spec.vis conj nChan nFFT x s1 x s2 c)
      (fun s1 s2 c a b d => product_ok conj hc0 hx hx zx zx s1 s2 c a b d)]
  rw [writes_ok nStand nChan 1 _ (fun s1 s2 c => Spec.vis conj nChan nFFT x s1 y s2 c)
      (fun s1 s2 c a b d => product_ok conj hc0 hx hy zx zy s1 s2 c a b d)]
  rw [writes_ok nStand nChan 2 _ (fun s1 s2 c => Spec.vis conj nChan nFFT y s1 x s2 c)
      (fun s1 s2 c a b d => product_ok conj hc0 hy hx zy zx s1 s2 c a b d)]
  rw [writes_ok nStand nChan 3 _ (fun s1 s2 c => Spec.vis conj nChan nFFT y s1 y s2 c)
      (fun s1 s2 c a b d => product_ok conj hc0 hy hy zy zy s1 s2 c a b d)]
  rw [← h1]
  show wrs _ _ = _
  congr 1
  simp [List.range_succ, first, second]

end Verif.XEngine
