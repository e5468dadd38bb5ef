import Mathlib.Tactic.Ring
import Mathlib.Tactic.LinearCombination
import Verif.Model.SimFast
import Verif.Spec.SimFast
import Verif.Lemmas.CMem
/-!
# Lemmas on simulated visibilities
-/
namespace Verif.SimFast

open Real
open Verif.CMem
open Verif.Uvw (Vec dot)

/-! ## Arrays as tables -/

/-- The array with `g p` in cell `p`. -/
def tab {α : Type} (n : Nat) (g : Nat → α) : List α := (List.range n).map g

theorem tab_length {α : Type} (n : Nat) (g : Nat → α) : (tab n g).length = n := by simp [tab]

theorem tab_get {α : Type} (n : Nat) (g : Nat → α) (p : Nat) (h : p < n) : (tab n g)[p]? = some (g p) := by
  simp [tab, h]

theorem replicate_tab {α : Type} (n : Nat) (x : α) : List.replicate n x = tab n (fun _ => x) := by
  apply List.ext_getElem?
  intro i
  by_cases h : i < n
  · rw [tab_get _ _ _ h]; simp [h]
  · simp [tab, h]

theorem tab_congr {α : Type} (n : Nat) (g h : Nat → α) (e : ∀ p, p < n → g p = h p) : tab n g = tab n h := by
  unfold tab
  apply List.map_congr_left
  intro p hp
  exact e p (List.mem_range.mp hp)

theorem rd_tab {α : Type} (n : Nat) (g : Nat → α) (p : Int) (h0 : 0 ≤ p) (h : p.toNat < n) :
    rd (tab n g) p = .ok (g p.toNat) := by
  unfold rd
  rw [if_neg (by omega), tab_get _ _ _ h]

theorem wr_tab {α : Type} (n : Nat) (g : Nat → α) (p : Int) (v : α) (h0 : 0 ≤ p) (h : p.toNat < n) :
    wr (tab n g) (p, v) = .ok (tab n (fun q => if q = p.toNat then v else g q)) := by
  unfold wr
  rw [if_pos ⟨h0, by rw [tab_length]; omega⟩]
  apply congrArg
  apply List.ext_getElem?
  intro q
  by_cases hq : q < n
  · rw [tab_get _ _ _ hq]
    by_cases e : q = p.toNat
    · subst e; rw [List.getElem?_set_self (by rw [tab_length]; exact hq), if_pos rfl]
    · rw [List.getElem?_set_ne (fun x => e x.symm), tab_get _ _ _ hq, if_neg e]
  · rw [List.getElem?_eq_none (by rw [List.length_set, tab_length]; omega), List.getElem?_eq_none (by rw [tab_length]; omega)]

theorem wr_not_refused {α : Type} (m : List α) (w : Int × α) : wr m w ≠ .error .refused := by
  unfold wr; split <;> (intro h; cases h)

theorem wrs_not_refused {α : Type} (ws : List (Int × α)) (m : List α) : wrs m ws ≠ .error .refused := by
  induction ws generalizing m with
  | nil => intro h; cases h
  | cons w ws ih => exact bind_not_refused _ _ (wr_not_refused _ _) (fun v => ih v)

/-! ## Loops -/

theorem fold_not_refused {σ ι : Type} (f : σ → ι → Run σ) (l : List ι) (h : ∀ s i, f s i ≠ .error .refused) (s : σ) :
    l.foldlM f s ≠ .error .refused := by
  induction l generalizing s with
  | nil => intro x; cases x
  | cons i l ih =>
    rw [List.foldlM_cons]
    exact bind_not_refused _ _ (h s i) (fun v => ih v)

theorem fold_ub {σ ι : Type} (f : σ → ι → Run σ) (l : List ι) (h : ∀ s i, f s i ≠ .error .refused) (i : ι) (hi : i ∈ l)
    (hf : ∀ s, f s i = .error .ub) (s : σ) : l.foldlM f s = .error .ub := by
  induction l generalizing s with
  | nil => simp at hi
  | cons a l ih =>
    rw [List.foldlM_cons]
    rcases List.mem_cons.mp hi with e | e
    · subst e; rw [hf s]; rfl
    · cases hx : f s a with
      | error x => cases x with
        | ub => rfl
        | refused => exact absurd hx (h s a)
      | ok v => exact ih e v

theorem bind_ub {α β : Type} (x : Run α) (f : α → Run β) (hx : x ≠ .error .refused) (hf : ∀ v, f v = .error .ub) :
    x.bind f = .error .ub := by
  cases x with
  | error y => cases y with
    | ub => rfl
    | refused => exact absurd rfl hx
  | ok v => exact hf v

/-- A loop over `lo, lo+1, ..., lo+n-1` with an invariant. -/
theorem fold_range {σ : Type} (f : σ → Nat → Run σ) (g : Nat → σ) (n : Nat)
    (h : ∀ i, i < n → f (g i) i = .ok (g (i + 1))) : (List.range n).foldlM f (g 0) = .ok (g n) := by
  induction n with
  | zero => rfl
  | succ n ih =>
    rw [List.range_succ, List.foldlM_append, ih (fun i hi => h i (by omega))]
    show (List.foldlM f (g n) [n]) = _
    rw [List.foldlM_cons, h n (by omega)]
    rfl

theorem chans_mem (a : Args) (k : Int) : k ∈ a.chans ↔ a.chanMin ≤ k ∧ k < a.chanMax := by
  unfold Args.chans
  rw [List.mem_map]
  constructor
  · rintro ⟨x, hx, rfl⟩; have := List.mem_range.mp hx; omega
  · intro h; exact ⟨(k - a.chanMin).toNat, List.mem_range.mpr (by omega), by omega⟩

/-- A loop over the channels with an invariant. -/
theorem fold_chans {σ : Type} (a : Args) (f : σ → Int → Run σ) (g : Nat → σ) (h0 : 0 ≤ a.chanMin)
    (h : ∀ k : Nat, a.chanMin.toNat ≤ k → (k : Int) < a.chanMax → f (g k) k = .ok (g (k + 1))) :
    a.chans.foldlM f (g a.chanMin.toNat) = .ok (g (max a.chanMin.toNat a.chanMax.toNat)) := by
  unfold Args.chans
  rw [List.foldlM_map]
  have := fold_range (fun s (k : Nat) => f s (a.chanMin + k)) (fun k => g (a.chanMin.toNat + k))
    (a.chanMax - a.chanMin).toNat (fun i hi => by
      have := h (a.chanMin.toNat + i) (by omega) (by omega)
      rw [show ((a.chanMin.toNat + i : Nat) : Int) = a.chanMin + i by omega] at this
      rw [this]; rfl)
  have e : a.chanMin.toNat + (a.chanMax - a.chanMin).toNat = max a.chanMin.toNat a.chanMax.toNat := by omega
  simp only [e, Nat.add_zero] at this
  exact this

/-! ## Addresses -/

theorem addr (n p q k : Nat) (hk : k < n) : p = q * n + k ↔ p / n = q ∧ p % n = k := by
  constructor
  · rintro rfl
    constructor
    · rw [Nat.add_comm, Nat.add_mul_div_right _ _ (by omega), Nat.div_eq_of_lt hk]; omega
    · rw [Nat.add_comm, Nat.add_mul_mod_self_right, Nat.mod_eq_of_lt hk]
  · rintro ⟨rfl, rfl⟩
    exact (Nat.div_add_mod' p n).symm

theorem addr_lt (m n q k : Nat) (hq : q < m) (hk : k < n) : q * n + k < m * n := by
  have : (q + 1) * n ≤ m * n := Nat.mul_le_mul_right _ hq
  rw [Nat.add_mul] at this
  omega

/-! ## The sky -/

/-- The channel is simulated. -/
def Args.on (a : Args) (k : Nat) : Prop := a.chanMin ≤ k ∧ (k : Int) < a.chanMax

instance (a : Args) (k : Nat) : Decidable (a.on k) := by unfold Args.on; infer_instance

/-- The arrays have the sizes of the numbers given. -/
structure Args.Sizes (a : Args) : Prop where
  freq : a.freq.length = a.nChan
  ha : a.srcHa.length = a.nSrc
  dec : a.srcDec.length = a.nSrc
  flux : a.flux.length = a.nSrc * a.nChan
  shape : a.shape.length = 3 * a.nSrc

/-- Every channel of the range exists. -/
def Args.chanOk (a : Args) : Prop := a.chanMax ≤ a.chanMin ∨ (0 ≤ a.chanMin ∧ a.chanMax ≤ a.nChan)

/-- What source `j` adds to channel `k`. -/
noncomputable def Args.term (a : Args) (j1 : ℝ → ℝ) (b : Vec) (j k : Nat) : ℂ :=
  let r := rot (a.srcHa.getD j 0) (a.srcDec.getD j 0) b
  let f := a.freq.getD k 0
  (resolved j1 a.resolve (a.shape.getD j 0) (a.shape.getD (a.nSrc + j) 0) (a.shape.getD (2 * a.nSrc + j) 0) (f * r.x) (f * r.y) : ℂ)
    * a.flux.getD (a.nChan * j + k) 0 * e (f * r.z)

theorem source_eq (a : Args) (h : a.Sizes) (hc : a.chanOk) (j1 : ℝ → ℝ) (b : Vec) (j : Nat) (hj : j < a.nSrc) :
    a.source j1 b j = .ok (a.chans.map fun k => (k, a.term j1 b j k.toNat)) := by
  unfold Args.source
  rw [rd_ok a.srcHa j 0 (by omega) (by rw [h.ha]; omega), rd_ok a.srcDec j 0 (by omega) (by rw [h.dec]; omega),
    rd_ok a.shape (0 * a.nSrc + j) 0 (by omega) (by rw [h.shape]; omega),
    rd_ok a.shape (1 * a.nSrc + j) 0 (by omega) (by rw [h.shape]; omega),
    rd_ok a.shape (2 * a.nSrc + j) 0 (by omega) (by rw [h.shape]; omega)]
  show all _ _ = _
  apply all_ok
  intro k hk
  rw [chans_mem] at hk
  have hk' : 0 ≤ k ∧ k < a.nChan := by unfold Args.chanOk at hc; omega
  have hb : a.nChan * j + k.toNat < a.flux.length := by
    rw [h.flux, Nat.mul_comm a.nChan]; exact addr_lt _ _ _ _ hj (by omega)
  have e1 : ((a.nChan : Int) * j + k).toNat = a.nChan * j + k.toNat := by
    have : ((a.nChan * j : Nat) : Int) = a.nChan * j := by push_cast; rfl
    omega
  rw [rd_ok a.freq k 0 hk'.1 (by rw [h.freq]; omega), rd_ok a.flux (a.nChan * j + k) 0 (by
    have : ((a.nChan * j : Nat) : Int) = a.nChan * j := by push_cast; rfl
    omega) (by rw [e1]; exact hb), e1]
  show Except.ok _ = _
  have e2 : ((a.nSrc : Int) + j).toNat = a.nSrc + j := by omega
  have e3 : (2 * (a.nSrc : Int) + j).toNat = 2 * a.nSrc + j := by omega
  unfold Args.term
  simp [e2, e3]

theorem adds_tab (a : Args) (hc : a.chanOk) (g h : Nat → ℂ) :
    (a.chans.map fun k => (k, h k.toNat)).foldlM add (tab a.nChan g) = .ok (tab a.nChan fun k => if a.on k then g k + h k else g k) := by
  rw [List.foldlM_map]
  by_cases he : a.chanMax ≤ a.chanMin
  · have : a.chans = [] := by
      unfold Args.chans; rw [show (a.chanMax - a.chanMin).toNat = 0 by omega]; rfl
    rw [this]
    show Except.ok _ = _
    apply congrArg
    apply tab_congr
    intro k _
    rw [if_neg (by unfold Args.on; omega)]
  · have hr : 0 ≤ a.chanMin ∧ a.chanMax ≤ a.nChan := by unfold Args.chanOk at hc; omega
    have := fold_chans a (fun m k => add m (k, h k.toNat))
      (fun κ => tab a.nChan fun k => if a.chanMin.toNat ≤ k ∧ k < κ then g k + h k else g k) hr.1 (by
        intro k h1 h2
        unfold add
        rw [rd_tab _ _ _ (by omega) (by simp; omega)]
        show wr _ _ = _
        rw [wr_tab _ _ _ _ (by omega) (by simp; omega)]
        apply congrArg
        apply tab_congr
        intro q hq
        simp only [Int.toNat_natCast]
        by_cases e : q = k
        · subst e
          rw [if_pos rfl, if_neg (by omega), if_pos (by omega)]
        · rw [if_neg e]
          by_cases e2 : a.chanMin.toNat ≤ q ∧ q < k
          · rw [if_pos e2, if_pos (by omega)]
          · rw [if_neg e2, if_neg (by omega)])
    have e0 : tab a.nChan g = tab a.nChan fun k => if a.chanMin.toNat ≤ k ∧ k < a.chanMin.toNat then g k + h k else g k := by
      apply tab_congr
      intro p _
      rw [if_neg (by omega)]
    rw [e0]
    refine Eq.trans this ?_
    apply congrArg
    apply tab_congr
    intro p _
    by_cases e : a.on p
    · have e' := e
      unfold Args.on at e'
      rw [if_pos e, if_pos (by omega)]
    · have e' := e
      unfold Args.on at e'
      rw [if_neg e, if_neg (by omega)]

/-- The sum over the first `n` sources. -/
noncomputable def Args.total (a : Args) (j1 : ℝ → ℝ) (b : Vec) (n k : Nat) : ℂ :=
  ((List.range n).map fun j => a.term j1 b j k).sum

theorem sky_eq (a : Args) (h : a.Sizes) (hc : a.chanOk) (j1 : ℝ → ℝ) (b : Vec) :
    a.sky j1 b = .ok (tab a.nChan fun k => if a.on k then a.total j1 b a.nSrc k else 0) := by
  unfold Args.sky
  have := fold_range (fun t j => (a.source j1 b j).bind (fun ws => ws.foldlM add t))
    (fun n => tab a.nChan fun k => if a.on k then a.total j1 b n k else 0) a.nSrc (by
      intro j hj
      rw [source_eq a h hc j1 b j hj]
      show List.foldlM add _ _ = _
      rw [adds_tab a hc]
      apply congrArg
      apply tab_congr
      intro k _
      by_cases e : a.on k
      · rw [if_pos e, if_pos e, if_pos e]
        unfold Args.total
        rw [List.range_succ, List.map_append, List.sum_append]
        simp
      · rw [if_neg e, if_neg e, if_neg e])
  rw [replicate_tab]
  refine Eq.trans ?_ this
  apply congrArg (fun z => List.foldlM _ z _)
  apply tab_congr
  intro p _
  unfold Args.total
  simp

/-! ## A baseline -/

theorem flatPos_get (ants : List Vec) (i : Nat) (hi : i < ants.length) :
    (flatPos ants)[3 * i]? = some (ants[i].x) ∧ (flatPos ants)[3 * i + 1]? = some (ants[i].y)
      ∧ (flatPos ants)[3 * i + 2]? = some (ants[i].z) := by
  induction ants generalizing i with
  | nil => simp at hi
  | cons v l ih =>
    cases i with
    | zero => simp [flatPos]
    | succ i =>
      have := ih i (by simpa using hi)
      have c : flatPos (v :: l) = v.x :: v.y :: v.z :: flatPos l := by simp [flatPos]
      rw [c, show 3 * (i + 1) = 3 * i + 1 + 1 + 1 by omega]
      simpa using this

theorem flatPos_length (ants : List Vec) : (flatPos ants).length = 3 * ants.length := by
  induction ants with
  | nil => rfl
  | cons v l ih =>
    have c : flatPos (v :: l) = v.x :: v.y :: v.z :: flatPos l := by simp [flatPos]
    rw [c]; simp [ih]; omega

theorem flatBl_get (bls : List (Int × Int)) (i : Nat) (hi : i < bls.length) :
    (flatBl bls)[2 * i]? = some (bls[i].1) ∧ (flatBl bls)[2 * i + 1]? = some (bls[i].2) := by
  induction bls generalizing i with
  | nil => simp at hi
  | cons v l ih =>
    cases i with
    | zero => simp [flatBl]
    | succ i =>
      have := ih i (by simpa using hi)
      have c : flatBl (v :: l) = v.1 :: v.2 :: flatBl l := by simp [flatBl]
      rw [c, show 2 * (i + 1) = 2 * i + 1 + 1 by omega]
      simpa using this

/-- An antenna number of the array. -/
def okAnt (ants : List Vec) (i : Int) : Prop := 0 ≤ i ∧ i < ants.length

theorem rd_some {α : Type} (m : List α) (p : Nat) (v : α) (h : m[p]? = some v) : rd m p = .ok v := by
  unfold rd; rw [if_neg (by omega)]; simp [h]

theorem rd_pos (ants : List Vec) (i : Int) (h : okAnt ants i) :
    rd (flatPos ants) (3 * i + 0) = .ok (ants.getD i.toNat ⟨0, 0, 0⟩).x ∧
    rd (flatPos ants) (3 * i + 1) = .ok (ants.getD i.toNat ⟨0, 0, 0⟩).y ∧
    rd (flatPos ants) (3 * i + 2) = .ok (ants.getD i.toNat ⟨0, 0, 0⟩).z := by
  unfold okAnt at h
  obtain ⟨h1, h2, h3⟩ := flatPos_get ants i.toNat (by omega)
  have g : ants.getD i.toNat ⟨0, 0, 0⟩ = ants[i.toNat]'(by omega) := by
    simp [List.getD, List.getElem?_eq_getElem (show i.toNat < ants.length by omega)]
  rw [g, show 3 * i + 0 = ((3 * i.toNat : Nat) : Int) by omega, show 3 * i + 1 = ((3 * i.toNat + 1 : Nat) : Int) by omega,
    show 3 * i + 2 = ((3 * i.toNat + 2 : Nat) : Int) by omega]
  exact ⟨rd_some _ _ _ h1, rd_some _ _ _ h2, rd_some _ _ _ h3⟩

theorem bl_eq (a : Args) (ants : List Vec) (ha : a.antPos = flatPos ants) (i j : Int) (hi : okAnt ants i) (hj : okAnt ants j) :
    a.bl i j = .ok ((ants.getD i.toNat ⟨0, 0, 0⟩).sub (ants.getD j.toNat ⟨0, 0, 0⟩)) := by
  unfold Args.bl
  rw [ha]
  obtain ⟨h1, h2, h3⟩ := rd_pos ants i hi
  obtain ⟨g1, g2, g3⟩ := rd_pos ants j hj
  rw [h1, h2, h3, g1, g2, g3]
  rfl

theorem bl_not_refused (a : Args) (i j : Int) : a.bl i j ≠ .error .refused := by
  unfold Args.bl
  refine bind_not_refused _ _ (rd_not_refused _ _) fun _ => bind_not_refused _ _ (rd_not_refused _ _) fun _ =>
    bind_not_refused _ _ (rd_not_refused _ _) fun _ => bind_not_refused _ _ (rd_not_refused _ _) fun _ =>
    bind_not_refused _ _ (rd_not_refused _ _) fun _ => bind_not_refused _ _ (rd_not_refused _ _) fun _ => ?_
  intro h; cases h

theorem bl_ub (a : Args) (ants : List Vec) (ha : a.antPos = flatPos ants) (i j : Int) (h : ¬ (okAnt ants i ∧ okAnt ants j)) :
    a.bl i j = .error .ub := by
  unfold Args.bl
  rw [ha]
  have hl := flatPos_length ants
  by_cases hi : okAnt ants i
  · have hj : ¬ okAnt ants j := fun x => h ⟨hi, x⟩
    refine bind_ub _ _ (rd_not_refused _ _) fun _ => ?_
    unfold okAnt at hj
    rw [rd_ub (flatPos ants) (3 * j + 0) (by rw [hl]; omega)]
    rfl
  · unfold okAnt at hi
    rw [rd_ub (flatPos ants) (3 * i + 0) (by rw [hl]; omega)]
    rfl

theorem source_not_refused (a : Args) (j1 : ℝ → ℝ) (b : Vec) (j : Nat) : a.source j1 b j ≠ .error .refused := by
  unfold Args.source
  refine bind_not_refused _ _ (rd_not_refused _ _) fun _ => bind_not_refused _ _ (rd_not_refused _ _) fun _ =>
    bind_not_refused _ _ (rd_not_refused _ _) fun _ => bind_not_refused _ _ (rd_not_refused _ _) fun _ =>
    bind_not_refused _ _ (rd_not_refused _ _) fun _ => ?_
  apply all_not_refused
  intro k _
  refine bind_not_refused _ _ (rd_not_refused _ _) fun _ => bind_not_refused _ _ (rd_not_refused _ _) fun _ => ?_
  intro h; cases h

theorem add_not_refused (m : List ℂ) (w : Int × ℂ) : add m w ≠ .error .refused :=
  bind_not_refused _ _ (rd_not_refused _ _) (fun _ => wr_not_refused _ _)

theorem sky_not_refused (a : Args) (j1 : ℝ → ℝ) (b : Vec) : a.sky j1 b ≠ .error .refused := by
  unfold Args.sky
  apply fold_not_refused
  intro s i
  exact bind_not_refused _ _ (source_not_refused _ _ _ _) (fun ws => fold_not_refused _ _ add_not_refused _)

theorem baseline_not_refused (a : Args) (j1 : ℝ → ℝ) (i : Nat) (out : List ℝ × List ℂ) : a.baseline j1 i out ≠ .error .refused := by
  unfold Args.baseline
  refine bind_not_refused _ _ (rd_not_refused _ _) fun _ => bind_not_refused _ _ (rd_not_refused _ _) fun _ =>
    bind_not_refused _ _ (bl_not_refused _ _ _) fun _ => bind_not_refused _ _ (sky_not_refused _ _ _) fun _ => ?_
  apply fold_not_refused
  intro s k
  refine bind_not_refused _ _ (rd_not_refused _ _) fun _ => bind_not_refused _ _ (wrs_not_refused _ _) fun _ =>
    bind_not_refused _ _ (rd_not_refused _ _) fun _ => bind_not_refused _ _ (wr_not_refused _ _) fun _ => ?_
  intro h; cases h

theorem baseline_ub (a : Args) (j1 : ℝ → ℝ) (i : Nat) (out : List ℝ × List ℂ) (hf : a.freq.length = a.nChan) (h : ¬ a.chanOk) :
    a.baseline j1 i out = .error .ub := by
  unfold Args.baseline
  refine bind_ub _ _ (rd_not_refused _ _) fun _ => bind_ub _ _ (rd_not_refused _ _) fun _ =>
    bind_ub _ _ (bl_not_refused _ _ _) fun _ => bind_ub _ _ (sky_not_refused _ _ _) fun t => ?_
  have hk : ∃ k ∈ a.chans, k < 0 ∨ (a.nChan : Int) ≤ k := by
    unfold Args.chanOk at h
    by_cases h0 : a.chanMin < 0
    · exact ⟨a.chanMin, (chans_mem a _).mpr (by omega), by omega⟩
    · exact ⟨a.chanMax - 1, (chans_mem a _).mpr (by omega), by omega⟩
  obtain ⟨k, h1, h2⟩ := hk
  apply fold_ub _ _ _ k h1
  · intro s
    rw [rd_ub _ _ (by rw [hf]; exact h2)]
    rfl
  · intro s k
    refine bind_not_refused _ _ (rd_not_refused _ _) fun _ => bind_not_refused _ _ (wrs_not_refused _ _) fun _ =>
      bind_not_refused _ _ (rd_not_refused _ _) fun _ => bind_not_refused _ _ (wr_not_refused _ _) fun _ => ?_
    intro h; cases h

/-- A component of a vector. -/
def comp (v : Vec) (c : Nat) : ℝ := if c = 0 then v.x else if c = 1 then v.y else v.z

/-- Baseline `i`. -/
noncomputable def blOf (ants : List Vec) (bls : List (Int × Int)) (i : Nat) : Vec :=
  (ants.getD (bls.getD i (0, 0)).1.toNat ⟨0, 0, 0⟩).sub (ants.getD (bls.getD i (0, 0)).2.toNat ⟨0, 0, 0⟩)

/-- The coordinates in cell `p`. -/
noncomputable def Args.uvwAt (a : Args) (ants : List Vec) (bls : List (Int × Int)) (p : Nat) : ℝ :=
  a.freq.getD (p % a.nChan) 0 * comp (rot a.phsHa a.phsDec (blOf ants bls (p / a.nChan / 3))) (p / a.nChan % 3)

/-- The visibility in cell `p`. -/
noncomputable def Args.visAt (a : Args) (ants : List Vec) (bls : List (Int × Int)) (j1 : ℝ → ℝ) (p : Nat) : ℂ :=
  a.total j1 (blOf ants bls (p / a.nChan)) a.nSrc (p % a.nChan)
    * e (-(a.freq.getD (p % a.nChan) 0 * (rot a.phsHa a.phsDec (blOf ants bls (p / a.nChan))).z))

/-- The arrays after `n` baselines. -/
noncomputable def Args.after (a : Args) (ants : List Vec) (bls : List (Int × Int)) (j1 : ℝ → ℝ) (n : Nat) : List ℝ × List ℂ :=
  (tab (a.nBL * 3 * a.nChan) fun p => if p / a.nChan / 3 < n ∧ a.on (p % a.nChan) then a.uvwAt ants bls p else 0,
   tab (a.nBL * a.nChan) fun p => if p / a.nChan < n ∧ a.on (p % a.nChan) then a.visAt ants bls j1 p else 0)

/-- One write of three coordinates. -/
theorem wrs3 (N n q k : Nat) (hk : k < n) (hq : (3 * q + 2) * n + k < N) (g : Nat → ℝ) (v : Vec) (f : ℝ) :
    wrs (tab N g) [(((q * 3 * n + 0 * n + k : Nat) : Int), f * v.x), (((q * 3 * n + 1 * n + k : Nat) : Int), f * v.y),
      (((q * 3 * n + 2 * n + k : Nat) : Int), f * v.z)]
      = .ok (tab N fun p => if p / n / 3 = q ∧ p % n = k then f * comp v (p / n % 3) else g p) := by
  have e0 : q * 3 * n + 0 * n + k = (3 * q) * n + k := by ring
  have e1 : q * 3 * n + 1 * n + k = (3 * q + 1) * n + k := by ring
  have e2 : q * 3 * n + 2 * n + k = (3 * q + 2) * n + k := by ring
  have l1 : (3 * q) * n + k ≤ (3 * q + 2) * n + k := by
    have := Nat.mul_le_mul_right n (show 3 * q ≤ 3 * q + 2 by omega); omega
  have l2 : (3 * q + 1) * n + k ≤ (3 * q + 2) * n + k := by
    have := Nat.mul_le_mul_right n (show 3 * q + 1 ≤ 3 * q + 2 by omega); omega
  rw [e0, e1, e2]
  unfold wrs
  rw [wr_tab _ _ _ _ (by omega) (by simp only [Int.toNat_natCast]; omega)]
  show wrs _ _ = _
  unfold wrs
  rw [wr_tab _ _ _ _ (by omega) (by simp only [Int.toNat_natCast]; omega)]
  show wrs _ _ = _
  unfold wrs
  rw [wr_tab _ _ _ _ (by omega) (by simp only [Int.toNat_natCast]; omega)]
  show Except.ok _ = _
  apply congrArg
  apply tab_congr
  intro p _
  simp only [Int.toNat_natCast, addr n p _ k hk]
  by_cases hm : p % n = k
  · simp only [hm, and_true]
    by_cases hd : p / n / 3 = q
    · rw [if_pos hd]
      have : p / n = 3 * q ∨ p / n = 3 * q + 1 ∨ p / n = 3 * q + 2 := by omega
      rcases this with h | h | h
      · rw [if_neg (by omega), if_neg (by omega), if_pos h]
        simp [comp, show p / n % 3 = 0 by omega]
      · rw [if_neg (by omega), if_pos h]
        simp [comp, show p / n % 3 = 1 by omega]
      · rw [if_pos h]
        simp [comp, show p / n % 3 = 2 by omega]
    · rw [if_neg hd, if_neg (by omega), if_neg (by omega), if_neg (by omega)]
  · simp [hm]

theorem baseline_eq (a : Args) (h : a.Sizes) (hc : a.chanOk) (ants : List Vec) (ha : a.antPos = flatPos ants)
    (bls : List (Int × Int)) (hb : a.blPair = flatBl bls) (hn : a.nBL = bls.length) (j1 : ℝ → ℝ) (i : Nat) (hi : i < a.nBL)
    (h1 : okAnt ants (bls.getD i (0, 0)).1) (h2 : okAnt ants (bls.getD i (0, 0)).2) :
    a.baseline j1 i (a.after ants bls j1 i) = .ok (a.after ants bls j1 (i + 1)) := by
  have hi' : i < bls.length := by omega
  obtain ⟨g1, g2⟩ := flatBl_get bls i hi'
  have gd : bls.getD i (0, 0) = bls[i] := by simp [List.getD, List.getElem?_eq_getElem hi']
  unfold Args.baseline
  rw [hb, show (2 * (i : Int) + 0) = ((2 * i : Nat) : Int) by omega, show (2 * (i : Int) + 1) = ((2 * i + 1 : Nat) : Int) by omega,
    rd_some _ _ _ g1, rd_some _ _ _ g2]
  show (a.bl _ _).bind _ = _
  rw [gd] at h1 h2
  rw [bl_eq a ants ha _ _ h1 h2]
  show (a.sky j1 _).bind _ = _
  rw [sky_eq a h hc]
  have bo : blOf ants bls i = (ants.getD bls[i].1.toNat ⟨0, 0, 0⟩).sub (ants.getD bls[i].2.toNat ⟨0, 0, 0⟩) := by
    unfold blOf; rw [gd]
  rw [← bo]
  show List.foldlM _ _ _ = _
  by_cases he : a.chanMax ≤ a.chanMin
  · have : a.chans = [] := by
      unfold Args.chans; rw [show (a.chanMax - a.chanMin).toNat = 0 by omega]; rfl
    rw [this]
    show Except.ok _ = _
    apply congrArg
    unfold Args.after
    congr 1 <;>
    · apply tab_congr
      intro p _
      rw [if_neg (by unfold Args.on; omega), if_neg (by unfold Args.on; omega)]
  · have hr : 0 ≤ a.chanMin ∧ a.chanMax ≤ a.nChan := by unfold Args.chanOk at hc; omega
    have key := fold_chans a (fun (out : List ℝ × List ℂ) k =>
      (rd a.freq k).bind fun f =>
      (wrs out.1 [(i * 3 * a.nChan + 0 * a.nChan + k, f * (rot a.phsHa a.phsDec (blOf ants bls i)).x),
        (i * 3 * a.nChan + 1 * a.nChan + k, f * (rot a.phsHa a.phsDec (blOf ants bls i)).y),
        (i * 3 * a.nChan + 2 * a.nChan + k, f * (rot a.phsHa a.phsDec (blOf ants bls i)).z)]).bind fun uvw =>
      (rd (tab a.nChan fun k => if a.on k then a.total j1 (blOf ants bls i) a.nSrc k else 0) k).bind fun v =>
      (wr out.2 (i * a.nChan + k, v * e (-(f * (rot a.phsHa a.phsDec (blOf ants bls i)).z)))).bind fun vis => .ok (uvw, vis))
      (fun κ => (tab (a.nBL * 3 * a.nChan) fun p =>
          if (p / a.nChan / 3 < i ∧ a.on (p % a.nChan)) ∨ (p / a.nChan / 3 = i ∧ a.chanMin.toNat ≤ p % a.nChan ∧ p % a.nChan < κ)
            then a.uvwAt ants bls p else 0,
        tab (a.nBL * a.nChan) fun p =>
          if (p / a.nChan < i ∧ a.on (p % a.nChan)) ∨ (p / a.nChan = i ∧ a.chanMin.toNat ≤ p % a.nChan ∧ p % a.nChan < κ)
            then a.visAt ants bls j1 p else 0)) hr.1 (by
        intro k k1 k2
        have kn : k < a.nChan := by omega
        have ko : a.on k := by unfold Args.on; omega
        have b1 : (3 * i + 2) * a.nChan + k < a.nBL * 3 * a.nChan := addr_lt _ _ _ _ (by omega) kn
        have b2 : i * a.nChan + k < a.nBL * a.nChan := addr_lt _ _ _ _ hi kn
        simp only
        rw [rd_ok a.freq k 0 (by omega) (by rw [h.freq]; omega)]
        show (wrs _ _).bind _ = _
        rw [show ((i : Int) * 3 * a.nChan + 0 * a.nChan + k) = ((i * 3 * a.nChan + 0 * a.nChan + k : Nat) : Int) by push_cast; rfl,
          show ((i : Int) * 3 * a.nChan + 1 * a.nChan + k) = ((i * 3 * a.nChan + 1 * a.nChan + k : Nat) : Int) by push_cast; rfl,
          show ((i : Int) * 3 * a.nChan + 2 * a.nChan + k) = ((i * 3 * a.nChan + 2 * a.nChan + k : Nat) : Int) by push_cast; rfl,
          show ((i : Int) * a.nChan + k) = ((i * a.nChan + k : Nat) : Int) by push_cast; rfl]
        rw [wrs3 _ _ _ _ kn b1]
        show (rd _ _).bind _ = _
        rw [rd_tab _ _ _ (by omega) (by simp; omega)]
        show (wr _ _).bind _ = _
        rw [wr_tab _ _ _ _ (by omega) (by simp only [Int.toNat_natCast]; omega)]
        show Except.ok _ = _
        apply congrArg
        simp only [Int.toNat_natCast, if_pos ko, addr a.nChan _ i k kn]
        congr 1
        · apply tab_congr
          intro p _
          by_cases e1 : p / a.nChan / 3 = i ∧ p % a.nChan = k
          · rw [if_pos e1, if_pos (by omega)]
            unfold Args.uvwAt
            rw [e1.1, e1.2]
          · rw [if_neg e1]
            by_cases e2 : p / a.nChan / 3 < i ∧ a.on (p % a.nChan) ∨ p / a.nChan / 3 = i ∧ a.chanMin.toNat ≤ p % a.nChan ∧ p % a.nChan < k
            · rw [if_pos e2, if_pos (by grind)]
            · rw [if_neg e2, if_neg (by grind)]
        · apply tab_congr
          intro p _
          by_cases e1 : p / a.nChan = i ∧ p % a.nChan = k
          · rw [if_pos e1, if_pos (by omega)]
            unfold Args.visAt
            rw [e1.1, e1.2]
          · rw [if_neg e1]
            by_cases e2 : p / a.nChan < i ∧ a.on (p % a.nChan) ∨ p / a.nChan = i ∧ a.chanMin.toNat ≤ p % a.nChan ∧ p % a.nChan < k
            · rw [if_pos e2, if_pos (by grind)]
            · rw [if_neg e2, if_neg (by grind)])
    refine Eq.trans ?_ (Eq.trans key ?_)
    · apply congrArg (fun z => List.foldlM _ z _)
      unfold Args.after
      congr 1
      · apply tab_congr
        intro p _
        by_cases e : p / a.nChan / 3 < i ∧ a.on (p % a.nChan)
        · rw [if_pos e, if_pos (Or.inl e)]
        · rw [if_neg e, if_neg (by grind)]
      · apply tab_congr
        intro p _
        by_cases e : p / a.nChan < i ∧ a.on (p % a.nChan)
        · rw [if_pos e, if_pos (Or.inl e)]
        · rw [if_neg e, if_neg (by grind)]
    · apply congrArg
      unfold Args.after
      have on_iff : ∀ m, a.on m ↔ a.chanMin.toNat ≤ m ∧ m < max a.chanMin.toNat a.chanMax.toNat := by
        intro m; unfold Args.on; omega
      congr 1
      · apply tab_congr
        intro p _
        by_cases e : p / a.nChan / 3 < i + 1 ∧ a.on (p % a.nChan)
        · rw [if_pos e, if_pos]
          have := (on_iff _).mp e.2
          rcases Nat.lt_or_ge (p / a.nChan / 3) i with l | l
          · exact Or.inl ⟨l, e.2⟩
          · exact Or.inr ⟨by omega, this⟩
        · rw [if_neg e, if_neg]
          rintro (x | x)
          · exact e ⟨by omega, x.2⟩
          · exact e ⟨by omega, (on_iff _).mpr x.2⟩
      · apply tab_congr
        intro p _
        by_cases e : p / a.nChan < i + 1 ∧ a.on (p % a.nChan)
        · rw [if_pos e, if_pos]
          have := (on_iff _).mp e.2
          rcases Nat.lt_or_ge (p / a.nChan) i with l | l
          · exact Or.inl ⟨l, e.2⟩
          · exact Or.inr ⟨by omega, this⟩
        · rw [if_neg e, if_neg]
          rintro (x | x)
          · exact e ⟨by omega, x.2⟩
          · exact e ⟨by omega, (on_iff _).mpr x.2⟩

theorem compute_eq (a : Args) (h : a.Sizes) (hc : a.chanOk) (ants : List Vec) (ha : a.antPos = flatPos ants)
    (bls : List (Int × Int)) (hb : a.blPair = flatBl bls) (hn : a.nBL = bls.length) (j1 : ℝ → ℝ)
    (hok : ∀ b ∈ bls, okAnt ants b.1 ∧ okAnt ants b.2) :
    a.compute j1 = .ok (a.after ants bls j1 a.nBL) := by
  unfold Args.compute
  have := fold_range (fun out i => a.baseline j1 i out) (a.after ants bls j1) a.nBL (by
    intro i hi
    have hi' : i < bls.length := by omega
    have gd : bls.getD i (0, 0) = bls[i] := by simp [List.getD, List.getElem?_eq_getElem hi']
    have := hok bls[i] (List.getElem_mem hi')
    exact baseline_eq a h hc ants ha bls hb hn j1 i hi (by rw [gd]; exact this.1) (by rw [gd]; exact this.2))
  refine Eq.trans ?_ this
  apply congrArg (fun z => List.foldlM _ z _)
  rw [replicate_tab, replicate_tab]
  unfold Args.after
  simp

end Verif.SimFast
