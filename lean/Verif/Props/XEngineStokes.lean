import Verif.Props.XEngine
import Verif.Props.FEngine
import Verif.Model.Cx
/-!
# C74: symmetry of the visibilities, the F engine before, and the Stokes X engine
-/
namespace Verif.XEngine
open Verif.CMem
open Lean.Grind (CommRing)

/-! ## Conjugation -/

/-- A conjugation. -/
structure IsConj {C : Type} [CommRing C] (conj : C → C) : Prop where
  add : ∀ a b, conj (a + b) = conj a + conj b
  mul : ∀ a b, conj (a * b) = conj a * conj b
  twice : ∀ a, conj (conj a) = a

theorem Cx_isConj : IsConj Cx.conj := ⟨Cx.conj_add, Cx.conj_mul, Cx.conj_conj⟩

variable {C : Type} [CommRing C]

theorem IsConj.zero {conj : C → C} (h : IsConj conj) : conj 0 = 0 := by
  have := h.add 0 0
  rw [show (0 : C) + 0 = 0 by grind] at this
  grind

theorem IsConj.neg {conj : C → C} (h : IsConj conj) (a : C) : conj (-a) = -conj a := by
  have := h.add a (-a)
  rw [show a + -a = 0 by grind, h.zero] at this
  grind

theorem IsConj.sub {conj : C → C} (h : IsConj conj) (a b : C) : conj (a - b) = conj a - conj b := by
  rw [show a - b = a + -b by grind, h.add, h.neg]; grind

theorem IsConj.sum {conj : C → C} (h : IsConj conj) (l : List C) (z : C) :
    conj (l.foldl (· + ·) z) = (l.map conj).foldl (· + ·) (conj z) := by
  induction l generalizing z with
  | nil => rfl
  | cons a l ih => rw [List.foldl_cons, ih, h.add]; rfl

/-- The visibility of the stands in the other order, and with the signals exchanged, is the conjugate. -/
theorem C74_swap {conj : C → C} (h : IsConj conj) (nChan nFFT : Nat) (x y : Sig C) (s1 s2 c : Nat) :
    Spec.vis conj nChan nFFT y s2 x s1 c =
      (conj (Spec.vis conj nChan nFFT x s1 y s2 c).1, (Spec.vis conj nChan nFFT x s1 y s2 c).2) := by
  have hc : Spec.common nFFT y s2 x s1 = Spec.common nFFT x s1 y s2 := by
    unfold Spec.common
    congr 1; funext f; exact Bool.and_comm _ _
  unfold Spec.vis
  rw [hc]
  simp only
  rw [h.sum, h.zero, List.map_map]
  congr 3
  funext f
  simp only [Function.comp]
  rw [h.mul, h.twice]
  grind

/-- The visibility of a stand with itself is its own conjugate: it is real. -/
theorem C74_auto {conj : C → C} (h : IsConj conj) (nChan nFFT : Nat) (x : Sig C) (s c : Nat) :
    conj (Spec.vis conj nChan nFFT x s x s c).1 = (Spec.vis conj nChan nFFT x s x s c).1 := by
  have := congrArg Prod.fst (C74_swap h nChan nFFT x x s s c)
  exact this.symm

/-! ## After the F engine -/

/-- What `FEngine` gives is what the X engines need: the sizes, the flags, and windows of zeros where the flag is zero. -/
theorem C74_chain {a : FEngine.Args C} {step o : Nat} (h : FEngine.Ok a step o) (hn : (a.len : Int) ≤ (a.nSamps : Int) - a.fifoMax) :
    ∃ f v, a.run = .ok (f, v) ∧ Ok a.nStand a.nChan (FEngine.Spec.windows a step) ⟨f, v⟩ ∧
      Zeroed a.nStand a.nChan (FEngine.Spec.windows a step) ⟨f, v⟩ := by
  obtain ⟨f, v, h1, h2, h3, h4⟩ := FEngine.C73_value_partial h hn
  generalize FEngine.Spec.windows a step = n at *
  have hv : ∀ i j, i < a.nStand → j < n → v[n * i + j]? = some 0 ∧ (∀ k, k < a.nChan → f[a.nChan * n * i + n * k + j]? = some 0) ∨
      v[n * i + j]? = some 1 := by
    intro i j hi hj
    by_cases hc : FEngine.Spec.clipped a step i j
    · exact .inl ((h4 i j hi hj).1 hc)
    · exact .inr ((h4 i j hi hj).2 hc).1
  refine ⟨f, v, h1, ⟨h2, h3, ?_⟩, ?_⟩
  · intro w hw
    obtain ⟨p, hp, rfl⟩ := List.mem_iff_getElem.1 hw
    simp only at hp
    rw [h3] at hp
    have hn0 : 0 < n := by
      rcases Nat.eq_zero_or_pos n with h | h
      · rw [h, Nat.mul_zero] at hp; omega
      · exact h
    have hi : p / n < a.nStand := (Nat.div_lt_iff_lt_mul hn0).2 hp
    have := hv (p / n) (p % n) hi (Nat.mod_lt _ hn0)
    rw [Nat.div_add_mod] at this
    rw [List.getElem?_eq_getElem (by rw [h3]; exact hp)] at this
    simp only [Option.some.injEq] at this
    simp only
    rcases this with ⟨h, _⟩ | h <;> rw [h] <;> omega
  · intro s c j hs hc hj hg
    unfold Spec.good at hg
    unfold Spec.spectrum
    simp only at hg ⊢
    rw [List.getD_eq_getElem?_getD] at hg ⊢
    rw [Nat.mul_comm s n] at hg
    rcases hv s j hs hj with ⟨_, h⟩ | h
    · have := h c hc
      rw [show s * a.nChan * n + c * n + j = a.nChan * n * s + n * c + j by grind, this]
      rfl
    · rw [h] at hg
      exact absurd hg (by decide)

/-! ## The Stokes X engine -/

/-- The value the program gives in every cell. -/
theorem stokes_cell {nStand nChan nFFT : Nat} {x y : Sig C} {conj : C → C} (mi : C) (hc : IsConj conj) (hx : Ok nStand nChan nFFT x)
    (hy : Ok nStand nChan nFFT y) (zx : Zeroed nStand nChan nFFT x) (zy : Zeroed nStand nChan nFFT y) (pol s1 s2 c : Nat)
    (h1 : s1 < nStand) (h2 : s2 < nStand) (h3 : c < nChan) :
    stokesCell conj mi nChan nFFT x y pol s1 s2 c = .ok
      (let v := fun (a b : Sig C) => (Spec.vis conj nChan nFFT a s1 b s2 c).1
        match pol with
        | 0 => v x x + v y y
        | 1 => v x x - v y y
        | 2 => v x y + conj (v x y)
        | _ => (v x y - conj (v x y)) * mi, (Spec.common nFFT x s1 y s2).length) := by
  unfold stokesCell
  simp only
  rw [nAct_ok hx hy s1 s2 h1 h2]
  rw [dot_vis conj hc.zero hx hx zx zx s1 s2 c h1 h2 h3, dot_vis conj hc.zero hy hy zy zy s1 s2 c h1 h2 h3,
    dot_vis conj hc.zero hx hy zx zy s1 s2 c h1 h2 h3, dot_vis conj hc.zero hy hx zy zx s2 s1 c h2 h1 h3]
  rw [C74_swap hc nChan nFFT x y]
  rcases pol with _ | _ | _ | pol <;> rfl

/-- All windows valid. -/
def Whole (nStand nFFT : Nat) (x : Sig C) : Prop := ∀ s f, s < nStand → f < nFFT → Spec.good nFFT x s f = true

omit [CommRing C] in
theorem common_whole {nStand nFFT : Nat} {x y : Sig C} (hx : Whole nStand nFFT x) (hy : Whole nStand nFFT y) {s1 s2 : Nat}
    (h1 : s1 < nStand) (h2 : s2 < nStand) : Spec.common nFFT x s1 y s2 = List.range nFFT := by
  unfold Spec.common
  rw [List.filter_eq_self]
  intro f hf
  rw [hx s1 f h1 (List.mem_range.1 hf), hy s2 f h2 (List.mem_range.1 hf)]
  rfl

/-- `XEngine3` of stokes.cpp: every access is inside the arrays and every cell is written once; for all inputs `I` and `Q` have the
right sums and the other two parameters have the sums `XY + conj XY` and `(XY - conj XY)/i`; all are over the number of windows
valid for the first signal of the first stand and the second signal of the second. -/
theorem C74_stokes_cells {nStand nChan nFFT : Nat} {x y : Sig C} {conj : C → C} (mi : C) (hc : IsConj conj) (hx : Ok nStand nChan nFFT x)
    (hy : Ok nStand nChan nFFT y) (zx : Zeroed nStand nChan nFFT x) (zy : Zeroed nStand nChan nFFT y) :
    ∃ out, stokes conj mi nStand nChan nFFT x y = .ok out ∧ out.length = 4 * nBL nStand * nChan ∧
      ∀ pol bl c, pol < 4 → bl < nBL nStand → c < nChan →
        out[pol * nBL nStand * nChan + bl * nChan + c]? = some
          (let v := fun (a b : Sig C) => (Spec.vis conj nChan nFFT a (pair nStand bl).1 b (pair nStand bl).2 c).1
            match pol with
            | 0 => v x x + v y y
            | 1 => v x x - v y y
            | 2 => v x y + conj (v x y)
            | _ => (v x y - conj (v x y)) * mi, (Spec.common nFFT x (pair nStand bl).1 y (pair nStand bl).2).length) := by
  have ⟨out, h1, h2, h3⟩ := write_all nStand nChan 4 (fun pol s1 s2 c =>
      (let v := fun (a b : Sig C) => (Spec.vis conj nChan nFFT a s1 b s2 c).1
        match pol with
        | 0 => v x x + v y y
        | 1 => v x x - v y y
        | 2 => v x y + conj (v x y)
        | _ => (v x y - conj (v x y)) * mi, (Spec.common nFFT x s1 y s2).length))
  refine ⟨out, ?_, h2, h3⟩
  unfold stokes
  rw [all_ok _ _ _ (fun pol hp => writes_ok nStand nChan pol _ _
    (fun s1 s2 c a b d => stokes_cell mi hc hx hy zx zy pol s1 s2 c a b d))]
  exact h1

/-- With all windows valid `I` and `Q` are right, and for a stand with itself so are `U` and `V`. -/
theorem C74_stokes_partial {nStand nChan nFFT : Nat} {x y : Sig C} {conj : C → C} (mi : C) (hc : IsConj conj) (hx : Ok nStand nChan nFFT x)
    (hy : Ok nStand nChan nFFT y) (wx : Whole nStand nFFT x) (wy : Whole nStand nFFT y) :
    ∃ out, stokes conj mi nStand nChan nFFT x y = .ok out ∧
      ∀ pol bl c, pol < 4 → bl < nBL nStand → c < nChan → pol < 2 ∨ (pair nStand bl).1 = (pair nStand bl).2 →
        out[pol * nBL nStand * nChan + bl * nChan + c]? =
          some (Spec.stokes conj mi nChan nFFT x y pol (pair nStand bl).1 (pair nStand bl).2 c, nFFT) := by
  have zx : Zeroed nStand nChan nFFT x := by
    intro s c f hs _ hf hg; rw [wx s f hs hf] at hg; exact absurd hg (by decide)
  have zy : Zeroed nStand nChan nFFT y := by
    intro s c f hs _ hf hg; rw [wy s f hs hf] at hg; exact absurd hg (by decide)
  have ⟨out, h1, _, h3⟩ := C74_stokes_cells mi hc hx hy zx zy
  refine ⟨out, h1, ?_⟩
  intro pol bl c hp hb hcc hor
  rw [h3 pol bl c hp hb hcc]
  have hpb := pair_bounds nStand bl hb
  rw [common_whole wx wy (by omega) hpb.2, List.length_range]
  unfold Spec.stokes
  have : pol = 0 ∨ pol = 1 ∨ pol = 2 ∨ pol = 3 := by omega
  rcases this with rfl | rfl | rfl | rfl
  · rfl
  · rfl
  · have he : (pair nStand bl).1 = (pair nStand bl).2 := by omega
    simp only
    rw [he, C74_swap hc nChan nFFT x y]
  · have he : (pair nStand bl).1 = (pair nStand bl).2 := by omega
    simp only
    rw [he, C74_swap hc nChan nFFT x y]

/-- For all inputs and baselines `U` and `V` are their own conjugates, so that their phase is lost. -/
theorem C74_not_phase {nStand nChan nFFT : Nat} {x y : Sig C} {conj : C → C} (mi : C) (hc : IsConj conj) (hm : conj mi = -mi)
    (hx : Ok nStand nChan nFFT x) (hy : Ok nStand nChan nFFT y) (zx : Zeroed nStand nChan nFFT x) (zy : Zeroed nStand nChan nFFT y) :
    ∃ out, stokes conj mi nStand nChan nFFT x y = .ok out ∧ ∀ pol bl c, 2 ≤ pol → pol < 4 → bl < nBL nStand → c < nChan →
      ∃ v n, out[pol * nBL nStand * nChan + bl * nChan + c]? = some (v, n) ∧ conj v = v := by
  have ⟨out, h1, _, h3⟩ := C74_stokes_cells mi hc hx hy zx zy
  refine ⟨out, h1, ?_⟩
  intro pol bl c h2 h4 hb hcc
  rw [h3 pol bl c h4 hb hcc]
  refine ⟨_, _, rfl, ?_⟩
  have : pol = 2 ∨ pol = 3 := by omega
  rcases this with rfl | rfl
  · simp only
    rw [hc.add, hc.twice]; grind
  · simp only
    rw [hc.mul, hc.sub, hc.twice, hm]; grind

/-- One channel of one window of two stands: the first is `X = i`, `Y = 0` and the second `X = 0`, `Y = 1`. -/
def uvX : Sig Cx := ⟨[⟨0, 1⟩, 0], [1, 1]⟩
def uvY : Sig Cx := ⟨[0, 1], [1, 1]⟩

/-- The cross baseline should have `U = i` and `V = 1`; the program gives 0 and 2. -/
theorem C74_not_uv : stokes Cx.conj ⟨0, -1⟩ 2 1 1 uvX uvY =
      .ok [(1, 1), (0, 1), (1, 1), (1, 1), (0, 1), (⟨-1, 0⟩, 1), (0, 1), (0, 1), (0, 1), (0, 1), (⟨2, 0⟩, 1), (0, 1)] ∧
    Spec.stokes Cx.conj ⟨0, -1⟩ 1 1 uvX uvY 2 0 1 0 = Cx.I ∧ Spec.stokes Cx.conj ⟨0, -1⟩ 1 1 uvX uvY 3 0 1 0 = 1 := by
  decide +kernel

/-- Two windows of one stand, `X` is 1 in both, `Y` is 1 in the first and clipped in the second. -/
def countX : Sig Cx := ⟨[1, 1], [1, 1]⟩
def countY : Sig Cx := ⟨[1, 0], [1, 0]⟩

/-- The mean of `XX` and the mean of `YY` are 1, so that `I` should be 2 and `Q` 0; the program gives 3 and 1. -/
theorem C74_not_count : stokes Cx.conj ⟨0, -1⟩ 1 1 2 countX countY = .ok [(⟨3, 0⟩, 1), (1, 1), (⟨2, 0⟩, 1), (0, 1)] ∧
    Spec.vis Cx.conj 1 2 countX 0 countX 0 0 = (⟨2, 0⟩, 2) ∧ Spec.vis Cx.conj 1 2 countY 0 countY 0 0 = (1, 1) := by
  decide +kernel

/-- Two windows of one stand with no window valid for both signals: the sum is divided by zero. -/
theorem C74_not_number : two Cx.conj 1 1 2 ⟨[1, 0], [1, 0]⟩ ⟨[0, 1], [0, 1]⟩ = .ok [(0, 0)] := by decide +kernel

/-- Arrays and flags in the required form, with one clipped window. -/
example : Ok 1 1 2 countY ∧ Zeroed 1 1 2 countY ∧ two Cx.conj 1 1 2 countX countY = .ok [(1, 1)] := by
  refine ⟨⟨rfl, rfl, by decide⟩, ?_, by decide +kernel⟩
  intro s c f hs hc hf hg
  have : s = 0 := by omega
  have : c = 0 := by omega
  subst s c
  have : f = 0 ∨ f = 1 := by omega
  rcases this with rfl | rfl
  · exact absurd hg (by decide)
  · rfl

example : Ok 2 1 1 uvX ∧ Ok 2 1 1 uvY ∧ mapper 2 = [(0, 0), (0, 1), (1, 1)] ∧
    linear Cx.conj 2 1 1 uvX uvY = .ok [(1, 1), (0, 1), (0, 1), (0, 1), (⟨0, 1⟩, 1), (0, 1), (0, 1), (0, 1), (0, 1), (0, 1), (0, 1), (1, 1)] :=
  ⟨⟨rfl, rfl, by decide⟩, ⟨rfl, rfl, by decide⟩, rfl, by decide +kernel⟩

end Verif.XEngine
