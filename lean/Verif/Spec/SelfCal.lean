import Verif.Model.SelfCal
/-!
# What a calibration should do
-/
namespace Verif.SelfCal.Spec

/-- Antennas that baselines connect with the reference. -/
inductive Reach (S : Sys) (ref : ℕ) : ℕ → Prop
  | start : Reach S ref ref
  | forth (b : ℕ) (hb : b < S.nb) (h : Reach S ref (S.bl b).1) : Reach S ref (S.bl b).2
  | back (b : ℕ) (hb : b < S.nb) (h : Reach S ref (S.bl b).2) : Reach S ref (S.bl b).1

/-- An array as it should be: baselines between two antennas each, connected, some channels, a reference antenna. -/
structure Good (S : Sys) (ref : ℕ) : Prop where
  refLt : ref < S.n
  nf : 0 < S.nf
  lt : ∀ b < S.nb, (S.bl b).1 < S.n ∧ (S.bl b).2 < S.n
  ne : ∀ b < S.nb, (S.bl b).1 ≠ (S.bl b).2
  conn : ∀ a < S.n, Reach S ref a

/-- Least squares solve what can be solved. -/
def ExactSolve (lsq : Solver) : Prop :=
  ∀ rows cols A C, (∃ x : ℕ → ℝ, ∀ r < rows, ∑ c ∈ Finset.range cols, A r c * x c = C r) →
    ∀ r < rows, ∑ c ∈ Finset.range cols, A r c * lsq rows cols A C c = C r

/-- The mean of equal values. -/
def MeanConst (mean : List ℝ → ℝ) : Prop := ∀ (l : List ℝ) (v : ℝ), l ≠ [] → (∀ x ∈ l, x = v) → mean l = v

/-- Sums over the baselines determine a value for each antenna. -/
def Determined (S : Sys) : Prop :=
  ∀ x y : ℕ → ℝ, (∀ b < S.nb, x (S.bl b).1 + x (S.bl b).2 = y (S.bl b).1 + y (S.bl b).2) → ∀ a < S.n, x a = y a

/-- The model is the data with the gains and phases (in radians, by channel) of antennas put on. -/
def Corrected (S : Sys) (orig sim : Vis) (gains : ℕ → ℝ) (phase : ℕ → ℕ → ℝ) : Prop :=
  ∀ b < S.nb, ∀ c, sim b c =
    orig b c * (gains (S.bl b).1 * gains (S.bl b).2 : ℝ) * Complex.exp ((phase (S.bl b).1 c - phase (S.bl b).2 c : ℝ) * Complex.I)

end Verif.SelfCal.Spec
