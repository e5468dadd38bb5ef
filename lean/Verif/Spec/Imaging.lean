import Verif.Model.Imaging
import Verif.Spec.Gridder
/-!
# What a gridded image should be

Every visibility counts, and its mirror image counts, in no special order.
-/
namespace Verif.Imaging.Spec
open Verif.CMem
open Verif.Imaging (DataSet Pol Keys Cell)
open Lean.Grind (CommRing)
open Verif.FEngine (lround)

/-- A sorting order: every index once, and the values in order. -/
def Sorts (order : List Rat → List Nat) : Prop :=
  ∀ w, (order w).Perm (List.range w.length) ∧ ((order w).map fun i => w.getD i 0).Pairwise (· ≤ ·)

section
variable {C : Type} [CommRing C]

/-- A visibility: where it is, its value, its weight. -/
structure Point (C : Type) where
  u : Rat
  v : Rat
  w : Rat
  vis : C
  wgt : C

/-- The arrays of a data set have one shape, `nb` baselines by `nc` channels. -/
structure Shape (nb nc : Nat) (ds : DataSet C) (p : Pol C) : Prop where
  uvw : ds.uvw.length = nb ∧ ∀ r ∈ ds.uvw, r.length = nc
  data : p.data.length = nb ∧ ∀ r ∈ p.data, r.length = nc
  weight : p.weight.length = nb ∧ ∀ r ∈ p.weight, r.length = nc

/-- Entry of a matrix. -/
def at2 {α : Type} (d : α) (m : List (List α)) (b c : Nat) : α := (m.getD b []).getD c d

/-- The visibility of baseline `b` in channel `c`. -/
def point (ds : DataSet C) (p : Pol C) (b c : Nat) : Point C :=
  ⟨(at2 (0, 0, 0) ds.uvw b c).1, (at2 (0, 0, 0) ds.uvw b c).2.1, (at2 (0, 0, 0) ds.uvw b c).2.2, at2 0 p.data b c, at2 0 p.weight b c⟩

/-- All visibilities of the channels asked for. -/
def points (nb nc : Nat) (chan : Option (List Nat)) (ds : DataSet C) (p : Pol C) : List (Point C) :=
  ((List.range nb).map fun b => (chan.getD (List.range nc)).map fun c => point ds p b c).flatten

/-- The same baseline from the other end. -/
def mirror (conj : C → C) (x : Point C) : Point C := ⟨-x.u, -x.v, -x.w, conj x.vis, x.wgt⟩

/-- What a point adds to the plane. -/
def spot (n : Nat) (res : Rat) (kernel : List C) (i j : Nat) (u v : Rat) : C :=
  Gridder.Spec.weight n kernel (Gridder.Spec.around n (v / -res)) i * Gridder.Spec.weight n kernel (Gridder.Spec.around n (u / res)) j

/-- A coordinate that is not half way between two cells. -/
def OffHalf (x : Rat) : Prop := ∀ k : Int, x ≠ (k : Rat) + 1 / 2

/-- The laws of conjugation. -/
structure Conj (conj : C → C) : Prop where
  add : ∀ a b, conj (a + b) = conj a + conj b
  mul : ∀ a b, conj (a * b) = conj a * conj b
  zero : conj 0 = 0
  twice : ∀ a, conj (conj a) = a

end

/-- Every cell divided by its weight. -/
def uniform (bm uv : List Cx) : List Cx :=
  List.zipWith (fun w x => if w.re = 0 then 0 else ⟨x.re / w.re, x.im / w.re⟩) bm uv

end Verif.Imaging.Spec
