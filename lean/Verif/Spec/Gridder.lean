import Verif.Model.Gridder
/-!
# What a gridder should do

Every visibility is spread over the torus of uv cells with weights that depend on the distance only, and the planes of
nearly equal `w` are multiplied in the image with a phase.
-/
namespace Verif.Gridder.Spec
open Verif.CMem
open Verif.Gridder (Args Fns)
open Lean.Grind (CommRing)
open Verif.FEngine (lround)

/-- Where planes begin: at each value that is `wRes` or more above the value the last plane began with.  `i` is the number of
the first value of the list. -/
def breaks (wRes : Rat) : Rat → Nat → List Rat → List Nat
  | _, _, [] => []
  | p, i, x :: l => if p + wRes ≤ x then i :: breaks wRes x (i + 1) l else breaks wRes p (i + 1) l

/-- All places but the first where a plane begins. -/
def cuts (wRes : Rat) (sw : List Rat) : List Nat := breaks wRes (sw.getD 0 0) 1 (sw.drop 1)

/-- The planes between the cuts. -/
def planes (n : Nat) (cs : List Nat) : List (Nat × Nat) := (0 :: cs).zip (cs ++ [n])

/-- A position on a circle of circumference `n`. -/
def around (n : Nat) (c : Rat) : Rat := c - (n : Rat) * (((c / (n : Rat)).floor : Int) : Rat)

/-- The distance of two points in cells of the kernel. -/
def steps (c : Rat) (p : Int) : Nat := ((if c - p < 0 then (p : Rat) - c else c - p) * 64).floor.toNat

section
variable {C : Type} [CommRing C]

/-- The weight of cell `a` for a point at `c`: the kernel at the distance, for the seven grid points around `c`. -/
def weight (n : Nat) (kernel : List C) (c : Rat) (a : Nat) : C :=
  sumN 7 fun m =>
    let p : Int := lround c - 3 + m
    if p % (n : Int) = a then kernel.getD (steps c p) 0 else 0

/-- The weight of a cell of the uv plane for visibility `i`. -/
def weight2 (a : Args C) (kernel : List C) (i row col : Nat) : C :=
  weight a.n kernel (around a.n (a.v.getD i 0 / -a.res)) row * weight a.n kernel (around a.n (a.u.getD i 0 / a.res)) col

/-- The visibilities of a plane on the grid. -/
def grid (a : Args C) (kernel : List C) (x : List C) (pl : Nat × Nat) (row col : Nat) : C :=
  sumN (pl.2 - pl.1) fun k => x.getD (pl.1 + k) 0 * weight2 a kernel (pl.1 + k) row col

/-- The mean of `w`. -/
def meanW (w : List Rat) (pl : Nat × Nat) : Rat :=
  ((w.drop pl.1).take (pl.2 - pl.1)).foldl (· + ·) 0 / ((pl.2 - pl.1 : Nat) : Rat)

/-- The sum of a list. -/
def sumL : List C → C
  | [] => 0
  | x :: l => x + sumL l

/-- The whole arguments: lists of equal length, a grid that is large enough, and no baseline longer than the plane. -/
structure Fits (a : Args C) : Prop where
  v : a.v.length = a.u.length
  w : a.w.length = a.u.length
  vis : a.vis.length = a.u.length
  wgt : a.wgt.length = a.u.length
  size : 4 ≤ a.n
  urange : ∀ x ∈ a.u, -(a.n : Rat) ≤ x / a.res ∧ x / a.res < a.n
  vrange : ∀ x ∈ a.v, -(a.n : Rat) ≤ x / -a.res ∧ x / -a.res < a.n

/-- The laws of `exp(2 pi i x)`. -/
structure Roots (n : Nat) (e : Rat → C) : Prop where
  add : ∀ x y, e (x + y) = e x * e y
  sum : ∀ m : Int, sumN n (fun b => e ((m : Rat) * ((b : Rat) / n))) = if (n : Int) ∣ m then sumN n (fun _ => 1) else 0

/-- The distance of pixel `i` from the first, around the image. -/
def off (n i : Nat) : Nat := min i (n - i)

/-- The square of the distance from the phase centre, on the sky, with an image `1 / res` wide. -/
def radius2 (n : Nat) (res : Rat) (i j : Nat) : Rat :=
  ((off n i * off n i + off n j * off n j : Nat) : Rat) / ((n : Rat) * res * ((n : Rat) * res))

/-- The phase for `w` where there is sky. -/
def phase (ph : Rat → Rat → C) (n : Nat) (res w : Rat) (i j : Nat) : C :=
  if radius2 n res i j < 1 then ph w (radius2 n res i j) else 0

/-- The transform of the symmetric kernel at image position `x`, a number of pixels from the centre. -/
def kernelTransform (co : Rat → C) (kernel : List C) (n : Nat) (x : Rat) : C :=
  kernel.getD 0 0 + sumN 223 fun t => 2 * kernel.getD (t + 1) 0 * co (((t + 1 : Nat) : Rat) / 64 * (x / n))

end

end Verif.Gridder.Spec
