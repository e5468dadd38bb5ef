import Verif.Model.FEngine
/-!
# The w projection gridder: /repo/lsl/imaging/gridder.cpp

Simplifications.  Arithmetic is exact: coordinates are rationals, visibilities and kernels are in a commutative ring `C`.
`ss` is `signed_sqrt`, `ph w s` is `exp(-2 pi i w (sqrt(1 - s) - 1))`, `e x` is `exp(2 pi i x)`, `co x` is `cos(2 pi x)` and
`r` takes a rational number into the ring: any maps, theorems state which laws they use.  The entries of the
gridding kernel are any numbers.  FFTW computes the sums that define the transforms.  The loop over planes is run in order;
the program adds the planes to the output in any order.  A size of the uv plane below zero is refused by numpy and left out.
-/
namespace Verif.Gridder
open Verif.CMem
open Lean.Grind (CommRing)
open Verif.FEngine (lround)

/-! ### the w planes -/

/-- `MAX_W_PLANES`, gridder.cpp:24. -/
def maxPlanes : Nat := 1024

/-- The variables of `compute_planes`; what `malloc` left in the arrays is never read, and written as 0 here. -/
structure Planes where
  n : Nat
  start : List Nat
  stop : List Nat
  psw : Rat
deriving DecidableEq

/-- The body of the loop, gridder.cpp:105-113. -/
def planeStep (wRes : Rat) (sw : List Rat) (s : Planes) (i : Nat) : Run Planes :=
  (rd sw (i : Int)).bind fun csw =>
  if s.psw + wRes ≤ csw then
    (wr s.stop ((s.n : Int), i)).bind fun stop =>
    (wr s.start (((s.n + 1 : Nat) : Int), i)).map fun start => ⟨s.n + 1, start, stop, csw⟩
  else .ok s

/-- After the loop, gridder.cpp:114-117. -/
def planeEnd (nVis : Nat) (s : Planes) : Run Planes :=
  (rd s.stop ((s.n : Int) - 1)).bind fun x =>
  if x < nVis then (wr s.stop ((s.n : Int), nVis)).map fun stop => { s with n := s.n + 1, stop := stop } else .ok s

/-- `compute_planes`, gridder.cpp:94-127; `sw` are the values of `signed_sqrt`.  The planes are pairs of `planeStart` and `planeStop`. -/
def computePlanes (nVis : Nat) (wRes : Rat) (sw : List Rat) : Run (List (Nat × Nat)) :=
  (wr (List.replicate maxPlanes 0) (0, 0)).bind fun start =>
  (rd sw 0).bind fun psw =>
  (((List.range (nVis - 1)).map (· + 1)).foldl (fun (acc : Run Planes) i => acc.bind fun s => planeStep wRes sw s i)
    (.ok ⟨0, start, List.replicate maxPlanes 0, psw⟩)).bind fun s =>
  (planeEnd nVis s).bind fun s =>
  all (fun (j : Nat) => (rd s.start (j : Int)).bind fun a => (rd s.stop (j : Int)).map fun b => (a, b)) (List.range s.n)

/-! ### gridding -/

/-- Conversion to `long`, towards zero. -/
def trunc (x : Rat) : Int := if 0 ≤ x then x.floor else -((-x).floor)

/-- `m` and `l` of the loops, gridder.cpp:267 and 282; `-7/2` is -3. -/
def offsets : List Int := [-3, -2, -1, 0, 1, 2, 3]

/-- `ci` and `cj`, gridder.cpp:258-265. -/
def place (n : Nat) (x res : Rat) : Rat := if x / res < 0 then x / res + (n : Rat) else x / res

/-- `gi` and `gj`, gridder.cpp:269-272. -/
def tap (c : Rat) (p : Int) : Int :=
  let g := trunc ((c - (p : Rat)) * 64)
  if g < 0 then -g else g

/-- Once around, gridder.cpp:276-280. -/
def wrap (n : Nat) (p : Int) : Int := if p < 0 then p + n else if (n : Int) ≤ p then p - n else p

/-- `*(m + p) += x`. -/
def acc {C : Type} [CommRing C] (m : List C) (op : Int × C) : Run (List C) :=
  (rd m op.1).bind fun x => wr m (op.1, x + op.2)

def accs {C : Type} [CommRing C] : List C → List (Int × C) → Run (List C)
  | m, [] => .ok m
  | m, op :: ops => (acc m op).bind fun m => accs m ops

section
variable {C : Type} [CommRing C]

/-- The cells of a visibility at `u` and `v` and the products of the kernel for them, gridder.cpp:257-300. -/
def cells (n : Nat) (res : Rat) (kernel : List C) (u v : Rat) : Run (List (Int × C)) :=
  let ci := place n v (-res)
  let cj := place n u res
  (all (fun (m : Int) =>
    let pi := lround ci + m
    (rd kernel (tap ci pi)).bind fun t =>
    all (fun (l : Int) =>
      let pj := lround cj + l
      (rd kernel (tap cj pj)).map fun t2 => (n * wrap n pi + wrap n pj, t * t2)) offsets) offsets).map List.flatten

/-- The arguments of `compute_gridding`, gridder.cpp:181-193. -/
structure Args (C : Type) where
  n : Nat
  res : Rat
  wRes : Rat
  u : List Rat
  v : List Rat
  w : List Rat
  vis : List C
  wgt : List C

/-- `suv` for one plane, with `x` the visibilities, or `sbm`, with `x` the weights; gridder.cpp:244-301. -/
def gridPlane (a : Args C) (kernel : List C) (x : List C) (pl : Nat × Nat) : Run (List C) :=
  (all (fun (k : Nat) =>
    let i := pl.1 + k
    (rd a.v (i : Int)).bind fun v => (rd a.u (i : Int)).bind fun u =>
    (cells a.n a.res kernel u v).bind fun cs => (rd x (i : Int)).map fun z =>
    cs.map fun c => (c.1, z * c.2)) (List.range (pl.2 - pl.1))).bind fun ops =>
  accs (List.replicate (a.n * a.n) 0) ops.flatten

/-- `avgW`, gridder.cpp:253-255 and 302. -/
def avgW (a : Args C) (pl : Nat × Nat) : Run Rat :=
  (all (fun (k : Nat) => rd a.w ((pl.1 + k : Nat) : Int)) (List.range (pl.2 - pl.1))).map fun ws =>
  ws.foldl (· + ·) 0 / ((pl.2 - pl.1 : Nat) : Rat)

/-! ### projection -/

/-- `kernel` of `w_projection_kernel` at row `i` and column `j`, gridder.cpp:62-91. -/
def wKernel (ph : Rat → Rat → C) (n : Nat) (res w : Rat) (i j : Nat) : C :=
  let m : Int := if i > n / 2 then (i : Int) - n else i
  let l : Int := if j > n / 2 then (n : Int) - j else j
  let cM := (m : Rat) / n / res
  let cL := (l : Rat) / n / res
  if cL * cL + cM * cM < 1 then ph w (cL * cL + cM * cM) else 0

/-- `fftwf_execute_dft` for two dimensions; `s` is -1 for `FFTW_FORWARD` and 1 for `FFTW_BACKWARD`. -/
def dft2 (e : Rat → C) (s : Rat) (n : Nat) (x : Nat → Nat → C) (i j : Nat) : C :=
  sumN n fun a => sumN n fun b => x a b * e (s * (((i * a : Nat) : Rat) / n) + s * (((j * b : Nat) : Rat) / n))

/-- `suv` or `sbm` after the projection, gridder.cpp:307-323. -/
def project (e : Rat → C) (norm : C) (n : Nat) (kern : Nat → Nat → C) (x : Nat → Nat → C) (i j : Nat) : C :=
  dft2 e 1 n (fun a b => dft2 e (-1) n x a b * (kern a b * norm)) i j

/-- A flat array as a square. -/
def square (n : Nat) (x : List C) (i j : Nat) : C := x.getD (n * i + j) 0

/-- What the maps are: `ss`, `ph`, `e`, `co`, `r`, the gridding kernel. -/
structure Fns (C : Type) where
  ss : Rat → Rat
  ph : Rat → Rat → C
  e : Rat → C
  co : Rat → C
  r : Rat → C
  kernel : List C

/-- One of the two outputs, gridder.cpp:243-334: the sum over the planes. -/
def gridAll (f : Fns C) (a : Args C) (norm : C) (planes : List (Nat × Nat)) (x : List C) : Run (List C) :=
  (all (fun pl => (avgW a pl).bind fun w => (gridPlane a f.kernel x pl).map fun g => (w, g)) planes).map fun ps =>
  (List.range (a.n * a.n)).map fun q =>
    (ps.map fun p => project f.e norm a.n (wKernel f.ph a.n a.res p.1) (square a.n p.2) (q / a.n) (q % a.n)).foldl (· + ·) 0

/-! ### correction for the kernel -/

/-- `corr_full`, gridder.cpp:136-147. -/
def corrFull (kernel : List C) (n : Nat) : Run (List C) :=
  all (fun (i : Nat) =>
    if i < 224 then rd kernel (i : Int)
    else if n * 64 - i < 224 then rd kernel ((n * 64 - i : Nat) : Int) else .ok 0) (List.range (n * 64))

/-- `FFTW_REDFT01` of length `m`: `X_0 + 2 sum X_j cos(pi j (k + 1/2) / m)`, gridder.cpp:150-155. -/
def redft01 (co : Rat → C) (m : Nat) (x : Nat → C) (k : Nat) : C :=
  x 0 + sumN (m - 1) fun j => 2 * x (j + 1) * co (((j + 1 : Nat) : Rat) * ((k : Rat) + 1 / 2) / ((2 * m : Nat) : Rat))

/-- `compute_kernel_correction`, gridder.cpp:130-178.  The transform is in place and leaves the second half of the array as it was. -/
def correction (co : Rat → C) (r : Rat → C) (kernel : List C) (n : Nat) : Run (List C) :=
  (corrFull kernel n).bind fun full =>
  let m := n * 64 / 2
  let y := (List.range (n * 64)).map fun k => if k < m then redft01 co m (fun j => full.getD j 0) k else full.getD k 0
  let pick (i : Nat) : Run C := (rd y (((if i < n / 2 then i else n - i) : Nat) : Int)).map fun t => t * r (1 / 64)
  (all (fun i => (pick i).bind fun t => all (fun j => (pick j).map fun t2 => t * t2) (List.range n)) (List.range n)).map List.flatten

/-! ### the function called from python -/

/-- `WProjection` with `compute_gridding`, gridder.cpp:181-493.  `static` is the value of the static variable `norm`
(gridder.cpp:215), if there was a call before; the new value is returned with the uv plane, the beam and the correction. -/
def wProjection (f : Fns C) (static : Option C) (a : Args C) : Run (C × List C × List C × List C) :=
  if a.v.length ≠ a.u.length ∨ a.w.length ≠ a.u.length ∨ a.vis.length ≠ a.u.length ∨ a.wgt.length ≠ a.u.length then .error .refused else
  let norm := static.getD (f.r (1 / ((a.n * a.n : Nat) : Rat)))
  (computePlanes a.u.length a.wRes (a.w.map f.ss)).bind fun planes =>
  (gridAll f a norm planes a.vis).bind fun uv =>
  (gridAll f a norm planes a.wgt).bind fun bm =>
  (correction f.co f.r f.kernel a.n).map fun corr => (norm, uv, bm, corr)

end

end Verif.Gridder
