import Verif.Model.FEngine
import Verif.Model.Cx
/-!
# Power spectra: /repo/lsl/correlator/spec.cpp and stokes.cpp

`FPSD` and `PFBPSD` of both files.  The kernels of stokes.cpp are those of spec.cpp with two signals and four sums in place
of one; here both are one function `run`, with the number `np` of sums and the term `q` that a window adds to each.  The
kernels take windows as the F engine does, without delays.

Simplifications.  As in `Model/FEngine.lean`.  The quotient of a sum by the length of the transform times the number of windows is
kept as a pair, with a denominator of zero the program gives `nan`.  Rows are computed one after the other.
-/
namespace Verif.PSD
open Verif.CMem Verif.FEngine
open Lean.Grind (CommRing)

/-! ## Memory in units of half a `double` -/

/-- The two halves of each `double`. -/
def halves {R : Type} (m : List R) : List (R × Bool) := m.flatMap fun v => [(v, false), (v, true)]

/-- The values of pairs of halves; a pair that does not belong together is no value the program has computed. -/
def whole {R : Type} [DecidableEq R] : List (R × Bool) → Run (List R)
  | [] => .ok []
  | (u, false) :: (v, true) :: l => if u = v then (whole l).map (u :: ·) else .error .ub
  | _ => .error .ub

/-- Reading `len` units from `src` on, the first part of `memcpy` and `memmove`. -/
def take {U : Type} (m : List U) (src len : Nat) : Run (List U) :=
  if src + len ≤ m.length then .ok ((m.drop src).take len) else .error .ub

/-- Writing from `dst` on, the second part. -/
def put {U : Type} (m : List U) (dst : Nat) (x : List U) : Run (List U) :=
  if dst + x.length ≤ m.length then .ok (m.take dst ++ (x ++ m.drop (dst + x.length))) else .error .ub

/-- "Shift FFTs" of the row of `n` channels at `p`, spec.cpp:226-228, stokes.cpp:284-286.  `sizeof(OutType)*nChan/2` is `n` units. -/
def shiftRow {U : Type} (n : Nat) (m : List U) (p : Nat) : Run (List U) :=
  (take m (2 * p) (2 * (n / 2 + n % 2))).bind fun temp2 =>
  (take m (2 * (p + n / 2 + n % 2)) n).bind fun x =>
  (put m (2 * p) x).bind fun m =>
  put m (2 * (p + n / 2)) temp2

/-- All rows in the order of the loops. -/
def shiftAll {U : Type} (np nStand n : Nat) (m : List U) : Run (List U) :=
  ((List.range nStand).flatMap fun i => (List.range np).map fun pol => pol * n * nStand + n * i).foldl
    (fun acc p => acc.bind fun m => shiftRow n m p) (.ok m)

/-! ## Sums -/

section
variable {C R : Type} [CommRing C] [CommRing R]

/-- The arguments with no delays: the kernels have none. -/
def still (a : Args C) : Args C := { a with delay := fun _ _ => 0 }

/-- The transform of window `j` of stand `i` in the order of FFTW, and `cleanFactor`: spec.cpp:84-117, 188-216, stokes.cpp:87-131, 223-258. -/
def window (a : Args C) (i j : Nat) : Run (List C × Bool) :=
  ((still a).secStart i j).bind fun start =>
  (all ((still a).sample i start) (List.range (a.len * a.nTap))).bind fun raw =>
  ((still a).weigh raw).bind fun ins =>
  (all (fun k => (still a).tapSum ((still a).outBuf ins) k) (List.range a.nChan)).map fun out => (out, !raw.any a.over)

/-- The sums of one stand and `nActFFT`. -/
abbrev Sums (R : Type) := List (List R) × Nat

/-- Adding window `j`: spec.cpp:119-123, 218-222, stokes.cpp:133-151, 261-279. -/
def add (np : Nat) (q : Nat → C → C → R) (a : Args C) (dataY : List C) (i j : Nat) (s : Sums R) : Run (Sums R) :=
  (window a i j).bind fun x =>
  (window { a with data := dataY } i j).map fun y =>
  let clean := x.2 && y.2
  ((List.range np).map fun pol => (List.range a.nChan).map fun k =>
    (s.1.getD pol []).getD k 0 + (if clean then 1 else 0) * q pol (x.1.getD k 0) (y.1.getD k 0),
   s.2 + if clean then 1 else 0)

/-- All windows of stand `i`, beginning with zeros. -/
def sums (np : Nat) (q : Nat → C → C → R) (a : Args C) (dataY : List C) (n : Nat) (i : Nat) : Run (Sums R) :=
  (List.range n).foldl (fun acc j => acc.bind (add np q a dataY i j)) (.ok (List.replicate np (List.replicate a.nChan 0), 0))

/-- `FPSD` with `nTap = 1` and `PFBPSD` with `nTap = 4`: spec.cpp:296, 422, stokes.cpp:377, 531.  With fewer samples than a window needs
`nFFT` is zero or negative and the loop does nothing. -/
def run [DecidableEq R] (np : Nat) (q : Nat → C → C → R) (a : Args C) (dataY : List C) : Run (List (R × Nat)) :=
  (nFFT a.nSamps 0 a.len a.overlap).bind fun n =>
  (all (sums np q a dataY n.toNat) (List.range a.nStand)).bind fun s =>
  let psd : List R := (List.range np).flatMap fun pol => s.flatMap fun r => r.1.getD pol []
  (if a.real then .ok psd else (shiftAll np a.nStand a.nChan (halves psd)).bind whole).map fun m =>
  m.zip ((List.range np).flatMap fun _ => s.flatMap fun r => List.replicate a.nChan (a.len * r.2))

end

/-- What a window adds to `psd` in spec.cpp:120 and 219. -/
def power (_ : Nat) (x _y : Cx) : Rat := Cx.norm x

/-- What a window adds to `I`, `Q`, `U` and `V` in stokes.cpp:133-149 and 261-277. -/
def iquv (pol : Nat) (x y : Cx) : Rat :=
  match pol with
  | 0 => Cx.norm x + Cx.norm y
  | 1 => Cx.norm x - Cx.norm y
  | 2 => 2 * x.re * y.re + 2 * x.im * y.im
  | _ => 2 * x.im * y.re - 2 * x.re * y.im

/-- `SpecMaster`. -/
def spec (a : Args Cx) : Run (List (Rat × Nat)) := run 1 power a a.data

/-- `StokesMaster`; the numbers of stands and samples of the two arrays have to agree, stokes.cpp:357-365. -/
def stokes (a : Args Cx) (nStandY nSampsY : Nat) (dataY : List Cx) : Run (List (Rat × Nat)) :=
  if nStandY ≠ a.nStand ∨ nSampsY ≠ a.nSamps then .error .refused else run 4 iquv a dataY

end Verif.PSD
