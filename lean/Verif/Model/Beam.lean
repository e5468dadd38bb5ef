import Verif.Model.CMem
import Verif.Model.Cx
/-!
# Beam forming: /repo/lsl/misc/beamformer.cpp and /repo/lsl/misc/beamformer.py

Simplifications.  Arithmetic is exact, in a commutative ring `C`; `mk a b` is the complex number `a + b i`, and `e x` is `exp(2 pi i x)`;
both are any maps, and theorems state which laws they use.
The two polarizations of a block of times are summed one after the other; the program does both in the same loop,
in separate arrays.  Data arrays are lists of parts: one for a real number, two for a complex number.
A delay that is not a number is not modelled, except for the mean of no positions.
-/
namespace Verif.Beam
open Verif.CMem
open Lean.Grind (CommRing)

section
variable {C : Type} [CommRing C] (mk : Rat → Rat → C)

/-! ### the engine -/

/-- `TIME_BLOCK_DIM`, beamformer.cpp:44. -/
def blockDim : Nat := 32

/-- The loop counting stands, beamformer.cpp:62-66. -/
def count (n : Nat) (v : List Nat) : Run Nat :=
  (List.range n).foldl (fun acc (i : Nat) => acc.bind fun s => (rd v (i : Int)).map fun w => s + (if w ≠ 0 then 1 else 0)) (.ok 0)

/-- `inv0` and `inv1`, beamformer.cpp:67-68. -/
def inv (k : Nat) : Rat := if 0 < k then 1 / (k : Rat) else 0

/-- `dp`, beamformer.cpp:92 (real) and 158 (complex): sample `tb` of `row`. -/
def sample (cplx : Bool) (data : List Rat) (row tb : Nat) : Run C :=
  if cplx then
    (rd data ((row + 2 * tb : Nat) : Int)).bind fun a => (rd data ((row + 2 * tb + 1 : Nat) : Int)).map fun b => mk a b
  else (rd data ((row + tb : Nat) : Int)).map fun a => mk a 0

/-- Where `row` is, beamformer.cpp:90 and 156. -/
def rowAt (cplx : Bool) (nchan ntime i c t : Nat) : Nat :=
  if cplx then i * nchan * ntime * 2 + c * ntime * 2 + t * 2 else i * nchan * ntime + c * ntime + t

/-- One input added to a block, beamformer.cpp:85-97: to `pol0` or `pol1`. -/
def addInput (cplx : Bool) (nchan ntime : Nat) (coeffs : List C) (data : List Rat) (v : List Nat) (c t b : Nat)
    (p : List C) (i : Nat) : Run (List C) :=
  (rd coeffs ((i * nchan + c : Nat) : Int)).bind fun bc =>
  (rd v (i : Int)).bind fun w =>
  (all (fun (tb : Nat) => (sample mk cplx data (rowAt cplx nchan ntime i c t) tb).bind fun dp =>
    (rd p (tb : Int)).map fun x => ((tb : Int), x + bc * dp * (if w ≠ 0 then 1 else 0))) (List.range b)).bind fun ws =>
  wrs p ws

/-- One block of times, beamformer.cpp:79-103: what is written to the output. -/
def block (cplx : Bool) (ninput nchan ntime : Nat) (coeffs : List C) (data : List Rat) (v : List Nat) (k : Rat)
    (pol c t : Nat) : Run (List (Int × C)) :=
  let b := min blockDim (ntime - t)
  ((List.range ninput).foldl (fun (acc : Run (List C)) i => acc.bind fun p => addInput mk cplx nchan ntime coeffs data v c t b p i)
    (.ok (List.replicate blockDim (0 : C)))).bind fun p =>
  all (fun (tb : Nat) => (rd p (tb : Int)).map fun x => (((pol * nchan * ntime + c * ntime + t + tb : Nat) : Int), x * mk k 0))
    (List.range b)

/-- The starts of the blocks, beamformer.cpp:79. -/
def starts (ntime : Nat) : List Nat := (List.range ((ntime + (blockDim - 1)) / blockDim)).map (· * blockDim)

/-- All writes to one polarization of the beam. -/
def onePol (cplx : Bool) (ninput nchan ntime : Nat) (coeffs : List C) (data : List Rat) (v : List Nat) (pol : Nat) :
    Run (List (Int × C)) :=
  (count ninput v).bind fun k =>
  (all (fun c => (all (fun t => block mk cplx ninput nchan ntime coeffs data v (inv k) pol c t) (starts ntime)).map List.flatten)
    (List.range nchan)).map List.flatten

/-- `phase_and_sum_real` and `phase_and_sum_complex`, beamformer.cpp:51-176. -/
def phaseAndSum (cplx : Bool) (ninput nchan ntime : Nat) (coeffs : List C) (data : List Rat) (v0 v1 : List Nat) :
    Run (List C) :=
  (onePol mk cplx ninput nchan ntime coeffs data v0 0).bind fun w0 =>
  (onePol mk cplx ninput nchan ntime coeffs data v1 1).bind fun w1 =>
  wrs (List.replicate (2 * nchan * ntime) 0) (w0 ++ w1)

end

inductive Kind where
  | int8 | real | complex
deriving DecidableEq

/-- An array of signals: its shape and, in C order, the parts of its numbers. -/
structure Signals where
  kind : Kind
  shape : List Nat
  parts : List Rat

section
variable {C : Type} [CommRing C] (mk : Rat → Rat → C)

/-- `BEngine` with its checks, beamformer.cpp:179-311; `PyArray_LSL_TYPE`, correlator/common.hpp:60-62. -/
def bengine (nStand nChan : Nat) (coeffs : List C) (sig : Signals) (v0 v1 : List Nat) : Run (List C) :=
  if sig.shape.length < 3 ∨ 4 < sig.shape.length then .error .refused
  else if nStand ≠ sig.shape.getD 0 0 ∨ nStand ≠ v0.length ∨ nStand ≠ v1.length ∨ nChan ≠ sig.shape.getD 1 0 then .error .refused
  else
    let cplx := decide (sig.kind = .complex ∨ (sig.kind = .int8 ∧ sig.shape.length = 4))
    phaseAndSum mk cplx nStand nChan (sig.shape.getD 2 0) coeffs sig.parts v0 v1

end

/-! ### the python side -/

/-- What beamformer.py uses of an `Antenna`; `cable f` is `cable.delay(freq)[f]`. -/
structure Ant where
  id : Nat
  pol : Nat
  status : Nat
  xyz : Rat × Rat × Rat
  cable : Nat → Rat

def dot (u v : Rat × Rat × Rat) : Rat := u.1 * v.1 + u.2.1 * v.2.1 + u.2.2 * v.2.2

/-- `mean()`; no value for the mean of nothing, which is `nan`. -/
def mean (l : List Rat) : Option Rat := if l = [] then none else some (l.foldl (· + ·) 0 / (l.length : Rat))

/-- `arrayX`, `arrayY` and `arrayZ`, beamformer.py:96-109. -/
def center (as : List Ant) : Option (Rat × Rat × Rat) :=
  let good := as.filter (fun a => decide (a.id ≤ 256))
  (mean (good.map (·.xyz.1))).bind fun x => (mean (good.map (·.xyz.2.1))).bind fun y =>
  (mean (good.map (·.xyz.2.2))).map fun z => (x, y, z)

/-- One entry of `calc_delay`, beamformer.py:119-127. -/
def delay (src : Rat × Rat × Rat) (light : Rat) (mid : Rat × Rat × Rat) (a : Ant) (f : Nat) : Rat :=
  a.cable f - dot src (a.xyz.1 - mid.1, a.xyz.2.1 - mid.2.1, a.xyz.2.2 - mid.2.2) / light

/-- `calc_delay`, beamformer.py:58-132.  `src` is the unit vector of the direction.  No value: all are `nan`. -/
def calcDelay (az alt : Rat) (src : Rat × Rat × Rat) (light : Rat) (nfreq : Nat) (as : List Ant) :
    Except Unit (Option (List (List Rat))) :=
  if alt < 0 ∨ 90 < alt then .error () else if az < 0 ∨ 360 < az then .error () else
  .ok ((center as).map fun mid => as.map fun a => (List.range nfreq).map fun f => delay src light mid a f)

/-- `delays.min()`, beamformer.py:169. -/
def least : List Rat → Option Rat
  | [] => none
  | x :: l => some (l.foldl (fun m y => if y < m then y else m) x)

section
variable {C : Type}

/-- `bln`, beamformer.py:169-171, with `low` the least delay. -/
def coeff (e : Rat → C) (freq : Nat → Rat) (low : Rat) (d : Rat) (f : Nat) : C := e (freq f * (d - low))

/-- `p0` and `p1`, beamformer.py:181-182. -/
def valid (p : Nat) (as : List Ant) : List Nat := as.map fun a => if a.pol = p ∧ a.status = 33 then 1 else 0

/-- The choice of rows, beamformer.py:193-201, from the two halves of the beam. -/
def rowsOf (as : List Ant) (b0 b1 : List C) : List (List C) :=
  if as.filter (fun a => a.pol = 0 ∧ a.status = 33) = [] then [b1]
  else if as.filter (fun a => a.pol = 1 ∧ a.status = 33) = [] then [b0]
  else [b0, b1]

variable [CommRing C] (mk : Rat → Rat → C)

/-- `phase_and_sum`, beamformer.py:135-206, from the delays on and without the fallback for exceptions of the engine.  `nchan` frequencies. -/
def formBeam (e : Rat → C) (freq : Nat → Rat) (nchan ntime : Nat) (delays : List (List Rat)) (as : List Ant) (sig : Signals) :
    Run (List (List C)) :=
  match least delays.flatten with
  | none => .error .refused
  | some low =>
    let bln := (delays.map fun r => r.mapIdx fun f d => coeff e freq low d f).flatten
    (bengine mk as.length nchan bln sig (valid 0 as) (valid 1 as)).map fun b =>
      rowsOf as (b.take (nchan * ntime)) ((b.drop (nchan * ntime)).take (nchan * ntime))

end

/-- `circularize`, beamformer.py:326-348, without the division by `sqrt(2)`. -/
def circularize (x y : Cx) (iau : Bool) : Cx × Cx :=
  let s : Cx := ⟨if iau then 1 else -1, 0⟩
  (x + s * Cx.I * y, x - s * Cx.I * y)

end Verif.Beam
