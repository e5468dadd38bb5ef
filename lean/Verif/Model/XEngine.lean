import Verif.Model.CMem
/-!
# The X engines: /repo/lsl/correlator/core.cpp and stokes.cpp

Simplifications.  Arithmetic is exact, in a commutative ring with any map `conj`.  A quotient by the number of common
windows is kept as numerator and denominator; with a denominator of zero the program gives `nan`.  One cell per complex
number, also for pairs of 8 bit integers (`scale`).  Shapes are those the wrappers check: stand by channel by window
for the data and stand by window for the flags (core.cpp:918-937, stokes.cpp:725-743).  Different baselines are
computed independently of each other.
-/
namespace Verif.XEngine
open Verif.CMem
open Lean.Grind (CommRing)

/-- An array of windows and their flags. -/
structure Sig (C : Type) where
  data : List C
  valid : List Nat

/-- `nBL`, core.cpp:922. -/
def nBL (nStand : Nat) : Nat := (nStand + 1) * nStand / 2

/-- The loops filling `mapper`, core.cpp:764-772 and stokes.cpp:634-642. -/
def mapper (nStand : Nat) : List (Nat × Nat) :=
  (List.range nStand).flatMap fun s1 => (List.range' s1 (nStand - s1)).map fun s2 => (s1, s2)

/-- `mapper[bl]`, an array of `nBL` entries; it is undefined to write beyond them. -/
def mapAt (nStand bl : Nat) : Run (Nat × Nat) :=
  if nBL nStand < (mapper nStand).length then .error .ub else rd (mapper nStand) (bl : Int)

section
variable {C : Type}

/-- The loop counting common windows, core.cpp:789-792. -/
def nAct (n : Nat) (u : List Nat) (p : Nat) (v : List Nat) (q : Nat) : Run Nat :=
  (List.range n).foldl (fun acc f => acc.bind fun s =>
    (rd u ((p + f : Nat) : Int)).bind fun a => (rd v ((q + f : Nat) : Int)).map fun b => s + (a &&& b)) (.ok 0)

variable [CommRing C]

/-- `blas_dotc_sub`, blas.hpp:29-39. -/
def dotc (conj : C → C) (n : Nat) (x : List C) (p : Nat) (y : List C) (q : Nat) : Run C :=
  (List.range n).foldl (fun acc f => acc.bind fun s =>
    (rd x ((p + f : Nat) : Int)).bind fun a => (rd y ((q + f : Nat) : Int)).map fun b => s + conj a * b) (.ok 0)

/-- One product of a baseline: `dataY` of stand `s2`, conjugated, times `dataX` of stand `s1`, over the number of windows. -/
def product (conj : C → C) (nChan nFFT : Nat) (x : Sig C) (s1 : Nat) (y : Sig C) (s2 c : Nat) : Run (C × Nat) :=
  (nAct nFFT x.valid (s1 * nFFT) y.valid (s2 * nFFT)).bind fun n =>
  (dotc conj nFFT y.data (s2 * nChan * nFFT + c * nFFT) x.data (s1 * nChan * nFFT + c * nFFT)).map fun v => (v, n)

/-- All writes of the loop over baselines and channels to product number `pol`, core.cpp:788-798. -/
def writes (nStand nChan : Nat) (pol : Nat) (f : Nat → Nat → Nat → Run (C × Nat)) : Run (List (List (Int × (C × Nat)))) :=
  all (fun bl => (mapAt nStand bl).bind fun s =>
    all (fun c => (f s.1 s.2 c).map fun v => (((pol * nBL nStand * nChan + bl * nChan + c : Nat) : Int), v)) (List.range nChan))
    (List.range (nBL nStand))

/-- `XEngine2`, core.cpp:749-804. -/
def two (conj : C → C) (nStand nChan nFFT : Nat) (x y : Sig C) : Run (List (C × Nat)) :=
  (writes nStand nChan 0 (product conj nChan nFFT x · y ·)).bind fun w =>
  wrs (List.replicate (nBL nStand * nChan) (0, 1)) w.flatten

/-- The four products `XX`, `XY`, `YX` and `YY` of `XEngine3` in core.cpp:857-873, each with its own count
(core.cpp:846-855). -/
def linear (conj : C → C) (nStand nChan nFFT : Nat) (x y : Sig C) : Run (List (C × Nat)) :=
  (writes nStand nChan 0 (product conj nChan nFFT x · x ·)).bind fun a =>
  (writes nStand nChan 1 (product conj nChan nFFT x · y ·)).bind fun b =>
  (writes nStand nChan 2 (product conj nChan nFFT y · x ·)).bind fun c =>
  (writes nStand nChan 3 (product conj nChan nFFT y · y ·)).bind fun d =>
  wrs (List.replicate (4 * nBL nStand * nChan) (0, 1)) (a ++ b ++ c ++ d).flatten

/-- What goes to Stokes parameter `pol` of a baseline and channel in `XEngine3` of stokes.cpp:659-680.  `mi` is `1/i`. -/
def stokesCell (conj : C → C) (mi : C) (nChan nFFT : Nat) (x y : Sig C) (pol s1 s2 c : Nat) : Run (C × Nat) :=
  let at1 := s1 * nChan * nFFT + c * nFFT
  let at2 := s2 * nChan * nFFT + c * nFFT
  (nAct nFFT x.valid (s1 * nFFT) y.valid (s2 * nFFT)).bind fun n =>
  (dotc conj nFFT x.data at2 x.data at1).bind fun xx =>
  (dotc conj nFFT y.data at2 y.data at1).bind fun yy =>
  (dotc conj nFFT y.data at2 x.data at1).bind fun xy =>
  (dotc conj nFFT x.data at1 y.data at2).map fun yx =>
  (match pol with
    | 0 => xx + yy
    | 1 => xx - yy
    | 2 => xy + yx
    | _ => (xy - yx) * mi, n)

/-- `XEngine3` of stokes.cpp. -/
def stokes (conj : C → C) (mi : C) (nStand nChan nFFT : Nat) (x y : Sig C) : Run (List (C × Nat)) :=
  (all (fun pol => writes nStand nChan pol (stokesCell conj mi nChan nFFT x y pol)) (List.range 4)).bind fun w =>
  wrs (List.replicate (4 * nBL nStand * nChan) (0, 1)) w.flatten.flatten

end

end Verif.XEngine
