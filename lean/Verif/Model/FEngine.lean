import Verif.Model.CMem
/-!
# The F engine: /repo/lsl/correlator/core.cpp

Simplifications.  Samples, Fourier transforms and phase factors are exact, in any commutative ring `C`; `e x` is
`exp(2 pi i x)`, any map is allowed and theorems state which laws of `exp` they use.  `g` is `1/sqrt(norm)`.
Frequencies, delays and the sample rate are exact rationals.  A C `int` or `long` is an integer of any size.
FFTW computes the sum that defines the transform.  The iterations of the parallel loop are independent and are
run in order (that they write to different cells is proved).  The small arrays `freq`, `delay`, `fifo`, `frac`
and `rot`, whose shapes are checked (core.cpp:381-396) or that are allocated to fit, are functions.
Real and imaginary part of a complex sample are one cell.
-/
namespace Verif.FEngine
open Verif.CMem Lean.Grind

/-- `lround`: to the nearest integer, halves away from zero. -/
def lround (x : Rat) : Int := if 0 ≤ x then (x + 1 / 2).floor else -((-x + 1 / 2).floor)

/-- The arguments of `compute_fengine_real` (`real`) and `compute_fengine_complex`, core.cpp:113-128, 235-250.
`over x` is `Clip && abs(x) >= Clip`. -/
structure Args (C : Type) where
  real : Bool
  nStand : Nat
  nSamps : Nat
  nChan : Nat
  nTap : Nat
  overlap : Int
  sr : Rat
  data : List C
  freq : Nat → Rat
  delay : Nat → Nat → Rat
  window : Option (List C)
  over : C → Bool
  e : Rat → C
  g : C

variable {C : Type}

/-- Samples in a transform, `(1+isReal)*nChan`. -/
def Args.len (a : Args C) : Nat := if a.real then 2 * a.nChan else a.nChan

/-- `fifo`, core.cpp:61, with `minDelay = 0.0` (`USE_TRUE_MINIMUM_DELAY` is not defined by setup.py). -/
def Args.fifo (a : Args C) (i : Nat) : Int := lround (a.delay i (a.nChan / 2) * a.sr)

/-- `frac`, core.cpp:66-68. -/
def Args.frac (a : Args C) (i j : Nat) : Rat := a.delay i j - (a.fifo i : Rat) / a.sr

/-- `fifoMax`, core.cpp:59-64. -/
def Args.fifoMax (a : Args C) : Int :=
  (List.range a.nStand).foldl (fun m i => if a.fifo i > m then a.fifo i else m) 0

/-- `nFFT`, core.cpp:428. -/
def nFFT (nSamps fifoMax len overlap : Int) : Run Int :=
  (cdiv len overlap).bind fun s =>
  (cdiv (nSamps - fifoMax) s).bind fun x =>
  (cdiv len s).bind fun y => .ok (x - y + 1)

/-- `ChanRef`, the third last argument of the phase rotator: core.cpp:157 and 270. -/
def Args.ref (a : Args C) : Nat := if a.real then 0 else a.nChan / 2

section
variable [CommRing C]

/-- `rot`, core.cpp:101-103. -/
def Args.rot (a : Args C) (i j : Nat) : C :=
  a.e (a.freq j * a.frac i j) * a.e (a.freq a.ref / a.sr * (a.fifo i : Rat)) * a.g

/-- `secStart`, core.cpp:174 and 286. -/
def Args.secStart (a : Args C) (i j : Nat) : Run Int :=
  (cdiv (a.len * j : Nat) a.overlap).map (fun s => a.fifo i + (a.nSamps * i : Nat) + s)

/-- `in[k]` before the window, core.cpp:176-186 and 288-294. -/
def Args.sample (a : Args C) (i : Nat) (start : Int) (k : Nat) : Run C :=
  let p := start - (a.len : Int) * ((a.nTap : Int) - 1) + k
  if p < (a.nSamps * i : Nat) then .ok 0 else rd a.data p

/-- Multiplication by the window, core.cpp:192-195 and 300-302. -/
def Args.weigh (a : Args C) (ins : List C) : Run (List C) :=
  match a.window with
  | none => .ok ins
  | some w => all (fun k => (rd w (k : Nat)).map (fun v => ins.getD k 0 * v)) (List.range ins.length)

/-- Channels in the output of one transform: `nChan+1` for real data (core.cpp:141, 145), otherwise `nChan`. -/
def Args.stride (a : Args C) : Nat := if a.real then a.nChan + 1 else a.nChan

/-- Channel `k` of a transform of `n` samples `x`. -/
def dft (e : Rat → C) (n : Nat) (x : Nat → C) (k : Nat) : C :=
  sumN n (fun t => x t * e (-((k : Rat) * (t : Rat) / (n : Rat))))

/-- The output of `fftwf_plan_many_dft`: `nTap` transforms one after the other, core.cpp:143-146, 256-259. -/
def Args.outBuf (a : Args C) (ins : List C) : List C :=
  (List.range a.nTap).flatMap fun l =>
    (List.range a.stride).map fun k => dft a.e a.len (fun t => ins.getD (l * a.len + t) 0) k

/-- `out[k]` after adding the taps, core.cpp:202-206 and 309-313. -/
def Args.tapSum (a : Args C) (out : List C) (k : Nat) : Run C :=
  (List.range (a.nTap - 1)).foldl
    (fun acc l => acc.bind fun s => (rd out ((k + (l + 1) * a.stride : Nat) : Int)).map (fun v => s + v)) (rd out (k : Int))

/-- The entry of the transform that goes to channel `k`, core.cpp:208-209 and 315-320. -/
def Args.bin (a : Args C) (k : Nat) : Nat :=
  if a.real then k
  else if k < a.nChan / 2 then k + a.nChan / 2 + a.nChan % 2 else k - a.nChan / 2

/-- One iteration `i`, `j` of the main loop, core.cpp:169-214 and 281-325: the writes to `fdomain` and to `valid`. -/
def Args.block (a : Args C) (nFFT : Nat) (i j : Nat) : Run (List (Int × C) × (Int × Nat)) :=
  (a.secStart i j).bind fun start =>
  (all (a.sample i start) (List.range (a.len * a.nTap))).bind fun raw =>
  (a.weigh raw).bind fun ins =>
  let clean : Bool := !raw.any a.over
  (all (fun k => (a.tapSum (a.outBuf ins) (a.bin k)).map fun v =>
      (((a.nChan * nFFT * i + nFFT * k + j : Nat) : Int), (if clean then 1 else 0) * v * a.rot i k)) (List.range a.nChan)).bind fun ws =>
  .ok (ws, (((nFFT * i + j : Nat) : Int), if clean then 1 else 0))

/-- `FEngine` with `nTap = 1` and `PFBEngine` with `nTap = 4`: `signalsF` and `validF`. -/
def Args.run (a : Args C) : Run (List C × List Nat) :=
  (nFFT a.nSamps a.fifoMax a.len a.overlap).bind fun n =>
  if n < 0 then .error .refused else
  (all (fun ij => a.block n.toNat (ij / n.toNat) (ij % n.toNat)) (List.range (a.nStand * n.toNat))).bind fun bs =>
  (wrs (List.replicate (a.nStand * a.nChan * n.toNat) 0) (bs.flatMap (·.1))).bind fun f =>
  (wrs (List.replicate (a.nStand * n.toNat) 0) (bs.map (·.2))).bind fun v =>
  .ok (f, v)

end

/-! ## The frequency axis: /repo/lsl/correlator/fx.py -/

/-- `numpy.fft.fftfreq(n, d=1.0/sr)`. -/
def fftfreq (n : Nat) (sr : Rat) : List Rat :=
  (((List.range ((n - 1) / 2 + 1)).map (fun k => ((k : Nat) : Int))) ++
    (List.range (n / 2)).map (fun k => ((k : Nat) : Int) - ((n / 2 : Nat) : Int))).map (fun (k : Int) => (k : Rat) * (sr / (n : Rat)))

/-- `numpy.fft.fftshift`: `roll` by half the length. -/
def fftshift {α : Type} (x : List α) : List α := x.drop (x.length - x.length / 2) ++ x.take (x.length - x.length / 2)

/-- `freq`, fx.py:249-255. -/
def freqAxis (real : Bool) (lfft : Nat) (sr central : Rat) : List Rat :=
  if real then (fftfreq (2 * lfft) sr).take lfft
  else (fftshift ((fftfreq lfft sr).map (· + central))).take lfft

end Verif.FEngine
