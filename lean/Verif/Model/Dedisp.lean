import Verif.Model.CMem
import Verif.Model.PyNum
/-!
# Dedispersion: /repo/lsl/misc/dedispersion.py

Floats are idealised to rational numbers, and complex numbers to a commutative ring `C`; `e x` stands for `exp(2 pi i x)` and
`inv` for one over the length of a window.  `none` is an exception, of whatever class.  Arrays have one axis, but for the
waterfall, of which a column is looked at.
-/
namespace Verif.Dedisp
open Verif.CMem
open Lean.Grind (CommRing)

/-- `_D`, line 17, in MHz^2 s / pc cm^-3. -/
def D : Rat := 4148808 / 1000

/-- `freq.max()`. -/
def maxR : List Rat → Rat
  | [] => 0
  | f :: l => l.foldl (fun a b => if a < b then b else a) f

/-- `delay(freq, dm)`, lines 24-54; a single frequency is compared with an infinite one, and the result is a number and not
an array (lines 51-52), which is `inl`. -/
def delay (freq : List Rat) (dm : Rat) : Rat ⊕ List Rat :=
  match freq with
  | [f] => .inl (dm * D * ((1000000 / f) ^ 2 - 0))
  | l => .inr (l.map fun f => dm * D * ((1000000 / f) ^ 2 - (1000000 / maxR l) ^ 2))

section arrays
variable {α : Type}

/-- `np.roll(col, -d)`. -/
def roll (col : List α) (d : Int) : List α :=
  let s := (d % (col.length : Int)).toNat
  col.drop s ++ col.take s

/-- A column of the result for a delay of `d` integrations, lines 86-89; `fill` is the value of `boundary='fill'`. -/
def column (col : List α) (d : Int) (fill : Option α) : List α :=
  let r := roll col d
  match fill with
  | none => r
  | some v => if 0 < d then r.take (r.length - d.toNat) ++ List.replicate (min d.toNat r.length) v else r

/-- `np.round(tDelay / tInt).astype(np.int32)`, lines 80-82, without overflow. -/
def steps (freq : List Rat) (dm tInt : Rat) : Option (List Int) :=
  if freq = [] then none else
  match delay freq dm with
  | .inl _ => none
  | .inr l => some (l.map fun t => roundHalfEven (t / tInt))

/-- `incoherent(freq, waterfall, tInt, dm, ...)`, lines 57-92, on the columns of the waterfall: a number cannot be enumerated
(line 86), so that a single frequency is an exception, and so are more frequencies than columns. -/
def incoherent (freq : List Rat) (cols : List (List α)) (tInt dm : Rat) (fill : Option α) (zero : α) : Option (List (List α)) :=
  (steps freq dm tInt).bind fun ds =>
    if cols.length < ds.length then none
    else some (cols.mapIdx fun i col => match ds[i]? with
      | some d => column col d fill
      | none => List.replicate col.length zero)

/-! ## Coherent dedispersion -/

/-- `a[...] = src` for `n` places: the lengths agree, or there is one value for all. -/
def assign (n : Nat) (src : List α) : Option (List α) :=
  if src.length = n then some src
  else match src with
    | [x] => some (List.replicate n x)
    | _ => none

/-- Lines 206-214: `n` samples from the end of the samples before. -/
def before (z : α) (n : Nat) : Option (List α) → Option (List α)
  | none => some (List.replicate n z)
  | some p => assign n (p.drop (p.length - n))

/-- Lines 220-228: `n` samples from the beginning of the samples after. -/
def after (z : α) (n : Nat) : Option (List α) → Option (List α)
  | none => some (List.replicate n z)
  | some q => assign n (q.take n)

/-- Lines 202-236: the samples of window `i`, of `x` with the samples before and after; `size` is `timeseries.size`. -/
def window (z : α) (N size : Nat) (x : List α) (prev next : Option (List α)) (i : Nat) : Option (List α) :=
  let start : Int := (N / 2 * i : Nat) - (N / 4 : Nat)
  if start < 0 then
    let s := (-start).toNat
    (before z s prev).bind fun head =>
    (assign (N - s) (x.take (N - s))).bind fun tail => some (head ++ tail)
  else
    let start := start.toNat
    if size < start + N then
      (after z (N - (size - start)) next).bind fun tail =>
      (if start < size then assign (size - start) (x.drop start) else some (List.replicate (size - start) z)).bind fun head =>
      some (head ++ tail)
    else some ((x.drop start).take N)

/-- Lines 243-261: the middle half of a window to its place in the output. -/
def place (N : Nat) (i : Nat) (out w : List α) : Option (List α) :=
  let outStart := N / 2 * i
  let outStop := outStart + N / 2
  let dataStart := N / 4
  let dataStop := dataStart + N / 2
  let diff := outStop - out.length
  let outStop := outStop - diff
  let dataStop := dataStop - diff
  (assign (outStop - outStart) ((w.drop dataStart).take (dataStop - dataStart))).map fun v =>
    out.take outStart ++ v ++ out.drop outStop

end arrays

section transform
variable {C : Type} [CommRing C]

/-- `np.fft.fft`. -/
def fft (e : Rat → C) (x : List C) : List C :=
  (List.range x.length).map fun k => sumN x.length fun q => x.getD q 0 * e (-((k * q : Nat) : Rat) / x.length)

/-- `np.fft.ifft`; `inv` is one over the length. -/
def ifft (e : Rat → C) (inv : C) (x : List C) : List C :=
  (List.range x.length).map fun p => inv * sumN x.length fun k => x.getD k 0 * e (((k * p : Nat) : Rat) / x.length)

/-- Lines 239-241. -/
def filter (e : Rat → C) (inv : C) (chirp : List C) (x : List C) : List C := ifft e inv (List.zipWith (· * ·) (fft e x) chirp)

/-- One window of the loop of lines 201-261 on times and samples; `nSets` is `len(timeseries) // N`. -/
def step {T : Type} (zT : T) (N nSets : Nat) (f : List C → List C) (t : List T) (x : List C)
    (prev next : Option (List T × List C)) (out : List T × List C) (i : Nat) : Option (List T × List C) :=
  (window zT N x.length t (prev.map (·.1)) (next.map (·.1)) i).bind fun timeIn =>
    (window 0 N x.length x (prev.map (·.2)) (next.map (·.2)) i).bind fun dataIn =>
    if i = 0 ∧ prev.isNone then some out
    else if i = 2 * nSets ∧ next.isNone then some out
    else (place N i out.1 timeIn).bind fun ot => (place N i out.2 (f dataIn)).map fun od => (ot, od)

/-- The loop of lines 201-261. -/
def loop {T : Type} (zT : T) (N nSets : Nat) (f : List C → List C) (t : List T) (x : List C)
    (prev next : Option (List T × List C)) (is : List Nat) (out : List T × List C) : Option (List T × List C) :=
  is.foldlM (step zT N nSets f t x prev next) out

/-- What the window and the chirp depend on, line 174. -/
structure Key where
  freq : Rat
  rate : Rat
  dm : Rat
  taper : Bool
  dtype : Nat
  deriving DecidableEq

/-- `int(2 * 2**ceil(log2(x)))`, lines 109-112: no number for a negative `x`, nothing left of it for a small one. -/
def powers (x : Rat) : Option Nat :=
  if x < 0 then none
  else if x ≤ 1 / 4 then some 0
  else if x ≤ 1 / 2 then some 1
  else if x ≤ 1 then some 2
  else some (2 * 2 ^ ((x.ceil.toNat - 1).log2 + 1))

/-- `samples` of lines 104-108, before rounding up. -/
def bandSamples (freq rate dm : Rat) : Rat :=
  dm * D * ((1000000 / (freq - rate / 2)) ^ 2 - (1000000 / (freq + rate / 2)) ^ 2) * rate

/-- `get_coherent_sample_size`, lines 95-112. -/
def sampleSize (freq rate dm : Rat) : Option Nat := powers (bandSamples freq rate dm)

/-- `np.fft.fftfreq(N, d=1.0/sample_rate) + central_freq`, line 184. -/
def channels (N : Nat) (freq rate : Rat) : List Rat :=
  (List.range N).map fun k => (if k < (N - 1) / 2 + 1 then (k : Rat) else (k : Rat) - N) * (rate / N) + freq

/-- `freqMHz.mean()`, line 139, in Hz. -/
def centre (l : List Rat) : Rat := l.sum / l.length

/-- The phase of the chirp in turns, line 142, at the frequency `f` for the centre `f0`, both in Hz; the taper is left out. -/
def phase (f0 dm f : Rat) : Rat :=
  -(D * 1000000 / ((f0 / 1000000) ^ 2 * (f0 / 1000000 + (f / 1000000 - f0 / 1000000))) * dm * (f / 1000000 - f0 / 1000000) ^ 2)

/-- `_chirp(freq, dm)`, lines 131-146, without the taper. -/
def chirpOf (e : Rat → C) (key : Key) (N : Nat) : List C :=
  let l := channels N key.freq key.rate
  l.map fun f => e (phase (centre l) key.dm f)

/-- The cache, line 21. -/
abbrev Cache (C : Type) := List (Key × Nat × List C)

/-- Lines 172-190; `chirp` is the function of lines 184-186.  No samples are a division by zero. -/
def lookup (chirp : Key → Nat → List C) (cache : Cache C) (key : Key) (caching : Bool) : Option ((Nat × List C) × Cache C) :=
  match cache.lookup key with
  | some v => some (v, cache)
  | none =>
    (sampleSize key.freq key.rate key.dm).bind fun N =>
      if N = 0 then none
      else
        let v := (N, chirp key N)
        some (v, if caching then (key, v) :: cache else cache)

/-- `coherent(t, timeseries, ...)`, lines 149-263. -/
def coherent {T : Type} (e : Rat → C) (inv : Nat → C) (chirp : Key → Nat → List C) (zT : T) (cache : Cache C) (key : Key)
    (t : List T) (x : List C) (prev next : Option (List T × List C)) (caching : Bool) : Option ((List T × List C) × Cache C) :=
  (lookup chirp cache key caching).bind fun ((N, ch), cache) =>
    let nSets := x.length / N
    if nSets = 0 then none
    else (loop zT N nSets (filter e (inv N) ch) t x prev next (List.range (2 * nSets + 1))
      (List.replicate x.length zT, List.replicate x.length 0)).map fun out => (out, cache)

end transform
end Verif.Dedisp
