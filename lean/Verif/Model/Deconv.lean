import Verif.Model.Scatter
/-!
# Deconvolution of images

/repo/lsl/imaging/deconv.py.  Floats are idealised to real numbers and images are square, `n` by `n`.  `none` is an exception.  The
fit of a Gaussian, the beams (the simulation of a point source, divided by its largest value), the deviations and the convolution with
the restoring beam are given.  Masks, plots and messages are left out.
-/
namespace Verif.Deconv

open Finset Classical

/-- An image. -/
abbrev Img := ℕ → ℕ → ℝ

/-- `int(x)`. -/
noncomputable def trunc (x : ℝ) : ℤ := if 0 ≤ x then ⌊x⌋ else ⌈x⌉

/-- `_interpolate(data, peak_x, peak_y)`, deconv.py lines 28-46. -/
noncomputable def interpolate (n : ℕ) (data : Img) (x y : ℝ) : Option ℝ :=
  if x < 0 ∨ y < 0 then none
  else
    let x1 := (trunc x).toNat
    let y1 := (trunc y).toNat
    if x1 + 1 < n ∧ y1 + 1 < n then
      some (data x1 y1 * (x1 + 1 - x) * (y1 + 1 - y) + data (x1 + 1) y1 * (x - x1) * (y1 + 1 - y) +
        data x1 (y1 + 1) * (x1 + 1 - x) * (y - y1) + data (x1 + 1) (y1 + 1) * (x - x1) * (y - y1))
    else none

/-- A box of an image, `working[r0:r1, c0:c1]`. -/
structure Box where
  r0 : ℕ
  r1 : ℕ
  c0 : ℕ
  c1 : ℕ

/-- The first of the largest values in a box by rows, deconv.py lines 208-211 and 483-486; there is none in a box with nothing in it. -/
noncomputable def peak (B : Box) (w : Img) : Option (ℕ × ℕ) :=
  if B.r0 < B.r1 ∧ B.c0 < B.c1 then
    let wd := B.c1 - B.c0
    let p := Scatter.peak (fun k => w (B.r0 + k / wd) (B.c0 + k % wd)) ((B.r1 - B.r0) * wd)
    some (B.r0 + p / wd, B.c0 + p % wd)
  else none

/-- Where a slice begins, `a[i:]` with any integer. -/
def sliceStart (n : ℕ) (i : ℤ) : ℕ := if i < 0 then (i + n).toNat else min i.toNat n

/-- The box of the fit to a peak, `working[peak-FWHM//2:peak+FWHM//2+1]` in both directions, deconv.py line 214, for `h = FWHM//2`. -/
def fitBox (n h : ℕ) (p : ℕ × ℕ) : Box :=
  ⟨sliceStart n ((p.1 : ℤ) - h), min (p.1 + h + 1) n, sliceStart n ((p.2 : ℤ) - h), min (p.2 + h + 1) n⟩

/-- The side of the overlap of a pixel and the unit square around a position, deconv.py lines 279-282. -/
noncomputable def side (x : ℝ) (l : ℤ) : ℝ := if (l : ℝ) > x then (x + 1 / 2) - (l - 1 / 2) else (l + 1 / 2) - (x - 1 / 2)

/-- An index, which may be negative. -/
def index (n : ℕ) (i : ℤ) : Option ℕ :=
  if 0 ≤ i ∧ i < n then some i.toNat else if -n ≤ i ∧ i < 0 then some (i + n).toNat else none

/-- `a[l,m] += v`. -/
noncomputable def addAt (n : ℕ) (a : Img) (l m : ℤ) (v : ℝ) : Option Img :=
  (index n l).bind fun i => (index n m).map fun j => Function.update a i (Function.update (a i) j (a i j + v))

/-- A component shared by four pixels, deconv.py lines 277-292. -/
noncomputable def deposit (n : ℕ) (a : Img) (x y v : ℝ) : Option Img :=
  (addAt n a (trunc x) (trunc y) (v * (side x (trunc x) * side y (trunc y)))).bind fun a =>
  (addAt n a (trunc x) (trunc y + 1) (v * (side x (trunc x) * side y (trunc y + 1)))).bind fun a =>
  (addAt n a (trunc x + 1) (trunc y) (v * (side x (trunc x + 1) * side y (trunc y)))).bind fun a =>
  addAt n a (trunc x + 1) (trunc y + 1) (v * (side x (trunc x + 1) * side y (trunc y + 1)))

/-- What is given. -/
structure Env where
  /-- the size of the image -/
  n : ℕ
  /-- half of the width of the beam -/
  h : ℕ
  /-- right ascensions -/
  ra : Img
  /-- declinations -/
  dec : Img
  /-- the position that is fitted, from the numbers of rows and columns and the data; it raises for no data -/
  fit : ℕ → ℕ → Img → Option (ℝ × ℝ)
  /-- `round` -/
  rnd : ℝ → ℤ
  /-- the image of a source of one at a position, divided by its largest value -/
  beam : ℝ → ℝ → Img
  /-- the loop gain -/
  gain : ℝ

/-- To a fifth of a pixel, deconv.py lines 220-222. -/
noncomputable def quantise (E : Env) (x : ℝ) : ℝ := E.rnd (x * 5) / 5

/-- The position that a peak is optimised to, deconv.py lines 214-222. -/
noncomputable def locate (E : Env) (w : Img) (p : ℕ × ℕ) : Option (ℝ × ℝ) :=
  let B := fitBox E.n E.h p
  if B.r0 < B.r1 ∧ B.c0 < B.c1 then
    (E.fit (B.r1 - B.r0) (B.c1 - B.c0) fun i j => w (B.r0 + i) (B.c0 + j)).map fun q =>
      (quantise E ((p.1 : ℝ) - E.h + q.1), quantise E ((p.2 : ℝ) - E.h + q.2))
  else none

/-- The position and its direction: `clean` takes the direction of the peak for a position outside of the image, deconv.py lines
225-232, and `clean_sources` also the position, lines 503-512. -/
noncomputable def direct (E : Env) (sources : Bool) (p : ℕ × ℕ) (q : ℝ × ℝ) : (ℝ × ℝ) × ℝ × ℝ :=
  match interpolate E.n E.ra q.1 q.2 with
  | some r => (q, r, (interpolate E.n E.dec q.1 q.2).getD (E.dec p.1 p.2))
  | none =>
    let q := if sources then ((p.1 : ℝ), (p.2 : ℝ)) else q
    (q, E.ra p.1 p.2, (interpolate E.n E.dec q.1 q.2).getD (E.dec p.1 p.2))

/-- The index of a beam, deconv.py line 258. -/
noncomputable def beamIndex (q : ℝ × ℝ) : ℤ × ℤ := (trunc (q.1 * 5), trunc (q.2 * 5))

/-- The state of a loop. -/
structure St where
  working : Img
  cleaned : Img
  cache : List ((ℤ × ℤ) × Img)

/-- The beam, from those computed before or computed now, deconv.py lines 259-272. -/
noncomputable def lookup (E : Env) (cache : List ((ℤ × ℤ) × Img)) (q d : ℝ × ℝ) : Img × List ((ℤ × ℤ) × Img) :=
  match cache.lookup (beamIndex q) with
  | some b => (b, cache)
  | none => (E.beam d.1 d.2, (beamIndex q, E.beam d.1 d.2) :: cache)

/-- The result of a pass. -/
inductive Res
  /-- the peak is negative -/
  | negative
  /-- a component was removed -/
  | removed (s : St)

/-- One pass, deconv.py lines 207-292 and 482-575. -/
noncomputable def pass (E : Env) (sources : Bool) (B : Box) (s : St) : Option Res :=
  (peak B s.working).bind fun p =>
  let v := s.working p.1 p.2
  (locate E s.working p).bind fun q =>
  let d := direct E sources p q
  if v < 0 then some .negative
  else
    let b := lookup E s.cache d.1 d.2
    (deposit E.n s.cleaned d.1.1 d.1.2 (E.gain * v)).map fun c =>
      .removed ⟨fun i j => s.working i j - E.gain * v * b.1 i j, c, b.2⟩

/-- The passes, deconv.py lines 206-315 and 481-606, with the test for the end given. -/
noncomputable def loop (E : Env) (sources : Bool) (B : Box) (stop : Img → Bool) : ℕ → St → Option St
  | 0, s => some s
  | k + 1, s => (pass E sources B s).bind fun
    | .negative => some s
    | .removed s' => if stop s'.working then some s' else loop E sources B stop k s'

/-- The state at the start, deconv.py lines 171-176. -/
def start (img : Img) : St := ⟨img, fun _ _ => 0, []⟩

/-- The box that is cleaned around a source, deconv.py lines 460-463. -/
def cleanBox (n fwhm : ℕ) (p : ℕ × ℕ) : Box :=
  let rx0 := p.1 - fwhm / 2
  let ry0 := p.2 - fwhm / 2
  ⟨rx0, min (rx0 + fwhm + 1) n, ry0, min (ry0 + fwhm + 1) n⟩

/-- The sources of `clean_sources` one after another, deconv.py lines 444-608, each with its box and its test. -/
noncomputable def cleanSources (E : Env) (k : ℕ) : List (Box × (Img → Bool)) → St → Option St
  | [], s => some s
  | b :: l, s => (loop E true b.1 b.2 k s).bind (cleanSources E k l)

/-- The largest value of an image. -/
noncomputable def largest (n : ℕ) (w : Img) : ℝ :=
  let p := Scatter.peak (fun k => w (k / n) (k % n)) (n * n)
  w (p / n) (p % n)

/-- The components with the restoring beam, deconv.py lines 321-323: not numbers when the largest is zero. -/
noncomputable def restore (n : ℕ) (conv : Img → Img) (img : Img) (s : St) : Option Img :=
  let c := conv s.cleaned
  if largest n c = 0 then none
  else some fun i j => c i j * (largest n (fun i j => img i j - s.working i j) / largest n c)

/-- `clean`, deconv.py lines 123-355. -/
noncomputable def clean (E : Env) (conv : Img → Img) (stop : Img → Bool) (maxIter : ℕ) (img : Img) : Option Img :=
  if maxIter = 0 then none
  else
    (loop E false ⟨0, E.n, 0, E.n⟩ stop maxIter (start img)).bind fun s =>
    (restore E.n conv img s).map fun c => fun i j => c i j + s.working i j

/-! ## Least squares -/

/-- `np.roll(a, k)` along an axis of `n`. -/
def roll (n : ℕ) (k : ℤ) (i : ℕ) : ℕ := (((i : ℤ) - k) % n).toNat

/-- The beam with its middle at a peak, deconv.py lines 669-670. -/
def rolled (n : ℕ) (beam : Img) (p : ℕ × ℕ) : Img := fun i j =>
  beam (roll n ((p.1 : ℤ) - (n / 2 : ℕ)) i) (roll n ((p.2 : ℤ) - (n / 2 : ℕ)) j)

/-- The sum of an image. -/
noncomputable def total (n : ℕ) (a : Img) : ℝ := ∑ i ∈ range n, ∑ j ∈ range n, a i j

/-- The passes of `_minor_cycle`, deconv.py lines 657-675; the test for the end gets the peak and the residuals. -/
noncomputable def minorLoop (n : ℕ) (beam : Img) (gain : ℝ) (stop : ℝ → Img → Bool) : ℕ → Img → Img → Option (Img × Img)
  | 0, w, c => some (w, c)
  | k + 1, w, c => (peak ⟨0, n, 0, n⟩ fun i j => |w i j|).bind fun p =>
    if stop (w p.1 p.2) w then some (w, c)
    else
      let r : Img := fun i j => gain * w p.1 p.2 * rolled n beam p i j
      minorLoop n beam gain stop k (fun i j => w i j - r i j)
        (Function.update c p.1 (Function.update (c p.1) p.2 (c p.1 p.2 + total n r)))

/-- `_minor_cycle(img, beam, gain, max_iter)`, deconv.py lines 649-677. -/
noncomputable def minorCycle (n : ℕ) (beam : Img) (gain : ℝ) (stop : ℝ → Img → Bool) (maxIter : ℕ) (img : Img) : Option Img :=
  (minorLoop n beam gain stop maxIter img fun _ _ => 0).map fun r => fun i j => r.2 i j + r.1 i j

/-- How the least squares end. -/
inductive Exit
  | iteration
  | nothing
  | residuals
  | tolerance

/-- The state of the least squares.  `oldModel` is the same array as `mdl`, which is changed in place, and so it is not here. -/
structure LS where
  mdl : Img
  /-- the model that is restored at the end, which is there after the first pass only -/
  mdl2 : Option Img
  diff : Img
  oldDiff : Img
  diffScaled : Img
  oldRMS : ℝ

/-- What is given: the simulated image of a model, if there is anything in it; the minor cycle; the deviation; the largest value of the
image of a source of one. -/
structure LEnv where
  sim : Img → Option Img
  minor : Img → Img
  rms : Img → ℝ
  scale : ℝ
  gain : ℝ
  rtol : ℝ

/-- The model in place, without negative values, deconv.py lines 777-778. -/
noncomputable def advance (L : LEnv) (s : LS) : Img := fun i j =>
  if s.mdl i j + s.diffScaled i j * L.gain ≤ 0 then 0 else s.mdl i j + s.diffScaled i j * L.gain

/-- One pass of the least squares, deconv.py lines 777-847, and whether it was the last. -/
noncomputable def lsqPass (L : LEnv) (img : Img) (s : LS) : LS × Option Exit :=
  let mdl := advance L s
  match L.sim mdl with
  | none => ({ s with mdl := mdl }, some .nothing)
  | some simImg =>
    let raw : Img := fun i j => img i j - simImg i j
    let diff := L.minor raw
    let s' : LS := ⟨mdl, some fun i j => mdl i j * L.scale, diff, s.oldDiff, fun i j => diff i j * (1 / L.scale), s.oldRMS⟩
    if L.rms raw - s.oldRMS > 0 then ({ s' with diff := s.oldDiff }, some .residuals)
    else if |L.rms raw - s.oldRMS| < L.rtol then (s', some .tolerance)
    else ({ s' with oldDiff := diff, oldRMS := L.rms raw }, none)

/-- The loop of the least squares, deconv.py lines 776-860. -/
noncomputable def lsqLoop (L : LEnv) (img : Img) : ℕ → LS → LS × Exit
  | 0, s => (s, .iteration)
  | k + 1, s =>
    match lsqPass L img s with
    | (s', some e) => (s', e)
    | (s', none) => lsqLoop L img k s'

/-- The start of the least squares, deconv.py lines 744-772, with the largest value of the image and the mask. -/
noncomputable def lsqStart (L : LEnv) (img : Img) (top : ℝ) (mask : ℕ → ℕ → Bool) : LS :=
  let mdl : Img := fun i j => (if mask i j then 0 else max top 0) * L.scale
  let diff : Img := fun i j => img i j - mdl i j
  ⟨mdl, none, diff, fun _ _ => 0, fun _ _ => 0, L.rms diff * 10 ^ 6⟩

/-- `lsq`, deconv.py lines 681-898. -/
noncomputable def lsq (L : LEnv) (conv : Img → Img) (maxIter : ℕ) (img : Img) (top : ℝ) (mask : ℕ → ℕ → Bool) : Option Img :=
  let s := (lsqLoop L img maxIter (lsqStart L img top mask)).1
  s.mdl2.map fun m => fun i j => conv m i j + s.diff i j

end Verif.Deconv
