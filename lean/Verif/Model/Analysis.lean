import Verif.Model.Deconv
import Verif.Model.Robust
/-!
# Backgrounds of images and point sources in them

/repo/lsl/imaging/analysis.py.  Floats are idealised to real numbers; pixels of images are finite and images have `nx` rows and `ny`
columns.  `none` is an exception or not a number, as said where it is used.  The spline through the levels of tiles is given.
Messages are left out.
-/
namespace Verif.Analysis

open Finset Classical
open Deconv (Img index)
open Robust (avg sd median)

/-! ## The background -/

/-- The number of tiles along an axis, analysis.py lines 52-53. -/
def tiles (n w : ℕ) : ℕ := 2 * n / w

/-- Where a tile begins and the one before ends, analysis.py line 62. -/
def edge (w i : ℕ) : ℕ := i * w / 2

/-- The values of a tile by rows, analysis.py line 62. -/
def tile (w : ℕ) (img : Img) (i j : ℕ) : List ℝ :=
  (List.range' (edge w i) (edge w (i + 1) - edge w i)).flatMap fun x =>
    (List.range' (edge w j) (edge w (j + 1) - edge w j)).map fun y => img x y

/-- A value within three deviations of the mean of its tile (analysis.py:67). -/
noncomputable def near (t : List ℝ) (v : ℝ) : Bool := |v - avg t| < 3 * sd t

/-- The values within three standard deviations of the mean, analysis.py lines 66-67. -/
noncomputable def clip (t : List ℝ) : List ℝ := t.filter (near t)

/-- The level of a tile, analysis.py lines 66-78; `none` is not a number, which statistics of no values are. -/
noncomputable def level (t : List ℝ) : Option ℝ :=
  if clip t = [] then none
  else if |sd (clip t) - sd t| / sd t ≤ 0.2 then some (avg (clip t))
  else some (2.5 * median (clip t) - 1.5 * avg (clip t))

/-- The middle of a tile, analysis.py lines 81-82. -/
noncomputable def centre (w i : ℕ) : ℝ := edge w i + w / 4

/-- Levels of all tiles by rows. -/
def cells {α : Type} (a b : ℕ) (g : ℕ → ℕ → α) : List α := (List.range a).flatMap fun i => (List.range b).map fun j => g i j

/-- Levels that are not numbers become the median of the others, analysis.py lines 85-87; `none` is not a number everywhere. -/
noncomputable def fill (a b : ℕ) (g : ℕ → ℕ → Option ℝ) : Option Img :=
  let good := (cells a b g).filterMap id
  if good = [] then none else some fun i j => (g i j).getD (median good)

/-- A value of an image, or zero outside. -/
noncomputable def pad (a b : ℕ) (g : Img) (i j : ℤ) : ℝ := if 0 ≤ i ∧ i < a ∧ 0 ≤ j ∧ j < b then g i.toNat j.toNat else 0

/-- Nine values around a place. -/
noncomputable def hood (a b : ℕ) (g : Img) (i j : ℕ) : List ℝ :=
  [pad a b g (i - 1) (j - 1), pad a b g (i - 1) j, pad a b g (i - 1) (j + 1),
   pad a b g i (j - 1), pad a b g i j, pad a b g i (j + 1),
   pad a b g (i + 1) (j - 1), pad a b g (i + 1) j, pad a b g (i + 1) (j + 1)]

/-- `medfilt(g, 3)`, analysis.py line 90. -/
noncomputable def medfilt (a b : ℕ) (g : Img) : Img := fun i j => median (hood a b g i j)

/-- The levels before the spline, analysis.py lines 52-90. -/
noncomputable def basis (nx ny w : ℕ) (img : Img) : Option Img :=
  (fill (tiles nx w) (tiles ny w) fun i j => level (tile w img i j)).map (medfilt (tiles nx w) (tiles ny w))

/-- `estimate_background(image, window)`, analysis.py lines 25-103, with the spline through levels at places. -/
noncomputable def background (spline : List ((ℝ × ℝ) × ℝ) → Img) (nx ny w : ℕ) (img : Img) : Option Img :=
  (basis nx ny w img).map fun g =>
    spline (cells (tiles nx w) (tiles ny w) fun i j => ((centre w i, centre w j), g i j))

/-! ## Point sources -/

/-- The width of the kernel, analysis.py lines 143-145. -/
noncomputable def sigma (fwhm : ℝ) : ℝ := (if fwhm < 1 then 1 else fwhm) / (2 * Real.sqrt (2 * Real.log 2))

/-- The radius, analysis.py line 149. -/
noncomputable def radius (s : ℝ) : ℝ := max (1.5 * s) 2

/-- Half of the box, analysis.py line 152. -/
noncomputable def half (r : ℝ) : ℕ := min ⌊r⌋₊ 6

/-- The kernel: its width, the radius and half of the box. -/
structure Kern where
  s : ℝ
  r : ℝ
  h : ℕ

/-- Analysis.py lines 138-154. -/
noncomputable def kern (fwhm : ℝ) : Kern := ⟨sigma fwhm, radius (sigma fwhm), half (radius (sigma fwhm))⟩

/-- The offsets of the box, `row`, analysis.py line 166. -/
noncomputable def box (K : Kern) : Finset ℤ := Icc (-(K.h : ℤ)) K.h

/-- The pixels within the radius, analysis.py line 169. -/
def mask (K : Kern) (a b : ℤ) : Prop := (a : ℝ) ^ 2 + (b : ℝ) ^ 2 ≤ K.r ^ 2

/-- The kernel before it is normalised, analysis.py lines 173-175. -/
noncomputable def raw (K : Kern) (a b : ℤ) : ℝ := if mask K a b then Real.exp (-((a : ℝ) ^ 2 + (b : ℝ) ^ 2) / 2 / K.s ^ 2) else 0

/-- The sum of the kernel, analysis.py line 176. -/
noncomputable def norm (K : Kern) : ℝ := ∑ a ∈ box K, ∑ b ∈ box K, raw K a b

/-- The kernel, analysis.py line 176. -/
noncomputable def kernel (K : Kern) (a b : ℤ) : ℝ := raw K a b / norm K

/-- The cross-section, analysis.py lines 180-181. -/
noncomputable def cross (K : Kern) (a : ℤ) : ℝ :=
  Real.exp (-(a : ℝ) ^ 2 / 2 / K.s ^ 2) / ∑ b ∈ box K, Real.exp (-(b : ℝ) ^ 2 / 2 / K.s ^ 2)

/-- `convolve(image, kernel, mode='same')`, analysis.py line 184. -/
noncomputable def conv (K : Kern) (nx ny : ℕ) (img : Img) (x y : ℕ) : ℝ :=
  ∑ a ∈ box K, ∑ b ∈ box K, kernel K a b * pad nx ny img (x - a) (y - b)

/-- The pixels where the whole kernel is in the image, `[nHalf:-nHalf,nHalf:-nHalf]`, analysis.py line 187. -/
def inner (K : Kern) (nx ny : ℕ) : Finset (ℕ × ℕ) := Ico K.h (nx - K.h) ×ˢ Ico K.h (ny - K.h)

/-- The convolved image with its edges set to the least value of the rest, analysis.py lines 184-191; a box that leaves nothing
raises. -/
noncomputable def smooth (K : Kern) (nx ny : ℕ) (img : Img) : Option Img :=
  if h : (inner K nx ny).Nonempty then
    let m := (inner K nx ny).inf' h fun p => conv K nx ny img p.1 p.2
    some fun x y => if (x, y) ∈ inner K nx ny then conv K nx ny img x y else m
  else none

/-- The offsets within the radius but the middle, by rows, analysis.py lines 195-198. -/
noncomputable def offsets (K : Kern) : List (ℤ × ℤ) :=
  (cells (2 * K.h + 1) (2 * K.h + 1) fun i j => ((i : ℤ) - K.h, (j : ℤ) - K.h)).filter fun d => mask K d.1 d.2 ∧ d ≠ (0, 0)

/-- `convImage[ox,oy]`, where negative indices count from the end. -/
def pick (nx ny : ℕ) (c : Img) (x y : ℤ) : Option ℝ := (index nx x).bind fun i => (index ny y).map fun j => c i j

/-- One pass, analysis.py lines 204-207; any index outside of the image raises. -/
noncomputable def thin (nx ny : ℕ) (c : Img) (d : ℤ × ℤ) (l : List (ℕ × ℕ)) : Option (List (ℕ × ℕ)) :=
  (l.mapM fun p => (pick nx ny c (p.1 + d.1) (p.2 + d.2)).map fun v => (p, v)).map fun l =>
    (l.filter fun q => q.2 ≤ c q.1.1 q.1.2).map Prod.fst

/-- The pixels that are the largest within the radius and reach the threshold, analysis.py lines 202-207. -/
noncomputable def peaks (K : Kern) (nx ny : ℕ) (threshold : ℝ) (c : Img) : Option (List (ℕ × ℕ)) :=
  (offsets K).foldlM (fun l d => thin nx ny c d l) ((cells nx ny fun x y => (x, y)).filter fun p => threshold ≤ c p.1 p.2)

/-- A source that is reported.  A centre that is not a number is `none`. -/
structure Src where
  x : Option ℝ
  y : Option ℝ
  flux : ℝ
  sharp : ℝ
  round : ℝ

/-- The limits. -/
structure Limits where
  sharp0 : ℝ
  sharp1 : ℝ
  round0 : ℝ
  round1 : ℝ

/-- The postage stamp, analysis.py line 229. -/
def stamp (img : Img) (p : ℕ × ℕ) (a b : ℤ) : ℝ := img ((p.1 : ℤ) + a).toNat ((p.2 : ℤ) + b).toNat

/-- The sum of the stamp. -/
noncomputable def whole (K : Kern) (img : Img) (p : ℕ × ℕ) : ℝ := ∑ a ∈ box K, ∑ b ∈ box K, stamp img p a b

/-- The mean of the pixels around the middle, analysis.py line 233. -/
noncomputable def around (K : Kern) (img : Img) (p : ℕ × ℕ) : ℝ :=
  (∑ a ∈ box K, ∑ b ∈ box K, if mask K a b ∧ (a, b) ≠ (0, 0) then stamp img p a b else 0) / (offsets K).length

/-- The sharpness, analysis.py line 233. -/
noncomputable def sharpness (K : Kern) (img : Img) (p : ℕ × ℕ) : ℝ := (stamp img p 0 0 - around K img p) / img p.1 p.2

/-- Whether the sharpness is allowed, analysis.py line 234.  For a pixel of zero it is infinite, or not a number, which is not
rejected. -/
noncomputable def sharpOk (K : Kern) (L : Limits) (img : Img) (p : ℕ × ℕ) : Prop :=
  if img p.1 p.2 = 0 then stamp img p 0 0 - around K img p = 0
  else ¬ (sharpness K img p < L.sharp0 ∨ sharpness K img p > L.sharp1)

/-- The profile along rows, analysis.py line 239. -/
noncomputable def profX (K : Kern) (img : Img) (p : ℕ × ℕ) : ℝ := ∑ a ∈ box K, (∑ b ∈ box K, stamp img p a b) * cross K a

/-- The profile along columns, analysis.py line 240. -/
noncomputable def profY (K : Kern) (img : Img) (p : ℕ × ℕ) : ℝ := ∑ b ∈ box K, (∑ a ∈ box K, stamp img p a b) * cross K b

/-- The roundness, analysis.py line 241. -/
noncomputable def roundness (K : Kern) (img : Img) (p : ℕ × ℕ) : ℝ :=
  (profX K img p - profY K img p) / (profX K img p + profY K img p)

/-- Whether the roundness is allowed, analysis.py line 242. -/
noncomputable def roundOk (K : Kern) (L : Limits) (img : Img) (p : ℕ × ℕ) : Prop :=
  ¬ ((profX K img p ≤ 0 ∨ profY K img p ≤ 0) ∨ (roundness K img p < L.round0 ∨ roundness K img p > L.round1))

/-- The centre, analysis.py lines 247-248.  `rx` of `np.meshgrid` changes along columns, `ry` along rows. -/
noncomputable def centroid (K : Kern) (img : Img) (p : ℕ × ℕ) : Option (ℝ × ℝ) :=
  if whole K img p = 0 then none
  else some (p.1 + (∑ a ∈ box K, ∑ b ∈ box K, stamp img p a b * b) / whole K img p,
    p.2 + (∑ a ∈ box K, ∑ b ∈ box K, stamp img p a b * a) / whole K img p)

/-- What is reported on a pixel, analysis.py lines 229-257. -/
noncomputable def report (K : Kern) (L : Limits) (img : Img) (p : ℕ × ℕ) : Option Src :=
  if sharpOk K L img p ∧ roundOk K L img p then
    some ⟨(centroid K img p).map Prod.fst, (centroid K img p).map Prod.snd, img p.1 p.2, sharpness K img p, roundness K img p⟩
  else none

/-- `find_point_sources`, analysis.py lines 107-280, with the background that is taken off for finding peaks. -/
noncomputable def find (K : Kern) (L : Limits) (nx ny : ℕ) (threshold : ℝ) (bg img : Img) : Option (List Src) :=
  (smooth K nx ny fun x y => img x y - bg x y).bind fun c =>
  (peaks K nx ny threshold c).map fun l => l.filterMap (report K L img)

end Verif.Analysis
