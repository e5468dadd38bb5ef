import Verif.Model.Gridder
import Verif.Model.Cx
/-!
# Images from visibilities: /repo/lsl/imaging/utils.py:1370-1801

Simplifications.  Arithmetic is exact.  `aipy`, which is not part of the repository, is taken to do what its documentation says:
`append_hermitian` adds the points `(-u, -v, -w)` with the conjugate of the data and the same weight, and `recenter` moves pixels.
`np.argsort` gives any order that sorts.  The infinities and the "not a number" of numpy are `none`.  Channels are counted from
the front, the aperture plane has a resolution that is not zero.  Times, locations and attributes that are copied are left out.
-/
namespace Verif.Imaging
open Verif.CMem
open Verif.Gridder (Args Fns wProjection)
open Lean.Grind (CommRing)
open Verif.FEngine (lround)

/-! ### gridding of data sets -/

/-- An index of numpy, from the front; out of bounds is an `IndexError`. -/
def pick {α : Type} (l : List α) (i : Nat) : Run α :=
  match l[i]? with
  | some x => .ok x
  | none => .error .refused

/-- A `PolarizationDataSet`: by baseline, by channel. -/
structure Pol (C : Type) where
  data : List (List C)
  weight : List (List C)
  mask : List (List Bool)

/-- A `VisibilityDataSet`. -/
structure DataSet (C : Type) where
  uvw : List (List (Rat × Rat × Rat))
  pols : List (String × Pol C)

/-- The channels asked for, of each baseline; utils.py:1666-1683. -/
def channels {α : Type} (chan : Option (List Nat)) (rows : List (List α)) : Run (List (List α)) :=
  match chan with
  | none => .ok rows
  | some cs => all (fun row => all (pick row) cs) rows

section
variable {C : Type} [CommRing C]

/-- What is handed to `WProjection`, utils.py:1658-1696. `order` is `np.argsort`, `conj` is `np.conj`. -/
def prepare (conj : C → C) (order : List Rat → List Nat) (pol : String) (chan : Option (List Nat)) (ds : DataSet C) :
    Run (List (Rat × Rat × Rat) × List C × List C) :=
  match ds.pols.find? (fun p => p.1 = pol) with
  | none => .error .refused
  | some (_, p) =>
    (channels chan ds.uvw).bind fun uvw =>
    (channels chan p.data).bind fun vis =>
    (channels chan p.weight).bind fun wgt =>
    let uvw := uvw.flatten
    let vis := vis.flatten
    let wgt := wgt.flatten
    let uvw := uvw ++ uvw.map fun x => (-x.1, -x.2.1, -x.2.2)
    let vis := vis ++ vis.map conj
    let wgt := wgt ++ wgt
    let o := order (uvw.map fun x => x.2.2)
    (all (pick uvw) o).bind fun uvw => (all (pick vis) o).bind fun vis => (all (pick wgt) o).map fun wgt => (uvw, vis, wgt)

/-- `ImgWPlus`, as far as it is used. -/
structure Im (C : Type) where
  size : Rat
  res : Rat
  wres : Rat
  uv : List C
  bm : List C
  corr : List C

/-- The keywords of `build_gridded_image` about the plane. -/
structure Keys where
  size : Rat
  res : Rat
  wres : Rat
  pol : String
  chan : Option (List Nat)

/-- The arguments for the gridder; `nPixSide` is set in gridder.cpp:415. -/
def args (k : Keys) (x : List (Rat × Rat × Rat) × List C × List C) : Args C :=
  ⟨(lround (k.size / k.res)).toNat, k.res, k.wres, x.1.map (·.1), x.1.map (·.2.1), x.1.map (·.2.2), x.2.1, x.2.2⟩

/-- `build_gridded_image` for one data set, utils.py:1642-1709.  `static` is what the gridder kept from the first call. -/
def buildOne (f : Fns C) (conj : C → C) (order : List Rat → List Nat) (k : Keys) (static : Option C) (im : Option (Im C))
    (ds : DataSet C) : Run (C × Im C) :=
  let im := im.getD ⟨k.size, k.res, k.wres, [], [], []⟩
  if im.size ≠ k.size ∨ im.res ≠ k.res ∨ im.wres ≠ k.wres then .error .refused else
  (prepare conj order k.pol k.chan ds).bind fun x =>
  if lround (k.size / k.res) < 0 then .error .refused else
  (wProjection f static (args k x)).map fun g => (g.1, { im with uv := g.2.1, bm := g.2.2.1, corr := g.2.2.2 })

/-- `build_gridded_image` for a `VisibilityData`, utils.py:1634-1638. -/
def build (f : Fns C) (conj : C → C) (order : List Rat → List Nat) (k : Keys) (static : Option C) (im : Option (Im C)) :
    List (DataSet C) → Run (Option C × Option (Im C))
  | [] => .ok (static, im)
  | ds :: l => (buildOne f conj order k static im ds).bind fun r => build f conj order k (some r.1) (some r.2) l

end

/-! ### weighting -/

/-- A cell of the uv plane; `none` is not a finite number. -/
abbrev Cell := Option Cx

/-- The keyword `weighting`; `briggs t` is for `t = 10**(-2*robust)`. -/
inductive Weighting where
  | natural
  | uniform
  | briggs (t : Rat)

/-- `self.bm[0].real`. -/
def real (x : Cell) : Option Rat := x.map Cx.re

/-- A product with a real number. -/
def scale (x : Cell) (s : Option Rat) : Cell := x.bind fun x => s.map fun s => ⟨x.re * s, x.im * s⟩

/-- `1.0/x`. -/
def recip (x : Option Rat) : Option Rat := x.bind fun x => if x = 0 then none else some (1 / x)

/-- A sum of numpy. -/
def sumO (l : List (Option Rat)) : Option Rat := l.foldl (fun a x => a.bind fun a => x.map fun x => a + x) (some 0)

/-- `S2`, utils.py:1456-1459: zero for a sum of weights that is zero, where numpy divides by infinity. -/
def s2 (t : Rat) (wgt : List (Option Rat)) : Option Rat :=
  (sumO wgt).bind fun wavg => (sumO (wgt.map fun w => w.map fun w => w * w)).bind fun w2avg =>
  if w2avg = 0 then none else if wavg = 0 then some 0 else some (25 * t / (w2avg / wavg))

/-- `data[np.where(wgt == 0)] = 0.0`. -/
def blank (wgt : List (Option Rat)) (data : List Cell) : List Cell :=
  data.mapIdx fun i x => if wgt[i]? = some (some 0) then some 0 else x

/-- `data` after the weighting, utils.py:1444-1461.  `wgt` is a view of `self.bm[0]`: if `data` is that array (`same`) then the
last line looks at the new values. -/
def weigh (wt : Weighting) (same : Bool) (bm data : List Cell) : List Cell :=
  let wgt := bm.map real
  match wt with
  | .natural => data
  | .uniform =>
    let data := data.mapIdx fun i x => scale x (recip ((wgt[i]?).getD none))
    blank (if same then data.map real else wgt) data
  | .briggs t =>
    let data := data.mapIdx fun i x => scale x (recip (((wgt[i]?).getD none).bind fun w => (s2 t wgt).map fun s => 1 + w * s))
    blank (if same then data.map real else wgt) data

/-- The arrays of an image, `uv` and `bm[0]`. -/
structure Planes where
  uv : List Cell
  bm : List Cell
deriving DecidableEq

/-- The cells times the taper, `data*taper1*taper2`, utils.py:1471-1485; a new array, if there is a taper at all. -/
def taper (tp : Option (List Rat)) (data : List Cell) : List Cell :=
  match tp with
  | none => data
  | some t => data.mapIdx fun i x => scale x t[i]?

/-- `image`, utils.py:1489-1503: what is left in the object, and the cells that are transformed. -/
def image (wt : Weighting) (tp : Option (List Rat)) (s : Planes) : Planes × List Cell :=
  let data := weigh wt false s.bm s.uv
  ({ s with uv := data }, taper tp data)

/-- `bm_image` for term 0, utils.py:1505-1523. -/
def bmImage (wt : Weighting) (tp : Option (List Rat)) (s : Planes) : Planes × List Cell :=
  let data := weigh wt true s.bm s.bm
  ({ s with bm := data }, taper tp data)

/-! ### positions of pixels -/

/-- `np.roll` along an axis of length `n`: where index `i` goes to. -/
def roll (n k i : Nat) : Nat := (i + k) % n

/-- `CRPIX - 1` of `wcs`, utils.py:1599 and 1604: the index of the pixel at the phase centre. -/
def reference (n : Nat) : Nat := n / 2 + 1 - 1

/-- The pixel of the image that pixel `i` of `plot_gridded_image` shows is at 0 if this is `i`, utils.py:1735-1738. -/
def shifted (n i : Nat) : Nat := roll n (n / 2) i

/-- Where `get_image_radec` without `shifted` puts the coordinates of pixel `i`, utils.py:1765-1773. -/
def unshifted (n i : Nat) : Nat := roll n (n / 2) i

/-- The kinds of phase centres the setter accepts, utils.py:1555-1560. -/
inductive Centre where
  /-- `SkyCoord`, `ICRS`, `FK5`: right ascension and declination after `transform_to`. -/
  | sky (ra dec : Rat)
  /-- `ephem.Body`, which has no method `transform_to`. -/
  | body (ra dec : Rat)
  /-- `astro.equ_posn`, which has none either. -/
  | posn (ra dec : Rat)

/-- `CRVAL1` and `CRVAL2`, utils.py:1578-1596. -/
def crval : Option Centre → Run (Rat × Rat)
  | none => .error .refused
  | some (.posn _ _) => .error .refused
  | some (.sky ra dec) => .ok (ra, dec)
  | some (.body ra dec) => .ok (ra, dec)

end Verif.Imaging
