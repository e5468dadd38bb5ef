import Mathlib.Analysis.SpecialFunctions.Complex.Arg
import Mathlib.Analysis.SpecialFunctions.Trigonometric.Inverse
import Verif.Model.CMem
import Verif.Model.Uvw
/-!
# Simulated visibilities: /repo/lsl/sim/simfast.cpp, with parts of /repo/lsl/sim/vis.py and /repo/lsl/imaging/data.py

Floats are idealised to real and complex numbers; the visibilities are stored as single precision numbers.  `j1` stands for
the Bessel function of the GNU scientific library.  Antenna numbers fit an `int` and no integer overflows.  The threads of
OpenMP work on different baselines and are run one after the other.
-/
namespace Verif.SimFast

open Real
open Verif.CMem
open Verif.Uvw (Vec)

/-- `exp(TPI*x)`, `TPI` of common.hpp is `2 pi i`. -/
noncomputable def e (x : ℝ) : ℂ := Complex.exp (2 * π * x * Complex.I)

/-- The arguments of `compute_visibility`, simfast.cpp lines 23-39. -/
structure Args where
  nBL : Nat
  nChan : Nat
  nSrc : Nat
  chanMin : Int
  chanMax : Int
  resolve : Bool
  phsHa : ℝ
  phsDec : ℝ
  blPair : List Int
  antPos : List ℝ
  freq : List ℝ
  srcHa : List ℝ
  srcDec : List ℝ
  flux : List ℂ
  shape : List ℝ

/-- `for(k=chanMin; k<chanMax; k++)`. -/
def Args.chans (a : Args) : List Int := (List.range (a.chanMax - a.chanMin).toNat).map (fun (k : Nat) => a.chanMin + k)

/-- Lines 92-94 and 123-125. -/
noncomputable def rot (ha dec : ℝ) (b : Vec) : Vec :=
  ⟨sin ha * b.x + cos ha * b.y,
   -sin dec * cos ha * b.x + sin dec * sin ha * b.y + cos dec * b.z,
   cos dec * cos ha * b.x - cos dec * sin ha * b.y + sin dec * b.z⟩

open Classical in
/-- `tempX`, lines 103-115. -/
noncomputable def resolved (j1 : ℝ → ℝ) (resolve : Bool) (a0 a1 th u v : ℝ) : ℝ :=
  if resolve = true ∧ a0 ≠ 0 ∧ a1 ≠ 0 then
    let x := a0 * (u * cos th - v * sin th) * a0 * (u * cos th - v * sin th)
      + a1 * (u * sin th + v * cos th) * a1 * (u * sin th + v * cos th)
    let x := 2 * π * sqrt x
    if x ≠ 0 then 2 * j1 x / x else 1
  else 1

/-- `*(m + k) += x`. -/
noncomputable def add (m : List ℂ) (w : Int × ℂ) : Run (List ℂ) := (rd m w.1).bind (fun v => wr m (w.1, v + w.2))

/-- What source `j` adds to the channels of a baseline, lines 82-119. -/
noncomputable def Args.source (a : Args) (j1 : ℝ → ℝ) (b : Vec) (j : Nat) : Run (List (Int × ℂ)) :=
  (rd a.srcHa j).bind fun ha =>
  (rd a.srcDec j).bind fun dec =>
  (rd a.shape (0 * a.nSrc + j)).bind fun a0 =>
  (rd a.shape (1 * a.nSrc + j)).bind fun a1 =>
  (rd a.shape (2 * a.nSrc + j)).bind fun th =>
  all (fun k =>
    (rd a.freq k).bind fun f =>
    (rd a.flux (a.nChan * j + k)).bind fun s =>
    let r := rot ha dec b
    .ok (k, (resolved j1 a.resolve a0 a1 th (f * r.x) (f * r.y) : ℂ) * s * e (f * r.z))) a.chans

/-- `tempVis` after the sources, lines 79-120. -/
noncomputable def Args.sky (a : Args) (j1 : ℝ → ℝ) (b : Vec) : Run (List ℂ) :=
  (List.range a.nSrc).foldlM (fun t j => (a.source j1 b j).bind (fun ws => ws.foldlM add t)) (List.replicate a.nChan 0)

/-- The difference of the positions of two antennas, lines 74-76. -/
noncomputable def Args.bl (a : Args) (a1 a2 : Int) : Run Vec :=
  (rd a.antPos (3 * a1 + 0)).bind fun x1 => (rd a.antPos (3 * a2 + 0)).bind fun x2 =>
  (rd a.antPos (3 * a1 + 1)).bind fun y1 => (rd a.antPos (3 * a2 + 1)).bind fun y2 =>
  (rd a.antPos (3 * a1 + 2)).bind fun z1 => (rd a.antPos (3 * a2 + 2)).bind fun z2 =>
  .ok ⟨x1 - x2, y1 - y2, z1 - z2⟩

/-- The iteration of baseline `i`, lines 70-140; the two arrays are `uvw` and `vis`. -/
noncomputable def Args.baseline (a : Args) (j1 : ℝ → ℝ) (i : Nat) (out : List ℝ × List ℂ) : Run (List ℝ × List ℂ) :=
  (rd a.blPair (2 * i + 0)).bind fun a1 =>
  (rd a.blPair (2 * i + 1)).bind fun a2 =>
  (a.bl a1 a2).bind fun b =>
  (a.sky j1 b).bind fun t =>
  let r := rot a.phsHa a.phsDec b
  a.chans.foldlM (fun (out : List ℝ × List ℂ) k =>
    (rd a.freq k).bind fun f =>
    (wrs out.1 [(i * 3 * a.nChan + 0 * a.nChan + k, f * r.x), (i * 3 * a.nChan + 1 * a.nChan + k, f * r.y),
      (i * 3 * a.nChan + 2 * a.nChan + k, f * r.z)]).bind fun uvw =>
    (rd t k).bind fun v =>
    (wr out.2 (i * a.nChan + k, v * e (-(f * r.z)))).bind fun vis => .ok (uvw, vis)) out

/-- `compute_visibility` on arrays of zeros, lines 23-147. -/
noncomputable def Args.compute (a : Args) (j1 : ℝ → ℝ) : Run (List ℝ × List ℂ) :=
  (List.range a.nBL).foldlM (fun out i => a.baseline j1 i out)
    (List.replicate (a.nBL * 3 * a.nChan) 0, List.replicate (a.nBL * a.nChan) 0)

/-- A contiguous array with two axes. -/
structure Arr2 (α : Type) where
  rows : Nat
  cols : Nat
  data : List α

/-- What `FastVis` takes from the antenna array: the latitude, the frequencies (flattened, lines 175-184), the entries of the
cache (lines 188-219), whether the type of the fluxes is one of the four supported (lines 350-356), and the positions of the
antennas (lines 299-317). -/
structure Array where
  lat : ℝ
  freq : List ℝ
  ha : Option (List ℝ)
  dec : Option (List ℝ)
  jys : Option (Arr2 ℂ)
  shp : Option (Arr2 ℝ)
  supported : Bool
  ants : List Vec

open Classical in
/-- The elevation of lines 223-228, in radians. -/
noncomputable def nudge (el : ℝ) : ℝ := if el = π / 2 then el - 1e-8 else if el = -(π / 2) then el + 1e-8 else el

/-- `atan2` of C. -/
noncomputable def atan2 (y x : ℝ) : ℝ := Complex.arg ⟨x, y⟩

/-- `pcDec`, line 230. -/
noncomputable def pcDec (lat az el : ℝ) : ℝ := arcsin (sin lat * sin el + cos lat * cos el * cos az)

/-- `pcHA`, lines 231-232. -/
noncomputable def pcHa (lat az el : ℝ) : ℝ :=
  atan2 (-sin az * cos el / cos (pcDec lat az el))
    ((sin el - sin (pcDec lat az el) * sin lat) / (cos (pcDec lat az el) * cos lat))

/-- `pos`, lines 299-317. -/
def flatPos (ants : List Vec) : List ℝ := ants.flatMap (fun v => [v.x, v.y, v.z])

/-- `bll`, lines 320-336. -/
def flatBl (bls : List (Int × Int)) : List Int := bls.flatMap (fun b => [b.1, b.2])

/-- `chanMax` after lines 268-272. -/
def lastChan (chanMin chanMax nFreq : Int) : Int := if chanMax < chanMin then nFreq else chanMax + 1

/-- `FastVis(aa, bls, chan_min, chan_max, pc_az, pc_el, resolve_src)`, lines 150-386, for angles in degrees.  The result is
the two arrays, contiguous. -/
noncomputable def fastVis (j1 : ℝ → ℝ) (aa : Array) (bls : List (Int × Int)) (chanMin chanMax : Int) (pcAz pcEl : ℝ)
    (resolve : Bool) : Run (List ℝ × List ℂ) :=
  match aa.ha, aa.dec, aa.jys, aa.shp with
  | some ha, some dec, some flux, some shape =>
    let az := pcAz * (π / 180)
    let el := nudge (pcEl * (π / 180))
    if ha.length ≠ dec.length then .error .refused
    else if flux.rows ≠ ha.length then .error .refused
    else if shape.rows ≠ 3 then .error .refused
    else if shape.cols ≠ ha.length then .error .refused
    else if flux.cols ≠ aa.freq.length then .error .refused
    else if aa.supported = false then .error .refused
    else
      Args.compute
        { nBL := bls.length, nChan := aa.freq.length, nSrc := ha.length, chanMin := chanMin,
          chanMax := lastChan chanMin chanMax aa.freq.length, resolve := resolve,
          phsHa := pcHa aa.lat az el, phsDec := pcDec aa.lat az el,
          blPair := flatBl bls, antPos := flatPos aa.ants, freq := aa.freq, srcHa := ha, srcDec := dec,
          flux := flux.data, shape := shape.data } j1
  | _, _, _, _ => .error .refused

/-! ## The python side, vis.py and data.py -/

/-- The position of an antenna in the array built for a station, vis.py lines 910-915: from east, north and up in metres to
equatorial coordinates in nanoseconds.  `aipy.coord.top2eq_m(0, lat)` is the matrix of uvutils.py. -/
noncomputable def simPos (lat : ℝ) (xyz : Vec) : Vec :=
  let v := (Verif.Uvw.trans1 lat).apply xyz
  ⟨v.x / Verif.Uvw.c * 1e9, v.y / Verif.Uvw.c * 1e9, v.z / Verif.Uvw.c * 1e9⟩

/-- A phase centre, as an hour angle, a declination and whether it is above the horizon. -/
structure Centre where
  ha : ℝ
  dec : ℝ
  up : Bool

/-- `antennaarray.gen_uvw(j, i, src)[:,0,k]` of AIPY, for the positions of antennas `i` and `j` and a frequency; a source
below the horizon is an exception. -/
noncomputable def genUvw (f : ℝ) (pi pj : Vec) (c : Centre) : Run Vec :=
  if c.up = false then .error .refused
  else
    let r := rot c.ha c.dec (pi.sub pj)
    .ok ⟨f * r.x, f * r.y, f * r.z⟩

/-- `antennaarray.gen_phs(src, j, i)` of AIPY: `exp(-2 pi i w)`; `o` is the phase offset of the pair of antennas. -/
noncomputable def genPhs (f o : ℝ) (pi pj : Vec) (c : Centre) : Run ℂ :=
  (genUvw f pi pj c).bind fun r => .ok (e (-(r.z + o)))

/-- The new coordinates and visibility of a baseline and a channel, data.py lines 283-289: `unphs2src` divides by the phase
and `phs2src` multiplies with it. -/
noncomputable def rephase (f o : ℝ) (pi pj : Vec) (old new : Centre) (vis : ℂ) : Run (Vec × ℂ) :=
  (genUvw f pi pj new).bind fun crd =>
  (genPhs f o pi pj old).bind fun p =>
  (genPhs f o pi pj new).bind fun q =>
  .ok (crd, vis / p * q)

/-- `cGains[i]` at a frequency in GHz, vis.py lines 1196-1201; the delay is in nanoseconds and the phase in radians. -/
noncomputable def gain (amp delay : ℝ) (phase : Option ℝ) (f : ℝ) : ℂ :=
  amp * Complex.exp (2 * Complex.I * π * f * delay + (match phase with | some p => Complex.I * p | none => 0))

/-- The factor of a baseline, vis.py lines 1207-1211. -/
noncomputable def scaled (gi gj : ℂ) (vis : ℂ) : ℂ := vis * ((starRingEnd ℂ) gj * gi)

/-- `scale_data` of a data set: rows with the baselines the loop enumerates, lines 1204-1211; `none` is an exception.  For a
set of integrations `bls` are the baselines of the first, line 1207 with data.py lines 454-464. -/
noncomputable def scaleRows (g : List (Nat → ℂ)) (bls : List (Nat × Nat)) (rows : List (List ℂ)) : Option (List (List ℂ)) :=
  if rows.length < bls.length then none
  else (bls.mapM (fun b => (g[b.1]?).bind fun gi => (g[b.2]?).map fun gj => (gi, gj))).map fun gs =>
    rows.mapIdx (fun r row => match gs[r]? with
      | some (gi, gj) => row.mapIdx (fun k v => scaled (gi k) (gj k) v)
      | none => row)

/-- The fluxes of a source that are used for each product, vis.py lines 1094-1103, and the one left in the cache, lines
1120-1123.  `none` is not a number: a division by zero.  `s` is the flux times the bandpass `g`, `b` the response of the
beams for a product, `prev` the product before. -/
noncomputable def cdiv? (x y : Option ℂ) : Option ℂ :=
  match x, y with
  | some x, some y => open Classical in if y = 0 then none else some (x / y)
  | _, _ => none

noncomputable def polFlux (b : String → ℂ) : Option String → Option ℂ → List String → List (Option ℂ) × Option ℂ
  | prev, s, [] => ([], match prev with | some q => cdiv? s (some (b q)) | none => s)
  | prev, s, p :: l =>
    let s := (match prev with | some q => cdiv? s (some (b q)) | none => s)
    let s := s.map (· * b p)
    let r := polFlux b (some p) s l
    (s :: r.1, r.2)

/-- All fluxes of a source, lines 1027-1031 and 1094-1123. -/
noncomputable def fluxes (raw g : ℂ) (b : String → ℂ) (pols : List String) : List (Option ℂ) × Option ℂ :=
  let r := polFlux b none (some (g * raw)) pols
  (r.1, cdiv? r.2 (some g))

/-- The sources of a simulation, vis.py lines 998-1045: those that are not below the horizon, in order. -/
def above {S : Type} (alt : S → Int) (srcs : List S) : Run (List S) :=
  let l := srcs.filter (fun s => decide (¬ alt s < 0))
  if l = [] then .error .refused else .ok l

/-- The antennas of a list of baselines, vis.py lines 1269-1274. -/
def antsOf (bls : List (Nat × Nat)) : List Nat :=
  bls.foldl (fun l b =>
    let l := if b.1 ∈ l then l else l ++ [b.1]
    if b.2 ∈ l then l else l ++ [b.2]) []

/-- The standard deviations of `add_baseline_noise`, vis.py lines 1268-1287; the sensitivity is one number or a list.  `none`
is an exception. -/
noncomputable def noiseSigma (sefd : ℝ ⊕ List ℝ) (bls : List (Nat × Nat)) (tInt bandwidth efficiency : ℝ) : Option (List ℝ) :=
  let n := (antsOf bls).length
  let s : Option (List ℝ) := match sefd with
    | .inl x => some (List.replicate n x)
    | .inr l => if l.length ≠ n then none else some l
  s.bind fun s => bls.mapM fun b => (s[b.1]?).bind fun x => (s[b.2]?).map fun y =>
    sqrt (x * y) * (1 / efficiency / sqrt (2 * bandwidth * tInt))

end Verif.SimFast
