import Verif.Model.Dec
/-!
# Visibility tables: /repo/lsl/writer/fitsidi.py, /repo/lsl/writer/uvfits.py and their readers in
/repo/lsl/imaging/utils.py

`V` are the complex numbers and `W` the weights; nothing depends on their arithmetic, `cj` is the conjugation of lines
1152-1155 of fitsidi.py.  Times are exact: the sum of the columns `DATE` and `TIME` is the time given.  An array is the
list of its rows.  `none` is an exception, of whatever class.  `uvw` coordinates, sources and integration times are not
modelled.
-/
namespace Verif.UvTable
open Dec

/-- A pair of stands, `(a1.stand.id, a2.stand.id)`. -/
abbrev Bl := Nat × Nat

/-- `_UVData`, fitsidi.py lines 121-134; `vis` and `wts` have a row for each baseline. -/
structure DataSet (V W : Type) where
  time : Int
  pol : Int
  bls : List Bl
  vis : List (List V)
  wts : Option (List (List W)) := none

/-- What distinguishes the kinds of files. -/
structure Format where
  /-- `_MAX_ANTS` -/
  maxAnts : Nat
  /-- The start of the antenna names and the number of digits, `get_name`. -/
  start : List Char
  digits : Nat
  /-- The number by which a data set is sorted and the number stored. -/
  key : Nat → Nat → Nat
  merge : Nat → Nat → Nat
  /-- Line 489-495 and 769-774 of utils.py. -/
  split : Nat → Nat × Nat
  /-- Whether weights are stored, fitsidi.py lines 1156-1157. -/
  weights : Bool := true

/-- `merge_baseline` and `split_baseline`, fitsidi.py lines 64-79. -/
def merge (shift a b : Nat) : Nat := a <<< shift ||| b

def split (shift n : Nat) : Nat × Nat := ((n >>> shift) &&& (2 ^ shift - 1), n &&& (2 ^ shift - 1))

/-- `merge_baseline`, uvfits.py lines 37-48. -/
def mergeUv (a b : Nat) : Nat := if 255 < a ∨ 255 < b then a * 2048 + b + 65536 else a * 256 + b

/-- `split_baseline`, uvfits.py lines 51-63. -/
def splitUv (n : Nat) : Nat × Nat :=
  if 65536 ≤ n then ((n - 65536) / 2048, (n - 65536) % 2048) else (n / 256, n % 256)

/-- `Idi`, fitsidi.py lines 86-87 and 104-105. -/
def idi : Format := ⟨255, ['L', 'W', 'A'], 3, merge 8, merge 8, split 8, true⟩

/-- `Aips`, fitsidi.py lines 1356-1357 and 1373-1374. -/
def aips : Format := ⟨99, ['L'], 3, merge 8, merge 8, split 8, true⟩

/-- `ExtendedIdi`, fitsidi.py lines 1438-1439 and 1455-1456. -/
def extended : Format := ⟨65535, ['L', 'W', 'A'], 5, merge 16, merge 16, split 16, true⟩

/-- `Uv`, uvfits.py lines 107-108, 130; the data sets are sorted with the default shift, line 264.  Baseline numbers are
stored as 32-bit floats, which are exact below 2^24. -/
def uv : Format := ⟨2047, ['L', 'W', 'A'], 3, merge 16, mergeUv, splitUv, false⟩

/-! ## Setup -/

/-- A sorted list with `x` inserted. -/
def insertInt (x : Int) : List Int → List Int
  | [] => [x]
  | y :: l => if x ≤ y then x :: y :: l else y :: insertInt x l

/-- `list.sort()`. -/
def sortInt : List Int → List Int
  | [] => []
  | x :: l => insertInt x (sortInt l)

/-- `set_stokes` of codes, lines 255-274, starting from `old`. -/
def setStokes (old codes : List Int) : List Int :=
  let l := sortInt (codes.foldl (fun l c => if c ∈ l then l else l ++ [c]) old)
  match l with
  | [] => []
  | x :: _ => if x < 0 then l.reverse else l

/-- Value of the last entry of a dictionary built from pairs. -/
def dict (l : List (Nat × Nat)) (k : Nat) : Option Nat := (l.reverse.find? (fun x => x.1 == k)).map (·.2)

/-- `enableMapper`, lines 444-448. -/
def mapped (f : Format) (stands : List Nat) : Bool := stands.any (fun s => f.maxAnts < s)

/-- The entries of `mapper`, lines 450-456. -/
def entries (f : Format) (stands : List Nat) : List (Nat × Nat) :=
  stands.mapIdx (fun i s => (s, if mapped f stands then i + 1 else s))

/-- The numbers of the antennas in the table, column `NOSTA` of lines 625-626. -/
def nosta (f : Format) (stands : List Nat) : List Nat := stands.filterMap (dict (entries f stands))

/-- `mapper[stand]`, or the stand itself when there is no `NOSTA_MAPPER` table, lines 1121-1124. -/
def number (f : Format) (stands : List Nat) (s : Nat) : Option Nat :=
  if mapped f stands then dict ((nosta f stands).zip stands |>.map (fun x => (x.2, x.1))) s else some s

/-- `set_geometry` refuses too many antennas, lines 423-425. -/
def setGeometry (f : Format) (stands : List Nat) : Option (List Nat) :=
  if f.maxAnts < stands.length then none else some stands

/-! ## Writing -/

/-- `l[order]`. -/
def take {α : Type} (l : List α) (order : List Nat) : Option (List α) := order.mapM (fun i => l[i]?)

/-- The numbers of a list of baselines, lines 170-176 and 1118-1125. -/
def numbers (m : Nat → Option Nat) (g : Nat → Nat → Nat) (bls : List Bl) : Option (List Nat) :=
  bls.mapM (fun b => (m b.1).bind (fun x => (m b.2).map (fun y => g x y)))

/-- `argsort` of lines 169-179; `srt` is `np.argsort`.  Numbers that do not fit `int32` are refused (by recent numpy;
older ones wrapped them). -/
def argsort (f : Format) (m : Nat → Option Nat) (srt : List Nat → List Nat) (bls : List Bl) : Option (List Nat) :=
  (numbers m f.key bls).bind (fun l => if l.all (fun n => n < 2 ^ 31) then some (srt l) else none)

/-- `row[p::k] = new`, which needs as many places as there are values. -/
def setCols {α : Type} (k p : Nat) (row new : List α) : Option (List α) :=
  if row.length = k * new.length then
    some (row.mapIdx (fun j x => if j % k = p then (new[j / k]?).getD x else x))
  else none

/-- `matrix[:,p::k] = rows`. -/
def fill {α : Type} (k p : Nat) (mat rows : List (List α)) : Option (List (List α)) :=
  if mat.length = rows.length then (mat.zip rows).mapM (fun x => setCols k p x.1 x.2) else none

/-- The local variables of `_write_uvdata_hdu`; `bl`, `time`, `flux` and `wt` are `blineList`, `dateList + timeList`,
`mList` and `fList`. -/
structure St (V W : Type) where
  order : Option (List Nat) := none
  labels : Option (List Nat) := none
  mat : Option (List (List V)) := none
  wgt : Option (List (List W)) := none
  bl : List Nat := []
  time : List Int := []
  flux : List (List V) := []
  wt : List (List W) := []

/-- Everything a writer was told: format, stands, codes of the products and number of channels of all bands. -/
structure Setup where
  format : Format
  stands : List Nat
  stokes : List Int
  width : Nat

section
variable {V W : Type} (u : Setup) (srt : List Nat → List Nat) (zero : V) (one : W) (cj : V → V)

/-- Lines 1062-1071: the order of the last data set is used if there are as many rows. -/
def sortStep (s : St V W) (d : DataSet V W) : Option (St V W) :=
  if s.order.map List.length = some d.vis.length then some s
  else (argsort u.format (number u.format u.stands) srt d.bls).map
    (fun o => { s with order := some o, labels := none })

/-- `baselineMapped`, lines 1114-1126. -/
def labelsOf (s : St V W) (d : DataSet V W) : Option (List Nat) :=
  match s.labels with
  | some l => some l
  | none => (s.order.bind (take d.bls)).bind (numbers (number u.format u.stands) u.format.merge)

/-- Lines 1074-1150. -/
def openStep (s : St V W) (d : DataSet V W) : Option (St V W) :=
  if some d.pol = u.stokes.head? then
    (labelsOf u s d).bind (fun l => s.order.map (fun o =>
      { s with labels := some l, bl := s.bl ++ l, time := s.time ++ List.replicate d.bls.length d.time,
               mat := some (List.replicate o.length (List.replicate (u.stokes.length * u.width) zero)),
               wgt := some (List.replicate o.length (List.replicate (u.stokes.length * u.width) one)) }))
  else some s

/-- Lines 1156-1157. -/
def weigh (o : List Nat) (p : Nat) (wgt : List (List W)) (d : DataSet V W) : Option (List (List W)) :=
  match if u.format.weights then d.wts else none with
  | none => some wgt
  | some w => (take w o).bind (fill u.stokes.length p wgt)

/-- Lines 1152-1157. -/
def fillStep (s : St V W) (d : DataSet V W) : Option (St V W) :=
  match s.order, s.mat, s.wgt, u.stokes.idxOf? d.pol with
  | some o, some mat, some wgt, some p =>
    match (take d.vis o).bind (fun r => fill u.stokes.length p mat (r.map (fun x => x.map cj))),
      weigh u o p wgt d with
    | some mat, some wgt => some { s with mat := some mat, wgt := some wgt }
    | _, _ => none
  | _, _, _, _ => none

/-- Lines 1160-1162. -/
def saveStep (s : St V W) (d : DataSet V W) : St V W :=
  if some d.pol = u.stokes.getLast? then { s with flux := s.flux ++ s.mat.getD [], wt := s.wt ++ s.wgt.getD [] } else s

/-- One pass of the loop, lines 1055-1165 (uvfits.py lines 258-358). -/
def step (s : St V W) (d : DataSet V W) : Option (St V W) :=
  (sortStep u srt s d).bind (fun s => (openStep u zero one s d).bind (fun s =>
    (fillStep u cj s d).map (fun s => saveStep u s d)))

/-- `self.data.sort()`: by time and absolute code, lines 146-160. -/
def before (a b : DataSet V W) : Bool := a.time < b.time || (a.time == b.time && a.pol.natAbs ≤ b.pol.natAbs)

/-- A row of the table. -/
structure Row (V W : Type) where
  bl : Nat
  time : Int
  flux : List V
  wt : List W
  deriving DecidableEq

/-- The rows written; if the columns are not equally long, which is not modelled, `none`. -/
def rows (s : St V W) : Option (List (Row V W)) :=
  if s.bl.length = s.time.length ∧ s.bl.length = s.flux.length ∧ s.bl.length = s.wt.length then
    some ((s.bl.zip (s.time.zip (s.flux.zip s.wt))).map (fun x => ⟨x.1, x.2.1, x.2.2.1, x.2.2.2⟩))
  else none

/-- `write`, lines 492-517. -/
def write (data : List (DataSet V W)) : Option (List (Row V W)) :=
  ((data.mergeSort before).foldlM (step u srt zero one cj) {}).bind rows

/-! ## Reading -/

/-- The antenna name in a column of eight characters, lines 104-105 and 609-610. -/
def name (f : Format) (s : Nat) : List Char := (f.start ++ showPad f.digits s).take 8

/-- The last digits of a name, three at the most, utils.py line 87 and 305-312. -/
def nameNumber (l : List Char) : Option Nat := parseNat? ((l.reverse.takeWhile Char.isDigit).take 3).reverse

/-- The stands of the antennas: from the names if all of them end with a number, lines 303-314. -/
def actual : List Nat :=
  match u.stands.mapM (fun s => nameNumber (name u.format s)) with
  | some l => l
  | none => if mapped u.format u.stands then u.stands else nosta u.format u.stands

/-- `self.stand_map` and `self.stands`, lines 333-337. -/
def standMap (n : Nat) : Option Nat := dict ((nosta u.format u.stands).zip (actual u)) n

/-- `self.pols`, lines 349-351 with lines 1230-1235 of fitsidi.py. -/
def pols : List Int :=
  match u.stokes with
  | [] => []
  | s :: _ => (List.range u.stokes.length).map (fun i : Nat => s + (if s < 0 then -1 else 1) * (i : Int))

/-- `np.unique`. -/
def unique (l : List Int) : List Int := sortInt (l.foldl (fun l c => if c ∈ l then l else l ++ [c]) [])

/-- A data set read: for each product its code, and its visibilities and weights for each baseline. -/
structure Got (V W : Type) where
  time : Int
  baselines : List (Nat × Nat)
  pols : List Int
  data : List (List (List V))
  weight : List (List (List W))

/-- The antenna indices of a baseline number; `none` is the `KeyError` or `IndexError`. -/
def indices (n : Nat) : Option (Nat × Nat) := do
  let i ← standMap u (u.format.split n).1
  let j ← standMap u (u.format.split n).2
  let ri ← (actual u).idxOf? i
  let rj ← (actual u).idxOf? j
  pure (ri, rj)

/-- Whether `i == j` of line 496. -/
def isAuto (n : Nat) : Bool := standMap u (u.format.split n).1 == standMap u (u.format.split n).2

/-- Channels of product `p` in a row of the table: `vis.shape = (..., nFreq, nStk, ...)`, `vis[..., p]`. -/
def column {α : Type} (k width p : Nat) (row : List α) : List α := (List.range width).filterMap (fun c => row[c * k + p]?)

/-- Lines 486-502: the rows kept and their baselines. -/
def kept (auto : Bool) (l : List (Row V W)) : Option (List ((Nat × Nat) × Row V W)) :=
  (l.mapM (fun r => (indices u r.bl).map (fun i => (i, r)))).map
    (fun l => l.filter (fun x => auto || !isAuto u x.2.bl))

/-- `sort`: `_baseline_order` of data.py lines 226-232 and `take`. -/
def sorted {α : Type} (l : List ((Nat × Nat) × α)) : List ((Nat × Nat) × α) :=
  l.mergeSort (fun a b => decide (4096 * a.1.1 + a.1.2 ≤ 4096 * b.1.1 + b.1.2))

/-- `get_data_set(i)` with one integration and no limits on the baseline lengths, lines 371-534. -/
def read (t : List (Row V W)) (i : Nat) (auto sort : Bool) : Option (Got V W) :=
  let times := unique (t.map Row.time)
  match if i = 0 then times.getLast? else times[i - 1]? with
  | none => none
  | some time => (kept u auto (t.filter (fun r => r.time == time))).map (fun l =>
      let l := if sort then sorted l else l
      { time := time, baselines := l.map (·.1), pols := pols u,
        data := (List.range (pols u).length).map (fun p =>
          l.map (fun x => (column (pols u).length u.width p x.2.flux).map cj)),
        weight := (List.range (pols u).length).map (fun p =>
          l.map (fun x => column (pols u).length u.width p x.2.wt)) })

end

end Verif.UvTable
