import Verif.Model.UvTable
/-!
# Measurement sets: /repo/lsl/writer/measurementset.py and its reader in /repo/lsl/imaging/utils.py

`V` are the complex numbers and `U` the uvw coordinates; nothing depends on their arithmetic.  `geom` is the coordinates
of a baseline at a time for a source, `get_uvw` with lines 844-848, `zen` the name made from the sidereal time for a
pointing at the zenith, lines 820-829, and `srt` is `np.argsort`.  Times are exact and are counted in a unit of which
times and half integration times are multiples; the time scale and its zero point are not modelled.  A table is the list
of its rows, `none` is an exception of whatever class.  A matrix that has been saved is not filled again before it is
opened again, since it has four dimensions then and the rows do not fit (they do for a single baseline and a single
window, which is not modelled).
-/
namespace Verif.MeasSet
open Verif.UvTable (Bl take merge unique sorted)

/-- `_UVData`, /repo/lsl/writer/fitsidi.py lines 121-134, as made by `add_data_set`, lines 177-193; `source` is `none` for
`'z'` and the name of the body otherwise, `half` is half of `intTime`. -/
structure DataSet (V : Type) where
  time : Int
  half : Int
  pol : Int
  source : Option String
  bls : List Bl
  vis : List (List V)

/-- Everything a writer was told: the stands in the order of `mapper`, lines 158-163, the codes of the products, the number
of windows `len(self.freq)` and the number of channels of each. -/
structure Setup where
  stands : List Nat
  stokes : List Int
  bands : Nat
  chans : Nat

/-- A row of the main table, lines 901-923; `time` is `TIME` and `half` half of `EXPOSURE`.  `data` is for each channel the
values of all products. -/
structure Row (V U : Type) where
  time : Int
  half : Int
  desc : Nat
  ant1 : Nat
  ant2 : Nat
  field : Nat
  uvw : U
  data : List (List V)
  deriving DecidableEq

/-- `uvwList`, `intTimeList`, `timeList` and `sourceList`; the last three repeat one value `count` times. -/
structure Head (U : Type) where
  uvw : List U
  half : Int
  time : Int
  field : Nat
  count : Nat

/-- The local variables of `_write_main_table`; `ants` are `ant1List` and `ant2List`, `names` is `_sourceTable`, `mat` is for
each baseline and product the channels of all windows. -/
structure St (V U : Type) where
  order : Option (List Nat) := none
  ants : Option (List Bl) := none
  names : List String := []
  head : Option (Head U) := none
  mat : Option (List (List (List V))) := none
  rows : List (Row V U) := []

/-- The main table and the names in the table `SOURCE`. -/
structure File (V U : Type) where
  rows : List (Row V U)
  sources : List String

section
variable {V U : Type} (u : Setup) (srt : List Nat → List Nat) (zero : V) (geom : Int → Option String → Bl → U)
  (zen : Int → String)

/-- `mapper.index` of both stands. -/
def index (b : Bl) : Option Bl :=
  (u.stands.idxOf? b.1).bind fun x => (u.stands.idxOf? b.2).map fun y => (x, y)

/-- `argsort`, lines 107-117.  Numbers that do not fit `int32` are refused (by recent numpy; older ones wrapped them). -/
def argsort (bls : List Bl) : Option (List Nat) :=
  (bls.mapM (index u)).bind fun l =>
    let packed := l.map fun b => merge 16 b.1 b.2
    if packed.all (fun n => n < 2 ^ 31) then some (srt packed) else none

/-- Lines 800-809: the order of the last data set is used if there are as many rows.  The names `ant1List` and `ant2List`
stay. -/
def sortStep (s : St V U) (d : DataSet V) : Option (St V U) :=
  if s.order.map List.length = some d.vis.length then some s
  else (argsort u srt d.bls).map fun o => { s with order := some o }

/-- Lines 851-864: `ant1List` and `ant2List` are made once only. -/
def antsOf (s : St V U) (bls : List Bl) : Option (List Bl) :=
  match s.ants with
  | some a => some a
  | none => bls.mapM (index u)

/-- Lines 820-835. -/
def nameOf (d : DataSet V) : String := d.source.getD (zen d.time)

/-- Lines 837-842. -/
def addName (names : List String) (x : String) : List String := if x ∈ names then names else names ++ [x]

/-- Lines 811-884. -/
def openStep (s : St V U) (d : DataSet V) : Option (St V U) :=
  if some d.pol = u.stokes.head? then
    s.order.bind fun o => (take d.bls o).bind fun bls => (antsOf u s bls).map fun ants =>
      let names := addName s.names (nameOf zen d)
      { s with
        ants := some ants, names := names,
        head := some ⟨bls.map (geom d.time d.source), d.half, d.time + d.half, names.idxOf (nameOf zen d), d.bls.length⟩,
        mat := some (List.replicate o.length (List.replicate u.stokes.length (List.replicate (u.bands * u.chans) zero))) }
  else some s

/-- `matrix[:,self.stokes.index(dataSet.pol),:] = dataSet.visibilities[order,:]`, line 887. -/
def fillStep (s : St V U) (d : DataSet V) : Option (St V U) :=
  match s.order, s.mat, u.stokes.idxOf? d.pol with
  | some o, some mat, some p =>
    (take d.vis o).bind fun r =>
      if r.length = mat.length ∧ r.all (fun x => x.length = u.bands * u.chans) then
        some { s with mat := some (List.zipWith (fun m x => m.set p x) mat r) }
      else none
  | _, _, _ => none

/-- `matrix[...,j,:].transpose(0,2,1)` for one baseline: channel by channel the values of the products. -/
def cut (j : Nat) (m : List (List V)) : List (List V) :=
  (List.range u.chans).map fun c => m.filterMap fun x => x[j * u.chans + c]?

/-- The rows of a window, lines 896-924. -/
def window (h : Head U) (ants : List Bl) (mat : List (List (List V))) (j : Nat) : List (Row V U) :=
  (ants.zip (h.uvw.zip mat)).map fun x => ⟨h.time, h.half, j, x.1.1, x.1.2, h.field, x.2.1, cut u j x.2.2⟩

/-- Lines 889-925; a column that does not have as many values as there are rows is refused. -/
def saveStep (s : St V U) (d : DataSet V) : Option (St V U) :=
  if some d.pol = u.stokes.getLast? then
    match s.ants, s.head, s.mat with
    | some ants, some h, some mat =>
      if ants.length = h.uvw.length ∧ h.count = h.uvw.length ∧ mat.length = h.uvw.length then
        some { s with mat := none, rows := s.rows ++ (List.range u.bands).flatMap (window u h ants mat) }
      else none
    | _, _, _ => none
  else some s

/-- One pass of the loop, lines 799-925. -/
def step (s : St V U) (d : DataSet V) : Option (St V U) :=
  (sortStep u srt s d).bind fun s => (openStep u zero geom zen s d).bind fun s =>
    (fillStep u s d).bind fun s => saveStep u s d

/-- `nameList`, lines 475-517: the sources are compared by name, a pointing at the zenith as `'z'`. -/
def addSource (l : List String) (d : DataSet V) : List String :=
  if some d.pol = u.stokes.head? then
    if d.source.getD "z" ∈ l then l else l ++ [nameOf zen d]
  else l

/-- `self.data.sort()`: by time and absolute code, fitsidi.py lines 146-160. -/
def before (a b : DataSet V) : Bool := a.time < b.time || (a.time == b.time && a.pol.natAbs ≤ b.pol.natAbs)

/-- `write`, lines 195-238. -/
def write (data : List (DataSet V)) : Option (File V U) :=
  if u.stokes = [] ∨ u.bands = 0 ∨ u.stands = [] ∨ data = [] then none
  else
    let data := data.mergeSort before
    (data.foldlM (step u srt zero geom zen) {}).map fun s => ⟨s.rows, data.foldl (addSource u zen) []⟩

end

/-! ## Reading -/

/-- A data set read; a line is a baseline, its coordinates and for every product its channels. -/
structure Got (V U : Type) where
  time : Int
  half : Int
  source : String
  pols : List Int
  lines : List (Bl × U × List (List V))

section
variable {V U : Type} (u : Setup)

/-- `sortlist='DATA_DESC_ID,ANTENNA1,ANTENNA2'`, utils.py line 1048.  Rows that agree in all three are taken to keep their
order. -/
def rowBefore (a b : Row V U) : Bool :=
  a.desc < b.desc || (a.desc == b.desc && (a.ant1 < b.ant1 || (a.ant1 == b.ant1 && a.ant2 ≤ b.ant2)))

/-- `vis[select,:,p]` of a row. -/
def channels (p : Nat) (r : Row V U) : List V := r.data.filterMap fun x => x[p]?

/-- Line `k` of the data set: the coordinates are those of the first rows, and the channels of product `p` are those of the
rows `j * n + k` of all windows `j`, utils.py lines 1095-1132. -/
def line (picked : List (Row V U)) (n k : Nat) : Option (Bl × U × List (List V)) :=
  picked[k]?.map fun r => ((r.ant1, r.ant2), r.uvw, (List.range u.stokes.length).map fun p =>
    (List.range u.bands).flatMap fun j => (picked[j * n + k]?.map (channels p)).getD [])

/-- Lines 1095-1136: the baselines are halved if there is more than one window; `subvis.shape = …` refuses what does not
divide, `append` another number of baselines. -/
def linesOf (auto : Bool) (rows : List (Row V U)) : Option (List (Bl × U × List (List V))) :=
  let picked := rows.filter fun r => auto || r.ant1 != r.ant2
  let m := picked.length
  let bls := if 1 < u.bands then m / 2 else m
  if m % u.bands = 0 ∧ (u.stokes ≠ [] → m / u.bands = bls) then (List.range bls).mapM (line u picked (m / u.bands)) else none

/-- The data set of the rows of a time, lines 1048-1136.  Rows of several fields have no phase centre and are refused
(line 1089).  The integration time is that of the first row; it is the median of all rows of that time, line 1113. -/
def answer (sources : List String) (auto sort : Bool) (time : Int) (rows : List (Row V U)) : Option (Got V U) :=
  match rows with
  | [] => none
  | r :: _ =>
    if rows.all (fun x => x.field == r.field) then
      sources[r.field]?.bind fun src => (linesOf u auto rows).map fun l =>
        ⟨time, r.half, src, u.stokes, if sort then sorted l else l⟩
    else none

/-- `get_data_set(i)` with one integration and no limits on the baseline lengths, utils.py lines 1021-1156. -/
def read (f : File V U) (i : Nat) (auto sort : Bool) : Option (Got V U) :=
  let times := unique (f.rows.map Row.time)
  match if i = 0 then times.getLast? else times[i - 1]? with
  | none => none
  | some time => answer u f.sources auto sort time ((f.rows.filter fun r => r.time == time).mergeSort rowBefore)

end

/-! ## Antennas -/

/-- The column `POSITION`, lines 289-291, for `ant.x, ant.y, ant.z` of lines 151-162: the position on the Earth and not the
offset from the centre. -/
def position (centre ecef : Rat × Rat × Rat) : Rat × Rat × Rat :=
  (ecef.1 + centre.1, ecef.2.1 + centre.2.1, ecef.2.2 + centre.2.2)

end Verif.MeasSet
