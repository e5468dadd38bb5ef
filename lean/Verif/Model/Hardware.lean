import Mathlib.Analysis.SpecialFunctions.Log.Base
import Mathlib.Analysis.SpecialFunctions.Pow.Real
import Mathlib.Analysis.SpecialFunctions.Sqrt
/-!
# Cables, ARX boards and the order of antennas

/repo/lsl/common/stations.py:71-158, 431-648, 727-1014 and /repo/lsl/misc/mathutils.py:226-239.

Simplifications: real numbers; `none` is an exception of Python or a value that is not a finite number.  One frequency at a
time.  Identifiers of antennas are integers.  The data file of an ARX board is a table by channels and columns.
-/
namespace Verif.Hardware

/-- `to_dB(factor)`, mathutils.py:226-231. -/
noncomputable def toDB (x : ℝ) : ℝ := 10 * Real.logb 10 x

/-- `from_dB(dB)`, mathutils.py:234-239. -/
noncomputable def fromDB (d : ℝ) : ℝ := (10 : ℝ) ^ (d / 10)

/-- `Cable`, stations.py:745-755. -/
structure Cable where
  id : String
  length : ℝ
  vf : ℝ
  dd : ℝ
  a0 : ℝ
  a1 : ℝ
  refFreq : ℝ
  stretch : ℝ
  clock : ℝ
  asp : ℝ

/-- `Cable(id, length, vf, dd, a0, a1, ref_freq, stretch)`, stations.py:745-755. -/
def Cable.new (id : String) (length vf dd a0 a1 refFreq stretch : ℝ) : Cable :=
  ⟨id, length, vf, dd, a0, a1, refFreq, stretch, 0, 0⟩

/-- `Cable('', 0)`, what an antenna has without a cable, stations.py:463. -/
noncomputable def Cable.none : Cable := Cable.new "" 0 0 0 (428 / 100000) 0 (10 * 10 ^ 6) 1

/-- What `copy`, `deepcopy` and `pickle` make of a cable: `__reduce__`, stations.py:766-767. -/
def Cable.copy (c : Cable) : Cable := Cable.new c.id c.length c.vf c.dd c.a0 c.a1 c.refFreq c.stretch

/-- `totlDelay`, stations.py:790-795. -/
noncomputable def Cable.total (light : ℝ) (c : Cable) (f : ℝ) : ℝ :=
  c.length * c.stretch / (c.vf * light) + c.dd * (c.length * c.stretch / 100) / Real.sqrt (f / c.refFreq) + c.clock

/-- `Cable.delay(frequency, ns)`, stations.py:784-800. -/
noncomputable def Cable.delay (light : ℝ) (c : Cable) (f : ℝ) (ns : Bool) : Option ℝ :=
  if c.vf * light = 0 ∨ f / c.refFreq ≤ 0 then .none else some (if ns then c.total light f * 10 ^ 9 else c.total light f)

/-- Lines 816-821 of `Cable.attenuation`. -/
noncomputable def Cable.loss (c : Cable) (f : ℝ) (asp : Bool) : ℝ :=
  let l := Real.exp (2 * c.a0 * c.length * c.stretch * Real.sqrt (f / c.refFreq) + c.a1 * c.length * c.stretch * (f / c.refFreq))
  if asp then l * (10 : ℝ) ^ (c.asp / 10) else l

/-- `Cable.attenuation(frequency, dB, include_asp_atten)`, stations.py:802-826. -/
noncomputable def Cable.attenuation (c : Cable) (f : ℝ) (dB asp : Bool) : ℝ := if dB then toDB (c.loss f asp) else c.loss f asp

/-- `Cable.gain(frequency, dB, include_asp_atten)`, stations.py:828-847. -/
noncomputable def Cable.gain (c : Cable) (f : ℝ) (dB asp : Bool) : ℝ :=
  if dB then toDB (1 / c.attenuation f false asp) else 1 / c.attenuation f false asp

/-- `Cable.response(dB)`, stations.py:849-865. -/
noncomputable def Cable.response (c : Cable) (dB : Bool) : List (ℝ × ℝ) :=
  (List.range 10).map fun (i : ℕ) => ((10 * (i + 1) : ℝ) * 10 ^ 6, c.attenuation ((10 * (i + 1) : ℝ) * 10 ^ 6) dB true)

/-! ## ARX boards -/

/-- `ARX.revision()`, stations.py:917-938. -/
def revision (id : Int) : String :=
  if 100 ≤ id ∧ id < 200 then "D"
  else if 200 ≤ id ∧ id < 300 then "G"
  else if 300 ≤ id ∧ id < 500 then "I"
  else if 8200 ≤ id ∧ id ≤ 8300 then "H"
  else "unknown"

/-- The argument `filter`. -/
inductive Filter
  | num (n : Int)
  | name (s : String)
  deriving DecidableEq

inductive Err
  | value | key | index
  deriving DecidableEq

/-- `mapper`, stations.py:971-973. -/
def mapper (rev : String) : List (Nat × Nat) :=
  if rev = "I" then [(0, 3), (1, 1), (2, 7), (3, 4), (4, 2), (5, 0), (6, 5), (7, 2)] else [(0, 0), (1, 1), (2, 2), (4, 3)]

/-- Which entry of the mapper, stations.py:994-1008. -/
def slot : Filter → Option Nat
  | .num n => if 0 ≤ n ∧ n ≤ 7 then some n.toNat else none
  | .name s =>
    if s = "split" then some 0 else if s = "full" then some 1 else if s = "reduced" then some 2
    else if s = "split@3MHz" then some 4 else if s = "full@3MHz" then some 5 else none

/-- The column of a filter, stations.py:993-1014. -/
def column (id : Int) (f : Filter) : Except Err Nat :=
  match slot f with
  | none => .error .value
  | some k =>
    match (mapper (revision id)).lookup k with
    | none => .error .value
    | some c => .ok c

/-- The contents of a file of a board: by channel a list of columns, in dB. -/
abbrev Table := List (Nat × List (List ℝ))

/-- `ARX.response(filter, dB)`, stations.py:940-1014, from the contents of the file on. -/
noncomputable def arxResponse (id : Int) (channel : Nat) (t : Table) (f : Filter) (dB : Bool) : Except Err (List ℝ) :=
  match t.lookup channel with
  | none => .error .key
  | some data =>
    match column id f with
    | .error e => .error e
    | .ok c =>
      match data[c]? with
      | none => .error .index
      | some col => .ok (if dB then col else col.map fromDB)

/-! ## Order and identity -/

/-- What matters of an `Antenna`: its number, digitizer and everything else, stations.py:431-469. -/
structure Ant where
  id : Int
  digitizer : Int
  stand : Nat
  rest : Nat
  deriving DecidableEq

/-- `Antenna.__eq__`, stations.py:490-494. -/
def Ant.eq (a b : Ant) : Bool := a.id == b.id

/-- `Antenna.__lt__`, stations.py:496-500. -/
def Ant.lt (a b : Ant) : Bool := a.id < b.id

/-- What `Antenna.__hash__` hashes, stations.py:484-488. -/
def Ant.hashed (a : Ant) : Int × Int × Nat × Nat := (a.id, a.digitizer, a.stand, a.rest)

/-- `a <= b` and `a > b` of `functools.total_ordering`. -/
def Ant.le (a b : Ant) : Bool := a.lt b || a.eq b
def Ant.gt (a b : Ant) : Bool := !a.lt b && !a.eq b

/-- A station: its antennas and `_sort_order`. -/
structure Station where
  antennas : List Ant
  order : String
  deriving DecidableEq

/-- `getattr(x, attr)` for the attributes that antennas are sorted by. -/
def attrOf (attr : String) (a : Ant) : Option Int :=
  if attr = "digitizer" then some a.digitizer else if attr = "id" then some a.id else none

/-- The sort of line 145: stable, and an AttributeError if there is such an antenna and no such attribute. -/
def sortBy (attr : String) (l : List Ant) : Option (List Ant) :=
  if l.all (fun a => (attrOf attr a).isSome) then some (l.mergeSort fun a b => (attrOf attr a).getD 0 ≤ (attrOf attr b).getD 0) else none

/-- `_sort_antennas(attr)`, stations.py:138-146. -/
def Station.sortAnts (s : Station) (attr : String) : Option Station :=
  if s.order ≠ attr then (sortBy attr s.antennas).map fun l => ⟨l, attr⟩ else some s

/-- `LWAStationBase(name, id, antennas)`, stations.py:84-101. -/
def Station.new (l : List Ant) : Option Station := Station.sortAnts ⟨l, ""⟩ "digitizer"

/-- `station.antennas = l`, stations.py:123-136. -/
def Station.set (s : Station) (l : List Ant) : Option Station := Station.sortAnts ⟨l, ""⟩ s.order

/-- `station[i] = a`, stations.py:115-117. -/
def Station.put (s : Station) (i : Nat) (a : Ant) : Option Station :=
  if i < s.antennas.length then some { s with antennas := s.antennas.set i a } else none

/-! ## Stands -/

/-- What may be added to a stand: a stand, a list or tuple, a number of Python or one of numpy. -/
inductive Operand
  | stand (x y z : ℝ)
  | seq (l : List ℝ)
  | float (v : ℝ)
  | numpy (v : ℝ)

/-- `Stand.__add__` and `Stand.__sub__`, stations.py:606-630, with `op` the operation.  A scalar of numpy that is indexed gives an
IndexError, a float a TypeError. -/
def standOp (op : ℝ → ℝ → ℝ) (x y z : ℝ) : Operand → Option (ℝ × ℝ × ℝ)
  | .stand a b c => some (op x a, op y b, op z c)
  | .seq (a :: b :: c :: _) => some (op x a, op y b, op z c)
  | .seq _ => none
  | .float v => some (op x v, op y v, op z v)
  | .numpy _ => none

/-- `Antenna.combined_status`, stations.py:524-532. -/
def combinedStatus (ant fee : Nat) : Nat := 10 * ant + fee

end Verif.Hardware
