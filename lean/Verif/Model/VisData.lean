/-!
# Visibility containers: /repo/lsl/imaging/data.py and the conversions of /repo/lsl/imaging/utils.py lines 1171-1369

`V`, `W` and `U` are visibilities, weights and `uvw` coordinates of a baseline.  An array is the list of its rows.  `none` is
an exception, of whatever class; copies are values, so that nothing is said about aliasing.  Times are integers.  Phase
centres and additional attributes are not modelled.
-/
namespace Verif.VisData

/-- `PolarizationDataSet`, lines 18-37. -/
structure Pol (V W : Type) where
  name : String
  data : List (List V)
  weight : List (List W)
  mask : List (List Bool)
  deriving DecidableEq

/-- `l[i] for i in order`, `np.take(l, order, axis=0)`; an index out of range is an exception. -/
def take {α : Type} (l : List α) (order : List Nat) : Option (List α) := order.mapM (fun i => l[i]?)

/-- `PolarizationDataSet.subset`, lines 115-125. -/
def Pol.subset {V W : Type} (p : Pol V W) (sel : List Nat) : Option (Pol V W) :=
  match take p.data sel, take p.weight sel, take p.mask sel with
  | some d, some w, some m => some { p with data := d, weight := w, mask := m }
  | _, _, _ => none

/-- `PolarizationDataSet.sort`, lines 103-113. -/
def Pol.sort {V W : Type} (p : Pol V W) (order : List Nat) : Option (Pol V W) :=
  if order.length ≠ p.data.length then none else p.subset order

/-- `VisibilityDataSet`, lines 128-153; `stands` are those of the antenna array, if there is one; `pols` are the attributes
in the order of `self.pols`. -/
structure Set (U V W : Type) where
  jd : Int
  nchan : Nat
  baselines : List (Nat × Nat)
  uvw : List U
  stands : Option (List Nat)
  pols : List (Pol V W)
  deriving DecidableEq

/-- `setattr(self, pol, value)` with line 231-232. -/
def put {V W : Type} (p : Pol V W) : List (Pol V W) → List (Pol V W)
  | [] => [p]
  | q :: l => if q.name = p.name then p :: l else q :: put p l

section
variable {U V W : Type}

/-- `append`, lines 219-233. -/
def Set.append (s : Set U V W) (p : Pol V W) : Option (Set U V W) :=
  if s.baselines.length ≠ p.data.length then none else some { s with pols := put p s.pols }

/-- `copy`, lines 195-217. -/
def Set.copy (s : Set U V W) (includePols : Bool) : Option (Set U V W) :=
  if includePols then s.pols.foldlM Set.append { s with pols := [] } else some { s with pols := [] }

/-- The key of line 237-238. -/
def key (b : Nat × Nat) : Nat := 4096 * b.1 + b.2

/-- `_baseline_order`, lines 235-240: pairs of key and position are sorted. -/
def order (bls : List (Nat × Nat)) : List Nat :=
  ((bls.mapIdx (fun i b => (key b, i))).mergeSort (fun a b => a.1 < b.1 || (a.1 == b.1 && a.2 ≤ b.2))).map (·.2)

/-- Lines 251-254 with any order. -/
def Set.reorder (s : Set U V W) (o : List Nat) : Option (Set U V W) :=
  match take s.baselines o, take s.uvw o, s.pols.mapM (fun p => p.sort o) with
  | some b, some u, some ps => some { s with baselines := b, uvw := u, pols := ps }
  | _, _, _ => none

/-- `sort` without an order, lines 242-254. -/
def Set.sort (s : Set U V W) : Option (Set U V W) := s.reorder (order s.baselines)

/-- Positions of the elements with a property, `np.where(...)[0]` and lines 384-387. -/
def positions {α : Type} (f : α → Bool) (l : List α) : List Nat :=
  (l.mapIdx (fun i x => (x, i))).filterMap (fun x => if f x.1 then some x.2 else none)

/-- Lines 317-326 and 389-398: a data set with the selected baselines. -/
def Set.select (s : Set U V W) (sel : List Nat) : Option (Set U V W) :=
  match take s.baselines sel, take s.uvw sel with
  | some b, some u =>
    s.pols.foldlM (fun t p => (p.subset sel).bind t.append) { s with baselines := b, uvw := u, pols := [] }
  | _, _ => none

/-- `get_uv_range`, lines 299-326; `len` is the length at the middle channel. -/
def Set.uvRange (s : Set U V W) (len : U → Rat) (min max : Rat) : Option (Set U V W) :=
  let (min, max) := if max < min then (max, min) else (min, max)
  s.select (positions (fun u => decide (min ≤ len u) && decide (len u < max)) s.uvw)

/-- `del to_keep[to_keep.index(e)]` if it is there. -/
def keepList (n : Nat) (inc : Option (List Nat)) (exc : List Nat) : List Nat :=
  exc.foldl (fun k e =>
    match inc with
    | some l => if e ∈ l then k else k.erase e
    | none => k.erase e) (inc.getD (List.range n))

/-- Stand numbers to positions, lines 360-364. -/
def toIndices (stands l : List Nat) : List Nat := l.filterMap (fun i => stands.idxOf? i)

/-- `get_antenna_subset`, lines 328-398. -/
def Set.antennas (s : Set U V W) (inc : Option (List Nat)) (exc : Option (List Nat)) (indices : Bool) :
    Option (Set U V W) :=
  match s.stands with
  | none => none
  | some stands =>
    let inc := if indices then inc else inc.map (toIndices stands)
    let exc := if indices then exc.getD [] else toIndices stands (exc.getD [])
    let k := keepList stands.length inc exc
    s.select (positions (fun b : Nat × Nat => decide (b.1 ∈ k) && decide (b.2 ∈ k)) s.baselines)

/-! ## Many integrations -/

/-- `VisibilityData.append`, lines 537-553. -/
def append (l : List (Set U V W)) (s : Set U V W) : Option (List (Set U V W)) :=
  if s.jd ∈ l.map Set.jd then none
  else match l with
  | [] => some [s]
  | f :: _ =>
    if (0 < f.baselines.length ∧ s.baselines.length ≠ f.baselines.length) ∨ (0 < f.nchan ∧ s.nchan ≠ f.nchan) ∨
        (0 < f.pols.length ∧ s.pols.length ≠ f.pols.length) then none
    else some (l ++ [s])

/-- `extend`, lines 555-564. -/
def extend (l m : List (Set U V W)) : List (Set U V W) := l ++ m

/-- `get_uv_range` and other loops that append. -/
def collect (f : Set U V W → Option (Set U V W)) (l : List (Set U V W)) : Option (List (Set U V W)) :=
  l.foldlM (fun m s => (f s).bind (append m)) []

/-- `get_uv_range`, lines 594-603. -/
def uvRange (l : List (Set U V W)) (len : U → Rat) (min max : Rat) : Option (List (Set U V W)) :=
  collect (fun s => s.uvRange len min max) l

/-- `get_antenna_subset`, lines 605-624: `indicies=True` whatever was asked. -/
def antennas (l : List (Set U V W)) (inc exc : Option (List Nat)) (_indices : Bool) : Option (List (Set U V W)) :=
  collect (fun s => s.antennas inc exc true) l

/-- `sort`, lines 573-581. -/
def sort (l : List (Set U V W)) : Option (List (Set U V W)) :=
  (l.mergeSort (fun a b => decide (a.jd ≤ b.jd))).mapM Set.sort

end

/-! ## Adding to a product -/

/-- The shape of an array of at most two dimensions. -/
abbrev Shape := List Nat

/-- The shapes of `data`, `weight` and `mask`. -/
structure Shapes where
  data : Shape
  weight : Shape
  mask : Shape
  deriving DecidableEq

/-- `np.vstack([a, b])` for shapes of one or two dimensions. -/
def vstack (a b : Shape) : Option Shape :=
  let two : Shape → Option (Nat × Nat) := fun
    | [c] => some (1, c)
    | [r, c] => some (r, c)
    | _ => none
  match two a, two b with
  | some (r, c), some (r', c') => if c = c' then some [r + r', c] else none
  | _, _ => none

/-- `a.size`. -/
def size (a : Shape) : Nat := a.foldl (· * ·) 1

/-- `PolarizationDataSet.append` without weight and mask, lines 57-89: the shapes afterwards, and whether it returned. -/
def addShape (p : Shapes) (new : Shape) : Shapes × Bool :=
  if size p.data = 0 then
    let p := { p with data := new }
    if p.weight ≠ new then (p, false)
    else let p := { p with weight := new }
      if p.mask ≠ new then (p, false) else ({ p with mask := new }, true)
  else match vstack p.data new with
    | none => (p, false)
    | some d =>
      let p := { p with data := d }
      if p.weight ≠ new then (p, false)
      else match vstack p.weight new with
        | none => (p, false)
        | some w =>
          let p := { p with weight := w }
          if p.mask ≠ new then (p, false)
          else match vstack p.mask new with
            | none => (p, false)
            | some m => ({ p with mask := m }, true)

/-! ## Conversions -/

/-- A complex number, exact. -/
structure C where
  re : Rat
  im : Rat
  deriving DecidableEq

def C.add (a b : C) : C := ⟨a.re + b.re, a.im + b.im⟩
def C.sub (a b : C) : C := ⟨a.re - b.re, a.im - b.im⟩
/-- `1j*a` -/
def C.mulI (a : C) : C := ⟨-a.im, a.re⟩
/-- `a/2.0` -/
def C.half (a : C) : C := ⟨a.re / 2, a.im / 2⟩

/-- An operation on all elements of two arrays of the same shape. -/
def zip2 {α β γ : Type} (f : α → β → γ) (a : List (List α)) (b : List (List β)) : List (List γ) :=
  List.zipWith (List.zipWith f) a b

/-- The new product from two others: the weights are averaged and the masks combined. -/
def combine (name : String) (f : C → C → C) (a b : Pol C Rat) : Pol C Rat :=
  { name := name, data := zip2 f a.data b.data, weight := zip2 (fun x y => (x + y) / 2) a.weight b.weight,
    mask := zip2 or a.mask b.mask }

section
variable {U : Type}

/-- `getattr(data_set, name)`. -/
def Set.get (s : Set U C Rat) (name : String) : Option (Pol C Rat) := s.pols.find? (fun p => p.name = name)

/-- Two new products from two others, or nothing. -/
def pair (s : Set U C Rat) (a b : String) (x y : String × (C → C → C)) : List (Pol C Rat) :=
  match s.get a, s.get b with
  | some p, some q => [combine x.1 x.2 p q, combine y.1 y.2 p q]
  | _, _ => []

/-- The frame of the three functions: refuse data that have one of `forbid`, form both pairs, append. -/
def convert (s : Set U C Rat) (forbid : List String) (new : List (Pol C Rat)) : Option (Set U C Rat) :=
  if s.pols.any (fun p => decide (p.name ∈ forbid)) then none
  else if new = [] then none
  else new.foldlM Set.append { s with pols := [] }

/-- `convert_to_stokes`, lines 1171-1234. -/
def toStokes (s : Set U C Rat) : Option (Set U C Rat) :=
  convert s ["I", "Q", "U", "V"]
    (pair s "XX" "YY" ("I", C.add) ("Q", C.sub) ++
     pair s "XY" "YX" ("U", C.add) ("V", fun a b => (C.sub a b).mulI))

/-- `convert_to_linear`, lines 1237-1301. -/
def toLinear (s : Set U C Rat) : Option (Set U C Rat) :=
  convert s ["XX", "YY", "XY", "YX"]
    (pair s "I" "Q" ("XX", fun a b => (C.add a b).half) ("YY", fun a b => (C.sub a b).half) ++
     pair s "U" "V" ("XY", fun a b => (C.sub a b.mulI).half) ("YX", fun a b => (C.add a b.mulI).half))

/-- `convert_to_circular`, lines 1304-1369. -/
def toCircular (s : Set U C Rat) : Option (Set U C Rat) :=
  convert s ["RR", "RL", "LR", "LL"]
    (pair s "I" "V" ("RR", C.add) ("LL", C.sub) ++
     pair s "Q" "U" ("RL", fun a b => C.add a b.mulI) ("LR", fun a b => C.sub a b.mulI))

end

end Verif.VisData
