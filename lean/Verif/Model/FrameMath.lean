import Verif.Spec.FrameMath

/-! Arithmetic and order of frames (lsl/reader/base.py:71-326) and of spectrometer
frames (lsl/reader/drspec.py:368-510).

Simplifications: numbers are exact (no rounding of single precision, no infinities:
a quotient by zero is zero here, and the theorems ask for divisors that are not
zero); arrays have one axis; the arrays of frames are kept in a list (the heap) and
a frame has the place of its array in it.  What numpy does with the types of arrays
is part of the model: in-place operations need a result that may be cast to the type
of the frame, bytes are kept modulo 256. -/

namespace Verif.FrameMath

/-- Types of the arrays of frames: bytes, single precision, complex, and pairs of
bytes (base.py:606). -/
inductive DType
  | i8 | f32 | c64 | ci8
  deriving DecidableEq, Repr

/-- The operations (base.py:104-288). -/
inductive Op
  | add | sub | mul | floordiv | truediv
  deriving DecidableEq, Repr

/-- Errors. -/
inductive Err
  | type | value | overflow | attribute | name
  deriving DecidableEq, Repr

/-- An array. -/
structure Arr where
  dtype : DType
  data : List Num
  deriving DecidableEq, Repr

/-- The second operand: another frame, a number, an array, or a scalar of numpy that
is no Python number (`numpy.int64`, `numpy.float32`). -/
inductive Operand
  | frame (i : Nat)
  | int (n : Int)
  | float (q : Rat)
  | complex (z : Num)
  | array (a : Arr)
  | scalar (q : Rat)
  deriving DecidableEq, Repr

/-- The order of the types in numpy's casting. -/
def rank : DType → Nat
  | .i8 => 0
  | .f32 => 1
  | .c64 => 2
  | .ci8 => 3

/-- Whether numpy has the in-place operation for arrays of these types (the
`+=` of base.py:135, 171, 207, 243, 279). -/
def allowed (op : Op) (d e : DType) : Bool :=
  d != .ci8 && e != .ci8 && decide (rank e ≤ rank d)
    && !(op == .truediv && d == .i8) && !(op == .floordiv && d == .c64)

/-- A signed byte. -/
def wrap (n : Int) : Int := (n + 128) % 256 - 128

/-- The quotient without fraction, of a rational. -/
def trunc (q : Rat) : Int := if 0 ≤ q then q.floor else -((-q).floor)

/-- The operation on bytes. -/
def byteOp (op : Op) (a b : Int) : Int :=
  wrap (match op with
    | .add => a + b
    | .sub => a - b
    | .mul => a * b
    | .floordiv => Int.fdiv a b
    | .truediv => 0)

/-- The operation on real numbers. -/
def realOp (op : Op) (a b : Rat) : Rat :=
  match op with
  | .add => a + b
  | .sub => a - b
  | .mul => a * b
  | .floordiv => ((a / b).floor : Int)
  | .truediv => a / b

/-- The operation on complex numbers. -/
def cplxOp (op : Op) (a b : Num) : Num :=
  match op with
  | .add => (a.1 + b.1, a.2 + b.2)
  | .sub => (a.1 - b.1, a.2 - b.2)
  | .mul => (a.1 * b.1 - a.2 * b.2, a.1 * b.2 + a.2 * b.1)
  | .floordiv => (0, 0)
  | .truediv =>
    ((a.1 * b.1 + a.2 * b.2) / (b.1 * b.1 + b.2 * b.2),
     (a.2 * b.1 - a.1 * b.2) / (b.1 * b.1 + b.2 * b.2))

/-- The operation on numbers of an array of type `d`. -/
def cellOp (d : DType) (op : Op) (a b : Num) : Num :=
  match d with
  | .i8 => ((byteOp op a.1.floor b.1.floor : Int), 0)
  | .f32 => (realOp op a.1 b.1, 0)
  | .c64 => cplxOp op a b
  | .ci8 => a

/-- In-place operation of numpy on arrays: one by one, or with the only number of the
second. -/
def arrOp (op : Op) (x y : Arr) : Except Err Arr :=
  if allowed op x.dtype y.dtype then
    if x.data.length = y.data.length then
      .ok ⟨x.dtype, List.zipWith (cellOp x.dtype op) x.data y.data⟩
    else match y.data with
      | [b] => .ok ⟨x.dtype, x.data.map (cellOp x.dtype op · b)⟩
      | _ => .error .value
  else .error .type

/-- The numbers of an array cast to a type, as `dtype.type(array)`. -/
def castCell (d : DType) (z : Num) : Num :=
  match d with
  | .i8 => ((wrap (trunc z.1) : Int), 0)
  | .f32 => (z.1, 0)
  | .c64 => z
  | .ci8 => z

/-- `self.payload._data.dtype.type(y)` (base.py:137): numbers and arrays converted to
the type of the frame's array. -/
def convert (d : DType) (y : Operand) : Except Err Arr :=
  if d = .ci8 then .error .type
  else match y with
  | .int n =>
    if d = .i8 then if -128 ≤ n ∧ n ≤ 127 then .ok ⟨d, [(n, 0)]⟩ else .error .overflow
    else .ok ⟨d, [(n, 0)]⟩
  | .float q => .ok ⟨d, [castCell d (q, 0)]⟩
  | .complex z => if d = .c64 then .ok ⟨d, [z]⟩ else .error .type
  | .array a => if a.dtype = .ci8 then .error .type else .ok ⟨d, a.data.map (castCell d)⟩
  | _ => .error .type

instance [DecidableEq α] : DecidableEq (Except Err α)
  | .ok a, .ok b => decidable_of_iff (a = b) (by simp)
  | .error a, .error b => decidable_of_iff (a = b) (by simp)
  | .ok _, .error _ => isFalse (by simp)
  | .error _, .ok _ => isFalse (by simp)

/-- Arrays of all frames. -/
abbrev Heap := List Arr

/-- `__iadd__`, `__isub__`, … (base.py:121-138, 157-174, 193-210, 229-246, 265-282) of
the frame with array `i`. -/
def inplace (h : Heap) (op : Op) (i : Nat) (y : Operand) : Except Err Heap :=
  match h[i]? with
  | none => .error .attribute
  | some x =>
    match y with
    | .scalar _ => .error .type
    | .frame j =>
      match h[j]? with
      | none => .error .attribute
      | some b => (arrOp op x b).map fun r => h.set i r
    | y => do
      let b ← convert x.dtype y
      let r ← arrOp op x b
      pure (h.set i r)

/-- `__add__`, `__sub__`, … (base.py:104-119, …): the operation on a copy; the new
frame's array is the last. -/
def binary (h : Heap) (op : Op) (i : Nat) (y : Operand) : Except Err Heap :=
  match h[i]? with
  | none => .error .attribute
  | some x => inplace (h ++ [x]) op h.length y

/-- `FrameBase.__init__` (base.py:80-95) with a header of the right class or another:
the message of the error has `__type__`, which no class has. -/
def initHeader (rightClass : Bool) : Except Err Unit :=
  if rightClass then .ok () else .error .attribute

/-- What a frame can be compared with (base.py:297-302): the time of a frame, a number
or a time stamp, or something else. -/
def other : Option Rat → Except Err Rat
  | some t => .ok t
  | none => .error .type

/-- `__eq__` (base.py:290-307). -/
def eqFrame (x : Rat) (y : Option Rat) : Except Err Bool :=
  (other y).map fun t => decide (x = t)

/-- `__lt__` (base.py:309-326). -/
def ltFrame (x : Rat) (y : Option Rat) : Except Err Bool :=
  (other y).map fun t => decide (x < t)

/-- `total_ordering` (base.py:71): `a <= b` is `a < b or a == b`. -/
def leFrame (x : Rat) (y : Option Rat) : Except Err Bool := do
  let l ← ltFrame x y
  let e ← eqFrame x y
  pure (l || e)

/-- `a > b` is `not (a < b) and a != b`. -/
def gtFrame (x : Rat) (y : Option Rat) : Except Err Bool := do
  let l ← ltFrame x y
  let e ← eqFrame x y
  pure (!l && !e)

/-- `a >= b` is `not (a < b)`. -/
def geFrame (x : Rat) (y : Option Rat) : Except Err Bool := do
  let l ← ltFrame x y
  pure !l

/-! Spectrometer frames -/

/-- Attributes of the payload with arrays: products with the number of the tuning. -/
abbrev Attr := String × Nat

/-- A spectrometer frame: products of the header, and arrays of the payload
(drspec.py:187-243). -/
structure Spectra where
  products : List String
  data : Attr → Option (List Rat)

/-- Second operand of spectrometer frames: a frame or a number. -/
inductive SOperand
  | frame (y : Spectra)
  | number (q : Rat)

/-- Operation of numpy on two arrays, with a new result. -/
def broadcast (f : Rat → Rat → Rat) (x y : List Rat) : Except Err (List Rat) :=
  if x.length = y.length then .ok (List.zipWith f x y)
  else match x, y with
    | x, [b] => .ok (x.map (f · b))
    | [a], y => .ok (y.map (f a))
    | _, _ => .error .value

/-- One attribute (drspec.py:388-394): with a frame, an attribute that one of them does
not have raises `TypeError`, and the message of the error names `attrs`, which does not
exist. -/
def attrOp (op : Op) (x : Option (List Rat)) (y : SOperand) (at' : Attr) :
    Except Err (List Rat) :=
  match y with
  | .frame y =>
    match x, y.data at' with
    | some a, some b => broadcast (realOp op) a b
    | _, _ => .error .name
  | .number q =>
    match x with
    | some a => .ok (a.map (realOp op · q))
    | none => .error .type

/-- Attributes in the order of the loops (drspec.py:384-386). -/
def attrs (products : List String) : List Attr :=
  products.flatMap fun p => [(p, 0), (p, 1)]

/-- `setattr`. -/
def setData (d : Attr → Option (List Rat)) (k : Attr) (v : List Rat) :
    Attr → Option (List Rat) :=
  fun j => if j = k then some v else d j

/-- The loop: the arrays as it leaves them, and the error if there was one. -/
def loop (op : Op) (y : SOperand) :
    List Attr → (Attr → Option (List Rat)) → (Attr → Option (List Rat)) × Option Err
  | [], d => (d, none)
  | k :: ks, d =>
    match attrOp op (d k) y k with
    | .error e => (d, some e)
    | .ok v => loop op y ks (setData d k v)

/-- `__iadd__`, … of spectrometer frames (drspec.py:378-395, 407-424, 436-453, 465-482,
494-511). -/
def inplaceS (op : Op) (x : Spectra) (y : SOperand) : Spectra × Option Err :=
  let r := loop op y (attrs x.products) x.data
  ({ x with data := r.1 }, r.2)

end Verif.FrameMath
