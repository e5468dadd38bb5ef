/-!
# Configuration parameters in memory: /repo/lsl/config.py

Parameters are a map from names to values; reading and writing the file is in `ConfigFile.lean`.
-/
namespace Verif.Config

/-- Python values a parameter can have. -/
inductive Val
  | none
  | bool (b : Bool)
  | int (i : Int)
  | float (q : Rat)
  | str (s : String)
  deriving DecidableEq, Repr

/-- `type(value)`. -/
inductive Ty
  | none | bool | int | float | str
  deriving DecidableEq, Repr

def Val.ty : Val → Ty
  | .none => .none
  | .bool _ => .bool
  | .int _ => .int
  | .float _ => .float
  | .str _ => .str

/-- Numeric value of booleans, integers and floats. -/
def Val.num : Val → Option Rat
  | .bool b => some (if b then 1 else 0)
  | .int i => some i
  | .float q => some q
  | _ => Option.none

/-- Python's `==`: numbers of different types can be equal. -/
def pyEq (a b : Val) : Bool :=
  match a.num, b.num with
  | some x, some y => x == y
  | _, _ => a == b

abbrev Name := String

/-- `LSLConfigParameter`, config.py:172-183. -/
structure Param where
  value : Val
  optional : Bool
  deriving DecidableEq, Repr

/-- Attributes of `LSLConfigContainer`, config.py:206-214, without the file. -/
structure Conf where
  params : Name → Option Param
  changedList : Name → Option (Val × Val)
  changed : Bool
  versionChanged : Bool

inductive Exc
  | value | type | key | other
  deriving DecidableEq, Repr

def setParam (f : Name → Option Param) (n : Name) (p : Param) : Name → Option Param :=
  fun m => if m = n then some p else f m

def setEntry (f : Name → Option (Val × Val)) (n : Name) (e : Option (Val × Val)) : Name → Option (Val × Val) :=
  fun m => if m = n then e else f m

/-- `get`, config.py:351-360. -/
def get (c : Conf) (n : Name) : Except Exc Val :=
  match c.params n with
  | some p => .ok p.value
  | none => .error .value

/-- Whether `len(self._param_changed_list) > 0`, for a list with the given names. -/
def anyChanged (names : List Name) (f : Name → Option (Val × Val)) : Bool := names.any (fun n => (f n).isSome)

/-- The value to compare with, config.py:380-384. -/
def originalOf (c : Conf) (n : Name) (p : Param) : Val :=
  match c.changedList n with
  | some e => e.1
  | none => p.value

/-- `set`, config.py:362-399.  `names` are the names that can be in the list of changes. -/
def set (names : List Name) (c : Conf) (n : Name) (v : Val) : Except Exc Conf :=
  match c.params n with
  | none => .error .value
  | some p =>
    if v.ty ≠ p.value.ty ∧ p.optional = false then .error .type
    else
      let c1 := { c with params := setParam c.params n { p with value := v } }
      if pyEq v p.value then .ok c1
      else
        let original := originalOf c n p
        if pyEq v original then
          let l := setEntry c.changedList n none
          .ok { c1 with changedList := l, changed := anyChanged names l || c.versionChanged }
        else .ok { c1 with changedList := setEntry c.changedList n (some (original, v)), changed := true }

/-- Programs with the configuration: permanent changes, `with set_temp(n, v): body`, a raised exception,
`try: body except: pass`, and an assertion that a parameter reads as a value. -/
inductive Prog
  | done
  | set (n : Name) (v : Val) (next : Prog)
  | temp (n : Name) (v : Val) (body next : Prog)
  | raise (e : Exc)
  | attempt (body next : Prog)
  | check (n : Name) (v : Val) (next : Prog)

/-- `self._parameters[name].value = old_value`, config.py:421. -/
def restore (c : Conf) (n : Name) (v : Val) : Conf :=
  match c.params n with
  | some q => { c with params := setParam c.params n { q with value := v } }
  | none => c

/-- Running a program.  `set_temp`, config.py:402-425: the value is put back however the body ends; the
`except KeyError` around it also catches a `KeyError` of the body. -/
def run (names : List Name) : Prog → Conf → Conf × Option Exc
  | .done, c => (c, none)
  | .set n v next, c =>
    match set names c n v with
    | .error e => (c, some e)
    | .ok c' => run names next c'
  | .temp n v body next, c =>
    match c.params n with
    | none => (c, some .value)
    | some p =>
      if v.ty ≠ p.value.ty ∧ p.optional = false then (c, some .type)
      else
        let (c1, r) := run names body { c with params := setParam c.params n { p with value := v } }
        let c2 := restore c1 n p.value
        match r with
        | none => run names next c2
        | some .key => (c2, some .value)
        | some e => (c2, some e)
  | .raise e, c => (c, some e)
  | .attempt body next, c => run names next (run names body c).1
  | .check n v next, c =>
    match get c n with
    | .ok w => if w = v then run names next c else (c, some .other)
    | .error e => (c, some e)

/-- `LSLConfigSubContainer.get`, config.py:438-447. -/
def viewGet (c : Conf) (sec : String) (n : Name) : Except Exc Val :=
  match get c (sec ++ "." ++ n) with
  | .ok v => .ok v
  | .error _ => get c n

/-- `LSLConfigSubContainer.set`, config.py:449-457: only a `KeyError` leads to the second try, and `set`
raises a `ValueError`. -/
def viewSet (names : List Name) (c : Conf) (sec : String) (n : Name) (v : Val) : Except Exc Conf :=
  match set names c (sec ++ "." ++ n) v with
  | .error .key => set names c n v
  | r => r

end Verif.Config
