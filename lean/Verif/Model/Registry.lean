/-!
# Registry of open data files: /repo/lsl/reader/ldp.py:48-92, 103-129, 242-250

Sets and the dictionary of sets are lists.  A handler is its identity and its file name.
-/
namespace Verif.Registry

structure Handler where
  id : Nat
  filename : String
  deriving DecidableEq, Repr

/-- `_name_mapping` and `_handlers`. -/
structure Reg where
  mapping : List (String × List Handler)
  handlers : List Handler
  deriving DecidableEq, Repr

def init : Reg := ⟨[], []⟩

/-- Entry of the `defaultdict(set)`. -/
def entry (m : List (String × List Handler)) (f : String) : List Handler :=
  match m with
  | [] => []
  | (g, s) :: l => if g = f then s else entry l f

/-- Storing an entry. -/
def store (m : List (String × List Handler)) (f : String) (s : List Handler) : List (String × List Handler) :=
  match m with
  | [] => [(f, s)]
  | (g, t) :: l => if g = f then (g, s) :: l else (g, t) :: store l f s

def addTo (s : List Handler) (h : Handler) : List Handler := if h ∈ s then s else h :: s

/-- `filenames`, ldp.py:61-63. -/
def filenames (r : Reg) : List String := r.mapping.map Prod.fst

/-- `__contains__`, ldp.py:72-73. -/
def contains (r : Reg) (f : String) : Bool := decide (f ∈ filenames r)

/-- `add`, ldp.py:75-77. -/
def add (r : Reg) (h : Handler) : Reg :=
  ⟨store r.mapping h.filename (addTo (entry r.mapping h.filename) h), addTo r.handlers h⟩

/-- `remove`, ldp.py:79-84; `false` is the `KeyError`, raised after the look-up has made an entry. -/
def remove (r : Reg) (h : Handler) : Reg × Bool :=
  let s := entry r.mapping h.filename
  if h ∈ s then
    let s' := s.filter (fun x => decide (x ≠ h))
    let m := store r.mapping h.filename s'
    (⟨if s' = [] then m.filter (fun e => decide (e.1 ≠ h.filename)) else m,
      r.handlers.filter (fun x => decide (x ≠ h))⟩, true)
  else (⟨store r.mapping h.filename s, r.handlers⟩, false)

/-- `LDPFileBase.__init__`, ldp.py:103-129: registered before the file is inspected, so a failing
inspection (`ok = false`, the constructor raises) leaves the handler registered. -/
def openFile (r : Reg) (h : Handler) (_ok : Bool) : Reg := add r h

/-- `LDPFileBase.close`, ldp.py:244-250. -/
def close (r : Reg) (h : Handler) : Reg × Bool := remove r h

/-- `close_all`, ldp.py:86-89: stops at the first error. -/
def closeList : Reg → List Handler → Reg
  | r, [] => r
  | r, h :: l =>
    let x := close r h
    if x.2 then closeList x.1 l else x.1

def closeAll (r : Reg) : Reg := closeList r r.handlers

inductive Op
  | opens (h : Handler) (ok : Bool)
  | closes (h : Handler)
  deriving DecidableEq, Repr

def step (r : Reg) : Op → Reg
  | .opens h ok => openFile r h ok
  | .closes h => (close r h).1

def run : Reg → List Op → Reg
  | r, [] => r
  | r, o :: l => run (step r o) l

end Verif.Registry
