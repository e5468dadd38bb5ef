/-!
# Locks: /repo/lsl/misc/file_lock.py

Users are threads or processes.  Every user works with one lock object (`obj u`); objects used by
several threads have the same number.  All objects are for the same lock file, which is never deleted,
so the inode comparison (file_lock.py:64-71) always succeeds.  `flock` on two different open files of
the same lock file excludes, also inside one process.

The file is opened with mode 'a+', so its position is at the end and `fh.read()` (file_lock.py:55)
returns the empty string: `owner_ident` is always 0 and the "already own it" branch
(file_lock.py:79-82) is never taken.
-/
namespace Verif.FileLock

/-- `flock`: the object holding the kernel lock; `locked`: `_locked` of each object; `ours`:
`_our_lock is not None`; `inside`: users between a successful acquire and the matching release. -/
structure State where
  flock : Option Nat
  locked : Nat → Bool
  ours : Nat → Bool
  inside : List Nat

def State.init : State := ⟨none, fun _ => false, fun _ => false, []⟩

def setAt (f : Nat → Bool) (o : Nat) (b : Bool) : Nat → Bool := fun i => if i = o then b else f i

inductive Event
  /-- one pass of the loop of `acquire`, including its condition -/
  | attempt (u : Nat)
  /-- `release` by a user -/
  | release (u : Nat)
  /-- the process of the user ends; the kernel closes its files -/
  | die (u : Nat)
  /-- the body of a `with` block is entered after `acquire` gave up (`__enter__` ignores the result) -/
  | withTimeout (u : Nat)
  deriving DecidableEq, Repr

/-- file_lock.py:45-102 (`acquire`), 104-113 (`release`), 33-35 (`__enter__`). -/
def step (obj : Nat → Nat) (s : State) : Event → State
  | .attempt u =>
    if s.locked (obj u) then { s with inside := u :: s.inside }
    else if s.flock = none then
      ⟨some (obj u), setAt s.locked (obj u) true, setAt s.ours (obj u) true, u :: s.inside⟩
    else s
  | .release u =>
    if s.ours (obj u) then
      ⟨none, setAt s.locked (obj u) false, setAt s.ours (obj u) false, s.inside.erase u⟩
    else { s with locked := setAt s.locked (obj u) false, inside := s.inside.erase u }
  | .die u =>
    ⟨if s.flock = some (obj u) then none else s.flock, setAt s.locked (obj u) false,
      setAt s.ours (obj u) false, s.inside.filter (· != u)⟩
  | .withTimeout u => { s with inside := u :: s.inside }

def run (obj : Nat → Nat) : State → List Event → State
  | s, [] => s
  | s, e :: es => run obj (step obj s e) es

/-- The memory lock, file_lock.py:116-139: an `RLock` (owner and count) and `_locked`. -/
structure MState where
  owner : Option Nat
  count : Nat
  locked : Bool
  deriving DecidableEq, Repr

def MState.init : MState := ⟨none, 0, false⟩

inductive MEvent
  /-- `acquire` that gets the lock, if it is free or owned by the user -/
  | acquire (u : Nat)
  /-- `acquire` that runs into its timeout because another thread has the lock -/
  | timeout (u : Nat)
  | release (u : Nat)
  deriving DecidableEq, Repr

/-- One call; `none` if the call cannot happen like that (acquire of a taken lock, timeout on a free
lock) or raises (`RLock.release` by a thread that is not the owner). -/
def mstep (s : MState) : MEvent → Option MState
  | .acquire u =>
    if s.owner = none ∨ s.owner = some u then some ⟨some u, s.count + 1, true⟩ else none
  | .timeout u =>
    if s.owner = none ∨ s.owner = some u then none else some { s with locked := false }
  | .release u =>
    if s.owner = some u then
      some (if s.count = 1 then ⟨none, 0, false⟩ else ⟨some u, s.count - 1, false⟩)
    else none

def mrun : MState → List MEvent → Option MState
  | s, [] => some s
  | s, e :: es => (mstep s e).bind (fun s' => mrun s' es)

end Verif.FileLock
