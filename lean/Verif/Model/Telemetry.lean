/-!
# Usage counting: /repo/lsl/misc/telemetry/__init__.py, /repo/lsl/misc/_telemetry_send.py

One client.  Times are in seconds; the lock is a reentrant lock around each method, so methods are
atomic.  The payload fields besides the calls are not modelled.
-/
namespace Verif.Telemetry

abbrev Name := String

/-- `[total_count, timed_count, total_time]`. -/
structure Info where
  count : Nat
  timed : Nat
  time : Rat
  deriving DecidableEq, Repr

abbrev Cache := List (Name × Info)

/-- A log file: the number in its name (second of writing; the process is the same) and the calls. -/
abbrev Disk := List (Nat × Cache)

structure State where
  cache : Cache
  cacheCount : Nat
  active : Bool
  enabled : Bool
  disk : Disk
  deriving DecidableEq, Repr

/-- Adding to an entry or making it, telemetry/__init__.py:128-136; the flag tells of a new entry. -/
def bump (c : Cache) (n : Name) (timing : Rat) : Cache × Bool :=
  match c with
  | [] => ([(n, ⟨1, if timing > 0 then 1 else 0, timing⟩)], true)
  | (m, i) :: l =>
    if m = n then ((m, ⟨i.count + 1, i.timed + (if timing > 0 then 1 else 0), i.time + timing⟩) :: l, false)
    else
      let r := bump l n timing
      ((m, i) :: r.1, r.2)

/-- `open(filename, 'w')`: a file of the same name is replaced. -/
def put (d : Disk) (sec : Nat) (c : Cache) : Disk :=
  match d with
  | [] => [(sec, c)]
  | (s, x) :: l => if s = sec then (s, c) :: l else (s, x) :: put l sec c

/-- `clear`, telemetry/__init__.py:185-192. -/
def clear (s : State) : State := { s with cache := [], cacheCount := 0 }

/-- `write`, telemetry/__init__.py:143-183; `ok` tells whether the file can be written. -/
def write (s : State) (now : Nat) (ok : Bool) : State × Bool :=
  if s.active && decide (0 < s.cacheCount) then
    if ok then (clear { s with disk := put s.disk now s.cache }, true) else (s, false)
  else (clear s, false)

/-- Counting, telemetry/__init__.py:128-136. -/
def count (s : State) (n : Name) (timing : Rat) : State :=
  { s with cache := (bump s.cache n timing).1,
           cacheCount := if (bump s.cache n timing).2 then s.cacheCount + 1 else s.cacheCount }

/-- `track`, telemetry/__init__.py:120-141. -/
def track (maxEntries : Nat) (s : State) (n : Name) (timing : Rat) (now : Nat) (ok : Bool) : State × Bool :=
  if !(n.startsWith "lsl") || !s.active then (s, false)
  else
    let s1 := count s n timing
    if s1.cacheCount ≥ maxEntries then ((write s1 now ok).1, true) else (s1, true)

/-- `enable`, telemetry/__init__.py:202-209. -/
def enable (readonly : Bool) (s : State) : State :=
  { s with enabled := true, active := if readonly then s.active else true }

/-- `disable`, telemetry/__init__.py:211-217. -/
def disable (s : State) : State := { s with enabled := false, active := false }

/-- `ignore`, telemetry/__init__.py:219-225: `set_temp` only makes a context manager, which is not entered. -/
def ignore (s : State) : State := { s with active := s.enabled }

inductive Op
  | track (n : Name) (timing : Rat) (now : Nat) (ok : Bool)
  | write (now : Nat) (ok : Bool)
  | clear
  | enable
  | disable
  | ignore

/-- One call; the flag is the result of `track`. -/
def step (maxEntries : Nat) (readonly : Bool) (s : State) : Op → State × Bool
  | .track n t now ok => track maxEntries s n t now ok
  | .write now ok => ((write s now ok).1, false)
  | .clear => (clear s, false)
  | .enable => (enable readonly s, false)
  | .disable => (disable s, false)
  | .ignore => (ignore s, false)

def run (maxEntries : Nat) (readonly : Bool) : State → List Op → State
  | s, [] => s
  | s, o :: l => run maxEntries readonly (step maxEntries readonly s o).1 l

/-! ### sending -/

/-- A log file found: age in seconds and its payload, if it can be read. -/
structure Log where
  name : String
  age : Nat
  payload : Option String
  deriving DecidableEq, Repr

/-- `main`, _telemetry_send.py:22-75, with the lock held: what is sent and which files are left.
`accepted` is whether the server answers with nothing. -/
def send (files : List Log) (accepted : Bool) : Option (List String) × List Log :=
  if files = [] then (none, files)
  else if files.all (fun f => decide (f.age < 7 * 86400)) then (none, files)
  else
    let payloads := files.filterMap Log.payload
    if payloads = [] then (none, files)
    else if accepted then (some payloads, [])
    else (some payloads, files)

end Verif.Telemetry
