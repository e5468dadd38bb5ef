import Verif.Model.Bytes
import Verif.Model.FileCache
/-!
# In-memory files: /repo/lsl/misc/file_cache.py, classes MemoryFile and MemoryCache

Text modes only add `encode`/`decode` around the buffer; the model works on the bytes.  One session
is the body of a `with cache.open(name, mode) as fh` block; the cache lock makes sessions exclusive.
File names are naturals.
-/
namespace Verif.MemoryFile

/-- `MemoryFile`, file_cache.py:191-221: the `BytesIO` buffer with its position, and `_mtime`. -/
structure MFile where
  buf : Bytes
  pos : Nat
  mtime : Nat
  deriving DecidableEq, Repr

/-- A new `MemoryFile`, file_cache.py:201-221. -/
def MFile.new : MFile := ⟨[], 0, 0⟩

/-- Open modes, by first letter of the mode string. -/
inductive Mode
  | r | w | a
  deriving DecidableEq, Repr

/-- `mode.startswith('w') or mode.startswith('a')`. -/
def Mode.writes : Mode → Bool
  | .r => false
  | _ => true

/-- The calls available on an open file.  `read none` is `read()`; `flush t` runs at time `t`. -/
inductive Op
  | write (d : Bytes)
  | read (n : Option Nat)
  | seek (p : Nat)
  | seekEnd
  | tell
  | truncate (n : Nat)
  | flush (t : Nat)
  deriving DecidableEq, Repr

/-- What a call returns to the caller. -/
inductive Out
  | bytes (d : Bytes)
  | num (n : Nat)
  | unit
  deriving DecidableEq, Repr

/-- `BytesIO.write` at the current position: pads with zeros, overwrites, extends; an empty write
does nothing. -/
def bioWrite (buf : Bytes) (pos : Nat) (d : Bytes) : Bytes :=
  if d = [] then buf
  else
    let padded := buf ++ List.replicate (pos - buf.length) 0
    padded.take pos ++ d ++ padded.drop (pos + d.length)

/-- One call on an open file, file_cache.py:264-371.  `truncate` is `BytesIO.truncate`, which never
makes the buffer longer and leaves the position. -/
def step (m : Mode) (f : MFile) : Op → Out × MFile
  | .write d => (.num d.length, { f with buf := bioWrite f.buf f.pos d, pos := f.pos + d.length })
  | .read n =>
    let d := match n with
      | some n => readAt f.buf f.pos n
      | none => f.buf.drop f.pos
    (.bytes d, { f with pos := f.pos + d.length })
  | .seek p => (.unit, { f with pos := p })
  | .seekEnd => (.unit, { f with pos := f.buf.length })
  | .tell => (.num f.pos, f)
  | .truncate n => (.num n, { f with buf := f.buf.take n })
  | .flush t => (.unit, if m.writes then { f with mtime := t } else f)

/-- The calls of one session in order. -/
def runOps (m : Mode) : MFile → List Op → List Out × MFile
  | f, [] => ([], f)
  | f, o :: ops =>
    let (x, f1) := step m f o
    let (xs, f2) := runOps m f1 ops
    (x :: xs, f2)

/-- `MemoryFile.close`, file_cache.py:373-383: back to the start. -/
def close (f : MFile) : MFile := { f with pos := 0 }

/-- `MemoryCache._cache`: a dictionary in insertion order. -/
abbrev Cache := List (Nat × MFile)

/-- Dictionary look-up. -/
def find (c : Cache) (n : Nat) : Option MFile := (c.find? (fun p => p.1 == n)).map Prod.snd

/-- Change of the value stored under a key that is present (the `MemoryFile` object is shared, so a
change is visible in the dictionary only while the entry is there). -/
def update (c : Cache) (n : Nat) (f : MFile) : Cache := c.map (fun p => if p.1 = n then (n, f) else p)

/-- `_cache_management` of the memory cache, file_cache.py:395-418, with the limit in bytes; the loop
of `FileCache` with removals that always succeed. -/
def manage (limit : Nat) (c : Cache) : Cache :=
  let es := c.map (fun p => (⟨p.1, p.2.buf.length, p.2.mtime⟩ : FileCache.Entry))
  match FileCache.manage (fun _ => true) limit (c.length + 1) es with
  | some kept => c.filter (fun p => (kept.map FileCache.Entry.name).contains p.1)
  | none => c

/-- `MemoryCache.open(name, mode)` with a body making the calls `ops`, file_cache.py:421-448.
Returns what the calls return, and the cache afterwards. -/
def session (limit : Nat) (c : Cache) (name : Nat) (m : Mode) (ops : List Op) : List Out × Cache :=
  let (f, c1) := match find c name with
    | some f => (f, c)
    | none => (MFile.new, c ++ [(name, MFile.new)])
  let f1 := if m = .w then { f with buf := [] } else f
  let c2 := update c1 name f1
  let c3 := if m.writes then manage limit c2 else c2
  let (out, f2) := runOps m f1 ops
  (out, update c3 name (close f2))

/-- Several sessions one after the other. -/
def sessions (limit : Nat) : Cache → List (Nat × Mode × List Op) → List (List Out) × Cache
  | c, [] => ([], c)
  | c, (n, m, ops) :: l =>
    let (o, c1) := session limit c n m ops
    let (os, c2) := sessions limit c1 l
    (o :: os, c2)

/-- `BytesIO.readline()`: up to and including the next newline. -/
def readline : Bytes → Bytes
  | [] => []
  | b :: l => if b = 10 then [b] else b :: readline l

/-- `MemoryFile.__iter__`, file_cache.py:223-226, at position 0: the lines a `for` loop sees. -/
def iter (buf : Bytes) : List Bytes := if readline buf = [] then [] else [readline buf]

end Verif.MemoryFile
