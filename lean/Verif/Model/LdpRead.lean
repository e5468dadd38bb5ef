import Verif.Model.Buffer
import Verif.Model.PyNum
/-!
# Reading a duration from a DRX/DRX8 file: /repo/lsl/reader/ldp.py:526-699 (`DRXFile.read`)

`DRX8File.read` (ldp.py:992-1165) is the same code.  The file is the list of outcomes of the further
calls of `drx.read_frame` (`some f` a frame, `none` a `SyncError`), after which every call raises
`EOFError`.  The time tag returned by the code is corrected by the time offset of the first frame,
which is left out here.  The number of samples of a frame is left to the payload list; `_timetag` is a
function on the four row numbers, `0` meaning not seen yet, as in the code.
-/
namespace Verif.Ldp
open Verif.Buffer

/-- (beam, tuning, polarization). -/
abbrev Id := Nat × Nat × Nat
abbrev F := Fr Id Id Payload

/-- What is fixed once the file is open: ldp.py:377-429 (`_describe_file`), 564-565
(`_timetagSkip`), 621 (`drx_autofill_size`), 122 (`ignore_timetag_errors`). -/
structure Reader where
  cfg : Cfg Id Id Payload
  nbeampol : Nat
  skip : Int
  autofill : Int
  ignoreErr : Bool

/-- What a call of `read` works on.  `tail` says that some bytes, too few for a frame, follow the last
whole frame and were not touched yet. -/
structure RS where
  rem : List (Option F)
  tail : Bool
  buf : St Id Id Payload
  tt : Nat → Int

/-- What `read` can raise: its own `EOFError`, the `RuntimeError` about the time tag, the `KeyError` for
an unknown tuning or polarization, the `ValueError` of numpy when a row is full, the `IndexError` of
`cFrames[0]` and that of `self.done[-1]`.  `hang` is a loop that does not end. -/
inductive Err
  | eof | timetag | key | shape | index | done | hang
  deriving DecidableEq, Repr

/-- Result of a call: number of frame sets, tag of the first sample, and for each row the payloads
copied to it one after the other (the rest of the row stays zero). -/
structure Out where
  nsets : Nat
  setTime : Option Int
  rows : Nat → List Payload

/-- `aStand = 2*(t-1) + p` as a key of `self._timetag`, ldp.py:637-638. -/
def rowOf (id : Id) : Option Nat :=
  if 1 ≤ id.2.1 ∧ 2 * (id.2.1 - 1) + id.2.2 < 4 then some (2 * (id.2.1 - 1) + id.2.2) else none

def upd {α : Type} (g : Nat → α) (r : Nat) (v : α) : Nat → α := fun x => if x = r then v else g x

/-- State of the copying loops. -/
structure Acc where
  tt : Nat → Int
  setTime : Option Int
  rows : Nat → List Payload

/-- One frame into the data array, ldp.py:636-660 (and 666-690 after a flush).  What was changed before
an exception stays changed. -/
def place1 (rd : Reader) (fc : Nat) (a : Acc) (f : F) : Acc × Option Err :=
  match rowOf f.mid with
  | none => (a, some .key)
  | some r =>
    let tt := if a.tt r = 0 then upd a.tt r (f.fom - rd.skip) else a.tt
    if f.fom ≠ tt r + rd.skip ∧ rd.ignoreErr = false then ({ a with tt := tt }, some .timetag)
    else
      let setTime := match a.setTime with
        | none => some f.fom
        | some t => some t
      if fc ≤ (a.rows r).length then (⟨tt, setTime, a.rows⟩, some .shape)
      else (⟨upd tt r f.fom, setTime, upd a.rows r (a.rows r ++ [f.body])⟩, none)

/-- A group into the data array. -/
def place (rd : Reader) (fc : Nat) (a : Acc) : List F → Acc × Option Err
  | [] => (a, none)
  | f :: fs =>
    let r := place1 rd fc a f
    match r.2 with
    | some e => (r.1, some e)
    | none => place rd fc r.1 fs

/-- The inner reading loop, ldp.py:598-607: at most `n` calls of `read_frame`, stopping at the end of
the file.  Returns the frames, what is left and whether the end was hit. -/
def readBatch : Nat → List (Option F) → List F × List (Option F) × Bool
  | 0, l => ([], l, false)
  | _ + 1, [] => ([], [], true)
  | n + 1, none :: l => readBatch n l
  | n + 1, some f :: l =>
    let r := readBatch n l
    (f :: r.1, r.2)

/-- The zero-filling of whole missing steps, ldp.py:622-632.  `cf` is the variable `cFrames` (`none`
while it is not defined). -/
def fillLoop (rd : Reader) (cf : Option (List F)) (c t0 : Int) (st : St Id Id Payload) :
    Nat → Nat → Except Err (St Id Id Payload)
  | _, 0 => .ok st
  | m, n + 1 =>
    let tmpl := match cf with
      | some l => l.head?
      | none => ((lookup c st.buf).getD []).head?
    match tmpl with
    | none => .error .index
    | some f =>
      match append1 st { f with fom := t0 + rd.skip * ((m : Int) + 1), body := zeroP f.body } with
      | none => .error .done
      | some st' => fillLoop rd cf c t0 st' (m + 1) n

/-- ldp.py:615-632: the check that the next step follows the last one of row 0. -/
def autofill (rd : Reader) (cf : Option (List F)) (c : Int) (tt : Nat → Int) (st : St Id Id Payload) :
    Except Err (St Id Id Payload) :=
  if tt 0 = 0 then .ok st
  else if c = tt 0 + rd.skip then .ok st
  else
    let gap := c - tt 0 - rd.skip
    if gap % rd.skip = 0 ∧ gap / rd.skip < rd.autofill then
      fillLoop rd cf c (tt 0) st 0 (gap / rd.skip).toNat
    else .ok st

/-- What the main loop changes: file, buffer, rows, `cFrames`, `nFrameSets`, `eofFound`. -/
structure LS where
  rem : List (Option F)
  tail : Bool
  buf : St Id Id Payload
  acc : Acc
  cf : Option (List F)
  n : Nat
  eof : Bool

/-- The reading half of a turn, ldp.py:596-608: nothing is read while the buffer is overfilled; at the end
of the file the frames are appended and `cFrames` is emptied. -/
def fetch (rd : Reader) (s : LS) : LS × Option Err :=
  if overfilled rd.cfg s.buf then (s, none)
  else
    let b := readBatch rd.nbeampol s.rem
    let s' := { s with rem := b.2.1, tail := if b.2.2 then false else s.tail }
    match append s.buf b.1 with
    | none => (s', some Err.done)
    | some st => ({ s' with buf := st, cf := some (if b.2.2 then [] else b.1), eof := b.2.2 }, none)

/-- The other half, ldp.py:610-661: the next step of the buffer is copied to the data. -/
def emit (rd : Reader) (fc : Nat) (s : LS) : LS × Option Err :=
  match peek rd.cfg s.buf true with
  | none => (s, none)
  | some c =>
    match autofill rd s.cf c s.acc.tt s.buf with
    | .error e => (s, some e)
    | .ok st =>
      let g := Buffer.get rd.cfg st
      match g.2 with
      | .group _ l =>
        let p := place rd fc s.acc l
        match p.2 with
        | some e => ({ s with buf := g.1, acc := p.1, cf := some l }, some e)
        | none => ({ s with buf := g.1, acc := p.1, cf := some l, n := s.n + 1 }, none)
      | _ => ({ s with buf := g.1 }, none)

/-- One turn of the main loop, ldp.py:593-661, when it is not left at its head. -/
def turn (rd : Reader) (fc : Nat) (s : LS) : LS × Option Err :=
  let r := fetch rd s
  match r.2 with
  | some e => (r.1, some e)
  | none => emit rd fc r.1

/-- The main loop, ldp.py:592-661.  `hang` when the number of turns is not enough. -/
def loop (rd : Reader) (fc : Nat) : Nat → LS → LS × Option Err
  | 0, s => (s, some .hang)
  | k + 1, s =>
    if s.eof ∨ s.n = fc then (s, none)
    else
      let r := turn rd fc s
      match r.2 with
      | some e => (r.1, some e)
      | none => loop rd fc k r.1

/-- The flush at the end of the file, ldp.py:664-694. -/
def flushLoop (rd : Reader) (fc : Nat) : List Int → LS → LS × Option Err
  | [], s => (s, none)
  | k :: ks, s =>
    let g := getKey rd.cfg s.buf k
    match g.2 with
    | .group _ l =>
      let p := place rd fc s.acc l
      match p.2 with
      | some e => ({ s with buf := g.1, acc := p.1 }, some e)
      | none =>
        let s' := { s with buf := g.1, acc := p.1, n := s.n + 1 }
        if s'.n = fc then (s', none) else flushLoop rd fc ks s'
    | _ => (s, some .key)

/-- The end of `read`, ldp.py:662-699: flush when the file ended too early, and return. -/
def finish (rd : Reader) (fc : Nat) (l : LS) : LS × Except Err Out :=
  let q := if l.eof ∧ l.n ≠ fc then flushLoop rd fc (l.buf.buf.map (·.1)) l else (l, none)
  match q.2 with
  | some e => (q.1, .error e)
  | none => (q.1, .ok ⟨q.1.n, q.1.acc.setTime, q.1.acc.rows⟩)

/-- The variables at the start of a call, ldp.py:568-591. -/
def start (s : RS) : LS := ⟨s.rem, s.tail, s.buf, ⟨s.tt, none, fun _ => []⟩, none, 0, false⟩

/-- What stays after a call. -/
def LS.rs (l : LS) : RS := ⟨l.rem, l.tail, l.buf, l.acc.tt⟩

/-- `read`, with the number of frame sets already computed from the duration: ldp.py:551-699. -/
def read (rd : Reader) (fc : Nat) (s : RS) : RS × Except Err Out :=
  if s.rem = [] ∧ s.tail = false ∧ s.buf.buf = [] then (s, .error .eof)
  else
    let r := loop rd fc (s.rem.length + fc + 2) (start s)
    match r.2 with
    | some e => (r.1.rs, .error e)
    | none => ((finish rd fc r.1).1.rs, (finish rd fc r.1).2)

/-- `frame_count`, ldp.py:575-576, with the exact number of frames in the duration; never 0.  A negative
number makes `np.zeros` raise (`none`). -/
def frameCount (duration rate : Rat) : Option Nat :=
  let n := roundHalfEven (duration * rate / 4096)
  let n := if n = 0 then 1 else n
  if n < 0 then none else some n.toNat

/-- The duration that is returned, ldp.py:697. -/
def durationOf (nsets : Nat) (rate : Rat) : Rat := nsets * 4096 / rate

/-- A sequence of calls, with what each one gives. -/
def reads (rd : Reader) : List Nat → RS → List (Except Err Out)
  | [], _ => []
  | fc :: fcs, s => let r := read rd fc s; r.2 :: reads rd fcs r.1

/-- The state after opening the file. -/
def opened (rd : Reader) (frames : List (Option F)) (tail : Bool) : RS :=
  ⟨frames, tail, init rd.cfg drxGuard, fun _ => 0⟩

end Verif.Ldp
