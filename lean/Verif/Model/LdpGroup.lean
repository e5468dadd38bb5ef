import Verif.Model.Buffer
import Verif.Model.PyNum
import Verif.Model.Float64
/-!
# Reading a duration from a TBX or COR file: /repo/lsl/reader/ldp.py:1641-1852 (`TBXFile.read`) and 2024-2177
(`CORFile.read`)

Both methods have the same shape and are one model here, over the identifiers `K` and `D` of the buffer; the
differences are fields of `Reader`.  The file is the list of what the further calls of `read_frame` meet, after
which every call raises `EOFError`.  Time tags stand for the times that are returned; the data of a frame are its
payload.  `_timetag` is `none` before the first call, and `0` means not seen yet, as in the code.
-/
namespace Verif.LdpGroup
open Verif.Buffer

/-- What a call of `read_frame` meets: a frame of the right kind, a frame for which `is_tbx`/`is_cor` is false, or
bytes that make it raise `SyncError` (after going back to where it was, tbx.cpp:187-189, cor.cpp:169-174). -/
inductive Item (K D : Type)
  | frame (f : Fr K D Payload)
  | other
  | sync

/-- What the reading loop does on `SyncError`: `jump` over `drx.FRAME_SIZE` bytes (TBX, ldp.py:1734-1742), `stay`
(COR, ldp.py:2091-2092), or not get that far, because `tbx.read_frame_ci8` itself refers to a `FRAME_SIZE` that is
not defined (tbx.py:205-206). -/
inductive OnSync
  | jump | stay | name
  deriving DecidableEq, Repr

/-- What is fixed once the file is open: the buffer, `framesPerObs`, `timetagSkip`, the step and the size of the
zero-filling (ldp.py:1754-1756, TBX only), whether nothing is read while the buffer is overfilled (TBX,
ldp.py:1719), what is done on `SyncError` and how many in a row are accepted (ldp.py:1736), whether time tag errors
are ignored, and the place of an id in the data and in `count`. -/
structure Reader (K D : Type) where
  cfg : Cfg K D Payload
  per : Nat
  skip : Int
  fill : Option (Int × Int)
  pause : Bool
  onSync : OnSync
  limit : Nat
  ignoreErr : Bool
  row : K → Option Nat

/-- What a call of `read` works on; `tail` is the number of bytes after the last whole frame, too few for a frame,
that were not touched yet. -/
structure RS (K D : Type) where
  rem : List (Item K D)
  tail : Nat
  buf : St K D Payload
  tt : Option Int

/-- What can be raised: `EOFError`, the `RuntimeError` about the time tag, the `ValueError` of `index` or `KeyError` of a
dictionary for an unknown id, the `IndexError` of `count` or of numpy, that of `cFrames[0]`, that of `self.done[-1]`,
`NameError`, `AttributeError`, `SyncError`, the `ValueError` of numpy for negative dimensions or of `seek`.  `hang`
is a loop that does not end. -/
inductive Err
  | eof | timetag | key | bounds | index | done | name | attr | sync | value | hang
  deriving DecidableEq, Repr

/-- Result of a call: number of frame sets, tag of the first one, and for each place the payloads copied to it one
after the other (the rest stays zero). -/
structure Out where
  nsets : Nat
  setTime : Option Int
  rows : Nat → List Payload

def upd {α : Type} (g : Nat → α) (r : Nat) (v : α) : Nat → α := fun x => if x = r then v else g x

/-- State of the copying loops. -/
structure Acc where
  tt : Int
  setTime : Option Int
  rows : Nat → List Payload

variable {K D : Type} [DecidableEq K] [DecidableEq D]

/-- One frame into the data array, ldp.py:1788-1803 (2115-2128); `count[aStand]` is the number of payloads already in
the row. -/
def copy1 (rd : Reader K D) (fc : Nat) (a : Acc) (f : Fr K D Payload) : Acc × Option Err :=
  let setTime := match a.setTime with
    | none => some f.fom
    | some t => some t
  match rd.row f.mid with
  | none => (⟨a.tt, setTime, a.rows⟩, some .key)
  | some r =>
    if rd.per ≤ r ∨ fc ≤ (a.rows r).length then (⟨a.tt, setTime, a.rows⟩, some .bounds)
    else (⟨a.tt, setTime, upd a.rows r (a.rows r ++ [f.body])⟩, none)

def copy (rd : Reader K D) (fc : Nat) (a : Acc) : List (Fr K D Payload) → Acc × Option Err
  | [] => (a, none)
  | f :: fs =>
    let r := copy1 rd fc a f
    match r.2 with
    | some e => (r.1, some e)
    | none => copy rd fc r.1 fs

/-- A group: the check of the time tag of its first frame, then the copying, ldp.py:1774-1803 (2101-2128) and again
in the flush. -/
def place (rd : Reader K D) (fc : Nat) (a : Acc) (l : List (Fr K D Payload)) : Acc × Option Err :=
  match l with
  | [] => (a, some .index)
  | f :: _ =>
    let tt := if a.tt = 0 then f.fom - rd.skip else a.tt
    if f.fom ≠ tt + rd.skip ∧ rd.ignoreErr = false then ({ a with tt := tt }, some .timetag)
    else copy rd fc { a with tt := f.fom } l

/-- How the inner reading loop ends: after its number of calls, at the end of the file (or when giving up), or with
`NameError`. -/
inductive Stop
  | full | eof | name
  deriving DecidableEq, Repr

/-- The inner reading loop, ldp.py:1720-1742 (2079-2092): at most `n` calls of `read_frame`; `ns` is `nSkip`.  Returns
the frames, what is left, `nSkip` and how it ended. -/
def readBatch (rd : Reader K D) : Nat → Nat → List (Item K D) → List (Fr K D Payload) × List (Item K D) × Nat × Stop
  | 0, ns, l => ([], l, ns, .full)
  | _ + 1, ns, [] => ([], [], ns, .eof)
  | n + 1, _, .frame f :: l =>
    let r := readBatch rd n 0 l
    (f :: r.1, r.2)
  | n + 1, ns, .other :: l => readBatch rd n (ns + 1) l
  | n + 1, ns, .sync :: l =>
    match rd.onSync with
    | .name => ([], .sync :: l, ns, .name)
    | .stay => readBatch rd n ns (.sync :: l)
    | .jump => if rd.limit < ns + 1 then ([], .sync :: l, ns + 1, .eof) else readBatch rd n (ns + 1) l

/-- The zero-filling, ldp.py:1757-1767.  `cf` is the variable `cFrames` (`none` while it is not defined). -/
def fillLoop (cf : Option (List (Fr K D Payload))) (c t0 step : Int) (st : St K D Payload) :
    Nat → Nat → Except Err (St K D Payload)
  | _, 0 => .ok st
  | m, n + 1 =>
    let tmpl := match cf with
      | some l => l.head?
      | none => ((lookup c st.buf).getD []).head?
    match tmpl with
    | none => .error .index
    | some f =>
      match append1 st { f with fom := t0 + step * ((m : Int) + 1), body := zeroP f.body } with
      | none => .error .done
      | some st' => fillLoop cf c t0 step st' (m + 1) n

/-- ldp.py:1750-1767: the check that the next step follows the last one, with 8192 instead of the step of the file. -/
def autofill (rd : Reader K D) (cf : Option (List (Fr K D Payload))) (c tt : Int) (st : St K D Payload) :
    Except Err (St K D Payload) :=
  match rd.fill with
  | none => .ok st
  | some (step, size) =>
    if tt = 0 then .ok st
    else if c = tt + step then .ok st
    else
      let gap := c - tt - step
      if gap % step = 0 ∧ gap / step < size then fillLoop cf c tt step st 0 (gap / step).toNat
      else .ok st

/-- What the main loop changes: file, buffer, data, `cFrames`, `nFrameSets`, `eofFound`, `nSkip`. -/
structure LS (K D : Type) where
  rem : List (Item K D)
  tail : Nat
  buf : St K D Payload
  acc : Acc
  cf : Option (List (Fr K D Payload))
  n : Nat
  eof : Bool
  ns : Nat

/-- The reading half of a turn, ldp.py:1719-1743 (2079-2094). -/
def fetch (rd : Reader K D) (s : LS K D) : LS K D × Option Err :=
  if rd.pause = true ∧ overfilled rd.cfg s.buf = true then (s, none)
  else
    let b := readBatch rd rd.per s.ns s.rem
    let s' := { s with rem := b.2.1, tail := if b.2.1 = [] ∧ b.2.2.2 = .eof then 0 else s.tail, ns := b.2.2.1 }
    if b.2.2.2 = .name then (s', some Err.name)
    else
      match append s.buf b.1 with
      | none => (s', some Err.done)
      | some st =>
        ({ s' with buf := st, cf := some (if b.2.2.2 = .eof then [] else b.1), eof := decide (b.2.2.2 = .eof) }, none)

/-- The other half, ldp.py:1745-1804 (2095-2129): the next step of the buffer is copied to the data. -/
def emit (rd : Reader K D) (fc : Nat) (s : LS K D) : LS K D × Option Err :=
  match peek rd.cfg s.buf true with
  | none => (s, none)
  | some c =>
    match autofill rd s.cf c s.acc.tt s.buf with
    | .error e => (s, some e)
    | .ok st =>
      let g := Buffer.get rd.cfg st
      match g.2 with
      | .group _ l =>
        let p := place rd fc s.acc l
        match p.2 with
        | some e => ({ s with buf := g.1, acc := p.1, cf := some l }, some e)
        | none => ({ s with buf := g.1, acc := p.1, cf := some l, n := s.n + 1 }, none)
      | _ => ({ s with buf := g.1 }, none)

/-- One turn of the main loop when it is not left at its head, ldp.py:1715-1804 (2075-2129). -/
def turn (rd : Reader K D) (fc : Nat) (s : LS K D) : LS K D × Option Err :=
  let r := fetch rd s
  match r.2 with
  | some e => (r.1, some e)
  | none => emit rd fc r.1

/-- The main loop.  `hang` when the number of turns is not enough. -/
def loop (rd : Reader K D) (fc : Nat) : Nat → LS K D → LS K D × Option Err
  | 0, s => (s, some .hang)
  | k + 1, s =>
    if s.eof = true ∨ s.n = fc then (s, none)
    else
      let r := turn rd fc s
      match r.2 with
      | some e => (r.1, some e)
      | none => loop rd fc k r.1

/-- The flush at the end of the file, ldp.py:1806-1842 (2131-2165). -/
def flushLoop (rd : Reader K D) (fc : Nat) : List Int → LS K D → LS K D × Option Err
  | [], s => (s, none)
  | k :: ks, s =>
    let g := getKey rd.cfg s.buf k
    match g.2 with
    | .group _ l =>
      let p := place rd fc s.acc l
      match p.2 with
      | some e => ({ s with buf := g.1, acc := p.1 }, some e)
      | none =>
        let s' := { s with buf := g.1, acc := p.1, n := s.n + 1 }
        if s'.n = fc then (s', none) else flushLoop rd fc ks s'
    | _ => (s, some .key)

/-- The end of `read`: flush when the file ended too early, `EOFError` when nothing came out though something was
asked for (ldp.py:1845-1846, 2170-2171), and return. -/
def finish (rd : Reader K D) (fc : Nat) (l : LS K D) : LS K D × Except Err Out :=
  let q := if l.eof = true ∧ l.n ≠ fc then flushLoop rd fc (l.buf.buf.map (·.1)) l else (l, none)
  match q.2 with
  | some e => (q.1, .error e)
  | none => if q.1.n = 0 ∧ 0 < fc then (q.1, .error .eof) else (q.1, .ok ⟨q.1.n, q.1.acc.setTime, q.1.acc.rows⟩)

/-- The variables at the start of a call. -/
def start (s : RS K D) : LS K D := ⟨s.rem, s.tail, s.buf, ⟨s.tt.getD 0, none, fun _ => []⟩, none, 0, false, 0⟩

/-- What stays after a call. -/
def LS.rs (l : LS K D) : RS K D := ⟨l.rem, l.tail, l.buf, some l.acc.tt⟩

/-- Nothing is left: ldp.py:1668-1678 (2041-2051). -/
def ended (s : RS K D) : Prop := s.rem = [] ∧ s.tail = 0 ∧ s.buf.buf = []

instance (s : RS K D) : Decidable (ended s) := by
  unfold ended
  have : Decidable (s.rem = []) := match s.rem with | [] => isTrue rfl | _ :: _ => isFalse (by simp)
  have : Decidable (s.buf.buf = []) := match s.buf.buf with | [] => isTrue rfl | _ :: _ => isFalse (by simp)
  infer_instance

/-- `read` with the number of frame sets already known. -/
def read (rd : Reader K D) (fc : Nat) (s : RS K D) : RS K D × Except Err Out :=
  if ended s then (s, .error .eof)
  else
    let r := loop rd fc (s.rem.length + fc + 2) (start s)
    match r.2 with
    | some e => (r.1.rs, .error e)
    | none => ((finish rd fc r.1).1.rs, (finish rd fc r.1).2)

/-- The state after opening the file: the guard of these buffers is `0`, buffer.py:143-146. -/
def opened (rd : Reader K D) (items : List (Item K D)) (tail : Nat) : RS K D := ⟨items, tail, init rd.cfg 0, none⟩

/-! ## TBX -/

/-- An open TBX file: `size`, `frame_size` and `nframe` of the description (ldp.py:1511-1522, 1579-1582). -/
structure Tbx where
  rd : Reader Nat Nat
  size : Nat
  frameSize : Nat
  nframe : Nat

/-- `int` of a number. -/
def truncRat (x : Rat) : Int := if 0 ≤ x then x.floor else -((-x).floor)

/-- `drx.FRAME_SIZE`, drx.py:68. -/
def drxFrameSize : Nat := 4128

/-- The bytes of what is left. -/
def bytes (frameSize : Nat) : List (Item K D) → Nat
  | [] => 0
  | .sync :: l => drxFrameSize + bytes frameSize l
  | _ :: l => frameSize + bytes frameSize l

/-- `self.fh.tell()`. -/
def tell (t : Tbx) (s : RS Nat Nat) : Nat := t.size - s.tail - bytes t.frameSize s.rem

/-- `max_frame_count`, ldp.py:1691-1693. -/
def maxCount (t : Tbx) (s : RS Nat Nat) : Int :=
  ((t.nframe : Int) - ((tell t s / t.frameSize : Nat) : Int)) / (t.rd.per : Int) + s.buf.buf.length

/-- `frame_count`, ldp.py:1694-1699; `req` is the rounded number of frames of the duration, `none` for no duration
(then it is `max_frame_count`). -/
def tbxCount (t : Tbx) (req : Option Int) (s : RS Nat Nat) : Int :=
  min (max (req.getD (maxCount t s)) 1) (maxCount t s)

/-- `TBXFile.read`, ldp.py:1641-1852. -/
def tbxRead (t : Tbx) (req : Option Int) (s : RS Nat Nat) : RS Nat Nat × Except Err Out :=
  if ended s then (s, .error .eof)
  else if tbxCount t req s < 0 then ({ s with tt := some (s.tt.getD 0) }, .error .value)
  else read t.rd (tbxCount t req s).toNat s

/-- The number of frames of a duration, ldp.py:1697. -/
def tbxRequest (duration rate : Rat) : Int := roundHalfEven (duration * rate)

/-- A sequence of calls, with what each one gives. -/
def tbxReads (t : Tbx) : List (Option Int) → RS Nat Nat → List (Except Err Out)
  | [], _ => []
  | q :: qs, s => let r := tbxRead t q s; r.2 :: tbxReads t qs r.1

/-- The reader of a TBX file with the channels `mapper` (first channel of each frame of a step) and `timetagSkip`
`skip`: ldp.py:1555, 1585, 1681-1684, 1736, 1754-1756, 1801. -/
def tbxReader (mapper : List Nat) (nseg : Nat) (skip size : Int) (ci8 ig : Bool) : Reader Nat Nat :=
  { cfg := tbxCfg mapper nseg false, per := mapper.length, skip := skip, fill := some (8192, size), pause := true
    onSync := if ci8 then .name else .jump, limit := 40000, ignoreErr := ig
    row := fun c => mapper.idxOf? c }

/-- `buffer_offset` in time tag units, ldp.py:1595-1604; with an empty buffer a frame is read and asked for
`payload.time_tag`, which it does not have (it is `timetag`). -/
def lead (s : RS Nat Nat) : Except Err Int :=
  match s.tt with
  | none => .ok 0
  | some v =>
    match minKey s.buf.buf with
    | some c => .ok (c - v)
    | none =>
      match s.rem with
      | [] => .error .eof
      | .sync :: _ => .error .sync
      | _ :: _ => .error .attr

/-- `frameOffset`, ldp.py:1606-1609, truncated towards zero twice; the offset is in time tag units. -/
def frameOffset (rd : Reader Nat Nat) (ticks : Rat) (b : Int) : Int :=
  truncRat ((truncRat ((ticks - b) / rd.skip * rd.per) : Rat) / rd.per) * rd.per

/-- `TBXFile.offset`, ldp.py:1587-1622, for a file of `frames` only.  The description is made anew from the new
position, the channels being the same there. -/
def tbxMove (t : Tbx) (frames : List (Item Nat Nat)) (ticks : Rat) (s : RS Nat Nat) :
    Except Err (Tbx × RS Nat Nat) :=
  match lead s with
  | .error e => .error e
  | .ok b =>
    let idx : Int := (frames.length - s.rem.length : Nat) + frameOffset t.rd ticks b
    if idx < 0 then .error .value
    else if frames.length ≤ idx.toNat then .error .eof
    else .ok ({ t with nframe := frames.length - idx.toNat }, opened t.rd (frames.drop idx.toNat) s.tail)

/-! ## COR -/

/-- The keys of `self.bmapperd` in order, ldp.py:1933-1941, with 256 inputs in the code. -/
def pairs (n : Nat) : List (Nat × Nat) :=
  (List.range' 1 n).flatMap (fun i => (List.range' i (n + 1 - i)).map (fun j => (i, j)))

/-- `aStand`, ldp.py:2124-2126. -/
def corRow (n : Nat) (cmapper : List Nat) (x : Nat × Nat × Nat) : Option Nat :=
  match (pairs n).idxOf? (x.1, x.2.1), cmapper.idxOf? x.2.2 with
  | some b, some c => some (b * cmapper.length + c)
  | _, _ => none

/-- The reader of a COR file of `n` inputs, with the sorted channels `cmapper`: ldp.py:1943-1950, 1965, 2064. -/
def corReader (n : Nat) (cmapper : List Nat) (nseg : Nat) (skip : Int) (ig : Bool) :
    Reader (Nat × Nat × Nat) (Nat × Nat) :=
  { cfg := corCfg (List.range' 1 n) cmapper nseg false
    per := cmapper.length * (n * (n + 1) / 2), skip := skip, fill := none, pause := false
    onSync := .stay, limit := 0, ignoreErr := ig, row := corRow n cmapper }

/-- `timetagSkip` as the code computes it from `navg`, in double precision: `navg * T2` (cor.py:115-121, ndp.py:35), times
`fS`, truncated (ldp.py:2054). -/
def corSkip (navg : Nat) : Int := truncRat (fl64 (fl64 (navg * fl64 (1 / 100)) * 196000000))

/-- `frame_count` from the duration, ldp.py:2060-2067; without one, `framesPerObs` is used before it is set
(`UnboundLocalError`). -/
def corCount (duration : Option Rat) (tint : Rat) : Except Err Nat :=
  match duration with
  | none => .error .name
  | some d =>
    let n := roundHalfEven (d / tint)
    let n := if n = 0 then 1 else n
    if n < 0 then .error .value else .ok n.toNat

/-- A sequence of calls. -/
def reads (rd : Reader K D) : List Nat → RS K D → List (Except Err Out)
  | [], _ => []
  | fc :: fcs, s => let r := read rd fc s; r.2 :: reads rd fcs r.1

end Verif.LdpGroup
