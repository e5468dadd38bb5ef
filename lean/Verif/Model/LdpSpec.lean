import Verif.Model.Drspec
import Verif.Model.PyNum
/-!
# Spectrometer files: /repo/lsl/reader/ldp.py, lines 1229-1453, with /repo/lsl/reader/drspec.py and lines 95-290 of ldp.py

A file is a list of bytes that nobody changes meanwhile.  Times are in ticks of `fS` and exact (`FrameTimestamp` and floats are not
rounded): the time of a frame is its time tag less its time offset.  What `read` returns is the rows of the array, one for each
frame; the array has zeros after them.
-/
namespace Verif.LdpSpec

open Drspec

inductive Err
  | eof
  | sync
  | index
  | zeroDivision
  | seek
  | skip
  | value
  deriving DecidableEq, Repr

def Err.of : ReadErr → Err
  | .eof => .eof
  | .sync => .sync

/-- `drspec.read_frame`, drspec.py:502-520; what was read before does not matter (`C11_history`). -/
def frame (f : Bytes) (pos : Nat) : Except ReadErr Frame × Nat :=
  ((Drspec.read none f pos).1, (Drspec.read none f pos).2.1)

/-! ## Opening, ldp.py:1245-1292 -/

/-- Lines 1251-1256; every step is one byte further, the number bounds the steps. -/
def align (f : Bytes) : Nat → Nat → Except Err Nat
  | 0, _ => .error .eof
  | n + 1, p =>
    match frame f p with
    | (.ok _, q) => .ok q
    | (.error .sync, q) => align f n (q + 1)
    | (.error .eof, _) => .error .eof

/-- `drspec.get_frame_size`, drspec.py:586-601. -/
def frameSize (f : Bytes) (p : Nat) : Except Err Nat :=
  match frame f p with
  | (.ok _, q) => .ok (q - p)
  | (.error e, _) => .error (.of e)

/-- Lines 1245-1259, from a position: the size is that of the frame after the one found. -/
def ready (f : Bytes) (p : Nat) : Except Err Nat :=
  match align f (f.length + 1) p with
  | .error e => .error e
  | .ok q =>
    match frameSize f q with
    | .error e => .error e
    | .ok n => if n ≤ q then .ok (q - n) else .error .seek

/-- `FrameHeader.data_products`, drspec.py:93-121, as numbers of bits. -/
def products (fmt : Nat) : List Nat := (List.range 8).filter fun k => fmt.testBit k

/-- `Frame.transform_size`, drspec.py:331-340. -/
def transformSize (fr : Frame) : Except Err Nat :=
  match products fr.header.fmt with
  | [] => .error .index
  | _ :: _ => .ok fr.header.nFreqs

/-- Time of a frame in ticks, drspec.py:312-320. -/
def time (fr : Frame) : Int := (fr.header.timeTag : Int) - fr.header.timeOffset

/-- `nints*LFFT/srate` in ticks, lines 1278-1280; `srate` is `fS / decimation`. -/
def tint (fr : Frame) : Except Err Nat :=
  match transformSize fr with
  | .error e => .error e
  | .ok n => if fr.header.decFactor = 0 then .error .zeroDivision else .ok (fr.header.nInts * n * fr.header.decFactor)

structure Desc where
  size : Nat
  nframe : Nat
  frameSize : Nat
  lfft : Nat
  nint : Nat
  tint : Nat
  beam : Nat
  start : Int
  freq : List Nat
  products : List Nat
  deriving DecidableEq, Repr

/-- `_describe_file`, lines 1261-1292. -/
def describe (f : Bytes) (p : Nat) : Except Err Desc :=
  match frame f p with
  | (.error e, _) => .error (.of e)
  | (.ok fr, q) =>
    match transformSize fr with
    | .error e => .error e
    | .ok n =>
      match tint fr with
      | .error e => .error e
      | .ok t =>
        .ok { size := f.length, nframe := f.length / (q - p), frameSize := q - p, lfft := n, nint := fr.header.nInts, tint := t,
              beam := fr.header.beam, start := time fr, freq := fr.header.freqCode, products := products fr.header.fmt }

/-- An open file: position, time of the last frame, description. -/
structure St where
  pos : Nat
  tag : Option Int
  desc : Desc
  deriving DecidableEq, Repr

/-- The constructor, lines 124-129, and `reset`, lines 222-242. -/
def start (f : Bytes) : Except Err St :=
  match ready f 0 with
  | .error e => .error e
  | .ok p =>
    match describe f p with
    | .error e => .error e
    | .ok d => .ok ⟨p, none, d⟩

/-- `get_remaining_frame_count`, lines 207-212. -/
def remaining (s : St) : Int := ((s.desc.size : Int) - s.pos).fdiv s.desc.frameSize

/-! ## Reading, lines 1365-1453 -/

/-- A value of the array; `none` is not a number. -/
abbrev Cell := Option (Option Nat × Nat)

/-- Assignment of an attribute to a row of `n` values: one value is used for all, and `None` is not a number. -/
def assign (n : Nat) : Option (List (Option Nat × Nat)) → Option (List Cell)
  | none => some (List.replicate n none)
  | some l =>
    if l.length = n then some (l.map some)
    else match l with
      | [x] => some (List.replicate n (some x))
      | _ => none

/-- Lines 1442-1444: rows of the first tuning, then of the second. -/
def rowsOf (d : Desc) (fr : Frame) : Option (List (List Cell)) :=
  ((d.products.map fun k => (k, 0)) ++ d.products.map fun k => (k, 1)).mapM fun kt : Nat × Nat => assign d.lfft (attr fr.header fr.data kt.1 kt.2)

structure Got where
  first : Option Int
  rows : List (List (List Cell))
  deriving DecidableEq, Repr

/-- Lines 1416-1447: `n` frames more. -/
def loop (f : Bytes) (ignore : Bool) (d : Desc) : Nat → Nat → Int → Got → Except Err Got × Nat × Int
  | 0, p, tag, g => (.ok g, p, tag)
  | n + 1, p, tag, g =>
    match frame f p with
    | (.error .eof, q) => (.ok g, q, tag)
    | (.error .sync, q) => loop f ignore d n q tag g
    | (.ok fr, q) =>
      if 1000 * time fr > 1000 * tag + 1001 * d.tint ∧ ignore = false then (.error .skip, q, tag)
      else
        match rowsOf d fr with
        | none => (.error .value, q, tag)
        | some r => loop f ignore d n q (time fr) ⟨some (g.first.getD (time fr)), g.rows ++ [r]⟩

/-- Lines 1401-1405: the time before the next frame, and the position. -/
def tagOf (f : Bytes) (s : St) : Except Err (Int × Nat) × Nat :=
  match s.tag with
  | some t => (.ok (t, s.pos), s.pos)
  | none =>
    match frame f s.pos with
    | (.error e, q) => (.error (.of e), q)
    | (.ok fr, q) => if s.desc.frameSize ≤ q then (.ok (time fr - s.desc.tint, q - s.desc.frameSize), q) else (.error .seek, q)

/-- Lines 1408-1409: number of frames for a duration in ticks. -/
def frameCount (d : Desc) (dur : Rat) : Except Err Int :=
  if d.tint = 0 then .error .zeroDivision
  else if roundHalfEven (dur / (d.tint : Rat)) = 0 then .ok 1 else .ok (roundHalfEven (dur / (d.tint : Rat)))

/-- `read`: what is returned, the number of rows of the array, and the file after it.  A negative number of rows is refused by
`zeros`.  If the first frame cannot be read the time of the last frame is 0 (line 1402). -/
def read (f : Bytes) (ignore : Bool) (s : St) (dur : Rat) : Except Err (Nat × Got) × St :=
  if s.pos = f.length then (.error .eof, s)
  else
    match tagOf f s with
    | (.error e, q) => (.error e, { s with pos := q, tag := some 0 })
    | (.ok (t, p), _) =>
      match frameCount s.desc dur with
      | .error e => (.error e, { s with pos := p, tag := some t })
      | .ok n =>
        if n < 0 then (.error .value, { s with pos := p, tag := some t })
        else
          match loop f ignore s.desc n.toNat p t ⟨none, []⟩ with
          | (.error e, q, t') => (.error e, { s with pos := q, tag := some t' })
          | (.ok g, q, t') => (.ok (n.toNat, g), { s with pos := q, tag := some t' })

/-- `read_sequence`, lines 275-286: at most `m` reads. -/
def sequence (f : Bytes) (ignore : Bool) (dur : Rat) : Nat → St → List (Nat × Got) × Option Err × St
  | 0, s => ([], none, s)
  | m + 1, s =>
    match read f ignore s dur with
    | (.error e, s') => ([], some e, s')
    | (.ok g, s') =>
      let r := sequence f ignore dur m s'
      (g :: r.1, r.2)

/-! ## Moving, lines 1294-1353 -/

/-- How the search ends. -/
inductive Found
  | at (t : Int) (pos : Nat)
  | gaveUp (t : Int) (pos : Nat)
  | error (e : Err)
  | running
  deriving DecidableEq, Repr

/-- `len(set(l))`. -/
def distinct (l : List Rat) : Nat := (l.eraseDups).length

/-- Lines 1315-1344: `off` is where to go in ticks, `diffs` the last 25 differences. -/
def search (f : Bytes) (size : Nat) (t0 : Int) (off : Rat) : Nat → Nat → List Rat → Found
  | 0, _, _ => .running
  | n + 1, p, diffs =>
    match frame f p with
    | (.error e, _) => .error (.of e)
    | (.ok fr, q) =>
      if size ≤ q then
        match tint fr with
        | .error e => .error e
        | .ok ti =>
          if ti = 0 then .error .zeroDivision
          else
            let p := q - size
            let diff : Rat := (time fr : Rat) - ((t0 : Rat) + off)
            let diffs := (diffs ++ [diff]).drop (diffs.length + 1 - 25)
            let c := roundHalfEven (-diff / 2 / (ti : Rat))
            if c = 0 then .at (time fr) p
            else if (p : Int) + c * size < 0 then .gaveUp (time fr) p
            else if distinct diffs ≤ diffs.length / 4 then .gaveUp (time fr) ((p : Int) + c * size).toNat
            else search f size t0 off n ((p : Int) + c * size).toNat diffs
      else .error .seek

/-- `offset` with at most `n` steps of the search; `off` in ticks.  `none` is that it still searches. -/
def offset (f : Bytes) (s : St) (n : Nat) (off : Rat) : Option (Except Err (Int × St)) :=
  match frame f s.pos with
  | (.error e, _) => some (.error (.of e))
  | (.ok fr, q) =>
    if s.desc.frameSize ≤ q then
      if s.desc.tint = 0 then some (.error .zeroDivision)
      else
        let p : Int := ((q - s.desc.frameSize : Nat) : Int) + roundHalfEven (off / (s.desc.tint : Rat)) * s.desc.frameSize
        if p < 0 then some (.error .seek)
        else
          match search f s.desc.frameSize (time fr) off n p.toNat [] with
          | .running => none
          | .error e => some (.error e)
          | .at t p | .gaveUp t p =>
            match describe f p with
            | .error e => some (.error e)
            | .ok d => some (.ok (t - time fr, ⟨p, none, d⟩))
    else some (.error .seek)

end Verif.LdpSpec
