/-!
# Frame re-ordering buffers: /repo/lsl/reader/buffer.py

The buffer is modelled generically over the identifiers used by the concrete buffers:

* `K`: the identifier used to find out which frames are missing (`_get_missing_list`,
  buffer.py:410-437): `(beam, tune, pol)` for DRX/DRX8, `(stand0, stand1, first_chan)` for COR,
  the thread id for VDIF, `first_chan` for TBX;
* `D`: the identifier used to discard duplicates in `get` (buffer.py:323-335): `frame.id` and, when
  the frame has no `id` attribute (TBX), `first_chan`.  For COR this is `(stand0, stand1)` only and
  for VDIF it is `(station, thread)`.
-/
namespace Verif.Buffer

/-- A frame as seen by the buffer.  `fom` is `get_figure_of_merit(frame)` (the time tag),
`fill` is `not frame.valid` for frames made by `create_fill`, `body` stands for everything else. -/
structure Fr (K D B : Type) where
  fom : Int
  mid : K
  did : D
  fill : Bool
  body : B
  deriving DecidableEq, Repr

/-- Static configuration of a buffer (set by `__init__`, buffer.py:104-171).  `nFrames` and
`possible` come from `get_max_frames`; `fillDid`/`zero` describe what `create_fill` does to the
duplicate-identifier and to the payload of the template frame; `rank` is the sort key of
`_cmp_frames` (buffer.py:45-82) when `reorder` is set. -/
structure Cfg (K D B : Type) where
  nseg : Nat
  nFrames : Nat
  possible : List K
  fillDid : K → D → D
  zero : B → B
  rank : Option (Fr K D B → Int)

/-- State of a buffer.  `buf` is the `OrderedDict` (insertion order); `done` is the deque of
returned keys with the newest first, so `done[-1]` of the code is the head. -/
structure St (K D B : Type) where
  buf : List (Int × List (Fr K D B))
  done : List Int
  full : Nat := 0
  partialN : Nat := 0
  dropped : Nat := 0
  missing : Nat := 0

variable {K D B : Type} [DecidableEq K] [DecidableEq D]

/-- Initial state: `done = deque([0,], maxlen=nsegments)`, and for DRX/DRX8
`done[0] = 61849368000000000` (buffer.py:143-146, 486-491).  With `nsegments = 0` the deque is
empty (and the DRX assignment raises, not modelled). -/
def init (c : Cfg K D B) (guard : Int) : St K D B :=
  { buf := [], done := [guard].take c.nseg }

/-- `self.buffer[fom].append(frame)` or a new entry at the end (buffer.py:254-261). -/
def insertF (f : Fr K D B) : List (Int × List (Fr K D B)) → List (Int × List (Fr K D B))
  | [] => [(f.fom, [f])]
  | (k, l) :: r => if k = f.fom then (k, l ++ [f]) :: r else (k, l) :: insertF f r

/-- `append` of one frame (buffer.py:229-263).  `none` is the IndexError of `self.done[-1]` on an
empty deque. -/
def append1 (s : St K D B) (f : Fr K D B) : Option (St K D B) :=
  match s.done with
  | [] => none
  | d :: _ =>
    if f.fom ≤ d then some { s with dropped := s.dropped + 1 }
    else some { s with buf := insertF f s.buf }

/-- `append` of a list of frames. -/
def append (s : St K D B) : List (Fr K D B) → Option (St K D B)
  | [] => some s
  | f :: fs => (append1 s f).bind (fun s' => append s' fs)

/-- `filled`, buffer.py:173-181. -/
def filled (c : Cfg K D B) (s : St K D B) : Bool := decide (c.nseg ≤ s.buf.length)

/-- `overfilled`, buffer.py:183-191. -/
def overfilled (c : Cfg K D B) (s : St K D B) : Bool := decide (c.nseg < s.buf.length)

/-- Smallest key, `min(keys)`; `none` for the empty dictionary. -/
def minKey : List (Int × List (Fr K D B)) → Option Int
  | [] => none
  | (k, _) :: r => match minKey r with
    | none => some k
    | some m => some (min k m)

/-- `peek(require_filled)`, buffer.py:272-292. -/
def peek (c : Cfg K D B) (s : St K D B) (requireFilled : Bool) : Option Int :=
  if requireFilled && !filled c s then none else minKey s.buf

/-- The frames stored under a key. -/
def lookup (k : Int) : List (Int × List (Fr K D B)) → Option (List (Fr K D B))
  | [] => none
  | (k', l) :: r => if k' = k then some l else lookup k r

/-- `del(self.buffer[key])`. -/
def erase (k : Int) : List (Int × List (Fr K D B)) → List (Int × List (Fr K D B))
  | [] => []
  | (k', l) :: r => if k' = k then r else (k', l) :: erase k r

/-- `_get_missing_list`: `possibleFrames.difference(ids present)` (buffer.py:410-437).  The code
iterates over a python set in an unspecified order; the model uses the order of `possible`, which
stands for that set (theorems that need it assume `possible` has no repeated entry). -/
def missingList (c : Cfg K D B) (l : List (Fr K D B)) : List K :=
  c.possible.filter (fun k => !(l.map (·.mid)).contains k)

/-- `create_fill(key, x)`: a copy of the first frame of the group with the identifier replaced, the
data zeroed and marked invalid (buffer.py:517-540, 621-644, 709-731, 778-798, 863-885). -/
def createFill (c : Cfg K D B) (tmpl : Fr K D B) (x : K) : Fr K D B :=
  { fom := tmpl.fom, mid := x, did := c.fillDid x tmpl.did, fill := true, body := c.zero tmpl.body }

/-- Duplicate removal for over-complete groups (buffer.py:320-335): keeps the first frame of each
`did`; returns also the number dropped.  `seen` is `frameIDs`. -/
def dedup : List D → List (Fr K D B) → List (Fr K D B) × Nat
  | _, [] => ([], 0)
  | seen, f :: fs =>
    if seen.contains f.did then
      let r := dedup seen fs
      (r.1, r.2 + 1)
    else
      let r := dedup (seen ++ [f.did]) fs
      (f :: r.1, r.2)

/-- Stable insertion sort; all stable sorts give the same list, so this is `list.sort`. -/
def insertBy (r : Fr K D B → Int) (x : Fr K D B) : List (Fr K D B) → List (Fr K D B)
  | [] => [x]
  | y :: l => if r x ≤ r y then x :: y :: l else y :: insertBy r x l

def sortBy (r : Fr K D B → Int) : List (Fr K D B) → List (Fr K D B)
  | [] => []
  | x :: l => insertBy r x (sortBy r l)

/-- `output.sort(key=cmp_to_key(_cmp_frames))` when `reorder` is set (a stable sort). -/
def reorderF (c : Cfg K D B) (l : List (Fr K D B)) : List (Fr K D B) :=
  match c.rank with
  | none => l
  | some r => sortBy r l

/-- What a call can give: nothing ready, a group, or the KeyError of an unknown key. -/
inductive GetOut (K D B : Type)
  | nothing
  | group (key : Int) (frames : List (Fr K D B))
  | keyError

/-- `get(key)` for an explicit key (buffer.py:306-346). -/
def getKey (c : Cfg K D B) (s : St K D B) (key : Int) : St K D B × GetOut K D B :=
  match lookup key s.buf with
  | none => (s, .keyError)
  | some l =>
    let s' := { s with buf := erase key s.buf, done := (key :: s.done).take c.nseg }
    if l.length = c.nFrames then
      ({ s' with full := s.full + 1 }, .group key (reorderF c l))
    else if l.length < c.nFrames then
      match l with
      | [] => ({ s' with partialN := s.partialN + 1, missing := s.missing + c.nFrames }, .group key [])
      | t :: _ =>
        ({ s' with partialN := s.partialN + 1, missing := s.missing + (c.nFrames - l.length) },
          .group key (reorderF c (l ++ (missingList c l).map (createFill c t))))
    else
      let r := dedup [] l
      ({ s' with full := s.full + 1, dropped := s.dropped + r.2 }, .group key (reorderF c r.1))

/-- `get()` (buffer.py:294-346). -/
def get (c : Cfg K D B) (s : St K D B) : St K D B × GetOut K D B :=
  match peek c s true with
  | none => (s, .nothing)
  | some key => getKey c s key

/-- `flush()` consumed to its end: `get` for every key of a snapshot of the dictionary, in
insertion order (buffer.py:348-367). -/
def flushKeys (c : Cfg K D B) (s : St K D B) : List Int → St K D B × List (GetOut K D B)
  | [] => (s, [])
  | k :: ks =>
    let r := getKey c s k
    let q := flushKeys c r.1 ks
    (q.1, r.2 :: q.2)

def flush (c : Cfg K D B) (s : St K D B) : St K D B × List (GetOut K D B) :=
  flushKeys c s (s.buf.map (·.1))

/-- `reset()` (buffer.py:369-378): empties the buffer and sets `done` to `[0]`; the statistics are
kept. -/
def reset (c : Cfg K D B) (s : St K D B) : St K D B := { s with buf := [], done := [0].take c.nseg }

/-- Operations of a user of the buffer. -/
inductive Op (K D B : Type)
  | put (fs : List (Fr K D B))
  | get
  | flush

/-- What an outside observer sees, in order: frames handed to `append` and results of `get` /
`flush`. -/
inductive Ev (K D B : Type)
  | arrive (f : Fr K D B)
  | out (g : GetOut K D B)

/-- One operation; `none` only for the IndexError of `nsegments = 0`. -/
def step (c : Cfg K D B) (s : St K D B) : Op K D B → Option (St K D B × List (Ev K D B))
  | .put fs => (append s fs).map (fun s' => (s', fs.map .arrive))
  | .get => let r := get c s; some (r.1, [.out r.2])
  | .flush => let r := flush c s; some (r.1, r.2.map .out)

/-- A history of operations with everything observed, in order. -/
def run (c : Cfg K D B) : St K D B → List (Op K D B) → Option (St K D B × List (Ev K D B))
  | s, [] => some (s, [])
  | s, o :: os =>
    (step c s o).bind (fun r => (run c r.1 os).map (fun q => (q.1, r.2 ++ q.2)))

/-- The loop of the LDP readers (ldp.py, e.g. 553-640): when the buffer is not overfilled the next
group of frames is read and appended, then one `get` is made.  `groups` are the groups the file
yields; a turn with an overfilled buffer consumes none. Returns the number of buffered time steps
after each append and after each get. -/
def readerLoop (c : Cfg K D B) : Nat → St K D B → List (List (Fr K D B)) → List Nat
  | 0, _, _ => []
  | n+1, s, groups =>
    if overfilled c s then
      let r := get c s
      r.1.buf.length :: readerLoop c n r.1 groups
    else match groups with
      | [] => []
      | g :: gs => match append s g with
        | none => []
        | some s' =>
          let r := get c s'
          s'.buf.length :: r.1.buf.length :: readerLoop c n r.1 gs

/-! ## The concrete buffers -/

/-- Sort keys of `_cmp_frames` (buffer.py:45-82): two-element ids, three-element ids. -/
def rank2 (i : Nat × Nat) : Int := 2 * ((i.1 : Int) - 1) + i.2

def rank3 (i : Nat × Nat × Nat) : Int :=
  16777216 * ((i.1 : Int) - 1) + 4096 * ((i.2.1 : Int) - 1) + i.2.2

/-- Payload: a list of samples; `create_fill` multiplies it by zero. -/
abbrev Payload := List Int

def zeroP (b : Payload) : Payload := b.map (fun _ => 0)

/-- `DRXFrameBuffer.get_max_frames` (buffer.py:492-507): ids in nested-loop order. -/
def drxIds (beams tunes pols : List Nat) : List (Nat × Nat × Nat) :=
  beams.flatMap (fun b => tunes.flatMap (fun t => pols.map (fun p => (b, t, p))))

/-- `DRXFrameBuffer` (and `DRX8FrameBuffer`): buffer.py:444-644.  The id of a fill frame is the id
that was asked for (for values in range: `C04_id_roundtrip`). -/
def drxCfg (beams tunes pols : List Nat) (nseg : Nat) (reorder : Bool) :
    Cfg (Nat × Nat × Nat) (Nat × Nat × Nat) Payload :=
  { nseg := nseg, nFrames := beams.length * tunes.length * pols.length
    possible := drxIds beams tunes pols
    fillDid := fun k _ => k, zero := zeroP
    rank := if reorder then some (fun f => rank3 f.did) else none }

/-- The guard the DRX buffers put in `done[0]` (buffer.py:491, 595). -/
def drxGuard : Int := 61849368000000000

/-- `CORFrameBuffer.get_max_frames` (buffer.py:683-700). -/
def corIds (stands chans : List Nat) : List (Nat × Nat × Nat) :=
  stands.flatMap (fun a => (stands.filter (fun b => decide (a ≤ b))).flatMap
    (fun b => chans.map (fun c => (a, b, c))))

/-- `CORFrameBuffer` (buffer.py:647-731).  `stands` is `1..256` in the code; it is a parameter
here.  The duplicate test and the sort use `frame.id = (stand0, stand1)`. -/
def corCfg (stands chans : List Nat) (nseg : Nat) (reorder : Bool) :
    Cfg (Nat × Nat × Nat) (Nat × Nat) Payload :=
  { nseg := nseg, nFrames := stands.length * (stands.length + 1) / 2 * chans.length
    possible := corIds stands chans
    fillDid := fun k _ => (k.1, k.2.1), zero := zeroP
    rank := if reorder then some (fun f => rank2 f.did) else none }

/-- `VDIFFrameBuffer` (buffer.py:734-798): missing frames by thread, duplicates and sort by
`(station, thread)`. -/
def vdifCfg (threads : List Nat) (nseg : Nat) (reorder : Bool) : Cfg Nat (Nat × Nat) Payload :=
  { nseg := nseg, nFrames := threads.length, possible := threads
    fillDid := fun k d => (d.1, k), zero := zeroP
    rank := if reorder then some (fun f => rank2 f.did) else none }

/-- `TBXFrameBuffer` (buffer.py:801-885): everything by first channel. -/
def tbxCfg (chans : List Nat) (nseg : Nat) (reorder : Bool) : Cfg Nat Nat Payload :=
  { nseg := nseg, nFrames := chans.length, possible := chans
    fillDid := fun k _ => k, zero := zeroP
    rank := if reorder then some (fun f => (f.did : Int)) else none }

end Verif.Buffer
