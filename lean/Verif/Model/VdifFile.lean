import Verif.Spec.VdifFile
import Verif.Model.Ionex
/-!
# VDIF files: /repo/lsl/reader/vdif.py

Simplifications: for the counts a file is the list of the frames `read_frame` gives; frames that raise `SyncError` are skipped and do not
count (lines 489-491, 523-525, 541-543).  Numbers are exact.
-/
namespace Verif.Vdif

/-! ## Counts, lines 471-598 -/

/-- `if x not in l: l.append(x)`. -/
def addNew (l : List Nat) (x : Nat) : List Nat := if x ∈ l then l else l ++ [x]

/-- `get_thread_count`, lines 484-501. -/
def threadCount (fs : List Fr) : Nat := (((fs.take 1024).map (·.thread)).foldl addNew []).length

def upd (f : Nat → Option Nat) (k v : Nat) : Nat → Option Nat := fun x => if x = k then some v else f x

/-- The dictionaries `ref` and `cur` (its keys in the order of insertion) and the list `fnd`. -/
structure Cnt where
  ref : Nat → Option Nat
  keys : List Nat
  cur : Nat → Option Nat
  fnd : List Nat

/-- Lines 518-532. -/
def refOf (n : Nat) (fs : List Fr) : Nat → Option Nat := (fs.take n).foldl (fun r f => upd r f.thread f.sec) fun _ => none

/-- Lines 547-560; `none` is `KeyError`. -/
def seen (s : Cnt) (f : Fr) : Option Cnt :=
  match s.ref f.thread with
  | none => none
  | some c =>
    if f.sec = c then some { s with keys := addNew s.keys f.thread, cur := upd s.cur f.thread f.num }
    else some { s with ref := upd s.ref f.thread f.sec, fnd := addNew s.fnd f.thread }

/-- Lines 537-563. -/
def watch (n : Nat) : List Fr → Cnt → Option Cnt
  | [], s => some s
  | f :: l, s =>
    match seen s f with
    | none => none
    | some s' => if s'.fnd.length = n then some s' else watch n l s'

/-- `mode[value] += 1`, lines 566-571. -/
def bump (m : List (Nat × Nat)) (v : Nat) : List (Nat × Nat) :=
  match m with
  | [] => [(v, 1)]
  | (k, c) :: l => if k = v then (k, c + 1) :: l else (k, c) :: bump l v

/-- Lines 572-576: the value, and how often it is there. -/
def bestOf (m : List (Nat × Nat)) : Nat × Nat := m.foldl (fun b x => if b.2 < x.2 then x else b) (0, 0)

/-- `get_frames_per_second`, lines 504-580. -/
def framesPerSecond (fs : List Fr) : Option Nat :=
  (watch (threadCount fs) (fs.drop (threadCount fs)) ⟨refOf (threadCount fs) fs, [], fun _ => none, []⟩).map fun s =>
    (bestOf ((s.keys.filterMap s.cur).foldl bump [])).1 + 1

/-- `get_sample_rate`, lines 583-598; `samples` are those of a frame. -/
def sampleRate (samples : Nat) (fs : List Fr) : Option Nat := (framesPerSecond fs).map (samples * ·)

/-! ## Times within the second, lines 160-171 -/

/-- Samples of a frame, lines 163-166. -/
def nSamples (frameLength legacy bits nchan : Nat) (complex : Bool) : Nat :=
  (frameLength * 8 + 16 * legacy - 32) / 4 * (32 / bits) / nchan / (if complex then 2 else 1)

/-- Seconds of a frame after the whole second, lines 169-171. -/
def offset (rate : Rat) (samples num : Nat) : Rat := (num : Rat) / ((rate / (samples : Rat)).floor : Rat)

/-! ## Extended user data, lines 185-264 -/

inductive Ext
  | empty
  | nict (rate : Nat) (mhz : Bool) (sync name : Nat)
  | alma (sync pic serial : Nat)
  | nrao (rate : Nat) (mhz : Bool) (sync tuning dbe ifInput subband : Nat) (usb : Bool) (major minor personality : Nat)
  | haystack (sync years user tvg frame : Nat) (timecode : Rat) (valid : Bool)
  deriving DecidableEq

def nib (w k : Nat) : Nat := (w >>> k) &&& 0xF

/-- `_crcc`, lines 65-82. -/
def crccStep (data mask cycle : Nat) (state i : Nat) : Nat :=
  let s := if ((data >>> i) &&& 1) ^^^ (state &&& 1) = 0 then state - state % 2 else (state ^^^ mask) ||| i
  (s >>> 1) ||| ((s &&& 1) <<< (cycle - 1))
def crcc (data length mask cycle : Nat) : Nat := (List.range length).foldl (crccStep data mask cycle) 0

/-- Lines 242-254 and 258. -/
def timecode (w3 w4 : Nat) : Rat :=
  (nib w3 28 : Rat) * 10 ^ 7 + (nib w3 24 : Rat) * 10 ^ 6 + (nib w3 20 : Rat) * 10 ^ 5 + (nib w3 16 : Rat) * 10 ^ 4 + (nib w3 12 : Rat) * 10 ^ 3
    + (nib w3 8 : Rat) * 10 ^ 2 + (nib w3 4 : Rat) * 10 + (nib w3 0 : Rat)
    + (nib w4 28 : Rat) / 10 + (nib w4 24 : Rat) / 10 ^ 2 + (nib w4 20 : Rat) / 10 ^ 3 + (nib w4 16 : Rat) / 10 ^ 4 + (nib w4 8 : Rat) / 10 ^ 5

/-- Lines 255-256. -/
def crcf (w4 : Nat) : Nat := ((w4 &&& 0xFFFF &&& 0xF) <<< 8) ||| (((w4 &&& 0xFFFF) >>> 8) &&& 0xF)

/-- `extended_user_data`; `none` is `RuntimeError`. -/
def extended (w1 w2 w3 w4 : Nat) : Option Ext :=
  match (w1 >>> 24) &&& 0xFF with
  | 0x00 => some .empty
  | 0x01 => some (.nict (w1 &&& (2 ^ 23 - 1)) ((w1 >>> 23) &&& 1 == 1) w2 ((w4 <<< 32) ||| w3))
  | 0x02 => some (.alma (w1 &&& 0xFFFF) w2 ((w4 <<< 32) ||| w3))
  | 0x03 => some (.nrao (w1 &&& (2 ^ 23 - 1)) ((w1 >>> 23) &&& 1 == 1) w2 w3 ((w4 >>> 24) &&& 0xF) ((w4 >>> 20) &&& 0xF) ((w4 >>> 17) &&& 0x7)
      ((w4 >>> 16) &&& 1 == 1) ((w4 >>> 12) &&& 0xF) ((w4 >>> 8) &&& 0xF) (w4 &&& 0xFF))
  | 0xAB => some (.haystack w1 ((w2 >>> 28) &&& 0xF) ((w2 >>> 16) &&& 0xFFF) ((w2 >>> 15) &&& 1) (w2 &&& (2 ^ 14 - 1)) (timecode w3 w4)
      (crcc ((w3 <<< 16) ||| ((w3 >>> 16) &&& 0xFF)) 48 0o40003 16 == crcf w4))
  | _ => none

/-- Hertz of the rate, lines 143-144. -/
def rateHz : Ext → Option Nat
  | .nict r mhz _ _ => some (r * (if mhz then 1000000 else 1000))
  | .nrao r mhz _ _ _ _ _ _ _ _ _ => some (r * (if mhz then 1000000 else 1000))
  | _ => none

/-! ## GUPPI headers, lines 337-400 -/

abbrev Text := List Char

/-- `decode(encoding='ascii', errors='ignore')`; bytes are numbers. -/
def ascii (l : List Nat) : Text := (l.filter (· < 128)).map Char.ofNat

/-- `has_guppi_header`, lines 344-358. -/
def hasGuppi (l : List Nat) : Bool :=
  Ionex.contains "TELESCOP".toList (ascii (l.take 16384)) || Ionex.contains "END".toList (ascii (l.take 16384))
    || Ionex.contains "CONTINUE".toList (ascii (l.take 16384))

end Verif.Vdif
