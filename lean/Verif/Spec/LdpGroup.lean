import Verif.Model.LdpGroup
import Verif.Spec.LdpRead
/-!
# What reading a TBX or COR file should give (specification for C98)

As in C40 the time steps are numbered `0, 1, 2, ...`, step `k` having the time tag `t0 + k * skip`; frames may be
missing or late.
-/
namespace Verif.LdpGroup
open Verif.Buffer
open Verif.Ldp (tagOf)

variable {K D : Type} [DecidableEq K] [DecidableEq D]

/-- When `m` steps have begun, the next frame begins step `m` or belongs to one of the last `w - 1` steps
that have begun. -/
def InOrder (w : Nat) (t0 skip : Int) : Nat → List (Fr K D Payload) → Prop
  | _, [] => True
  | m, f :: l => ∃ k, f.fom = tagOf t0 skip k ∧ k ≤ m ∧ m < k + w ∧
      InOrder w t0 skip (if k = m then m + 1 else m) l

/-- The number of steps in a file. -/
def stepCount (t0 skip : Int) : Nat → List (Fr K D Payload) → Nat
  | m, [] => m
  | m, f :: l => stepCount t0 skip (if f.fom = tagOf t0 skip m then m + 1 else m) l

/-- No frame is repeated, all are of the given ids and have `len` values. -/
structure Regular (possible : List K) (w len : Nat) (t0 skip : Int) (fs : List (Fr K D Payload)) : Prop where
  nodup : (fs.map (fun f => (f.fom, f.mid))).Nodup
  real : ∀ f ∈ fs, f.fill = false
  known : ∀ f ∈ fs, f.mid ∈ possible
  same : ∀ f ∈ fs, f.body.length = len
  order : InOrder w t0 skip 0 fs
  nonempty : fs ≠ []

/-- Every step has a frame of every id. -/
def Complete (possible : List K) (t0 skip : Int) (fs : List (Fr K D Payload)) : Prop :=
  ∀ k, k < stepCount t0 skip 0 fs → ∀ x ∈ possible, ∃ f ∈ fs, f.fom = tagOf t0 skip k ∧ f.mid = x

/-- Content of the file for step `k` and id `x`; zeros when the frame is missing. -/
def content (t0 skip : Int) (len : Nat) (fs : List (Fr K D Payload)) (k : Nat) (x : K) : Payload :=
  match fs.find? (fun f => decide (f.fom = tagOf t0 skip k ∧ f.mid = x)) with
  | some f => f.body
  | none => List.replicate len 0

/-- The steps `a, ..., a + n - 1` of the file in the form `read` returns, `place` being where an id goes. -/
def chunk (place : K → Nat) (possible : List K) (t0 skip : Int) (len : Nat) (fs : List (Fr K D Payload)) (a n : Nat) :
    Out where
  nsets := n
  setTime := some (tagOf t0 skip a)
  rows := fun r => match possible.find? (fun x => decide (place x = r)) with
    | none => []
    | some x => (List.range' a n).map (fun k => content t0 skip len fs k x)

/-- The results of calls asking for the given numbers of steps (`none`: all), after `a` steps of `total`: the next
steps, as many as asked for or left, and `EOFError` when there are none. -/
def expected (chunkOf : Nat → Nat → Out) (total : Nat) : List (Option Nat) → Nat → List (Except Err Out)
  | [], _ => []
  | q :: qs, a =>
    let n := min (q.getD (total - a)) (total - a)
    if a < total then .ok (chunkOf a n) :: expected chunkOf total qs (a + n)
    else .error .eof :: expected chunkOf total qs a

/-- The frames among what is met in a file. -/
def framesOf : List (Item K D) → List (Fr K D Payload)
  | [] => []
  | .frame f :: l => f :: framesOf l
  | _ :: l => framesOf l

/-- No `SyncError` in the file. -/
def NoSync : List (Item K D) → Prop
  | [] => True
  | .sync :: _ => False
  | _ :: l => NoSync l

/-- After `ns` items that are not frames, no further `SyncError` comes when `limit` have been met without a frame in
between. -/
def Calm (limit : Nat) : Nat → List (Item K D) → Prop
  | _, [] => True
  | _, .frame _ :: l => Calm limit 0 l
  | ns, .other :: l => Calm limit (ns + 1) l
  | ns, .sync :: l => ns + 1 ≤ limit ∧ Calm limit (ns + 1) l

/-- Place of the baseline of the inputs `i ≤ j` of `n`, numbered from 1: the baselines of input 1, then those of 2, ... -/
def baselinePlace (n i j : Nat) : Nat := ((List.range (i - 1)).map (fun k => n - k)).sum + (j - i)

/-- Where the data of the baseline and channel go: by baseline, then by channel in increasing order. -/
def corPlace (n : Nat) (chans : List Nat) (x : Nat × Nat × Nat) : Nat :=
  baselinePlace n x.1 x.2.1 * chans.length + chans.idxOf x.2.2

/-- Consecutive pieces: every call gives the next steps, at least one and at most as many as asked for, and `EOFError`
when there are none. -/
def Pieces (chunkOf : Nat → Nat → Out) (total : Nat) : List (Option Nat) → List (Except Err Out) → Nat → Prop
  | [], [], _ => True
  | q :: qs, r :: rs, a =>
    (a < total ∧ ∃ n, 1 ≤ n ∧ n ≤ q.getD (total - a) ∧ a + n ≤ total ∧ r = .ok (chunkOf a n) ∧
      Pieces chunkOf total qs rs (a + n)) ∨ (a = total ∧ r = .error .eof ∧ Pieces chunkOf total qs rs a)
  | _, _, _ => False

end Verif.LdpGroup
