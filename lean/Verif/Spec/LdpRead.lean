import Verif.Model.LdpRead
/-!
# What reading a regular DRX file should give (specification for C40)

A regular file is a list of frames of one beam.  Time steps are numbered `0, 1, 2, ...`, step `k` having the
time tag `t0 + k * skip`.  Frames may be missing, but a step has at least one frame, and frames may be late.
-/
namespace Verif.Ldp
open Verif.Buffer

/-- Time tag of step `k`. -/
def tagOf (t0 skip : Int) (k : Nat) : Int := t0 + skip * k

/-- When `m` steps have begun, the next frame begins step `m` or belongs to one of the last `w - 1` steps
that have begun. -/
def InOrder (w : Nat) (t0 skip : Int) : Nat → List F → Prop
  | _, [] => True
  | m, f :: l => ∃ k, f.fom = tagOf t0 skip k ∧ k ≤ m ∧ m < k + w ∧
      InOrder w t0 skip (if k = m then m + 1 else m) l

/-- The number of steps in a file. -/
def stepCount (t0 skip : Int) : Nat → List F → Nat
  | m, [] => m
  | m, f :: l => stepCount t0 skip (if f.fom = tagOf t0 skip m then m + 1 else m) l

/-- No frame is repeated, all are of the given ids and have `len` values. -/
structure Regular (possible : List Id) (w len : Nat) (t0 skip : Int) (fs : List F) : Prop where
  nodup : (fs.map (fun f => (f.fom, f.mid))).Nodup
  real : ∀ f ∈ fs, f.fill = false
  known : ∀ f ∈ fs, f.mid ∈ possible
  same : ∀ f ∈ fs, f.body.length = len
  order : InOrder w t0 skip 0 fs
  nonempty : fs ≠ []

/-- Content of the file for step `k` and id `x`; zeros when the frame is missing. -/
def content (t0 skip : Int) (len : Nat) (fs : List F) (k : Nat) (x : Id) : Payload :=
  match fs.find? (fun f => decide (f.fom = tagOf t0 skip k ∧ f.mid = x)) with
  | some f => f.body
  | none => List.replicate len 0

/-- Tuning 1 X, tuning 1 Y, tuning 2 X, tuning 2 Y: the row of an id. -/
def rowNumber (x : Id) : Nat := 2 * (x.2.1 - 1) + x.2.2

/-- The steps `a, ..., a + n - 1` of the file in the form `read` returns. -/
def chunk (possible : List Id) (t0 skip : Int) (len : Nat) (fs : List F) (a n : Nat) : Out where
  nsets := n
  setTime := some (tagOf t0 skip a)
  rows := fun r => match possible.find? (fun x => decide (rowNumber x = r)) with
    | none => []
    | some x => (List.range' a n).map (fun k => content t0 skip len fs k x)

/-- The results of calls asking for the given numbers of frame sets, after `a` steps of `total`: the next
steps, as many as asked for or left, and `EOFError` when there are none. -/
def expected (chunkOf : Nat → Nat → Out) (total : Nat) : List Nat → Nat → List (Except Err Out)
  | [], _ => []
  | fc :: fcs, a =>
    if a < total then .ok (chunkOf a (min fc (total - a))) :: expected chunkOf total fcs (a + min fc (total - a))
    else .error .eof :: expected chunkOf total fcs a

end Verif.Ldp
