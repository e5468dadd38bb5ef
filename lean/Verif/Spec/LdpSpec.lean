import Verif.Model.LdpSpec
import Verif.Props.Drspec
/-!
# What a spectrometer file holds
-/
namespace Verif.LdpSpec.Spec

open Verif Verif.Drspec

/-- A frame: its header and its block. -/
abbrev Rec := Header × Bytes

def Rec.bytes (r : Rec) : Bytes := (wire r.1 r.2).flatten

def bytes (l : List Rec) : Bytes := l.flatMap Rec.bytes

/-- Time in ticks. -/
def Rec.time (r : Rec) : Int := (r.1.timeTag : Int) - r.1.timeOffset

/-- What all frames of an observation have in common. -/
structure Kind where
  fmt : Nat
  n : Nat
  dec : Nat
  nInts : Nat

/-- Number of products. -/
def Kind.m (k : Kind) : Nat := (Drspec.products k.fmt).length

def Kind.size (k : Kind) : Nat := 76 + 8 * k.m * k.n

/-- Duration of a frame in ticks. -/
def Kind.tint (k : Kind) : Nat := k.nInts * k.n * k.dec

structure Kind.Has (k : Kind) (r : Rec) : Prop where
  ok : r.1.Ok
  fmt : r.1.fmt = k.fmt
  n : r.1.nFreqs = k.n
  dec : r.1.decFactor = k.dec
  nInts : r.1.nInts = k.nInts
  block : r.2.length = 8 * k.m * k.n

structure Kind.Ok (k : Kind) : Prop where
  fmt : k.fmt ∈ recorded
  dec : k.dec ≠ 0
  tint : k.tint ≠ 0

/-- The values of a frame: tunings, then products, then channels. -/
def Rec.rows (r : Rec) : List (List Cell) :=
  [0, 1].flatMap fun t => (List.range (Drspec.products r.1.fmt).length).map fun j => (List.range r.1.nFreqs).map fun i =>
    some ((floats r.2)[place (Drspec.products r.1.fmt).length r.1.nFreqs t i j]?,
      r.1.nFreqs * (inputs r.1 ((Drspec.products r.1.fmt)[j]?.getD 0) t).min?.getD 0 % 2 ^ 32)

/-- No frame is later than a thousandth more than one integration after the one before. -/
def Steady (tint : Nat) : Int → List Rec → Prop
  | _, [] => True
  | t, r :: l => 1000 * r.time ≤ 1000 * t + 1001 * tint ∧ Steady tint r.time l

/-- Frames follow each other without gaps. -/
def Regular (tint : Nat) : Int → List Rec → Prop
  | _, [] => True
  | t, r :: l => r.time = t + tint ∧ Regular tint r.time l

/-- A list in pieces of `c`. -/
def chunks (c : Nat) (l : List Rec) : List (List Rec) :=
  if _h : l = [] ∨ c = 0 then [] else l.take c :: chunks c (l.drop c)
termination_by l.length
decreasing_by
  have : 0 < l.length := List.length_pos_iff.mpr fun e => _h (.inl e)
  have : c ≠ 0 := fun e => _h (.inr e)
  rw [List.length_drop]
  omega

/-- The description of a file. -/
def Kind.desc (k : Kind) (size : Nat) (r : Rec) : Desc :=
  { size := size, nframe := size / k.size, frameSize := k.size, lfft := k.n, nint := k.nInts, tint := k.tint, beam := r.1.beam, start := r.time,
    freq := r.1.freqCode, products := Drspec.products k.fmt }

end Verif.LdpSpec.Spec
