import Verif.Model.ObsFile
/-!
# The files as they are written (MCS0030, sections 5 and 6)
-/
namespace Verif.ObsFile.Spec
open Verif.ObsFile

/-- A little-endian value of a block of bytes. -/
def at' (b : Bytes) (off w : Nat) : Nat := leDec ((b.drop off).take w)

/-- A well-formed observation: structures of their sizes, the number of steps in the header, a beam exactly for
the steps of beam type 3, and the closing word in the footer. -/
def Wf (o : Obs) : Prop :=
  o.header.length = 152 ∧ o.footer.length = 3084 ∧ at' o.header 140 4 = o.steps.length ∧ o.steps.length ≤ 1024 ∧
  at' o.footer 3080 4 = 4294967295 ∧
  ∀ s ∈ o.steps, s.step.length = 24 ∧ (s.beam.isSome ↔ at' s.step 20 2 = 3) ∧ ∀ b, s.beam = some b → b.length = 3072

/-- The bytes of a step: structure, beam, and the word `2^32-2`. -/
def encStep (s : Step) : Bytes := s.step ++ s.beam.getD [] ++ [254, 255, 255, 255]

/-- The file of an observation. -/
def enc (o : Obs) : Bytes := o.header ++ o.steps.flatMap encStep ++ o.footer

/-- A signed little-endian value. -/
def sat (b : Bytes) (off w : Nat) : Int :=
  if at' b off w < 2 ^ (8 * w - 1) then (at' b off w : Int) else (at' b off w : Int) - (2 ^ (8 * w) : Nat)

/-- A record of a command script: 32 bytes and the data of the command. -/
structure Rec where
  act : Bytes
  data : Bytes

/-- A record as written: a time that is not zero, a subsystem and a command of the lists other than DP and ADP,
and as many bytes of data as the length says, at most 256. -/
def RecWf (r : Rec) : Prop :=
  r.act.length = 32 ∧ sat r.act 0 8 ≠ 0 ∧ (1 ≤ sat r.act 20 4 ∧ sat r.act 20 4 ≤ 20) ∧ sat r.act 20 4 ≠ 13 ∧
  sat r.act 20 4 ≠ 19 ∧ (0 ≤ sat r.act 24 4 ∧ sat r.act 24 4 ≤ 45) ∧ sat r.act 28 4 = r.data.length ∧
  r.data.length ≤ 256

/-- Bytes of a script. -/
def encRec (r : Rec) : Bytes := r.act ++ r.data

/-- The command of a record: data without those from the first zero byte on. -/
def cmdOf (r : Rec) : Cmd :=
  { tv0 := sat r.act 0 8, tv1 := sat r.act 8 8, asap := sat r.act 16 4 != 0, sid := sat r.act 20 4,
    cid := sat r.act 24 4, len := r.data.length,
    data := if r.data = [] then none else some (r.data.takeWhile (· ≠ 0)) }

end Verif.ObsFile.Spec
