import Verif.Model.Bytes
/-!
# The file as it is written (MCS0031): C structures of a 64 bit machine one after the other
-/
namespace Verif.Sdm.Spec

/-- A signed number in two's complement, lowest byte first. -/
def encInt (w : Nat) (v : Int) : Bytes := leEnc w (v % (256 ^ w : Nat)).toNat

/-- It fits. -/
def Fits (w : Nat) (v : Int) : Prop := -(2 ^ (8 * w - 1) : Nat) ≤ v ∧ v < (2 ^ (8 * w - 1) : Nat)

def encInts (w : Nat) (l : List Int) : Bytes := l.flatMap (encInt w)

/-- The state of a subsystem: summary, text, and time in seconds and microseconds. -/
structure State where
  summary : Int
  info : Bytes
  sec : Int
  usec : Int

structure State.Wf (s : State) : Prop where
  summary : Fits 4 s.summary
  info : s.info.length ≤ 256
  text : ∀ b ∈ s.info, b ≠ 0
  sec : Fits 8 s.sec
  usec : Fits 8 s.usec

/-- Its bytes: the text is filled up with zeros, and four bytes of any value come before the time. -/
def State.enc (s : State) (gap : Bytes) : Bytes :=
  encInt 4 s.summary ++ (s.info ++ List.replicate (256 - s.info.length) 0) ++ gap ++ encInt 8 s.sec ++ encInt 8 s.usec

/-- The subsystems in the order of the file. -/
def order : List String := ["station", "shl", "asp", "ndp", "dr1", "dr2", "dr3", "dr4", "dr5"]

/-- What is in a file.  `parts` are the states of FEEs, RPDs, SEPs, ARX channels, SNAP inputs, servers and recorders; `ants`
those of the antennas and outputs; `rates` the reporting intervals of ASP, NDP, DR1 to DR5, SHL and MCS and then the update
intervals; `setup` FEE power, filters and the three attenuators. -/
structure Content where
  subs : List State
  parts : List (List Int)
  ants : List (List Int)
  outputs : List Int
  rates : List Int
  setup : List (List Int)
  gain : Int

structure Content.Wf (c : Content) : Prop where
  subs : c.subs.length = 9
  states : ∀ s ∈ c.subs, s.Wf
  parts : c.parts.map List.length = [256, 512, 512, 512, 1024, 5, 5]
  partsFit : ∀ l ∈ c.parts, ∀ v ∈ l, Fits 4 v
  ants : c.ants.length = 256
  pairs : ∀ r ∈ c.ants, r.length = 2
  antsFit : ∀ r ∈ c.ants, ∀ v ∈ r, Fits 4 v
  outputs : c.outputs.length = 5
  outputsFit : ∀ v ∈ c.outputs, Fits 4 v
  rates : c.rates.length = 18
  ratesFit : ∀ v ∈ c.rates, Fits 2 v
  setup : c.setup.map List.length = [256, 256, 256, 256, 256]
  setupFit : ∀ l ∈ c.setup, ∀ v ∈ l, Fits 2 v
  gain : Fits 2 c.gain

def Content.enc (c : Content) (gap : Bytes) : Bytes :=
  c.subs.flatMap (·.enc gap) ++ encInts 4 c.parts.flatten ++ encInts 4 (c.ants.flatten ++ c.outputs)
    ++ encInts 2 (c.rates ++ c.setup.flatten ++ [c.gain])

end Verif.Sdm.Spec
