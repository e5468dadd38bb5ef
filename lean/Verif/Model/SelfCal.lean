import Mathlib.Analysis.SpecialFunctions.Complex.Arg
import Mathlib.Analysis.SpecialFunctions.Log.Basic
/-!
# Self-calibration

/repo/lsl/imaging/selfcal.py.  Floats are idealised to real and complex numbers.  Visibilities are by baseline and channel.  The
least squares of NumPy and the robust mean are given; visibilities of zero, which make values that are not finite, the
regularisation and the exception for a maximum of nothing are left out.
-/
namespace Verif.SelfCal

open Finset Classical

/-- The data set, the channels used and the array: the baselines are pairs of indices of antennas. -/
structure Sys where
  /-- the number of antennas -/
  n : ℕ
  /-- the number of baselines -/
  nb : ℕ
  /-- the baselines -/
  bl : ℕ → ℕ × ℕ
  /-- all frequencies -/
  freq : ℕ → ℝ
  /-- the number of channels used -/
  nf : ℕ
  /-- the channels used -/
  chan : ℕ → ℕ

/-- The index of the reference antenna, selfcal.py lines 286-302: zero is an index, and anything else the number of a stand. -/
def refIndex (stands : List ℕ) (ref : ℕ) : Option ℕ :=
  if ref ≠ 0 then
    stands.zipIdx.foldl (fun r p => if ref = p.1 then some p.2 else r) none
  else some 0

/-- Visibilities. -/
abbrev Vis := ℕ → ℕ → ℂ

/-- The complex gain of an antenna, selfcal.py line 51. -/
noncomputable def cgain (S : Sys) (amps delays phases : ℕ → ℝ) (a c : ℕ) : ℂ :=
  amps a * Complex.exp (2 * Complex.I * Real.pi * (S.freq c / 10 ^ 9 : ℝ) * delays a + Complex.I * phases a)

/-- `_scale_data(dataSet, amps, delays, phase_offsets)`, selfcal.py lines 36-58, for one polarization. -/
noncomputable def scale (S : Sys) (d : Vis) (amps delays phases : ℕ → ℝ) : Vis := fun b c =>
  d b c * ((starRingEnd ℂ) (cgain S amps delays phases (S.bl b).2 c) * cgain S amps delays phases (S.bl b).1 c)

/-- A row of `_build_amplitude_a`, selfcal.py lines 73-76. -/
noncomputable def ampRow (S : Sys) (b : ℕ) : ℕ → ℝ := Function.update (Function.update (fun _ => 0) (S.bl b).1 1) (S.bl b).2 1

/-- `_build_amplitude_c`, selfcal.py lines 81-112, with the mean over the channels used. -/
noncomputable def ampC (S : Sys) (mean : List ℝ → ℝ) (sim obs : Vis) (b : ℕ) : ℝ :=
  mean ((List.range S.nf).map fun i => Real.log ‖sim b (S.chan i) / obs b (S.chan i)‖)

/-- One assignment of selfcal.py lines 131-143: the column of an antenna, that of the reference being left out. -/
noncomputable def setCol (ref a : ℕ) (v : ℝ) (row : ℕ → ℝ) : ℕ → ℝ :=
  if a < ref then Function.update row a v else if ref < a then Function.update row (a - 1) v else row

/-- A row of `_build_phase_a` and `_build_delay_a`, selfcal.py lines 128-145 and 193-210. -/
noncomputable def row (S : Sys) (ref r : ℕ) : ℕ → ℝ :=
  setCol ref (S.bl (r % S.nb)).2 (-1) (setCol ref (S.bl (r % S.nb)).1 1 fun _ => 0)

/-- `_build_phase_c`, selfcal.py lines 148-178: channel after channel. -/
noncomputable def phaseC (S : Sys) (sim obs : Vis) (r : ℕ) : ℝ :=
  Complex.arg (sim (r % S.nb) (S.chan (r / S.nb)) / obs (r % S.nb) (S.chan (r / S.nb)))

/-- `_build_delay_c`, selfcal.py lines 213-242. -/
noncomputable def delayC (S : Sys) (sim obs : Vis) (r : ℕ) : ℝ :=
  phaseC S sim obs r / (2 * Real.pi * (S.freq (S.chan (r / S.nb)) / 10 ^ 9))

/-- `np.linalg.lstsq`: from the numbers of rows and columns, the matrix and the right side. -/
abbrev Solver := ℕ → ℕ → (ℕ → ℕ → ℝ) → (ℕ → ℝ) → ℕ → ℝ

/-- `list.insert(ref_ant, 0.0)`, selfcal.py line 376. -/
def insertZero (ref : ℕ) (x : ℕ → ℝ) (a : ℕ) : ℝ := if a < ref then x a else if a = ref then 0 else x (a - 1)

/-- The phases that fit best, selfcal.py lines 358-377. -/
noncomputable def fitPhase (S : Sys) (lsq : Solver) (ref : ℕ) (sim obs : Vis) : ℕ → ℝ :=
  insertZero ref (lsq (S.nb * S.nf) (S.n - 1) (row S ref) (phaseC S sim obs))

/-- The delays that fit best, selfcal.py lines 392-411. -/
noncomputable def fitDelay (S : Sys) (lsq : Solver) (ref : ℕ) (sim obs : Vis) : ℕ → ℝ :=
  insertZero ref (lsq (S.nb * S.nf) (S.n - 1) (row S ref) (delayC S sim obs))

/-- The gains that fit best, selfcal.py lines 324-340. -/
noncomputable def fitGain (S : Sys) (lsq : Solver) (mean : List ℝ → ℝ) (sim obs : Vis) (a : ℕ) : ℝ :=
  Real.exp (lsq S.nb S.n (ampRow S) (ampC S mean sim obs) a)

/-- The test of a metric: the largest of those below a million is below the cut-off, selfcal.py lines 343-346 and 380-383. -/
def below (n : ℕ) (cutoff : ℝ) (x : ℕ → ℝ) : Prop := ∀ a < n, |x a| < 10 ^ 6 → |x a| < cutoff

/-- What is solved for besides the amplitudes. -/
inductive Mode
  | phase
  | delay
  | both

/-- The options. -/
structure Opts where
  amplitude : Bool
  mode : Mode
  gain : ℝ
  ampCut : ℝ
  phaseCut : ℝ
  delayCut : ℝ

/-- The state between passes. -/
structure St where
  gains : ℕ → ℝ
  delays : ℕ → ℝ
  phases : ℕ → ℝ
  data : Vis
  converged : Bool

/-- The amplitudes of a pass, selfcal.py lines 321-350. -/
noncomputable def ampPass (S : Sys) (lsq : Solver) (mean : List ℝ → ℝ) (o : Opts) (sim orig : Vis) (s : St) : St :=
  let best := fitGain S lsq mean sim s.data
  let gains := fun a => s.gains a * best a
  { s with
    gains := gains
    converged := s.converged || decide (below S.n o.ampCut best)
    data := scale S orig gains (fun _ => 0) (fun _ => 0) }

/-- The rest of a pass, selfcal.py lines 355-482. -/
noncomputable def modePass (S : Sys) (lsq : Solver) (ref : ℕ) (o : Opts) (sim orig : Vis) (s : St) : St :=
  match o.mode with
  | .phase =>
    let best := fitPhase S lsq ref sim s.data
    let phases := fun a => s.phases a + o.gain * best a
    { s with
      phases := phases
      converged := s.converged || decide (below S.n o.phaseCut best)
      data := scale S orig (fun _ => 1) (fun _ => 0) phases }
  | .delay =>
    let best := fitDelay S lsq ref sim s.data
    let delays := fun a => s.delays a + o.gain * best a
    { s with
      delays := delays
      converged := s.converged || decide (below S.n o.delayCut best)
      data := scale S orig (fun _ => 1) delays (fun _ => 0) }
  | .both =>
    let best := fitDelay S lsq ref sim s.data
    let delays := fun a => s.delays a + o.gain * best a
    let best2 := fitPhase S lsq ref sim (scale S orig (fun _ => 1) delays s.phases)
    let phases := fun a => s.phases a + 1 / 2 * best2 a
    { s with
      delays := delays
      phases := phases
      converged := s.converged || decide ((∀ a < S.n, |best a| < 10 ^ 6 → |best2 a| < 10 ^ 6 → |best a| < o.delayCut) ∧
        ∀ a < S.n, |best a| < 10 ^ 6 → |best2 a| < 10 ^ 6 → |best2 a| < o.phaseCut)
      data := scale S orig (fun _ => 1) delays phases }

/-- One pass. -/
noncomputable def pass (S : Sys) (lsq : Solver) (mean : List ℝ → ℝ) (ref : ℕ) (o : Opts) (sim orig : Vis) (s : St) : St :=
  modePass S lsq ref o sim orig (if o.amplitude then ampPass S lsq mean o sim orig s else s)

/-- The loop, selfcal.py lines 314-485, with the passes left. -/
noncomputable def loop (S : Sys) (lsq : Solver) (mean : List ℝ → ℝ) (ref : ℕ) (o : Opts) (sim orig : Vis) : ℕ → St → St
  | 0, s => s
  | k + 1, s => if s.converged then s else loop S lsq mean ref o sim orig k (pass S lsq mean ref o sim orig s)

/-- The state at the start, selfcal.py lines 308-313. -/
def start (orig : Vis) : St := ⟨fun _ => 1, fun _ => 0, fun _ => 0, orig, false⟩

/-- The remainder that `%` has for a positive divisor. -/
noncomputable def fmod (x m : ℝ) : ℝ := x - m * ⌊x / m⌋

/-- The phases into a turn, selfcal.py lines 494-495. -/
noncomputable def wrap (p : ℝ) : ℝ :=
  if Real.pi < fmod p (2 * Real.pi) then fmod p (2 * Real.pi) - 2 * Real.pi else fmod p (2 * Real.pi)

/-- `_self_cal`, selfcal.py lines 245-509: data, gains, delays, phases and whether it converged. -/
noncomputable def selfCal (S : Sys) (lsq : Solver) (mean : List ℝ → ℝ) (ref : ℕ) (o : Opts) (sim orig : Vis) (maxIter : ℕ) : St :=
  let s := loop S lsq mean ref o sim orig maxIter (start orig)
  { s with phases := fun a => wrap (s.phases a) }

end Verif.SelfCal
