import Verif.Model.CStruct
/-!
# Session, observation and command files: /repo/lsl/common/metabundle.py:29-183
-/
namespace Verif.ObsFile
open CStruct

/-- `SSF_STRUCT`, mcs.py:243-277. -/
def ssf : List Field := [⟨"FORMAT_VERSION", 2, 1⟩, ⟨"PROJECT_ID", 1, 9⟩, ⟨"SESSION_ID", 4, 1⟩, ⟨"SESSION_CRA", 2, 1⟩,
  ⟨"SESSION_DRX_BEAM", 2, 1⟩, ⟨"SESSION_SPC", 1, 32⟩, ⟨"SESSION_START_MJD", 8, 1⟩, ⟨"SESSION_START_MPM", 8, 1⟩,
  ⟨"SESSION_DUR", 8, 1⟩, ⟨"SESSION_NOBS", 4, 1⟩, ⟨"SESSION_MRP_ASP", 2, 1⟩, ⟨"SESSION_MRP_NDP", 2, 1⟩,
  ⟨"SESSION_MRP_DR1", 2, 1⟩, ⟨"SESSION_MRP_DR2", 2, 1⟩, ⟨"SESSION_MRP_DR3", 2, 1⟩, ⟨"SESSION_MRP_DR4", 2, 1⟩,
  ⟨"SESSION_MRP_DR5", 2, 1⟩, ⟨"SESSION_MRP_SHL", 2, 1⟩, ⟨"SESSION_MRP_MCS", 2, 1⟩, ⟨"SESSION_MUP_ASP", 2, 1⟩,
  ⟨"SESSION_MUP_NDP", 2, 1⟩, ⟨"SESSION_MUP_DR1", 2, 1⟩, ⟨"SESSION_MUP_DR2", 2, 1⟩, ⟨"SESSION_MUP_DR3", 2, 1⟩,
  ⟨"SESSION_MUP_DR4", 2, 1⟩, ⟨"SESSION_MUP_DR5", 2, 1⟩, ⟨"SESSION_MUP_SHL", 2, 1⟩, ⟨"SESSION_MUP_MCS", 2, 1⟩,
  ⟨"SESSION_LOG_SCH", 1, 1⟩, ⟨"SESSION_LOG_EXE", 1, 1⟩, ⟨"SESSION_INC_SMIB", 1, 1⟩, ⟨"SESSION_INC_DES", 1, 1⟩]

/-- `OSF_STRUCT`, mcs.py:280-300. -/
def osf : List Field := [⟨"FORMAT_VERSION", 2, 1⟩, ⟨"PROJECT_ID", 1, 9⟩, ⟨"SESSION_ID", 4, 1⟩, ⟨"SESSION_DRX_BEAM", 2, 1⟩,
  ⟨"SESSION_SPC", 1, 32⟩, ⟨"OBS_ID", 4, 1⟩, ⟨"OBS_START_MJD", 8, 1⟩, ⟨"OBS_START_MPM", 8, 1⟩, ⟨"OBS_DUR", 8, 1⟩,
  ⟨"OBS_MODE", 2, 1⟩, ⟨"OBS_BDM", 1, 32⟩, ⟨"OBS_RA", 4, 1⟩, ⟨"OBS_DEC", 4, 1⟩, ⟨"OBS_B", 2, 1⟩, ⟨"OBS_FREQ1", 4, 1⟩,
  ⟨"OBS_FREQ2", 4, 1⟩, ⟨"OBS_BW", 2, 1⟩, ⟨"OBS_STP_N", 4, 1⟩, ⟨"OBS_STP_RADEC", 2, 1⟩]

/-- `OSFS_STRUCT`, mcs.py:303-310. -/
def osfs : List Field := [⟨"OBS_STP_C1", 4, 1⟩, ⟨"OBS_STP_C2", 4, 1⟩, ⟨"OBS_STP_T", 4, 1⟩, ⟨"OBS_STP_FREQ1", 4, 1⟩,
  ⟨"OBS_STP_FREQ2", 4, 1⟩, ⟨"OBS_STP_B", 2, 1⟩]

/-- `BEAM_STRUCT`, mcs.py:312-315 (`LWA_MAX_NSTD` = 256). -/
def beamS : List Field := [⟨"OBS_BEAM_DELAY", 2, 512⟩, ⟨"OBS_BEAM_GAIN", 2, 1024⟩]

/-- `OSF2_STRUCT`, mcs.py:318-327. -/
def osf2 : List Field := [⟨"OBS_FEE", 2, 512⟩, ⟨"OBS_ASP_FLT", 2, 256⟩, ⟨"OBS_ASP_AT1", 2, 256⟩, ⟨"OBS_ASP_AT2", 2, 256⟩,
  ⟨"OBS_ASP_AT3", 2, 256⟩, ⟨"OBS_TBT_SAMPLES", 4, 1⟩, ⟨"OBS_DRX_GAIN", 2, 1⟩, ⟨"alignment", 4, 1⟩]

/-- The structure of one word, metabundle.py:100-102. -/
def blockS : List Field := [⟨"block", 4, 1⟩]

/-- The structure of a command, metabundle.py:143-149. -/
def actionS : List Field := [⟨"tv", 8, 2⟩, ⟨"bASAP", 4, 1⟩, ⟨"sid", 4, 1⟩, ⟨"cid", 4, 1⟩, ⟨"len", 4, 1⟩]

/-- A step: its structure, and that of its beam if it has one. -/
structure Step where
  step : Bytes
  beam : Option Bytes
  deriving DecidableEq

/-- The three structures an observation is built from.  The conversion of their fields to the values of the
dictionary (metabundle.py:113-128) is not modelled. -/
structure Obs where
  header : Bytes
  steps : List Step
  footer : Bytes
  deriving DecidableEq

inductive Err
  | tooManySteps
  | alignmentLost
  | unknownSubsystem
  | unknownCommand
  | wrongBackend
  deriving DecidableEq

/-- `bheader.OBS_STP_N`. -/
def stpN (header : Bytes) : Nat := getU header (offsetOf osf "OBS_STP_N") 4
/-- `bstep.OBS_STP_B`. -/
def stpB (step : Bytes) : Nat := getU step (offsetOf osfs "OBS_STP_B") 2
/-- `bfooter.alignment`. -/
def footerWord (footer : Bytes) : Nat := getU footer (offsetOf osf2 "alignment") 4

/-- The loop over the steps, metabundle.py:87-106.  The step and beam structures are the same objects in all
turns, the one for the word is new in each. -/
def stepLoop : Nat → Bytes → Bytes → Bytes → Except Err (List Step × Bytes)
  | 0, _, _, rest => .ok ([], rest)
  | n + 1, bstep, bbeam, rest =>
    let r1 := readinto bstep rest
    let r2 := if stpB r1.1 = 3 then readinto bbeam r1.2 else (bbeam, r1.2)
    let r3 := readinto (fresh blockS) r2.2
    if getU r3.1 0 4 ≠ 2 ^ 32 - 2 then .error .alignmentLost
    else
      match stepLoop n r1.1 r2.1 r3.2 with
      | .error e => .error e
      | .ok (l, rest') => .ok (⟨r1.1, if stpB r1.1 = 3 then some r2.1 else none⟩ :: l, rest')

/-- `read_obs_file`, metabundle.py:64-130 (`MAX_STP_N` = 1024). -/
def readObs (file : Bytes) : Except Err Obs :=
  let r1 := readinto (fresh osf) file
  if 1024 < stpN r1.1 then .error .tooManySteps
  else
    match stepLoop (stpN r1.1) (fresh osfs) (fresh beamS) r1.2 with
    | .error e => .error e
    | .ok (steps, rest) =>
      let r4 := readinto (fresh osf2) rest
      if footerWord r4.1 ≠ 2 ^ 32 - 1 then .error .alignmentLost
      else .ok ⟨r1.1, steps, r4.1⟩

/-- `read_ses_file`, metabundle.py:29-61: the structure; its fields are returned as they are. -/
def readSes (file : Bytes) : Bytes := (readinto (fresh ssf) file).1

/-- A command of a command script. -/
structure Cmd where
  tv0 : Int
  tv1 : Int
  asap : Bool
  sid : Int
  cid : Int
  len : Int
  data : Option Bytes
  deriving DecidableEq

/-- Reading a `char` array of a ctypes structure: the bytes before the first NUL. -/
def cChars (l : Bytes) : Bytes := l.takeWhile (· ≠ 0)

/-- The members of `SubsystemID` and `CommandID`, mcs.py:685-704, 712-757. -/
def knownSid (n : Int) : Bool := decide (1 ≤ n ∧ n ≤ 20)
def knownCid (n : Int) : Bool := decide (0 ≤ n ∧ n ≤ 45)

/-- The command described by an action structure. -/
def mkCmd (a : Bytes) (data : Option Bytes) : Cmd :=
  { tv0 := getS a 0 8, tv1 := getS a 8 8, asap := getS a 16 4 != 0, sid := getS a 20 4,
    cid := getS a 24 4, len := getS a 28 4, data := data }

/-- The loop of `read_cs_file`, metabundle.py:142-181.  Every turn that goes on takes at least a byte, so
as many turns as bytes, and one more, are enough (`csLoop_fuel`).  The `IOError` of a length above 256 is
caught by the loop itself and ends it. -/
def csLoop : Nat → Bytes → Except Err (List Cmd)
  | 0, _ => .ok []
  | fuel + 1, file =>
    let r := readinto (fresh actionS) file
    let a := r.1
    if getS a 0 8 = 0 then .ok []
    else if 256 < getS a 28 4 then .ok []
    else
      let d := if 0 < getS a 28 4 then readinto (List.replicate (getS a 28 4).toNat 0) r.2 else ([], r.2)
      let c := mkCmd a (if 0 < getS a 28 4 then some (cChars d.1) else none)
      if knownSid c.sid = false then .error .unknownSubsystem
      else if knownCid c.cid = false then .error .unknownCommand
      else if c.sid = 13 then .error .wrongBackend
      else if c.sid = 19 then .error .wrongBackend
      else
        match csLoop fuel d.2 with
        | .error e => .error e
        | .ok l => .ok (c :: l)

/-- `read_cs_file`. -/
def readCs (file : Bytes) : Except Err (List Cmd) := csLoop (file.length + 1) file

end Verif.ObsFile
