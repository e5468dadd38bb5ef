import Verif.Model.Drx
/-!
# TBX reader with its process-wide cache: /repo/lsl/reader/tbx.cpp
-/
namespace Verif.Tbx

/-- Static variables, tbx.cpp:45-49: `cached_nstand`, `cached_nchan` and the python integer
`tbx_size` (`none` is NULL). -/
structure State where
  nstand : Nat
  nchan : Nat
  size : Option Nat
  deriving DecidableEq, Repr

/-- Values at load time. -/
def State.init : State := ⟨256, 16, none⟩

/-- Two's complement reading of an unsigned number (C casts; `Py_BuildValue("h", ...)` takes an `int`
argument, so 32 bits for the 32-bit `first_chan`). -/
def toSigned (bits n : Nat) : Int := if n < 2 ^ (bits - 1) then n else (n : Int) - 2 ^ bits

/-- Frame as stored by tbx.cpp:199-247; `data` in array order (channel, stand, polarisation). -/
structure Frame where
  frameId : Nat
  frameCount : Nat
  secondCount : Nat
  firstChan : Int
  nstand : Nat
  nchan : Nat
  timetag : Int
  data : List (Int × Int)
  deriving DecidableEq, Repr

/-- `frameSize`, tbx.cpp:58: header (20 bytes) + 8 + NCHAN*NSTAND*2. -/
def frameSize (m : Nat × Nat) : Nat := 28 + m.2 * m.1 * 2

/-- The mode changes that have a template instance, tbx.cpp:104-135. -/
def supported (m : Nat × Nat) : Bool :=
  (m.1 == 64 || m.1 == 128 || m.1 == 256) && (m.2 == 4 || m.2 == 8 || m.2 == 12 || m.2 == 16)

/-- Instance chosen for the cached values, tbx.cpp:253-296. -/
def dispatch (st : State) : Nat × Nat :=
  (if st.nstand = 64 then 64 else if st.nstand = 128 then 128 else 256,
   if st.nchan = 4 then 4 else if st.nchan = 8 then 8 else if st.nchan = 12 then 12 else 16)

/-- Fields of a complete frame, tbx.cpp:86-87, 156-180 (byte swaps; the table `tbxLUT` is built by
the same formula as `drxLUT`, gofast.cpp:45-55). -/
def decode (b : Bytes) : Frame where
  frameId := beDec (slice b 4 1)
  frameCount := beDec (slice b 5 3)
  secondCount := beDec (slice b 8 4)
  firstChan := toSigned 32 (beDec (slice b 12 4))
  nstand := beDec (slice b 16 2)
  nchan := beDec (slice b 18 2)
  timetag := toSigned 64 (beDec (slice b 20 8))
  data := Drx.decodeData (b.drop 28)

/-- `read_tbx_impl<NSTAND,NCHAN>`, tbx.cpp:51-248; `m` is (NSTAND, NCHAN).  The recursion of
tbx.cpp:102 has no bound in the code: `fuel` counts the nested calls, `none` means not finished. -/
def readImpl : Nat → Nat × Nat → State → Bytes → Nat →
    Option (Except ReadErr Frame × Nat × State)
  | 0, _, _, _, _ => none
  | fuel + 1, m, st, f, pos =>
    let size := st.size.getD (frameSize m)
    let st1 := { st with size := some size }
    let b := readAt f pos size
    if b.length ≠ frameSize m then some (.error .eof, pos + b.length, st1)
    else
      let m' := (beDec (slice b 16 2), beDec (slice b 18 2))
      if m' ≠ m then
        let st2 : State := ⟨m'.1, m'.2, none⟩
        let p := pos + b.length - frameSize m
        if supported m' then readImpl fuel m' st2 f p
        else some (.error .sync, p, st2)
      else if slice b 0 4 ≠ Drx.syncBytes then
        some (.error .sync, pos + b.length - frameSize m, st1)
      else some (.ok (decode b), pos + b.length, st1)

/-- `read_tbx`, tbx.cpp:251-298. -/
def read (fuel : Nat) (st : State) (f : Bytes) (pos : Nat) :
    Option (Except ReadErr Frame × Nat × State) := readImpl fuel (dispatch st) st f pos

end Verif.Tbx
