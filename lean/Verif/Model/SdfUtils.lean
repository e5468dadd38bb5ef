import Verif.Model.McsTime
import Verif.Model.Idf
/-!
# Common parts of session and interferometer definitions: /repo/lsl/common/_sdf_utils.py, and the start of an observation: /repo/lsl/common/sdf.py, lines 583-593

`render_file_size`, `render_bandwidth` and `parse_time`.

Texts are lists of characters; digits are those of ASCII.  Floats are exact rational numbers.  `none` is an exception, of whatever class.
A moment is a number of microseconds since MJD 0 (UTC without leap seconds).  Time zones, the longitude of the station and the equation of
the equinoxes are given.
-/
namespace Verif.SdfUtils

open Dec Idf McsTime

/-! ## Sizes and widths -/

/-- `render_file_size`, lines 26-43. -/
def sizeText (size : Rat) : Text :=
  if size ≥ 1024 ^ 4 then fixed 2 false (size / 1024 ^ 4) ++ " TB".toList
  else if size ≥ 1024 ^ 3 then fixed 2 false (size / 1024 ^ 3) ++ " GB".toList
  else if size ≥ 1024 ^ 2 then fixed 2 false (size / 1024 ^ 2) ++ " MB".toList
  else if size ≥ 1024 ^ 1 then fixed 2 false (size / 1024 ^ 1) ++ " kB".toList
  else fixed 2 false size ++ " B".toList

/-- `render_bandwidth`, lines 46-58; `none` is the `KeyError`. -/
def widthText (codes : Int → Option Rat) (filter : Int) : Option Text :=
  (codes filter).map fun bw =>
    if bw > 1000000 then fixed 3 false (bw / 1000000) ++ " MHz".toList
    else if bw > 1000 then fixed 3 false (bw / 1000) ++ " kHz".toList
    else fixed 3 false bw ++ " Hz".toList

/-! ## The pattern of a time, line 89 -/

/-- A separator: what was meant to be one of three characters is a range from the space to the slash. -/
def isSep (c : Char) : Bool := decide (' ' ≤ c) && decide (c ≤ '/')

/-- A run of `lo` to `hi` digits, and the rest.  No part of the pattern that follows a run of digits begins with a digit. -/
def digits (lo hi : Nat) (s : Text) : Option (Text × Text) :=
  let d := s.takeWhile Char.isDigit
  if lo ≤ d.length ∧ d.length ≤ hi then some (d, s.drop d.length) else none

def isUpper (c : Char) : Bool := decide ('A' ≤ c) && decide (c ≤ 'Z')

def isLetter (c : Char) : Bool := isUpper c || (decide ('a' ≤ c) && decide (c ≤ 'z'))

/-- One character of a kind. -/
def char1 (p : Char → Bool) : Text → Option Text
  | c :: l => if p c then some l else none
  | [] => none

/-- `((?P<tz>[A-Z]{2,3}) )?` in front of a digit. -/
def zone? (s : Text) : Option (Option Text × Text) :=
  let z := s.takeWhile isUpper
  if z = [] then some (none, s)
  else if 2 ≤ z.length ∧ z.length ≤ 3 then (char1 (· == ' ') (s.drop z.length)).map fun r => (some z, r)
  else none

/-- `((?P<month>\d{1,2})|(?P<mname>[A-Za-z]{3}))`: the text of the month. -/
def month? (s : Text) : Option (Text × Text) :=
  match digits 1 2 s with
  | some q => some q
  | none =>
    let m := s.takeWhile isLetter
    if m.length = 3 then some (m, s.drop 3) else none

/-- `\d{1,2}(\.\d{1,6})?`: whole seconds and digits of the fraction. -/
def second? (s : Text) : Option (Text × Text × Text) :=
  (digits 1 2 s).bind fun q =>
    match q.2 with
    | '.' :: l => (digits 1 6 l).map fun f => (q.1, f.1, f.2)
    | r => some (q.1, [], r)

/-- `[-+]\d{1,2}:?\d{1,2}` at the end: sign and digits without the colon. -/
def shift? : Text → Option (Bool × Text)
  | c :: l =>
    if c = '+' ∨ c = '-' then
      let a := l.takeWhile Char.isDigit
      match l.drop a.length with
      | [] => if 2 ≤ a.length ∧ a.length ≤ 4 then some (c == '-', a) else none
      | ':' :: b =>
        if 1 ≤ a.length ∧ a.length ≤ 2 ∧ 1 ≤ b.length ∧ b.length ≤ 2 ∧ b.all Char.isDigit then some (c == '-', a ++ b) else none
      | _ => none
    else none
  | [] => none

/-- `$` is also before a last line end. -/
def chomp (s : Text) : Text := if s.getLast? = some '\n' then s.dropLast else s

/-- An optional space. -/
def skip : Text → Text
  | ' ' :: l => l
  | l => l

/-- ` ?(?P<tzOffset>...)?$`. -/
def tail? (s : Text) : Option (Option (Bool × Text)) :=
  if skip (chomp s) = [] then some none else (shift? (skip (chomp s))).map some

/-- What the pattern finds. -/
structure Found where
  zone : Option Text
  year : Text
  month : Text
  day : Text
  hour : Text
  minute : Text
  second : Text
  frac : Text
  shift : Option (Bool × Text)
  deriving DecidableEq, Repr

/-- `_dtRE.match(s)`. -/
def match? (s : Text) : Option Found := do
  let (z, s) ← zone? s
  let (y, s) ← digits 4 4 s
  let s ← char1 isSep s
  let (mo, s) ← month? s
  let s ← char1 isSep s
  let (d, s) ← digits 1 2 s
  let s ← char1 (fun c => c == ' ' || c == 'T') s
  let (h, s) ← digits 1 2 s
  let s ← char1 (· == ':') s
  let (mi, s) ← digits 1 2 s
  let s ← char1 (· == ':') s
  let (se, f, s) ← second? s
  let o ← tail? s
  some ⟨z, y, mo, d, h, mi, se, f, o⟩

/-! ## Moments -/

def months : List Text :=
  ["jan".toList, "feb".toList, "mar".toList, "apr".toList, "may".toList, "jun".toList, "jul".toList, "aug".toList, "sep".toList,
    "oct".toList, "nov".toList, "dec".toList]

/-- Lines 141-170; `none` for an unknown month. -/
def monthOf (t : Text) : Option Nat :=
  match parseNat? t with
  | some n => some n
  | none => (months.findIdx? (· == lower t)).map (· + 1)

/-- Milliseconds of the fraction of a second, line 138. -/
def millis (frac : Text) : Nat := (roundHalfEven (((parseNat? frac).getD 0 : Rat) / ((10 ^ frac.length : Nat) : Rat) * 1000)).toNat

/-- Days of a month. -/
def daysIn (y m : Nat) : Nat :=
  if m = 2 then (if y % 4 = 0 ∧ (y % 100 ≠ 0 ∨ y % 400 = 0) then 29 else 28)
  else if m = 4 ∨ m = 6 ∨ m = 9 ∨ m = 11 then 30 else 31

/-- What the constructor of `datetime` accepts. -/
def exists? (dt : DateTime) : Bool :=
  decide (1 ≤ dt.year ∧ dt.year ≤ 9999 ∧ 1 ≤ dt.month ∧ dt.month ≤ 12 ∧ 1 ≤ dt.day ∧ dt.day ≤ daysIn dt.year dt.month ∧ dt.hour < 24 ∧
    dt.minute < 60 ∧ dt.second < 60 ∧ dt.microsecond < 1000000)

/-- Microseconds since MJD 0. -/
def moment (dt : DateTime) : Int :=
  toMjd dt * 86400000000 + ((dt.hour : Int) * 3600 + dt.minute * 60 + dt.second) * 1000000 + dt.microsecond

/-- The first and the last moment of `datetime`. -/
def inRange (t : Int) : Bool :=
  decide (moment ⟨1, 1, 1, 0, 0, 0, 0⟩ ≤ t) && decide (t ≤ moment ⟨9999, 12, 31, 23, 59, 59, 999999⟩)

/-- Time zones: seconds ahead of UTC at a local time. -/
structure Zones where
  est : DateTime → Int
  cst : DateTime → Int
  mst : DateTime → Int
  pst : DateTime → Int
  find : Text → DateTime → Option (DateTime → Int)

/-- A zone, or sidereal time. -/
inductive Zone where
  | at (off : DateTime → Int)
  | lst

/-- `datetime(..., tzinfo=tz).astimezone(timezone.utc)`, lines 276, 279. -/
def localize (off : DateTime → Int) (dt : DateTime) : Option Int :=
  if exists? dt then
    let t := moment dt - off dt * 1000000
    if inRange t then some t else none
  else none

/-- Lines 174-183: seconds of a shift; `timezone` accepts less than a day. -/
def shiftOf (s : Bool × Text) : Option Int :=
  match parseNat? (s.2.take 2), parseNat? ((s.2.drop 2).take 2) with
  | some h, some m =>
    let x : Int := (h * 3600 + m * 60 : Nat)
    if x < 86400 then some (if s.1 then -x else x) else none
  | _, _ => none

/-- Lines 172-215. -/
def zoneOf (Z : Zones) (z : Option Text) (s : Option (Bool × Text)) (dt : DateTime) : Option Zone :=
  match s, z with
  | some s, _ => (shiftOf s).map fun x => .at fun _ => x
  | none, none => some (.at fun _ => 0)
  | none, some z =>
    if z = "UT".toList ∨ z = "UTC".toList then some (.at fun _ => 0)
    else if z = "EST".toList ∨ z = "EDT".toList then some (.at Z.est)
    else if z = "CST".toList ∨ z = "CDT".toList then some (.at Z.cst)
    else if z = "MST".toList ∨ z = "MDT".toList then some (.at Z.mst)
    else if z = "PST".toList ∨ z = "PDT".toList then some (.at Z.pst)
    else if z = "LST".toList then some .lst
    else (Z.find z dt).map .at

/-! ## Sidereal times, lines 217-273 -/

/-- Hours of UT from one sidereal midnight to the next, lines 252-255. -/
def turn : Rat := 24 / (1002737909350795 / 1000000000000000)

/-- `while H < 0: H += turn`; the number bounds the steps. -/
def raise : Nat → Rat → Rat
  | 0, h => h
  | n + 1, h => if h < 0 then raise n (h + turn) else h

/-- `while H > 24: H -= turn`. -/
def sink : Nat → Rat → Rat
  | 0, h => h
  | n + 1, h => if h > 24 then sink n (h - turn) else h

/-- Lines 234-255: hours of UT; `day` is the MJD, `lon` the longitude in hours, `eq` the equation of the equinoxes. -/
def utHours (day : Int) (lon eq lst : Rat) : Rat :=
  let d0 : Rat := (day : Rat) + 4800001 / 2 - 2451545
  let h0 := (lst - lon - eq - 6697374558 / 1000000000 - 6570982441908 / 100000000000000 * d0 - 26 / 1000000 * (d0 / 36525) ^ 2) /
    (1002737909350795 / 1000000000000000)
  let n := h0.floor.natAbs + 2
  sink n (raise n h0)

/-- Lines 227-276: the day and the hours in microseconds, whole milliseconds of the second, `none` if they are a thousand. -/
def sidereal (lon : Rat) (eq : Int → Rat) (dt : DateTime) : Option Int :=
  if exists? { dt with hour := 0, minute := 0, second := 0, microsecond := 0 } then
    let day := toMjd dt
    let lst : Rat := (dt.hour : Rat) + (dt.minute : Rat) / 60 + ((dt.second : Rat) + (dt.microsecond : Rat) / 1000000) / 3600
    let t := day * 86400000000 + roundHalfEven (utHours day lon (eq day) lst * 3600000000)
    let ms := roundHalfEven (((t % 1000000 : Int) : Rat) / 1000)
    if ms < 1000 ∧ inRange t = true then some (t / 1000000 * 1000000 + ms * 1000) else none
  else none

/-! ## Everything together -/

/-- The fields of a text, lines 132-170. -/
def fields (f : Found) : Option DateTime := do
  let mo ← monthOf f.month
  let y ← parseNat? f.year
  let d ← parseNat? f.day
  let h ← parseNat? f.hour
  let mi ← parseNat? f.minute
  let s ← parseNat? f.second
  some ⟨y, mo, d, h, mi, s, millis f.frac * 1000⟩

/-- `parse_time` of a text, lines 128-279. -/
def parseText (Z : Zones) (lon : Rat) (eq : Int → Rat) (s : Text) : Option Int :=
  (match? s).bind fun f => (fields f).bind fun dt => (zoneOf Z f.zone f.shift dt).bind fun z =>
    match z with
    | .at off => localize off dt
    | .lst => sidereal lon eq dt

/-- What may be given as a time; a `Time` of astropy is in whatever scale. -/
inductive Given where
  | text (s : Text)
  | aware (dt : DateTime) (off : DateTime → Int)
  | naive (dt : DateTime)
  | astropy (dt : DateTime)

/-- `parse_time` of a `datetime`, lines 118-125, 279. -/
def parseDatetime (off : DateTime → Int) (dt : DateTime) : Option Int :=
  localize off { dt with microsecond := (roundHalfEven ((dt.microsecond : Rat) / 1000)).toNat * 1000 }

/-- `parse_time`, lines 96-279; `Time.datetime` has no time zone. -/
def parseTime (Z : Zones) (lon : Rat) (eq : Int → Rat) : Given → Option Int
  | .text s => parseText Z lon eq s
  | .aware dt off => parseDatetime off dt
  | .naive _ => none
  | .astropy _ => none

/-- The start of an observation when it is set, sdf.py lines 590-593: MJD and milliseconds of the day. -/
def setStart (Z : Zones) (lon : Rat) (eq : Int → Rat) (g : Given) : Option (Int × Int) :=
  (parseTime Z lon eq g).map fun t => (t / 86400000000, t % 86400000000 / 1000)

/-- The text of a start, sdf.py lines 583-588: `"UTC %Y/%m/%d %H:%M:%S.%f"` (years before 1000 may be shorter, they are padded here). -/
def startText (dt : DateTime) : Text :=
  "UTC ".toList ++ (showPad 4 dt.year ++ ('/' :: (showPad 2 dt.month ++ ('/' :: (showPad 2 dt.day ++ (' ' :: (showPad 2 dt.hour ++
    (':' :: (showPad 2 dt.minute ++ (':' :: (showPad 2 dt.second ++ ('.' :: showPad 6 dt.microsecond))))))))))))

end Verif.SdfUtils
