import Verif.Model.Idf
import Verif.Model.Sdf
import Verif.Model.Words
/-!
# Checking interferometer definitions and making session definitions: /repo/lsl/common/idf.py, lines 133-157, 288-384, 496-570, 806-937, 1134-1190, 1566-1598

`Scan.validate`, `Run.validate`, `Project.validate` and `generate_sdfs`.

The sky is given: `up k i` says whether the target is above the horizon of station `k` at the `i`-th sample.  Separations of alternate
phase centers, cosines and texts of dates are given too.  Floats are exact rational numbers.  `none` is an exception.
-/
namespace Verif.Idf

open Dec

/-! ## Checks -/

/-- The loop of `target_visibility` at one station, lines 848-862, from sample `i` on: samples seen so far, and those above the horizon.
The first number only bounds the steps; `dur` is in ms. -/
def visLoop (up : Nat → Bool) (dur : Int) : Nat → Nat → Nat × Nat → Nat × Nat
  | 0, _, acc => acc
  | n + 1, i, (vis, cnt) =>
    if (i : Int) * 300000 ≤ dur then visLoop up dur n (i + 1) (if up i then vis + 1 else vis, cnt + 1) else (vis, cnt)

/-- Steps that are enough for a duration. -/
def enough (dur : Int) : Nat := (dur / 300000).toNat + 2

/-- `float(vis)/float(cnt)`; `none` is the `ZeroDivisionError`. -/
def visOne (up : Nat → Bool) (dur : Int) : Option Rat :=
  let r := visLoop up dur (enough dur) 0 (0, 0)
  if r.2 = 0 then none else some ((r.1 : Rat) / (r.2 : Rat))

/-- `min(vis_list)`. -/
def minOf : List Rat → Option Rat
  | [] => none
  | [x] => some x
  | x :: l => (minOf l).map fun y => if y < x then y else x

/-- `target_visibility`, lines 835-869, 1134-1173, with `n` stations. -/
def visibility (n : Nat) (up : Nat → Nat → Bool) (dur : Int) : Option Rat :=
  ((List.range n).mapM fun k => visOne (up k) dur).bind minOf

/-- What is given about an alternate phase center: its visibility, and its separation from the pointing in degrees at the middle of the
scan at the first station. -/
structure AltSky where
  up : Nat → Nat → Bool
  sep : Rat

structure ScanSky where
  up : Nat → Nat → Bool
  alts : List AltSky

/-- Limits of the stations of a run: the number of stations, tuning words and sample rates of filters. -/
structure Site where
  n : Nat
  lo : Int
  hi : Int
  rate : Int → Option Rat

/-- `estimate_bytes`, lines 806-818. -/
def bytes (site : Site) (s : Scan) : Rat :=
  ((match site.rate s.filter with | some r => (s.dur : Rat) / 1000 * r / 4096 | none => 0)) * 4128 * 4

/-- 10 TB, lines 68, 928. -/
def capacity : Rat := 10 * 1024 ^ 4

def one (b : Bool) : Nat := if b then 1 else 0

/-- `max` of two frequencies. -/
def maxFreq (s : Scan) : Rat :=
  if Words.wordToFreq s.freq1 < Words.wordToFreq s.freq2 then Words.wordToFreq s.freq2 else Words.wordToFreq s.freq1

/-- Failures of one alternate phase center, lines 907-925. -/
def altFailures (site : Site) (s : Scan) (a : AltSky) : Option Nat :=
  (visibility site.n a.up s.dur).bind fun v =>
    if maxFreq s = 0 then none
    else some (one (v < 1) + one (a.sep > 2 * 74000000 / maxFreq s / 2))

/-- Sum of what each entry adds, if none raises. -/
def total {α : Type} (f : α → Option Nat) : List α → Option Nat
  | [] => some 0
  | a :: l => (f a).bind fun n => (total f l).map fun m => n + m

/-- Failures of `Scan.validate`, lines 871-937. -/
def scanFailures (site : Site) (sky : ScanSky) (s : Scan) : Option Nat :=
  (visibility site.n sky.up s.dur).bind fun v =>
    (total (altFailures site s) sky.alts).map fun a =>
      one (s.dur < 1) + one (s.freq1 < site.lo || s.freq1 > site.hi) +
        one ((s.freq2 < site.lo || s.freq2 > site.hi) && s.freq2 != 0) +
        one (!(decide (1 ≤ s.filter) && decide (s.filter ≤ 7))) + one (v < 1) + one (sky.alts.length > 10) + a +
        one (bytes site s ≥ capacity)

/-- `Scan.validate`. -/
def scanValid (site : Site) (sky : ScanSky) (s : Scan) : Option Bool := (scanFailures site sky s).map fun n => n == 0

/-- Names that are not counted once, lines 509-518. -/
def repeated (names : List Text) : Nat := (names.eraseDups.filter fun n => names.count n != 1).length

/-- Changes of the filter from one scan to the next, lines 528-531. -/
def filterChanges : List Scan → Nat
  | a :: b :: l => one (b.filter != a.filter) + filterChanges (b :: l)
  | _ => 0

def asObs (s : Scan) : Sdf.Obs := ⟨s.mjd, s.mpm, s.dur⟩

/-- Failures of `Run.validate`, lines 496-570. -/
def runFailures (site : Site) (sky : List ScanSky) (r : Run) : Option Nat :=
  (total (fun p : ScanSky × Scan => (scanValid site p.1 p.2).map fun b => one (!b)) (sky.zip r.scans)).map fun n =>
    one (r.id < 1 || r.id > 9999) + repeated r.stations + n + filterChanges r.scans + Sdf.overlapFailures (r.scans.map asObs) +
      one ((r.scans.map fun s => bytes site s * (site.n : Rat)).sum ≥ (site.n : Rat) * capacity)

def runValid (site : Site) (sky : List ScanSky) (r : Run) : Option Bool := (runFailures site sky r).map fun n => n == 0

/-- `Project.validate`, lines 133-157. -/
def projectValid (id : Text) (runs : List (Site × List ScanSky × Run)) : Option Bool :=
  (total (fun p : Site × List ScanSky × Run => (runValid p.1 p.2.1 p.2.2).map fun b => one (!b)) runs).map fun n =>
    one (id.length > 8) + n == 0

/-- `is_valid`, lines 1566-1598: what a file gives, and whether it is valid; anything that is raised while it is read or checked is a
failure. -/
def isValid (parsed : Option (Option Bool)) : Bool := parsed == some (some true)

/-! ## Session definitions -/

/-- An observation in a session definition. -/
structure SdfObs where
  mode : Mode
  name : Text
  target : Text
  mjd : Int
  mpm : Int
  dur : Nat
  ra : Rat
  dec : Rat
  freq1 : Int
  freq2 : Int
  filter : Int
  gain : Int
  comments : Option Text
  deriving DecidableEq, Repr

/-- A session definition for one station. -/
structure SdfFile where
  title : Text
  session : Text
  sessionId : Int
  user : Text
  obs : List SdfObs
  office : Text
  officeObs : List (Option Text)
  deriving DecidableEq, Repr

/-- Years since 2000, line 325. -/
def epoch (s : Scan) : Rat := ((s.mjd : Rat) + (s.mpm : Rat) / 1000 / 86400 - 103089 / 2) / (1461 / 4)

/-- Lines 326-327, 357-359; `c` is the cosine of the declination. -/
def moved (e c ra dec : Rat) (pm : Rat × Rat) : Rat × Rat := (ra + e * pm.1 / c / 1000 / 3600 / 15, dec + e * pm.2 / 1000 / 3600)

def motionText (pm : Rat × Rat) : Text :=
  ";;Applied proper motion of ".toList ++ (fixed 1 true pm.1 ++ (" mas/yr in RA and ".toList ++ (fixed 1 true pm.2 ++ " mas/yr in dec".toList)))

/-- Lines 322-348; `cos` is given. -/
def toSdf (cos : Rat → Rat) (s : Scan) : Option SdfObs :=
  match s.mode with
  | .radec =>
    match s.comments with
    | none => none
    | some c =>
      let p := moved (epoch s) (cos s.dec) s.ra s.dec s.pm
      if SdfParse.raDecOk p.1 p.2 then
        some ⟨.radec, s.intent, s.target, s.mjd, s.mpm, s.dur, p.1, p.2, s.freq1, s.freq2, s.filter, s.gain,
          some (c ++ if s.pm.1 ≠ 0 ∨ s.pm.2 ≠ 0 then motionText s.pm else [])⟩
      else none
  | m => some ⟨m, s.intent, s.target, s.mjd, s.mpm, s.dur, 0, 0, s.freq1, s.freq2, s.filter, s.gain, s.comments⟩

/-- The text for one alternate phase center with number `j`, line 367. -/
def altText (cos : Rat → Rat) (s : Scan) (j : Nat) (a : Alt) : Text :=
  let p := moved (epoch s) (cos a.dec) a.ra a.dec a.pm
  "alttarget".toList ++ (showNat j ++ (':' :: (a.target ++ (";;altintent".toList ++ (showNat j ++ (':' :: (a.intent ++
    (";;altra".toList ++ (showNat j ++ (':' :: (fixed 9 false p.1 ++ (";;altdec".toList ++ (showNat j ++ (':' :: (fixed 9 true p.2 ++
      ";;".toList)))))))))))))))

/-- The loop of lines 352-367 over the reversed list: each text is put in front of what is there. -/
def altLoop (cos : Rat → Rat) (s : Scan) (n : Nat) : Nat → List Alt → Text → Text
  | _, [], t => t
  | p, a :: l, t => altLoop cos s n (p + 1) l (altText cos s (n - p) a ++ t)

/-- The comments of the project office on observation `o` after lines 352-367; `none` is the `IndexError`. -/
def officeOne (cos : Rat → Rat) (s : Scan) (o : Nat) (po : List (Option Text)) : Option (List (Option Text)) :=
  if s.alts = [] then some po
  else match po[o]? with
    | none => none
    | some x => some (po.set o (some (altLoop cos s s.alts.length 0 s.alts.reverse (x.getD []))))

/-- The loop over the scans, lines 321-367. -/
def scanLoop (cos : Rat → Rat) : Nat → List Scan → List (Option Text) → Option (List SdfObs × List (Option Text))
  | _, [], po => some ([], po)
  | o, s :: l, po =>
    (toSdf cos s).bind fun x => (officeOne cos s o po).bind fun po => (scanLoop cos (o + 1) l po).map fun q => (x :: q.1, q.2)

/-- `"%s - %s (%i of %i)"`. -/
def titleOf (name station : Text) (i n : Nat) : Text :=
  name ++ (" - ".toList ++ (station ++ (" (".toList ++ (showNat i ++ (" of ".toList ++ (showNat n ++ [')']))))))

/-- Line 375. -/
def officeText (r : Run) (t : Option Text) : Text :=
  "corrchannels:".toList ++ (showInt r.channels ++ (";;corrinttime:".toList ++ (fixed 3 false r.inttime ++ (";;corrbasis:".toList ++
    (r.basis ++ (";;origuser:".toList ++ (r.ucf.getD noneText ++ (";;origreturn:".toList ++ (lower r.method ++ (";;".toList ++
      t.getD []))))))))))

/-- One station, lines 307-378; `user` is the text of line 311. -/
def stationSdf (cos : Rat → Rat) (user : Text) (p : Project) (i : Nat) (station : Text) (id : Int) : Option SdfFile :=
  match p.poRuns, p.poScans with
  | pr :: _, ps :: _ =>
    (scanLoop cos 0 p.run.scans ps).map fun q =>
      ⟨titleOf p.name station (i + 1) p.run.stations.length, titleOf (p.run.name.getD noneText) station (i + 1) p.run.stations.length, id,
        user, q.1, officeText p.run pr, q.2⟩
  | _, _ => none

/-- The loop over the stations, lines 307-380. -/
def stationLoop (cos : Rat → Rat) (user : Text) (p : Project) : Nat → List Text → Int → Option (List SdfFile)
  | _, [], _ => some []
  | i, st :: l, id => (stationSdf cos user p i st id).bind fun f => (stationLoop cos user p (i + 1) l (id + 1)).map fun fs => f :: fs

/-- `generate_sdfs`, lines 288-384, for a valid project; the start of the first scan is needed, line 303. -/
def generate (cos : Rat → Rat) (user : Text) (p : Project) (id : Int) : Option (List SdfFile) :=
  if p.run.scans = [] then none
  else stationLoop cos user { p with run := sorted p.run } 0 p.run.stations id

end Verif.Idf
