import Verif.Model.Color
import Verif.Model.Float64
/-!
# Progress bars: /repo/lsl/common/progress.py

Floating point values are rounded as binary64.  Elapsed times are parameters.
-/
namespace Verif.Progress
open Dec Color

/-- The fields of a bar, lines 32-52. -/
structure Bar where
  amount : Int
  max : Int
  span : Int
  sym : Str
  percent : Bool
  color : Option Str

/-- `inc`, lines 54-60, 122-127. -/
def inc (b : Bar) (a : Int) : Bar := { b with amount := b.amount + a }

/-- `dec`, lines 62-68, 141-148. -/
def dec (b : Bar) (a : Int) : Bar := if a ≤ b.amount then { b with amount := b.amount - a } else b

/-- `s * n`. -/
def times (s : Str) (n : Int) : Str := (List.replicate n.toNat s).flatten

/-- `self.rotations`, line 50. -/
def rotations (b : Bar) : List Str := [['-'], ['\\'], ['|'], ['/'], b.sym]

/-- `lst[i]`, negative indices from the end; `none` is `IndexError`. -/
def pyGet (l : List Str) (i : Int) : Option Str :=
  let j := if i < 0 then i + l.length else i
  if 0 ≤ j ∧ j < l.length then l[j.toNat]? else none

/-- `float(self.amount)/self.max`. -/
def frac (b : Bar) : Rat := fl64 (fl64 b.amount / fl64 b.max)

/-- `nMarks`, line 79. -/
def nMarks (b : Bar) (barSpan : Int) : Rat := fl64 (frac b * fl64 barSpan)

/-- The inside of the bar, lines 80-88 (and the same in the other classes); `clipped` is the `min` of lines 265,
267 and 350.  `none` is an `IndexError`. -/
def inside (b : Bar) (barSpan : Int) (clipped : Bool) : Option Str :=
  let full := if clipped then min (pyInt (nMarks b barSpan)) barSpan else pyInt (nMarks b barSpan)
  let last :=
    if full < barSpan then pyGet (rotations b) (pyInt (fl64 (fl64 (nMarks b barSpan - full) * 5))) else some []
  last.map (fun m => times b.sym full ++ m ++ times [' '] (barSpan - (full + m.length)))

/-- `"%5.1f"`. -/
def fmt51 (v : Rat) : Str :=
  let t := (roundHalfEven ((if v < 0 then -v else v) * 10)).toNat
  let s := (if v < 0 then ['-'] else []) ++ showNat (t / 10) ++ '.' :: showNat (t % 10)
  List.replicate (5 - s.length) ' ' ++ s

/-- `nte`, line 89. -/
def nte (b : Bar) : Str := fmt51 (fl64 (frac b * 100)) ++ ['%']

/-- `[bar]`, coloured or not, and what follows, lines 91-94, 108-111. -/
def dress (b : Bar) (bar tail : Str) : Except Err Str :=
  match b.color with
  | none => .ok (['['] ++ bar ++ [']'] ++ tail)
  | some c =>
    let t := ['[', '{', '{', '%'] ++ c ++ [' '] ++ bar ++ ['}', '}', ']'] ++ tail
    colorfy (t.length + 1) t

/-- An `IndexError`, or the text. -/
def withBar (o : Option Str) (f : Str → Except Err Str) : Except Err Str :=
  match o with | none => .error .indexError | some s => f s

/-- `ProgressBar.show`, lines 70-113. -/
def «show» (b : Bar) : Except Err Str :=
  if b.percent then withBar (inside b (b.span - 9) false) (fun s => dress b s ([' '] ++ nte b))
  else withBar (inside b (b.span - 2) false) (fun s => dress b s [])

/-- `ProgressBarPlus._pprint`, lines 210-217. -/
def pprintTime (v : Rat) : Str :=
  let m := showInt (pyInt (v / 60))
  let s := showInt (pyInt (v - 60 * ((v / 60).floor : Int)))
  List.replicate (4 - m.length) ' ' ++ m ++ ['m'] ++ List.replicate (2 - s.length) '0' ++ s ++ ['s']

/-- `cte` of `ProgressBarPlus.show`, lines 224-240; `t` is the elapsed time, if the timer was started. -/
def cteTime (b : Bar) (t : Option Rat) : Str :=
  match t with
  | none => "----m--s".toList
  | some t =>
    if b.amount = 0 then "----m--s".toList
    else if b.max ≤ b.amount then pprintTime t
    else if t < 1/5 then "----m--s".toList
    else pprintTime ((b.max - b.amount : Int) * t / b.amount)

/-- `ProgressBarPlus.show`, lines 219-282. -/
def showPlus (b : Bar) (t : Option Rat) : Except Err Str :=
  if b.percent then
    withBar (inside b (b.span - 9) false) (fun s => dress b s ([' '] ++ nte b ++ [' '] ++ cteTime b t))
  else withBar (inside b (b.span - 2) true) (fun s => dress b s ([' '] ++ cteTime b t))

/-- `DownloadBar._pprint`, lines 306-322; `done` is the replacement of `/s` of line 341. -/
def pprintRate (v : Rat) (done : Bool) : Str :=
  let tail : Str := if done then [' ', ' '] else ['/', 's']
  if 9/10 * 1024 ^ 3 < v then fmt51 (v / 1024 ^ 3) ++ ['G', 'B'] ++ tail
  else if 9/10 * 1024 ^ 2 < v then fmt51 (v / 1024 ^ 2) ++ ['M', 'B'] ++ tail
  else if 9/10 * 1024 < v then fmt51 (v / 1024) ++ ['k', 'B'] ++ tail
  else fmt51 v ++ [' ', 'B'] ++ tail

/-- `cte` of `DownloadBar.show`, lines 329-347. -/
def cteRate (b : Bar) (t : Option Rat) : Str :=
  match t with
  | none => "----- B/s".toList
  | some t =>
    if b.amount = 0 then "----- B/s".toList
    else if b.max ≤ b.amount then pprintRate b.amount true
    else if t < 1/100 then "----- B/s".toList
    else pprintRate (b.amount / t) false

/-- `DownloadBar.show`, lines 324-387. -/
def showDown (b : Bar) (t : Option Rat) : Except Err Str :=
  if b.percent then
    let n := if b.max < b.amount then "-----%".toList else nte b
    withBar (inside b (b.span - 10) true) (fun s => dress b s ([' '] ++ n ++ [' '] ++ cteRate b t))
  else withBar (inside b (b.span - 3) false) (fun s => dress b s ([' '] ++ cteRate b t))

end Verif.Progress
