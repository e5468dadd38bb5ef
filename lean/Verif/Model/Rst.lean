import Mathlib.Algebra.Order.Field.Basic
import Mathlib.Data.Rat.Defs
/-!
# Rise, transit and set: /repo/lsl/astro.py:2402-2591

Simplifications: altitude and azimuth as functions of the time are given (astropy's transformations), as are the cubic fit
of numpy and the square root; exact numbers of an ordered field (doubles in the code), with not-a-number left out.
`body` distinguishes `_get_solar_system_rst` from `get_object_rst`; its window is 20 minutes (60 for the Moon).
-/
namespace Verif.Rst

inductive Err
  | index
  deriving DecidableEq, Repr

/-! ## The rough search -/

/-- `antitransits`, lines 2432 and 2523: `down k` says that the azimuth falls by more than 180 degrees after sample `k`. -/
def drops (down : Nat → Bool) (n : Nat) : List Nat := (List.range (n - 1)).filter down

/-- Lines 2439-2442 and 2531-2536: `up k` says that the altitude of sample `k` is not negative. -/
def pick (up : Nat → Bool) (a b : Nat) : Except Err (Option (Nat × Nat × Nat)) :=
  match ((List.range (b - a)).filter (fun i => up (a + i))).head?, ((List.range (b - a)).filter (fun i => up (a + i))).getLast? with
  | some i, some j => .ok (some (i + a, j + a, (i + a + (j + a)) / 2))
  | _, _ => .error .index

/-- Lines 2432-2442 and 2523-2536. -/
def coarse (body : Bool) (n : Nat) (down up : Nat → Bool) : Except Err (Option (Nat × Nat × Nat)) :=
  match drops down n with
  | [] => .ok none
  | [a] => if body then pick up a n else .error .index
  | a :: b :: _ => pick up a b

section
variable {K : Type} [Field K] [LinearOrder K]

/-- The time of sample `k` of 192, lines 2429 and 2518. -/
def gridTime (jD : K) (k : Nat) : K := jD + (-1 + 2 * (k : K) / 191)

/-! ## The fine search -/

/-- Lines 2447-2449: a day later when it is past. -/
def offset (jD t : K) : K := if t < jD then 1 else 0

/-- The times of the fine search, lines 2450 and 2545: `2*scale + 1` of them. -/
def fineTime (t0 off : K) (scale i : Nat) : K := t0 + (off - (scale : K) / 1440 + (i : K) / 1440)

def fine (t0 off : K) (scale : Nat) : List K := (List.range (2 * scale + 1)).map (fineTime t0 off scale)

/-- `scipy.interpolate.interp1d` at 0 after sorting: the first place with an abscissa of at least 0, not before the second. -/
def bracket : List (K × K) → Option ((K × K) × (K × K))
  | [] => none
  | [_] => none
  | [p, q] => some (p, q)
  | p :: q :: r :: l => if 0 ≤ q.1 then some (p, q) else bracket (q :: r :: l)

/-- The value of the line through two points at 0. -/
def onLine (p q : K × K) : K := (q.2 - p.2) / (q.1 - p.1) * (0 - p.1) + p.2

/-- `interp1d(alt, t)(0.0)`, lines 2463-2467; `none` for the `ValueError` outside the range. -/
def cross (l : List (K × K)) : Option K :=
  let s := l.mergeSort (fun a b => decide (a.1 ≤ b.1))
  match s.head?, s.getLast? with
  | some f, some e => if 0 < f.1 ∨ e.1 < 0 then none else (bracket s).map (fun x => onLine x.1 x.2)
  | _, _ => none

/-- The rise or set time, lines 2447-2453, 2461-2476. -/
def crossing (alt : K → K) (jD t0 : K) (scale : Nat) : Option K :=
  cross ((fine t0 (offset jD t0) scale).map (fun t => (alt t, t)))

/-! ## The transit -/

/-- The time with the greatest altitude, the first one of several: `np.argmax`. -/
def bestTime (alt : K → K) : List K → K
  | [] => 0
  | [t] => t
  | t :: l => if alt (bestTime alt l) ≤ alt t then t else bestTime alt l

/-- Lines 2483-2484, with the coefficients of the cubic, the highest first. -/
def stationary (sqrt : K → K) (c : K × K × K × K) : K := (-c.2.1 - sqrt (c.2.1 ^ 2 - 4 * c.1 * c.2.2.1)) / (2 * c.1)

/-- Lines 2482-2485. -/
def transit (sqrt : K → K) (fit : List (K × K) → K × K × K × K) (alt : K → K) (ts : List K) : K :=
  let t0 := bestTime alt ts
  stationary sqrt (fit (ts.map (fun t => (t - t0, alt t)))) + t0

/-- `get_object_rst` and `_get_solar_system_rst`: rise, set and transit. -/
def rst (sqrt : K → K) (fit : List (K × K) → K × K × K × K) (body : Bool) (scale : Nat) (half : K) (alt az : K → K) (jD : K) :
    Except Err (Option (K × K × K)) :=
  match coarse body 192 (fun k => decide (az (gridTime jD (k + 1)) - az (gridTime jD k) < -half)) (fun k => decide (0 ≤ alt (gridTime jD k))) with
  | .error e => .error e
  | .ok none => .ok none
  | .ok (some (r, s, t)) =>
    match crossing alt jD (gridTime jD r) scale, crossing alt jD (gridTime jD s) scale with
    | some tr, some ts => .ok (some (tr, ts, transit sqrt fit alt (fine (gridTime jD t) (offset jD (gridTime jD t)) scale)))
    | _, _ => .ok none

end

end Verif.Rst
