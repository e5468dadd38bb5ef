/-!
# The half-sample mode and the runs test

/repo/lsl/statistics/robust.py `mode`, /repo/lsl/statistics/stattests.py.  Floats are idealised to rational numbers, and arrays
have one axis; `none` is an exception.
-/
namespace Verif.Stats

/-- Insertion, for `np.sort`. -/
def insert (a : Rat) : List Rat → List Rat
  | [] => [a]
  | b :: l => if a ≤ b then a :: b :: l else b :: insert a l

/-- `np.sort`. -/
def sort : List Rat → List Rat
  | [] => []
  | a :: l => insert a (sort l)

/-- The loop of robust.py lines 181-187 up to `k`: the width of the narrowest half sample so far that is narrower than all of the
data, and its start. -/
def nstate (data : List Rat) (N k : Nat) : Rat × Option Nat :=
  (List.range k).foldl (fun (s : Rat × Option Nat) i =>
    let w := data.getD (i + N - 1) 0 - data.getD i 0
    if w < s.1 then (w, some i) else s) (data.getD (data.length - 1) 0 - data.getD 0 0, none)

/-- The `j` that the loop ends with, if any. -/
def narrowest (data : List Rat) (N : Nat) : Option Nat := (nstate data N N).2

/-- The size of the half sample, robust.py line 182. -/
def halfN (n : Nat) : Nat := n / 2 + n % 2

/-- `_hsm`, robust.py lines 166-188, with a bound on the recursion; `j` may have no value (line 188), and there is no last
of no data (line 181). -/
def hsmF : Nat → List Rat → Option Rat
  | 0, _ => none
  | fuel + 1, data =>
    match data with
    | [] => none
    | [a] => some a
    | [a, b] => some ((a + b) / 2)
    | [a, b, c] =>
      let i1 := b - a
      let i2 := c - b
      if i1 < i2 then some ((a + b) / 2)
      else if i2 > i1 then some ((b + c) / 2)
      else some b
    | data =>
      (narrowest data (halfN data.length)).bind fun j => hsmF fuel ((data.drop j).take (halfN data.length))

/-- `_hsm`. -/
def hsm (data : List Rat) : Option Rat := hsmF data.length data

/-- `mode(inputData)`, robust.py lines 154-202. -/
def mode (data : List Rat) : Option Rat := hsm (sort data)

/-- `_to_binary`, stattests.py lines 17-26. -/
def toBinary (data : List Rat) : List Bool := data.map fun x => decide (0 < x)

/-- What one pass adds to the number of runs, stattests.py lines 46-52. -/
def change : Bool → Bool → Nat
  | true, true => 0
  | true, false => 1
  | false, true => 1
  | false, false => 0

/-- The loop of stattests.py lines 45-52, on the pairs of a value and the one before; the count of positive values there is
replaced afterwards (lines 53-54). -/
def changes : List Bool → Nat
  | p :: c :: l => change c p + changes (c :: l)
  | _ => 0

/-- `_count_runs`, stattests.py lines 29-56, after the conversion. -/
def countRuns (data : List Bool) : Nat × Nat × Nat :=
  let pos := data.count true
  (1 + changes data, pos, data.length - pos)

/-- The expected number of runs, stattests.py line 69. -/
def meanRuns (p n : Nat) : Rat := 2 * p * n / (p + n) + 1

/-- The expected variance, stattests.py line 70. -/
def varRuns (p n : Nat) : Rat := ((2 * p * n) * (2 * p * n - p - n)) / ((p + n) ^ 2 * (p + n - 1))

/-- The deviation before division by the standard deviation, stattests.py lines 73-78. -/
def excess (N : Nat) (mean : Rat) : Rat :=
  if 50 < N then N - mean
  else if (N : Rat) - mean < 0 then N - mean + 1 / 2
  else N - mean - 1 / 2

end Verif.Stats
