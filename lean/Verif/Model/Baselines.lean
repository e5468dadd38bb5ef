/-!
# Baseline lists: /repo/lsl/correlator/uvutils.py

Antennas compare by their id (stations.py:490-494), so they are any type with decidable equality.
-/
namespace Verif.Baselines

/-- `offset`, uvutils.py:55-58. -/
def offset (auto : Bool) : Nat := if auto then 0 else 1

/-- The inner loop, uvutils.py:68. -/
def row (n off i : Nat) : List (Nat × Nat) :=
  (List.range' (i + off) (n - (i + off))).map (fun j => (i, j))

/-- Both loops, uvutils.py:67-69, as indices. -/
def indexPairs (n off : Nat) : List (Nat × Nat) := (List.range n).flatMap (row n off)

/-- All values, or the exception of the first one that fails. -/
def collect {β : Type} : List (Option β) → Option (List β)
  | [] => some []
  | none :: _ => none
  | some x :: l => (collect l).map (x :: ·)

/-- `(antennas[i], antennas2[j])`, with the `IndexError`. -/
def pick {α : Type} (as bs : List α) (p : Nat × Nat) : Option (α × α) :=
  match as[p.1]?, bs[p.2]? with
  | some a, some b => some (a, b)
  | _, _ => none

/-- `get_baselines(antennas, antennas2, include_auto)`, uvutils.py:47-71. -/
def getBaselines {α : Type} (as bs : List α) (auto : Bool) : Option (List (α × α)) :=
  collect ((indexPairs as.length (offset auto)).map (pick as bs))

/-- `baseline_list[baseline]`, uvutils.py:94, with python's negative indices. -/
def baselineToAntennas {α : Type} (l : List (α × α)) (k : Int) : Option (α × α) :=
  if 0 ≤ k then l[k.toNat]? else if 0 ≤ k + l.length then l[(k + l.length).toNat]? else none

/-- The loop of `antennas_to_baseline`, uvutils.py:118-122. -/
def antennasToBaseline {α : Type} [DecidableEq α] (a b : α) (l : List (α × α)) : Int :=
  match l.findIdx? (fun p => decide ((a = p.1 ∨ a = p.2) ∧ (b = p.1 ∨ b = p.2))) with
  | some i => i
  | none => -1

end Verif.Baselines
