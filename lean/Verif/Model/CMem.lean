/-!
# Flat arrays of the C extensions

The extensions in /repo/lsl/correlator, /repo/lsl/imaging and /repo/lsl/reader take the data pointer of a
contiguous numpy array and compute every address themselves.  An array is a list here, an address an integer.
Reading or writing outside the array and dividing by zero are undefined behaviour in C; in the model they are
the outcome `ub`.  An array of complex numbers has one cell per number.
-/
namespace Verif.CMem

inductive Fault where
  /-- Undefined behaviour: an address outside its array, or a division by zero. -/
  | ub
  /-- A python exception. -/
  | refused
deriving DecidableEq, Repr

abbrev Run := Except Fault

instance {α : Type} [DecidableEq α] : DecidableEq (Run α) := fun x y =>
  match x, y with
  | .ok a, .ok b => if h : a = b then isTrue (by rw [h]) else isFalse (by intro e; cases e; exact h rfl)
  | .error a, .error b => if h : a = b then isTrue (by rw [h]) else isFalse (by intro e; cases e; exact h rfl)
  | .ok _, .error _ => isFalse (by intro e; cases e)
  | .error _, .ok _ => isFalse (by intro e; cases e)

/-- `*(m + p)` as a value. -/
def rd {α : Type} (m : List α) (p : Int) : Run α :=
  if p < 0 then .error .ub
  else match m[p.toNat]? with
    | some v => .ok v
    | none => .error .ub

/-- `*(m + p) = v`. -/
def wr {α : Type} (m : List α) (w : Int × α) : Run (List α) :=
  if 0 ≤ w.1 ∧ w.1 < m.length then .ok (m.set w.1.toNat w.2) else .error .ub

/-- A sequence of writes. -/
def wrs {α : Type} : List α → List (Int × α) → Run (List α)
  | m, [] => .ok m
  | m, w :: ws => (wr m w).bind (fun m => wrs m ws)

/-- All values of a loop, or the first failure. -/
def all {α β : Type} (f : α → Run β) : List α → Run (List β)
  | [] => .ok []
  | a :: l => (f a).bind (fun b => (all f l).bind (fun bs => .ok (b :: bs)))

/-- Integer division of C, towards zero. -/
def cdiv (a b : Int) : Run Int := if b = 0 then .error .ub else .ok (a.tdiv b)

/-- `f 0 + f 1 + ... + f (n-1)`. -/
def sumN {C : Type} [Lean.Grind.CommRing C] : Nat → (Nat → C) → C
  | 0, _ => 0
  | n + 1, f => sumN n f + f n

end Verif.CMem
