import Verif.Model.Baselines
import Verif.Model.FEngine
import Verif.Model.XEngine
/-!
# The correlator front ends: /repo/lsl/correlator/fx.py

Simplifications.  A polarization string is a list of ASCII characters.  Numbers are exact rationals; a delay that is not
finite is `none`, and is positive infinity or not a number, not negative infinity.  The pointing vector is any vector.
`Eng` holds what the engines compute for one antenna and for one pair of antennas: their shape checks are here, their
arithmetic is in Model/FEngine.lean and Model/XEngine.lean, and a failing F engine is not modelled here.  Rows of the
output hold all channels, and for the Stokes versions all four parameters.
-/
namespace Verif.FX
open Verif.Baselines (getBaselines collect pick)

inductive Err where
  | runtime | value | index | key
deriving DecidableEq

/-- What fx.py uses of an `Antenna`: `stand.id`, `pol`, `stand.xyz` and `cable.delay(freq)[c]`. -/
structure Ant where
  id : Nat
  pol : Nat
  xyz : Rat × Rat × Rat
  delay : Nat → Option Rat

/-- The loop of `pol_to_pols`, fx.py:56-64, after `upper`. -/
def polCodes : List Char → Except Err (List Nat)
  | [] => .ok []
  | p :: l =>
    if p = 'X' ∨ p = 'R' then (polCodes l).map (0 :: ·)
    else if p = 'Y' ∨ p = 'L' then (polCodes l).map (1 :: ·)
    else .error .runtime

/-- `pol1, pol2 = pol_to_pols(pol)`, fx.py:50-66 and 225; the wrong number of values is a `ValueError`. -/
def pols (pol : List Char) : Except Err (Nat × Nat) :=
  (polCodes (pol.map Char.toUpper)).bind fun l => match l with
  | [a, b] => .ok (a, b)
  | _ => .error .value

/-- `antennas1` and `antennas2`, fx.py:227-229. -/
def sel (p : Nat) (as : List Ant) : List Ant := as.filter (·.pol == p)

/-- `signalsIndex1` and `signalsIndex2`, fx.py:228-230. -/
def selIdx (p : Nat) (as : List Ant) : List Nat := (as.zipIdx.filter (·.1.pol == p)).map (·.2)

/-- An option as a result. -/
def need {α : Type} (e : Err) : Option α → Except Err α
  | some x => .ok x
  | none => .error e

/-- `signals[index,:]`. -/
def rowsAt {R : Type} (sig : List R) (idx : List Nat) : Except Err (List R) :=
  need .index (collect (idx.map fun i => sig[i]?))

/-! ### delays -/

def dot (u v : Rat × Rat × Rat) : Rat := u.1 * v.1 + u.2.1 * v.2.1 + u.2.2 * v.2.2

/-- One row of the delays, fx.py:288-292. -/
def rawRow (src : Rat × Rat × Rat) (c : Rat) (nChan : Nat) (a : Ant) : List (Option Rat) :=
  (List.range nChan).map fun ch => (a.delay ch).map (· - dot src a.xyz / c)

/-- `max()`, an error when there is nothing. -/
def maxOf : List Rat → Option Rat
  | [] => none
  | x :: l => some (l.foldl (fun m y => if m < y then y else m) x)

/-- `min()`. -/
def minOf : List Rat → Option Rat
  | [] => none
  | x :: l => some (l.foldl (fun m y => if y < m then y else m) x)

/-- What is not finite becomes the largest finite value, fx.py:293-296. -/
def fill (d : List (List (Option Rat))) : Except Err (List (List Rat)) :=
  (need .value (maxOf (d.flatten.filterMap id))).map fun m => d.map fun r => r.map (·.getD m)

/-- `delays[:,dlyRef].min()`. -/
def refMin (ref : Nat) (d : List (List Rat)) : Except Err Rat :=
  (need .index (collect (d.map fun r => r[ref]?))).bind fun l => need .value (minOf l)

def lower (m : Rat) (d : List (List Rat)) : List (List Rat) := d.map fun r => r.map (· - m)

/-- Both tables of delays, fx.py:284-302. -/
def align (src : Rat × Rat × Rat) (c : Rat) (nChan : Nat) (as1 as2 : List Ant) :
    Except Err (List (List Rat) × List (List Rat)) :=
  if as2.length < as1.length then .error .index else
  (fill (as1.map (rawRow src c nChan))).bind fun d1 =>
  (fill ((as2.take as1.length).map (rawRow src c nChan))).bind fun d2 =>
  (refMin (nChan / 2) d1).bind fun m1 =>
  (refMin (nChan / 2) d2).bind fun m2 =>
  let m := if m1 < m2 then m1 else m2
  .ok (lower m d1, lower m d2)

/-! ### engines -/

/-- What the engines compute.  `wins`: the number of windows, which depends on all delays of a call; `stream`: all
windows of one antenna; `prod`: a row of the output; `gain`: division by `sqrt(cableGain1*cableGain2)`. -/
structure Eng (R S V : Type) where
  wins : List (List Rat) → Nat
  stream : Nat → R → List Rat → S
  prod : S → S → V
  gain : Ant → Ant → V → V

variable {R S V : Type}

/-- The number of windows the F engine finds for a table of delays, core.cpp:59-64 and 428; none if it would be negative. -/
def winsOf (nSamps len overlap : Nat) (sr : Rat) (ref : Nat) (d : List (List Rat)) : Nat :=
  let fifoMax := d.foldl (fun m r => let f := FEngine.lround (r.getD ref 0 * sr); if f > m then f else m) 0
  match FEngine.nFFT nSamps fifoMax len overlap with
  | .ok n => n.toNat
  | .error _ => 0

/-- The F engine with the check of the shape of `delays`, core.cpp:383-396.  All streams have the same number of windows. -/
def fengine (g : Eng R S V) (rows : List R) (d : List (List Rat)) : Except Err (Nat × List S) :=
  if rows.length ≠ d.length then .error .runtime else
  .ok (g.wins d, List.zipWith (g.stream (g.wins d)) rows d)

/-- `XEngine2` with the check of the shapes, core.cpp:924-928; its rows are in the order of `mapper`. -/
def xengine (prod : S → S → V) (x y : Nat × List S) : Except Err (List V) :=
  if y.2.length ≠ x.2.length ∨ y.1 ≠ x.1 then .error .runtime else
  (need .index (collect ((XEngine.mapper x.2.length).map (pick x.2 y.2)))).map fun l => l.map fun p => prod p.1 p.2

/-- The removal of autocorrelations, fx.py:327-334. -/
def prune (as1 as2 : List Ant) (auto : Bool) (out : List V) : Except Err (List V) :=
  if auto then .ok out else
  (need .index (getBaselines as1 as2 true)).map fun full =>
    ((out.zip full).filter fun p => p.2.1.id != p.2.2.id).map (·.1)

/-- One step of the loop over the output, with both index errors. -/
def step (bls : List (Ant × Ant)) (f : Ant → Ant → V → Except Err V) (rows : List V) (k : Nat) : Except Err (List V) :=
  (need .index bls[k]?).bind fun p =>
  (need .index rows[k]?).bind fun v =>
  (f p.1 p.2 v).map fun w => rows.set k w

/-- `for bl in range(n)`, fx.py:338-342, 486-490, 595-605 and 705-715. -/
def loop (bls : List (Ant × Ant)) (f : Ant → Ant → V → Except Err V) (n : Nat) (rows : List V) : Except Err (List V) :=
  (List.range n).foldl (fun acc k => acc.bind fun r => step bls f r k) (.ok rows)

/-- `FXMaster`, fx.py:192-350; the frequencies are left out. -/
def fxMaster (g : Eng R S V) (src : Rat × Rat × Rat) (c : Rat) (nChan : Nat) (pol : List Char) (auto gain : Bool)
    (sig : List R) (as : List Ant) : Except Err (List (Ant × Ant) × List V) :=
  (pols pol).bind fun pp =>
  let as1 := sel pp.1 as
  let as2 := sel pp.2 as
  (need .index (getBaselines as1 as2 auto)).bind fun bls =>
  (align src c nChan as1 as2).bind fun d =>
  (if sig.length ≠ (selIdx pp.1 as).length then rowsAt sig (selIdx pp.1 as) else .ok sig).bind fun rows1 =>
  (fengine g rows1 d.1).bind fun f1 =>
  (if pp.2 = pp.1 then .ok f1 else (rowsAt sig (selIdx pp.2 as)).bind fun rows2 => fengine g rows2 d.2).bind fun f2 =>
  (xengine g.prod f1 f2).bind fun out =>
  (prune as1 as2 auto out).bind fun out =>
  (if gain then loop bls (fun a b v => .ok (g.gain a b v)) out.length out else .ok out).map fun out => (bls, out)

/-- `XEngine3` with the check of the shapes, stokes.cpp:731-743: a row needs both polarizations of both stands. -/
def xengine3 (prod4 : S × S → S × S → V) (x y : Nat × List S) : Except Err (List V) :=
  if y.2.length ≠ x.2.length ∨ y.1 ≠ x.1 then .error .runtime else
  (need .index (collect ((XEngine.mapper x.2.length).map (pick (x.2.zip y.2) (x.2.zip y.2))))).map fun l =>
    l.map fun p => prod4 p.1 p.2

/-- `FXStokes`, fx.py:353-498.  `output.shape[0]` in fx.py:486 is the number of Stokes parameters. -/
def fxStokes (g : Eng R S V) (prod4 : S × S → S × S → V) (src : Rat × Rat × Rat) (c : Rat) (nChan : Nat)
    (auto gain : Bool) (sig : List R) (as : List Ant) : Except Err (List (Ant × Ant) × List V) :=
  let as1 := sel 0 as
  let as2 := sel 1 as
  (need .index (getBaselines as1 as2 auto)).bind fun bls =>
  (align src c nChan as1 as2).bind fun d =>
  (rowsAt sig (selIdx 0 as)).bind fun rows1 => (fengine g rows1 d.1).bind fun f1 =>
  (rowsAt sig (selIdx 1 as)).bind fun rows2 => (fengine g rows2 d.2).bind fun f2 =>
  (xengine3 prod4 f1 f2).bind fun out =>
  (prune as1 as2 auto out).bind fun out =>
  (if gain then loop bls (fun a b v => .ok (g.gain a b v)) 4 out else .ok out).map fun out => (bls, out)

/-- `{antennas[i].stand.id: delays[i] for i in ...}[id]`: the last entry with that id, fx.py:570-571. -/
def entry (as : List Ant) (d : List (List Rat)) (id : Nat) : Except Err (List Rat) :=
  need .key (((as.zip d).reverse.find? (·.1.id == id)).map (·.2))

/-- The phase rotation of one baseline, fx.py:596-599, then the gain. -/
def rotate (g : Eng R S V) (rot : List Rat → List Rat → V → V) (gain : Bool) (as1 as2 : List Ant)
    (d : List (List Rat) × List (List Rat)) (a b : Ant) (v : V) : Except Err V :=
  (entry as1 d.1 a.id).bind fun d1 => (entry as2 d.2 b.id).map fun d2 =>
    if gain then g.gain a b (rot d1 d2 v) else rot d1 d2 v

/-- `XMaster`, fx.py:501-613.  The number of windows is part of the shape of `signals`. -/
def xMaster (g : Eng S S V) (rot : List Rat → List Rat → V → V) (src : Rat × Rat × Rat) (c : Rat) (nChan : Nat)
    (pol : List Char) (auto gain : Bool) (sig : List S) (as : List Ant) : Except Err (List (Ant × Ant) × List V) :=
  (pols pol).bind fun pp =>
  let as1 := sel pp.1 as
  let as2 := sel pp.2 as
  (need .index (getBaselines as1 as2 auto)).bind fun bls =>
  (align src c nChan as1 as2).bind fun d =>
  (rowsAt sig (selIdx pp.1 as)).bind fun x =>
  (if pp.2 = pp.1 then .ok x else rowsAt sig (selIdx pp.2 as)).bind fun y =>
  (xengine g.prod (0, x) (0, y)).bind fun out =>
  (prune as1 as2 auto out).bind fun out =>
  (loop bls (rotate g rot gain as1 as2 d) out.length out).map fun out => (bls, out)

/-- `XStokes`, fx.py:616-723. -/
def xStokes (g : Eng S S V) (prod4 : S × S → S × S → V) (rot : List Rat → List Rat → V → V) (src : Rat × Rat × Rat)
    (c : Rat) (nChan : Nat) (auto gain : Bool) (sig : List S) (as : List Ant) : Except Err (List (Ant × Ant) × List V) :=
  let as1 := sel 0 as
  let as2 := sel 1 as
  (need .index (getBaselines as1 as2 auto)).bind fun bls =>
  (align src c nChan as1 as2).bind fun d =>
  (rowsAt sig (selIdx 0 as)).bind fun x =>
  (rowsAt sig (selIdx 1 as)).bind fun y =>
  (xengine3 prod4 (0, x) (0, y)).bind fun out =>
  (prune as1 as2 auto out).bind fun out =>
  (loop bls (rotate g rot gain as1 as2 d) out.length out).map fun out => (bls, out)

/-! ### one channel of a row, for the phase rotations -/

section
open Lean.Grind (CommRing)
variable {C : Type} [CommRing C]

/-- The sum over windows of `conj(y) * x`, as in `XEngine.dotc`. -/
def corr (conj : C → C) (x y : List C) : C := ((y.zip x).map fun p => conj p.1 * p.2).foldl (· + ·) 0

/-- One channel of the four Stokes parameters of a baseline, before the division, stokes.cpp:659-680. -/
def four (conj : C → C) (mi : C) (s1 s2 : List C × List C) : C × C × C × C :=
  let xx := corr conj s1.1 s2.1
  let yy := corr conj s1.2 s2.2
  let xy := corr conj s1.1 s2.2
  let yx := corr conj s2.2 s1.1
  (xx + yy, xx - yy, xy + yx, (xy - yx) * mi)

/-- `phaseRot`, fx.py:596, in one channel of frequency `f`; `e x` is `exp(2 pi i x)`. -/
def phase (e : Rat → C) (f : Rat) (ch : Nat) (d : List Rat) : C := e (f * d.getD ch 0)

/-- `output[bl,:] *= phaseRot2.conj()*phaseRot1`, fx.py:599. -/
def turn (conj : C → C) (e : Rat → C) (f : Rat) (ch : Nat) (d1 d2 : List Rat) (v : C) : C :=
  v * (conj (phase e f ch d2) * phase e f ch d1)

/-- `output[:,bl,:] *= phaseRot2.conj()*phaseRot1`, fx.py:709. -/
def turn4 (conj : C → C) (e : Rat → C) (f : Rat) (ch : Nat) (d1 d2 : List Rat) (v : C × C × C × C) : C × C × C × C :=
  (turn conj e f ch d1 d2 v.1, turn conj e f ch d1 d2 v.2.1, turn conj e f ch d1 d2 v.2.2.1, turn conj e f ch d1 d2 v.2.2.2)

end

end Verif.FX
