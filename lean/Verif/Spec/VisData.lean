import Verif.Model.VisData
/-!
# What visibility containers should do
-/
namespace Verif.VisData.Spec

/-- Every array has a row for each baseline, and no two products have the same name. -/
structure Whole {U V W : Type} (s : Set U V W) : Prop where
  uvw : s.uvw.length = s.baselines.length
  rows : ∀ p ∈ s.pols, p.data.length = s.baselines.length ∧ p.weight.length = s.baselines.length ∧
    p.mask.length = s.baselines.length
  names : (s.pols.map Pol.name).Nodup

/-- Everything known of a baseline: coordinates, and visibilities, weights and flags of every product. -/
structure Line (U V W : Type) where
  baseline : Nat × Nat
  uvw : U
  products : List (String × List V × List W × List Bool)

/-- What a product has for baseline `i`. -/
def entry {V W : Type} (i : Nat) (p : Pol V W) : Option (String × List V × List W × List Bool) :=
  match p.data[i]?, p.weight[i]?, p.mask[i]? with
  | some d, some w, some m => some (p.name, d, w, m)
  | _, _, _ => none

/-- The lines of a data set; arrays that are too short have no value there. -/
def line {U V W : Type} (s : Set U V W) (i : Nat) : Option (Line U V W) :=
  match s.baselines[i]?, s.uvw[i]?, s.pols.mapM (entry i) with
  | some b, some u, some ps => some ⟨b, u, ps⟩
  | _, _, _ => none

def lines {U V W : Type} (s : Set U V W) : List (Line U V W) :=
  (List.range s.baselines.length).filterMap (line s)

/-- The same but for the lines. -/
def SameFrame {U V W : Type} (s t : Set U V W) : Prop :=
  t.jd = s.jd ∧ t.nchan = s.nchan ∧ t.stands = s.stands ∧ t.pols.map Pol.name = s.pols.map Pol.name

/-- Whether an antenna, by its position, is wanted: `include` has priority. -/
def wanted (n : Nat) (inc exc : Option (List Nat)) (a : Nat) : Bool :=
  match inc with
  | some l => decide (a ∈ l)
  | none => decide (a < n ∧ a ∉ exc.getD [])

/-- The same by stand numbers. -/
def wantedStand (stands : List Nat) (inc exc : Option (List Nat)) (a : Nat) : Bool :=
  (stands[a]?).any (fun s =>
    match inc with
    | some l => decide (s ∈ l)
    | none => decide (s ∉ exc.getD []))

/-- Baselines by first and then by second antenna. -/
def LexLe (a b : Nat × Nat) : Prop := a.1 < b.1 ∨ (a.1 = b.1 ∧ a.2 ≤ b.2)

end Verif.VisData.Spec
