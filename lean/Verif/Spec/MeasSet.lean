import Verif.Model.MeasSet
/-!
# What a measurement set should give back
-/
namespace Verif.MeasSet.Spec
open Verif.UvTable (Bl)

/-- An integration: for every product the visibilities of all baselines and channels. -/
structure Obs (V : Type) where
  time : Int
  half : Int
  source : Option String
  bls : List Bl
  products : List (List (List V))

/-- The data sets by which an integration is added, one for each product. -/
def Obs.sets {V : Type} (stokes : List Int) (o : Obs V) : List (DataSet V) :=
  (stokes.zip o.products).map fun x => ⟨o.time, o.half, x.1, o.source, o.bls, x.2⟩

/-- The middle of an integration. -/
def Obs.mid {V : Type} (o : Obs V) : Int := o.time + o.half

/-- The name of the source observed. -/
def Obs.name {V : Type} (zen : Int → String) (o : Obs V) : String :=
  match o.source with
  | some s => s
  | none => zen o.time

/-- The stands differ and are not too many, the products have increasing codes, and there is a window. -/
structure GoodSetup (u : Setup) : Prop where
  distinct : u.stands.Nodup
  few : u.stands.length ≤ 32768
  products : u.stokes ≠ []
  codes : u.stokes.Pairwise fun a b => a.natAbs < b.natAbs
  windows : 0 < u.bands

/-- The arrays of an integration have the right shapes and its baselines are between stands of the array. -/
structure Good {V : Type} (u : Setup) (o : Obs V) : Prop where
  some : o.bls ≠ []
  stands : ∀ b ∈ o.bls, b.1 ∈ u.stands ∧ b.2 ∈ u.stands
  count : o.products.length = u.stokes.length
  vis : ∀ p ∈ o.products, p.length = o.bls.length ∧ ∀ r ∈ p, r.length = u.bands * u.chans

/-- The names tell the sources apart: only integrations of the same body share a name, and no source is called `z`. -/
structure Names {V : Type} (zen : Int → String) (obs : List (Obs V)) : Prop where
  notZ : ∀ o ∈ obs, o.name zen ≠ "z"
  distinct : obs.Pairwise fun a b => a.name zen = b.name zen → a.source ≠ none ∧ b.source ≠ none

/-- For each baseline, with autocorrelations or without them, the positions of its stands in the array, its coordinates and
the channels of every product. -/
def wanted {V U : Type} (geom : Int → Option String → Bl → U) (u : Setup) (o : Obs V) (auto : Bool) :
    List (Bl × U × List (List V)) :=
  (o.bls.mapIdx fun m b => (b, m)).filterMap fun x =>
    if auto = true ∨ x.1.1 ≠ x.1.2 then
      some ((u.stands.idxOf x.1.1, u.stands.idxOf x.1.2), geom o.time o.source x.1,
        o.products.map fun p => (p[x.2]?).getD [])
    else none

end Verif.MeasSet.Spec
