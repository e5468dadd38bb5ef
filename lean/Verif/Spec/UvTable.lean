import Verif.Model.UvTable
/-!
# What a visibility file should give back
-/
namespace Verif.UvTable.Spec

/-- An integration: for every product the visibilities and possibly weights of all baselines and channels. -/
structure Obs (V W : Type) where
  time : Int
  bls : List Bl
  products : List (List (List V) × Option (List (List W)))

/-- The data sets by which an integration is added, one for each product. -/
def Obs.sets {V W : Type} (stokes : List Int) (o : Obs V W) : List (DataSet V W) :=
  (stokes.zip o.products).map (fun x => ⟨o.time, x.1, o.bls, x.2.1, x.2.2⟩)

/-- The products are polarisation codes next to each other: `-1, -2, …` or `1, 2, …`, from any start. -/
def Contiguous (stokes : List Int) : Prop :=
  ∃ (s : Int) (k : Nat), 0 < k ∧
    ((s < 0 ∧ stokes = (List.range k).map (fun i : Nat => s - i)) ∨
     (0 < s ∧ stokes = (List.range k).map (fun i : Nat => s + i)))

/-- The stands differ, have at most three digits and are not too many. -/
structure GoodSetup (u : Setup) : Prop where
  distinct : u.stands.Nodup
  small : ∀ s ∈ u.stands, s < 1000
  few : u.stands.length ≤ u.format.maxAnts
  products : Contiguous u.stokes

/-- The arrays of an integration have the right shapes and its baselines are between stands of the array. -/
structure Good {V W : Type} (u : Setup) (o : Obs V W) : Prop where
  stands : ∀ b ∈ o.bls, b.1 ∈ u.stands ∧ b.2 ∈ u.stands
  count : o.products.length = u.stokes.length
  vis : ∀ p ∈ o.products, p.1.length = o.bls.length ∧ ∀ r ∈ p.1, r.length = u.width
  wts : ∀ p ∈ o.products, ∀ w, p.2 = some w → w.length = o.bls.length ∧ ∀ r ∈ w, r.length = u.width

/-- Integrations with as many baselines have the same baselines in the same order. -/
def SameBaselines {V W : Type} (obs : List (Obs V W)) : Prop :=
  ∀ o ∈ obs, ∀ o' ∈ obs, o.bls.length = o'.bls.length → o.bls = o'.bls

/-- The weights of baseline `m`: one if none were given or none are stored. -/
def weightOf {W : Type} (one : W) (u : Setup) (w : Option (List (List W))) (m : Nat) : Option (List W) :=
  match w with
  | some w => if u.format.weights then w[m]? else some (List.replicate u.width one)
  | none => some (List.replicate u.width one)

/-- For each baseline, with autocorrelations or without them, the positions of its stands in the array, and the
visibilities and weights of each product. -/
def wanted {V W : Type} (one : W) (u : Setup) (o : Obs V W) (auto : Bool) :
    List ((Nat × Nat) × List (Option (List V)) × List (Option (List W))) :=
  (o.bls.mapIdx (fun m b => (b, m))).filterMap (fun x =>
    if auto = true ∨ x.1.1 ≠ x.1.2 then
      some ((u.stands.idxOf x.1.1, u.stands.idxOf x.1.2), o.products.map (fun p => p.1[x.2]?),
        o.products.map (fun p => weightOf one u p.2 x.2))
    else none)

/-- What was read, in the same form. -/
def shown {V W : Type} (g : Got V W) : List ((Nat × Nat) × List (Option (List V)) × List (Option (List W))) :=
  g.baselines.mapIdx (fun k b => (b, g.data.map (fun x => x[k]?), g.weight.map (fun x => x[k]?)))

/-- `srt` is a way of sorting: it lists the positions in increasing order of their values. -/
structure Argsort (srt : List Nat → List Nat) : Prop where
  perm : ∀ l, (srt l).Perm (List.range l.length)
  sorted : ∀ l, ((srt l).filterMap (fun i => l[i]?)).Pairwise (· ≤ ·)

end Verif.UvTable.Spec
