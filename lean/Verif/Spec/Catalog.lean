/-!
# Catalogs of sources

A catalog is a list of sources, each with a name and aliases.  Asked for a key, it gives the last source of that name; if there is
none, the last source with that alias.
-/
namespace Verif.Catalog

variable {K R : Type} [DecidableEq K]

/-- The last of `l` that has `p`. -/
def lastWith (p : R → Bool) : List R → Option R
  | [] => none
  | r :: l => (lastWith p l).or (if p r then some r else none)

/-- The source of a key. -/
def sourceOf (name : R → K) (aliases : R → List K) (l : List R) (k : K) : Option R :=
  (lastWith (fun r => decide (name r = k)) l).or (lastWith (fun r => decide (k ∈ aliases r)) l)

/-- Each once, in the order in which they first come. -/
def once : List K → List K
  | [] => []
  | k :: l => k :: (once l).filter (· ≠ k)

end Verif.Catalog
