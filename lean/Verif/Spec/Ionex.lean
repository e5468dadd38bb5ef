import Verif.Model.Ionex
/-!
# Files of ionospheric maps as the format describes them (specification for C99)

Fortran formats of IONEX 1.0: `I6`, `I5` and `F6.1` are right-adjusted.
-/
namespace Verif.Ionex.Spec
open Verif.Dec

/-- Right-adjusted in `w` columns. -/
def right (w : Nat) (l : Text) : Text := List.replicate (w - l.length) ' ' ++ l

/-- `F6.1` of tenths. -/
def tenths (x : Int) : Text :=
  (if x < 0 then ['-'] else []) ++ showNat (x.natAbs / 10) ++ '.' :: showNat (x.natAbs % 10)

/-- One latitude: everything in tenths of degrees, kilometres and TECU; no value is `none`. -/
structure Band where
  lat : Int
  values : List (Option Int)

/-- Grid and height common to the maps, in tenths. -/
structure Grid where
  lng1 : Int
  dlng : Int
  n : Nat
  height : Int

structure Chart where
  year : Nat
  month : Nat
  day : Nat
  hour : Nat
  minute : Nat
  second : Nat
  bands : List Band

/-- The last longitude, `n` values in all. -/
def Grid.lng2 (g : Grid) : Int := g.lng1 + g.dlng * ((g.n : Int) - 1)

def label (w : Nat) (s : String) : Text := List.replicate w ' ' ++ s.toList

/-- `16I5`. -/
def valueText (v : Option Int) : Text := right 5 (showInt (v.getD 9999))

/-- Lines of at most `k + 1` values. -/
def chunks (k : Nat) : List (Option Int) → List (List (Option Int))
  | [] => []
  | v :: l => (v :: l.take k) :: chunks k (l.drop k)
termination_by l => l.length
decreasing_by simp; omega

def bandLines (g : Grid) (b : Band) : List Text :=
  ("  ".toList ++ right 6 (tenths b.lat) ++ right 6 (tenths g.lng1) ++ right 6 (tenths g.lng2) ++ right 6 (tenths g.dlng) ++
    right 6 (tenths g.height) ++ label 28 "LAT/LON1/LON2/DLON/H") :: (chunks 15 b.values).map (fun r => (r.map valueText).flatten)

def epochText (c : Chart) : Text :=
  right 6 (showNat c.year) ++ right 6 (showNat c.month) ++ right 6 (showNat c.day) ++ right 6 (showNat c.hour) ++
    right 6 (showNat c.minute) ++ right 6 (showNat c.second) ++ label 24 "EPOCH OF CURRENT MAP"

/-- A map with its number. -/
def chartLines (kind : String) (g : Grid) (k : Nat) (c : Chart) : List Text :=
  [right 6 (showNat k) ++ label 54 ("START OF " ++ kind ++ " MAP"), epochText c] ++ c.bands.flatMap (bandLines g) ++
    [right 6 (showNat k) ++ label 54 ("END OF " ++ kind ++ " MAP")]

/-- A line that belongs to no map. -/
def Outside (l : Text) : Prop :=
  ∀ s ∈ ["START OF TEC MAP", "START OF RMS MAP", "END OF TEC MAP", "END OF RMS MAP"], contains s.toList l = false

/-- The whole file: header, maps of the content, then of its uncertainty, and the end. -/
def fileLines (head tail : List Text) (g : Grid) (tec rms : List Chart) : List Text :=
  head ++ tec.zipIdx.flatMap (fun x => chartLines "TEC" g (x.2 + 1) x.1) ++
    rms.zipIdx.flatMap (fun x => chartLines "RMS" g (x.2 + 1) x.1) ++ tail

/-- The time of a map as a day number; 24:00 is the start of the next day. -/
def timeOf (c : Chart) : Rat :=
  McsTime.toMjd ⟨c.year, c.month, c.day, 0, 0, 0, 0⟩ + ((c.hour * 3600 + c.minute * 60 + c.second : Nat) : Rat) / 86400

/-- The values of a map. -/
def valuesOf (c : Chart) : Map := c.bands.map (fun b => b.values.map (fun v => v.map (fun (x : Int) => (x : Rat) / 10)))

/-- What the format allows: the numbers fit their columns. -/
structure Chart.Fits (g : Grid) (lats : List Int) (c : Chart) : Prop where
  date : SdfUtils.exists? ⟨c.year, c.month, c.day, 0, c.minute, c.second, 0⟩ = true
  hour : c.hour ≤ 24
  rows : c.bands.map Band.lat = lats
  count : ∀ b ∈ c.bands, b.values.length = g.n
  values : ∀ b ∈ c.bands, ∀ x, some x ∈ b.values → -1000 < x ∧ x < 9999

structure Grid.Fits (g : Grid) (lats : List Int) : Prop where
  range : ∀ x ∈ lats, -1000 < x ∧ x < 1000
  nonempty : lats ≠ []
  lng1 : -10000 < g.lng1 ∧ g.lng1 < 10000
  lng2 : -10000 < g.lng2 ∧ g.lng2 < 10000
  dlng : -10000 < g.dlng ∧ g.dlng < 10000 ∧ g.dlng ≠ 0
  count : 1 ≤ g.n
  height : 0 ≤ g.height ∧ g.height < 100000

/-- The times in order of their first appearance. -/
def times (l : List Chart) : List Rat := (l.map timeOf).foldl (fun a t => if t ∈ a then a else a ++ [t]) []

/-- What should be read from the file. -/
def expected (g : Grid) (lats : List Int) (tec rms : List Chart) : Data where
  dates := times (tec ++ rms)
  lats := lats.map (fun (x : Int) => (x : Rat) / 10)
  lngs := (List.range g.n).map (fun (i : Nat) => ((g.lng1 + g.dlng * i : Int) : Rat) / 10)
  height := (g.height : Rat) / 10
  tec := tec.map valuesOf
  rms := if rms.length = tec.length then rms.map valuesOf else (tec.map valuesOf).map (·.map (·.map (·.map (· / 20))))

end Verif.Ionex.Spec
