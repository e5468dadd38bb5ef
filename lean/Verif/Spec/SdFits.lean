/-!
# Tables of single dish scans

A scan has a time, an integration time and a spectrum for every product and beam.  Its rows are one for every beam, with the spectra
of all products.
-/
namespace Verif.SdFits

variable {S : Type}

structure Scan (S : Type) where
  time : Rat
  int : Rat
  beams : List Nat
  spec : Int → Nat → S

/-- A row: number of the scan, time, integration time, beam, spectra. -/
structure Row (S : Type) where
  scan : Nat
  time : Rat
  int : Rat
  beam : Nat
  data : List S

/-- The rows of a scan; `order` are its beams in order. -/
def scanRows (stokes : List Int) (n : Nat) (s : Scan S) (order : List Nat) : List (Row S) :=
  order.map fun b => ⟨n, s.time, s.int, b, stokes.map fun p => s.spec p b⟩

/-- The rows of all scans, counted from `n`. -/
def tableRows (order : List Nat → List Nat) (stokes : List Int) : Nat → List (Scan S) → List (Row S)
  | _, [] => []
  | n, s :: l => scanRows stokes n s (order s.beams) ++ tableRows order stokes (n + 1) l

end Verif.SdFits
