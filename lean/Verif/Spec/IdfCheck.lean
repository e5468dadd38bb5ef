import Verif.Model.IdfCheck
/-!
# What the checks of an interferometer definition should accept
-/
namespace Verif.Idf.Spec

open Verif.Idf

/-- Above the horizon of each station, every five minutes from the start to the end. -/
def Seen (n : Nat) (up : Nat → Nat → Bool) (dur : Int) : Prop := ∀ k, k < n → ∀ i : Nat, (i : Int) * 300000 ≤ dur → up k i = true

/-- A tuning word in range. -/
def Tuned (site : Site) (w : Int) : Prop := site.lo ≤ w ∧ w ≤ site.hi

structure GoodScan (site : Site) (sky : ScanSky) (s : Scan) : Prop where
  dur : 1 ≤ s.dur
  freq1 : Tuned site s.freq1
  freq2 : Tuned site s.freq2 ∨ s.freq2 = 0
  filter : 1 ≤ s.filter ∧ s.filter ≤ 7
  seen : Seen site.n sky.up s.dur
  few : sky.alts.length ≤ 10
  alts : ∀ a ∈ sky.alts, Seen site.n a.up s.dur ∧ a.sep ≤ 74000000 / maxFreq s
  bytes : bytes site s < capacity

structure GoodRun (site : Site) (sky : List ScanSky) (r : Run) : Prop where
  id : 1 ≤ r.id ∧ r.id ≤ 9999
  stations : r.stations.Nodup
  scans : ∀ p ∈ sky.zip r.scans, GoodScan site p.1 p.2
  filter : ∀ a ∈ r.scans, ∀ b ∈ r.scans, a.filter = b.filter
  apart : r.scans.Pairwise fun a b => a.at + (a.dur : Int) ≤ b.at ∨ b.at + (b.dur : Int) ≤ a.at
  bytes : (r.scans.map (bytes site)).sum < capacity

/-- Numbered texts of alternate phase centers, in order. -/
def altTexts (cos : Rat → Rat) (s : Scan) : Nat → List Alt → Text
  | _, [] => []
  | j, a :: l => altText cos s j a ++ altTexts cos s (j + 1) l

end Verif.Idf.Spec
