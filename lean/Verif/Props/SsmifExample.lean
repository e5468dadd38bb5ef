import Verif.Props.SsmifFaults
/-!
# C48: defaults, and a station file from its text to its antennas
-/
namespace Verif.Ssmif
open Dec Parser Spec

/-! ## Defaults -/

/-- Consecutive whole numbers in rows are the whole numbers. -/
theorem rows_flatten (n m : Nat) :
    ((List.range n).map (fun i => (List.range m).map (fun c => ((i * m + c + 1 : Nat) : Int)))).flatten =
      oneTo (n * m) := by
  induction n with
  | zero => simp [oneTo]
  | succ n ih =>
    rw [List.range_succ, List.map_append, List.flatten_append, ih]
    simp only [List.map_cons, List.map_nil, List.flatten_cons, List.flatten_nil, List.append_nil]
    rw [Nat.succ_mul]
    generalize n * m = k
    clear ih
    induction m with
    | zero => simp
    | succ m ih =>
      rw [List.range_succ, List.map_append, ← List.append_assoc, ih, ← Nat.add_assoc, oneTo]
      simp

/-- C48: without assignment lines, the digitizer and ARX channels count the antennas, the two ports of FEE `i` are antennas
`2i-1` and `2i`, cable `i` is antenna `i`, and antennas `2i-1` and `2i` are the two polarizations of stand `i`. -/
theorem C48_defaults (e : Env) (n f r b m : Nat) :
    let e1 := e.puts (newStands n ++ newFees f ++ newCables r ++ newArxChannels b m ++ newSnapChannels b m)
    (∃ t, e1.intRows "snapAnt" = some t ∧ t.flatten = oneTo (b * m)) ∧
    (∃ t, e1.intRows "arxAnt" = some t ∧ t.flatten = oneTo (b * m)) ∧
    (∃ l, e1.ints "rpdAnt" = some l ∧ l = oneTo r) ∧
    (∃ l1 l2, e1.ints "feeAnt1" = some l1 ∧ e1.ints "feeAnt2" = some l2 ∧ (l1 ++ l2).Perm (oneTo (2 * f))) ∧
    (∃ l, e1.ints "stdAnt" = some l ∧ l.length = 2 * n ∧ ∀ i : Nat, i < n →
      l[2 * i]? = some ((i : Int) + 1) ∧ l[2 * i + 1]? = some ((i : Int) + 1)) := by
  have mm : ∀ (k : Nat) (g : Nat → Int), ((List.range k).map (fun i => Val.int (g i))).mapM Val.int? =
      some ((List.range k).map g) := by
    intro k g
    induction (List.range k) with
    | nil => rfl
    | cons x l ih => simp [List.mapM_cons, Val.int?, ih]
  have mr : ((List.range b).map (fun i => (List.range m).map (fun c => Val.int ((i * m + c + 1 : Nat) : Int)))).mapM
      (fun r => r.mapM Val.int?) =
      some ((List.range b).map (fun i => (List.range m).map (fun c => ((i * m + c + 1 : Nat) : Int)))) := by
    induction (List.range b) with
    | nil => rfl
    | cons x l ih => simp only [List.map_cons, List.mapM_cons, mm, ih]; rfl
  have one : ∀ k : Nat, (List.range k).map (fun i : Nat => ((i + 1 : Nat) : Int)) = oneTo k := by
    intro k
    induction k with
    | zero => rfl
    | succ k ih => rw [List.range_succ, List.map_append, ih, oneTo]; simp
  intro e1
  have x1 : e1 "snapAnt" = some (upTo2 b m) := rfl
  have x2 : e1 "arxAnt" = some (upTo2 b m) := rfl
  have x3 : e1 "rpdAnt" = some (upTo r (fun i => (i + 1 : Nat))) := rfl
  have x4 : e1 "feeAnt1" = some (upTo f (fun i => (2 * i + 1 : Nat))) := rfl
  have x5 : e1 "feeAnt2" = some (upTo f (fun i => (2 * i + 2 : Nat))) := rfl
  have x6 : e1 "stdAnt" = some (upTo (2 * n) (fun i => (i / 2 + 1 : Nat))) := rfl
  refine ⟨⟨_, ?_, rows_flatten b m⟩, ⟨_, ?_, rows_flatten b m⟩, ⟨_, ?_, one r⟩, 
    ⟨(List.range f).map (fun i : Nat => ((2 * i + 1 : Nat) : Int)), (List.range f).map (fun i : Nat => ((2 * i + 2 : Nat) : Int)),
      ?_, ?_, ?_⟩, ⟨(List.range (2 * n)).map (fun i : Nat => ((i / 2 + 1 : Nat) : Int)), ?_, ?_, ?_⟩⟩
  · simp only [Env.intRows, Env.rows, x1, upTo2, Option.bind_some, mr]
  · simp only [Env.intRows, Env.rows, x2, upTo2, Option.bind_some, mr]
  · simp only [Env.ints, Env.vals, x3, upTo, Option.bind_some, mm]
  · simp only [Env.ints, Env.vals, x4, upTo, Option.bind_some, mm]
  · simp only [Env.ints, Env.vals, x5, upTo, Option.bind_some, mm]
  · clear x1 x2 x3 x4 x5 x6 e1
    induction f with
    | zero => exact List.Perm.refl _
    | succ f ih =>
      rw [List.range_succ, List.map_append, List.map_append, Nat.mul_succ, oneTo, oneTo]
      have h1 : ((2 * f : Nat) : Int) + 1 = ((2 * f + 1 : Nat) : Int) := by omega
      have h2 : ((2 * f + 1 : Nat) : Int) + 1 = ((2 * f + 2 : Nat) : Int) := by omega
      simp only [List.map_cons, List.map_nil]
      rw [h1, h2]
      refine List.Perm.trans ?_ ((ih.append_right [((2 * f + 1 : Nat) : Int)]).append_right [((2 * f + 2 : Nat) : Int)])
      simp only [← List.append_assoc]
      apply List.Perm.append_right
      rw [List.append_assoc, List.append_assoc]
      exact List.Perm.append_left _ List.perm_append_comm
  · simp only [Env.ints, Env.vals, x6, upTo, Option.bind_some, mm]
  · simp
  · intro i hi
    rw [List.getElem?_map, List.getElem?_range (by omega), List.getElem?_map, List.getElem?_range (by omega)]
    simp only [Option.map_some, Option.some.injEq]
    omega

/-! ## Names -/

/-- C48, false: with a comment after the station's name the name keeps its blanks and is not known. -/
theorem C48_station_comment (fl : Str → Option Rat) (e : Env) :
    ∃ e1 e2, step fl e "STATION_ID VL".toList = some e1 ∧ (e1.one "idn").map nameOf = some "LWA1" ∧
      step fl e "STATION_ID VL # LWA1".toList = some e2 ∧ (e2.one "idn").map nameOf = some "New LWA Station" := by
  have l1 : ∀ (line v : Str), line.filter (fun c => c ≠ '\n' ∧ c ≠ '\r') = line → line.all isBlank = false →
      ¬ line.head? = some '#' → (∃ w, twoParts line = some ("STATION_ID".toList, w) ∧ uncomment w = v) →
      step fl e line = some (e.put "idn" (.one (.str v))) := by
    intro line v h1 h2 h3 ⟨w, h4, h5⟩
    have hk : keyword? "STATION_ID".toList = some ("STATION_ID", -1, -1) := by decide +kernel
    have hl : acts.lookup "STATION_ID" = some (.scalar "idn" .str) := rfl
    simp only [step, h1, h2, h3, h4, hk, hl, h5, Act.run, Conv.run]
    rfl
  have n1 : ∀ v, (e.put "idn" (.one (.str v))).one "idn" = some (.str v) := by
    intro v; simp only [Env.one, put_same]
  refine ⟨_, _, l1 _ "VL".toList (by decide +kernel) (by decide +kernel) (by decide +kernel)
    ⟨"VL".toList, by decide +kernel, by decide +kernel⟩, by rw [n1]; decide +kernel,
    l1 _ "VL ".toList (by decide +kernel) (by decide +kernel) (by decide +kernel)
    ⟨"VL # LWA1".toList, by decide +kernel, by decide +kernel⟩, by rw [n1]; decide +kernel⟩

/-! ## Parts -/

/-- C48: part `i` has the settings of entry `i`, and ARX channel `j` of board `i` those of entry `i`, `j`. -/
theorem C48_parts_partial (t : Tables) (i : Nat) :
    (∀ s, (stands t)[i]? = some s → s.id = i + 1 ∧ t.stdPos[i]? = some s.pos) ∧
    (∀ f, (fees t)[i]? = some f → f.number = i + 1 ∧ t.feeID[i]? = some f.id ∧ t.feeGai1[i]? = some f.gain1 ∧
      t.feeGai2[i]? = some f.gain2 ∧ t.feeStat[i]? = some f.status) ∧
    (∀ cs c, cables t = some cs → cs[i]? = some c → t.rpdID[i]? = some c.id ∧ t.rpdLeng[i]? = some c.length ∧
      t.rpdVF[i]? = some (c.vf * 100) ∧ t.rpdDD[i]? = some (c.dd * 1000000000) ∧ t.rpdA0[i]? = some c.a0 ∧
      t.rpdA1[i]? = some c.a1 ∧ t.rpdStr[i]? = some c.stretch ∧ t.rpdFre[i]? = some c.refFreq) ∧
    (∀ (j : Nat) (x : Arx), arxOf t i j = some x →
      (∃ b, t.arxID[i]? = some (.str b) ∧ intText? b = some x.id) ∧ x.channel = j + 1 ∧
      x.aspChannel = i * t.nChanARX + j + 1 ∧ t.arxIn[i]?.bind (fun r => r[j]?) = some x.input ∧
      t.arxOut[i]?.bind (fun r => r[j]?) = some x.output) := by
  refine ⟨?_, ?_, ?_, ?_⟩
  · intro s h
    simp only [stands, List.getElem?_mapIdx, Option.map_eq_some_iff] at h
    obtain ⟨p, h1, rfl⟩ := h
    exact ⟨rfl, h1⟩
  · intro f h
    simp only [fees, List.getElem?_mapIdx, Option.map_eq_some_iff, List.getElem?_zip_eq_some] at h
    obtain ⟨x, ⟨h1, h2, h3, h4⟩, rfl⟩ := h
    exact ⟨rfl, h1, h2, h3, h4⟩
  · intro cs c h hc
    have hb : ∃ b, (bareCables t)[i]? = some b ∧ { c with atten := 0 } = { b with atten := 0 } := by
      unfold cables at h
      split at h
      · cases h
        simp only [List.getElem?_mapIdx, Option.map_eq_some_iff] at hc
        obtain ⟨b, h1, rfl⟩ := hc
        refine ⟨b, h1, ?_⟩
        split <;> rfl
      · cases h
    obtain ⟨b, h1, h2⟩ := hb
    simp only [bareCables, List.getElem?_map, Option.map_eq_some_iff, List.getElem?_zip_eq_some] at h1
    obtain ⟨x, ⟨g1, g2, g3, g4, g5, g6, g7, g8⟩, rfl⟩ := h1
    simp only [Cable.mk.injEq] at h2
    obtain ⟨k1, k2, k3, k4, k5, k6, k7, k8, _⟩ := h2
    rw [k1, k2, k3, k4, k5, k6, k7, k8]
    refine ⟨g1, g2, ?_, ?_, g5, g6, g7, g8⟩
    · rw [g3]; congr 1; grind
    · rw [g4]; congr 1; grind
  · intro j x h
    unfold arxOf at h
    split at h
    · rename_i b x y h1 h2 h3
      simp only [Option.map_eq_some_iff] at h
      obtain ⟨n, h4, rfl⟩ := h
      exact ⟨⟨b, h1, h4⟩, rfl, rfl, h2, h3⟩
    · cases h

/-! ## A file -/

/-- A station of two stands with one FEE each, its antennas on the digitizers in the order 3, 1, 4, 2. -/
def sample : List String :=
  ["# sample", "FORMAT_VERSION 10", "STATION_ID VL", "GEO_N 34", "GEO_E -107", "GEO_EL 2133 # m", "N_STD 2",
   "STD_LX[1] 1", "STD_LY[2] 1", "ANT_STAT[3] 1", "N_FEE 2", "FEE_ID[1] A", "FEE_ID[2] B", "N_RPD 4", "RPD_VF 83",
   "RPD_STR[2] 1", "N_ARB 1", "N_ARBCH 4", "ARB_ID[1] 7", "", "N_SNAP 2", "N_SNAPCH 2", "SNAP_ANT[1][1] 3",
   "SNAP_ANT[1][2] 1", "SNAP_ANT[2][1] 4", "SNAP_ANT[2][2] 2", "ASP_AT1 5"]

/-- Digitizer, board, number, stand, FEE and port of the antennas. -/
def shown (s : Station) : List (List Nat) :=
  s.antennas.map (fun a => [a.digitizer, a.board, a.id, a.stand.id, (a.fee.map Fee.number).getD 0, a.feePort])

example : (parseSsmif (fun _ => some 0) (sample.map String.toList)).map shown =
    some [[1, 1, 3, 2, 2, 1], [2, 1, 1, 1, 1, 1], [3, 2, 4, 2, 2, 2], [4, 2, 2, 1, 1, 2]] := by
  decide +kernel

/-- C48, false: the same file with a third FEE and three channels a board, all spare ones marked 0. -/
theorem C48_spares : (parseSsmif (fun _ => some 0) ((sample.map (fun l => if l = "N_FEE 2" then "N_FEE 3" else
      if l = "N_SNAPCH 2" then "N_SNAPCH 3" else l) ++
      ["FEE_ANT1[3] 0", "FEE_ANT2[3] 0", "SNAP_ANT[1][3] 0", "SNAP_ANT[2][3] 0"]).map String.toList)).map shown =
    some [[1, 1, 3, 2, 2, 1], [2, 1, 1, 1, 1, 1], [5, 2, 2, 1, 1, 2], [6, 2, 4, 2, 3, 2]] := by
  decide +kernel

/-- C48, false: a line for one attenuator 3 with no line for attenuator 1 before it. -/
theorem C48_at3_refused : (parseSsmif (fun _ => some 0)
    ((sample.filter (fun l => l ≠ "ASP_AT1 5") ++ ["ASP_AT3[1] 2"]).map String.toList)).isNone = true ∧
    (parseSsmif (fun _ => some 0) ((sample ++ ["ASP_AT3[1] 2"]).map String.toList)).isSome = true := by
  decide +kernel

end Verif.Ssmif
