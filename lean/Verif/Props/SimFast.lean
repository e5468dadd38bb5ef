import Mathlib.Analysis.SpecialFunctions.Trigonometric.Bounds
import Mathlib.Tactic.FieldSimp
import Mathlib.Tactic.NormNum
import Verif.Lemmas.SimFast
import Verif.Lemmas.UvTable
/-!
# C81: simulated visibilities
-/
namespace Verif.SimFast

open Real
open Verif.CMem
open Verif.Uvw (Vec dot)

/-! ### the kernel -/

theorem rot_spec (ha dec : ℝ) (b : Vec) :
    rot ha dec b = ⟨dot (Spec.east ha) b, dot (Spec.north ha dec) b, dot (Spec.dir ha dec) b⟩ := by
  unfold rot dot Spec.east Spec.north Spec.dir
  ext <;> simp only <;> ring

theorem e_add (x y : ℝ) : e (x + y) = e x * e y := by
  unfold e; rw [← Complex.exp_add]; congr 1; push_cast; ring

theorem e_zero : e 0 = 1 := by unfold e; simp

theorem e_ne_zero (x : ℝ) : e x ≠ 0 := Complex.exp_ne_zero _

theorem e_conj (x : ℝ) : (starRingEnd ℂ) (e x) = e (-x) := by
  unfold e
  rw [← Complex.exp_conj]
  congr 1
  have h2 : (starRingEnd ℂ) 2 = 2 := Complex.conj_ofNat 2
  simp [h2]

theorem resolved_spec (j1 : ℝ → ℝ) (r : Bool) (s : Spec.Src) (u v : ℝ) :
    resolved j1 r s.a0 s.a1 s.th u v = Spec.shape j1 r s u v := by
  unfold resolved Spec.shape Spec.disc
  by_cases h : r = true ∧ s.a0 ≠ 0 ∧ s.a1 ≠ 0
  · rw [if_pos h, if_pos h]
    have e : s.a0 * (u * cos s.th - v * sin s.th) * s.a0 * (u * cos s.th - v * sin s.th)
        + s.a1 * (u * sin s.th + v * cos s.th) * s.a1 * (u * sin s.th + v * cos s.th)
        = (s.a0 * (u * cos s.th - v * sin s.th)) ^ 2 + (s.a1 * (u * sin s.th + v * cos s.th)) ^ 2 := by ring
    simp only [e]
    by_cases hx : 2 * π * sqrt ((s.a0 * (u * cos s.th - v * sin s.th)) ^ 2 + (s.a1 * (u * sin s.th + v * cos s.th)) ^ 2) = 0
    · rw [if_neg (fun x => x hx), if_pos hx]
    · rw [if_pos hx, if_neg hx]
  · rw [if_neg h, if_neg h]

/-- The sources in the arrays of the cache. -/
noncomputable def sources (ha dec : List ℝ) (flux : Arr2 ℂ) (shp : Arr2 ℝ) : List Spec.Src :=
  (List.range ha.length).map fun j =>
    { ha := ha.getD j 0, dec := dec.getD j 0, flux := fun k => flux.data.getD (j * flux.cols + k) 0,
      a0 := shp.data.getD j 0, a1 := shp.data.getD (shp.cols + j) 0, th := shp.data.getD (2 * shp.cols + j) 0 }

/-- The cache holds arrays of the right sizes. -/
structure Array.Cache (aa : Array) (ha dec : List ℝ) (flux : Arr2 ℂ) (shp : Arr2 ℝ) : Prop where
  hHa : aa.ha = some ha
  hDec : aa.dec = some dec
  hJys : aa.jys = some flux
  hShp : aa.shp = some shp
  dims : dec.length = ha.length ∧ flux.rows = ha.length ∧ flux.cols = aa.freq.length ∧ shp.rows = 3 ∧ shp.cols = ha.length
  fluxData : flux.data.length = flux.rows * flux.cols
  shpData : shp.data.length = shp.rows * shp.cols
  supported : aa.supported = true

/-- The direction of the phase centre that `FastVis` is asked for. -/
noncomputable def centre (lat pcAz pcEl : ℝ) : Vec :=
  Spec.dir (pcHa lat (pcAz * (π / 180)) (nudge (pcEl * (π / 180)))) (pcDec lat (pcAz * (π / 180)) (nudge (pcEl * (π / 180))))

/-- Every channel that is asked for exists. -/
def chansOk (lo chanMax n : Int) : Prop := lastChan lo chanMax n ≤ lo ∨ (0 ≤ lo ∧ lastChan lo chanMax n ≤ n)

theorem fastVis_unfold (j1 : ℝ → ℝ) (aa : Array) (ha dec : List ℝ) (flux : Arr2 ℂ) (shp : Arr2 ℝ) (hc : aa.Cache ha dec flux shp)
    (bls : List (Int × Int)) (chanMin chanMax : Int) (pcAz pcEl : ℝ) (resolve : Bool) :
    ∃ a : Args, fastVis j1 aa bls chanMin chanMax pcAz pcEl resolve = a.compute j1 ∧ a.Sizes ∧ a.nChan = aa.freq.length ∧
      a.nBL = bls.length ∧ a.nSrc = ha.length ∧ a.chanMin = chanMin ∧ a.chanMax = lastChan chanMin chanMax aa.freq.length ∧
      a.blPair = flatBl bls ∧ a.antPos = flatPos aa.ants ∧ a.freq = aa.freq ∧ a.srcHa = ha ∧ a.srcDec = dec ∧
      a.flux = flux.data ∧ a.shape = shp.data ∧ a.resolve = resolve ∧
      Spec.dir a.phsHa a.phsDec = centre aa.lat pcAz pcEl ∧
      a.phsHa = pcHa aa.lat (pcAz * (π / 180)) (nudge (pcEl * (π / 180))) ∧
      a.phsDec = pcDec aa.lat (pcAz * (π / 180)) (nudge (pcEl * (π / 180))) := by
  obtain ⟨d1, d2, d3, d4, d5⟩ := hc.dims
  refine ⟨{
          nBL := bls.length, nChan := aa.freq.length, nSrc := ha.length, chanMin := chanMin,
          chanMax := lastChan chanMin chanMax aa.freq.length, resolve := resolve,
          phsHa := pcHa aa.lat (pcAz * (π / 180)) (nudge (pcEl * (π / 180))),
          phsDec := pcDec aa.lat (pcAz * (π / 180)) (nudge (pcEl * (π / 180))),
          blPair := flatBl bls, antPos := flatPos aa.ants, freq := aa.freq, srcHa := ha, srcDec := dec,
          flux := flux.data, shape := shp.data }, ?_, ?_, rfl, rfl, rfl, rfl, rfl, rfl, rfl, rfl, rfl, rfl, rfl, rfl, rfl, rfl, rfl, rfl⟩
  · unfold fastVis
    rw [hc.hHa, hc.hDec, hc.hJys, hc.hShp]
    simp only
    rw [if_neg (by omega), if_neg (by omega), if_neg (by omega), if_neg (by omega), if_neg (by omega),
      if_neg (by rw [hc.supported]; simp)]
  · exact ⟨rfl, rfl, d1, by rw [hc.fluxData, d2, d3], by rw [hc.shpData, d4, d5]⟩

theorem visAt_spec (j1 : ℝ → ℝ) (a : Args) (ha dec : List ℝ) (flux : Arr2 ℂ) (shp : Arr2 ℝ) (b : Vec) (k : Nat)
    (h1 : a.srcHa = ha) (h2 : a.srcDec = dec) (h3 : a.flux = flux.data) (h4 : a.shape = shp.data) (h5 : a.nSrc = ha.length)
    (h6 : flux.cols = a.nChan) (h7 : shp.cols = a.nSrc) :
    a.total j1 b a.nSrc k * e (-(a.freq.getD k 0 * (rot a.phsHa a.phsDec b).z))
      = Spec.vis j1 a.resolve (Spec.dir a.phsHa a.phsDec) b (a.freq.getD k 0) k (sources ha dec flux shp) := by
  unfold Args.total Spec.vis sources
  rw [← List.sum_map_mul_right, List.map_map, h5]
  apply congrArg
  apply List.map_congr_left
  intro j _
  show a.term j1 b j k * _ = _
  simp only [Function.comp]
  unfold Args.term
  rw [← resolved_spec, rot_spec, rot_spec, h1, h2, h3, h4, h6, h7, Nat.mul_comm a.nChan j]
  simp only
  rw [mul_assoc, ← e_add]
  apply congrArg
  unfold e
  apply congrArg
  push_cast
  ring

/-- `FastVis` gives for every baseline and every channel of the range the coordinates of the baseline seen from the phase
centre, and the sum over the sources of the flux, times the response to its shape, with the phase of its delay relative to
the phase centre; other channels are zero. -/
theorem C81_simulated_partial (j1 : ℝ → ℝ) (aa : Array) (ha dec : List ℝ) (flux : Arr2 ℂ) (shp : Arr2 ℝ) (hc : aa.Cache ha dec flux shp)
    (bls : List (Int × Int)) (chanMin chanMax : Int) (pcAz pcEl : ℝ) (resolve : Bool)
    (hch : chansOk chanMin chanMax aa.freq.length) (hbl : ∀ b ∈ bls, okAnt aa.ants b.1 ∧ okAnt aa.ants b.2) :
    ∃ out, fastVis j1 aa bls chanMin chanMax pcAz pcEl resolve = .ok out ∧
      out.1.length = bls.length * 3 * aa.freq.length ∧ out.2.length = bls.length * aa.freq.length ∧
      ∀ i k, i < bls.length → k < aa.freq.length →
        let n := aa.freq.length
        let f := aa.freq.getD k 0
        let b := blOf aa.ants bls i
        let H := pcHa aa.lat (pcAz * (π / 180)) (nudge (pcEl * (π / 180)))
        let D := pcDec aa.lat (pcAz * (π / 180)) (nudge (pcEl * (π / 180)))
        if chanMin ≤ k ∧ (k : Int) < lastChan chanMin chanMax n then
          out.1[(3 * i + 0) * n + k]? = some (f * dot (Spec.east H) b) ∧
          out.1[(3 * i + 1) * n + k]? = some (f * dot (Spec.north H D) b) ∧
          out.1[(3 * i + 2) * n + k]? = some (f * dot (centre aa.lat pcAz pcEl) b) ∧
          out.2[i * n + k]? = some (Spec.vis j1 resolve (centre aa.lat pcAz pcEl) b f k (sources ha dec flux shp))
        else
          out.1[(3 * i + 0) * n + k]? = some 0 ∧ out.1[(3 * i + 1) * n + k]? = some 0 ∧ out.1[(3 * i + 2) * n + k]? = some 0 ∧
          out.2[i * n + k]? = some 0 := by
  obtain ⟨a, q0, q1, q2, q3, q4, q5, q6, q7, q8, q9, q10, q11, q12, q13, q14, q15, q16, q17⟩ :=
    fastVis_unfold j1 aa ha dec flux shp hc bls chanMin chanMax pcAz pcEl resolve
  have hco : a.chanOk := by unfold Args.chanOk; rw [q5, q6, q2]; exact hch
  have ce := compute_eq a q1 hco aa.ants q8 bls q7 q3 j1 hbl
  refine ⟨_, q0.trans ce, ?_, ?_, ?_⟩
  · unfold Args.after; rw [tab_length, q2, q3]
  · unfold Args.after; rw [tab_length, q2, q3]
  · intro i k hi hk
    simp only
    have g : ∀ c, c < 3 → (a.after aa.ants bls j1 a.nBL).1[(3 * i + c) * aa.freq.length + k]?
        = some (if a.on k then a.freq.getD k 0 * comp (rot a.phsHa a.phsDec (blOf aa.ants bls i)) c else 0) := by
      intro c hc3
      unfold Args.after
      rw [tab_get _ _ _ (by rw [q2, q3]; exact addr_lt _ _ _ _ (by omega) hk)]
      apply congrArg
      unfold Args.uvwAt
      rw [q2]
      obtain ⟨p1, p2⟩ := (addr aa.freq.length ((3 * i + c) * aa.freq.length + k) (3 * i + c) k hk).mp rfl
      rw [p1, p2, show (3 * i + c) / 3 = i by omega, show (3 * i + c) % 3 = c by omega]
      by_cases o : a.on k
      · rw [if_pos ⟨by omega, o⟩, if_pos o]
      · rw [if_neg (fun x => o x.2), if_neg o]
    have gv : (a.after aa.ants bls j1 a.nBL).2[i * aa.freq.length + k]?
        = some (if a.on k then a.total j1 (blOf aa.ants bls i) a.nSrc k * e (-(a.freq.getD k 0 * (rot a.phsHa a.phsDec (blOf aa.ants bls i)).z)) else 0) := by
      unfold Args.after
      rw [tab_get _ _ _ (by rw [q2, q3]; exact addr_lt _ _ _ _ hi hk)]
      apply congrArg
      unfold Args.visAt
      rw [q2]
      obtain ⟨p1, p2⟩ := (addr aa.freq.length (i * aa.freq.length + k) i k hk).mp rfl
      rw [p1, p2]
      by_cases o : a.on k
      · rw [if_pos ⟨by omega, o⟩, if_pos o]
      · rw [if_neg (fun x => o x.2), if_neg o]
    rw [g 0 (by omega), g 1 (by omega), g 2 (by omega), gv]
    have on_iff : a.on k ↔ (chanMin ≤ k ∧ (k : Int) < lastChan chanMin chanMax aa.freq.length) := by
      unfold Args.on; rw [q5, q6]
    by_cases o : a.on k
    · rw [if_pos (on_iff.mp o)]
      simp only [if_pos o]
      rw [visAt_spec j1 a ha dec flux shp _ k q10 q11 q12 q13 q4 (by rw [hc.dims.2.2.1, q2]) (by rw [hc.dims.2.2.2.2, q4])]
      rw [q15, q14, rot_spec, q16, q17, q9]
      refine ⟨by simp [comp], by simp [comp], by simp [comp, centre], rfl⟩
    · rw [if_neg (fun x => o (on_iff.mpr x))]
      simp only [if_neg o]
      simp

/-- All accesses are in the arrays exactly if there is no baseline, or the channels exist and the antenna numbers are those of
antennas: neither is checked. -/
theorem C81_access (j1 : ℝ → ℝ) (aa : Array) (ha dec : List ℝ) (flux : Arr2 ℂ) (shp : Arr2 ℝ) (hc : aa.Cache ha dec flux shp)
    (bls : List (Int × Int)) (chanMin chanMax : Int) (pcAz pcEl : ℝ) (resolve : Bool) :
    fastVis j1 aa bls chanMin chanMax pcAz pcEl resolve = .error .ub ↔
      ¬ ((bls = [] ∨ chansOk chanMin chanMax aa.freq.length) ∧ ∀ b ∈ bls, okAnt aa.ants b.1 ∧ okAnt aa.ants b.2) := by
  obtain ⟨a, q0, q1, q2, q3, q4, q5, q6, q7, q8, q9, q10, q11, q12, q13, q14, q15, q16, q17⟩ :=
    fastVis_unfold j1 aa ha dec flux shp hc bls chanMin chanMax pcAz pcEl resolve
  rw [q0]
  constructor
  · rintro h ⟨h1, h2⟩
    rcases h1 with h1 | h1
    · unfold Args.compute at h
      rw [q3, h1] at h
      exact absurd h (by intro x; cases x)
    · have hco : a.chanOk := by unfold Args.chanOk; rw [q5, q6, q2]; exact h1
      rw [compute_eq a q1 hco aa.ants q8 bls q7 q3 j1 h2] at h
      cases h
  · intro h
    unfold Args.compute
    by_cases hb : ∀ b ∈ bls, okAnt aa.ants b.1 ∧ okAnt aa.ants b.2
    · have hne : bls ≠ [] := fun x => h ⟨Or.inl x, hb⟩
      have hco : ¬ a.chanOk := by
        intro x; unfold Args.chanOk at x; rw [q5, q6, q2] at x; exact h ⟨Or.inr x, hb⟩
      apply fold_ub _ _ (fun s i => baseline_not_refused a j1 i s) 0
      · rw [q3]; exact List.mem_range.mpr (List.length_pos_iff.mpr hne)
      · intro s; exact baseline_ub a j1 0 s q1.freq hco
    · simp only [not_forall] at hb
      obtain ⟨b, hm, hbad⟩ := hb
      obtain ⟨i, hi, rfl⟩ := List.getElem_of_mem hm
      apply fold_ub _ _ (fun s i => baseline_not_refused a j1 i s) i
      · rw [q3]; exact List.mem_range.mpr hi
      · intro s
        obtain ⟨g1, g2⟩ := flatBl_get bls i hi
        unfold Args.baseline
        rw [q7, show (2 * (i : Int) + 0) = ((2 * i : Nat) : Int) by omega,
          show (2 * (i : Int) + 1) = ((2 * i + 1 : Nat) : Int) by omega, rd_some _ _ _ g1, rd_some _ _ _ g2]
        show (a.bl _ _).bind _ = _
        rw [bl_ub a aa.ants q8 _ _ hbad]
        rfl

/-- A channel past the last one, for instance `chan=[0, nFreq]`: the arrays are overrun. -/
theorem C81_not_channel (j1 : ℝ → ℝ) (aa : Array) (ha dec : List ℝ) (flux : Arr2 ℂ) (shp : Arr2 ℝ) (hc : aa.Cache ha dec flux shp)
    (bls : List (Int × Int)) (hb : bls ≠ []) (chanMin chanMax : Int) (h1 : chanMin ≤ chanMax) (h2 : chanMin < 0 ∨ (aa.freq.length : Int) ≤ chanMax)
    (pcAz pcEl : ℝ) (resolve : Bool) : fastVis j1 aa bls chanMin chanMax pcAz pcEl resolve = .error .ub := by
  rw [C81_access j1 aa ha dec flux shp hc]
  rintro ⟨h, _⟩
  rcases h with h | h
  · exact hb h
  · unfold chansOk lastChan at h
    rw [if_neg (by omega)] at h
    omega

/-- A negative antenna number, as python allows: memory before the positions is read. -/
theorem C81_not_antenna (j1 : ℝ → ℝ) (aa : Array) (ha dec : List ℝ) (flux : Arr2 ℂ) (shp : Arr2 ℝ) (hc : aa.Cache ha dec flux shp)
    (i : Int) (chanMin chanMax : Int) (pcAz pcEl : ℝ) (resolve : Bool) :
    fastVis j1 aa [(i, -1)] chanMin chanMax pcAz pcEl resolve = .error .ub := by
  rw [C81_access j1 aa ha dec flux shp hc]
  rintro ⟨_, h⟩
  have := (h (i, -1) (by simp)).2
  unfold okAnt at this
  omega

/-- `chan_max` below `chan_min`, as the default `-1`: all channels from `chan_min` up; otherwise the channels up to `chan_max`,
which is included. -/
theorem C81_range (lo hi n k : Int) (hk : k < n) :
    (lo ≤ k ∧ k < lastChan lo hi n) ↔ lo ≤ k ∧ (hi < lo ∨ k ≤ hi) := by
  unfold lastChan
  by_cases h : hi < lo
  · rw [if_pos h]; constructor
    · rintro ⟨a, _⟩; exact ⟨a, Or.inl h⟩
    · rintro ⟨a, _⟩; exact ⟨a, hk⟩
  · rw [if_neg h]; omega

/-- Anything else is refused with an exception exactly if an array of the cache is missing, the sizes disagree or the type of
the fluxes is not supported. -/
theorem C81_refused (j1 : ℝ → ℝ) (aa : Array) (bls : List (Int × Int)) (chanMin chanMax : Int) (pcAz pcEl : ℝ) (resolve : Bool) :
    fastVis j1 aa bls chanMin chanMax pcAz pcEl resolve = .error .refused ↔
      ¬ ∃ ha dec flux shp, aa.ha = some ha ∧ aa.dec = some dec ∧ aa.jys = some flux ∧ aa.shp = some shp ∧
        dec.length = ha.length ∧ flux.rows = ha.length ∧ flux.cols = aa.freq.length ∧ shp.rows = 3 ∧ shp.cols = ha.length ∧
        aa.supported = true := by
  have cnr : ∀ a : Args, a.compute j1 ≠ .error .refused := fun a =>
    fold_not_refused _ _ (fun s i => baseline_not_refused a j1 i s) _
  constructor
  · rintro h ⟨ha, dec, flux, shp, h1, h2, h3, h4, d1, d2, d3, d4, d5, d6⟩
    unfold fastVis at h
    rw [h1, h2, h3, h4] at h
    simp only at h
    rw [if_neg (by omega), if_neg (by omega), if_neg (by omega), if_neg (by omega), if_neg (by omega),
      if_neg (by rw [d6]; simp)] at h
    exact cnr _ h
  · intro h
    unfold fastVis
    cases h1 : aa.ha with
    | none => rfl
    | some ha => cases h2 : aa.dec with
      | none => rfl
      | some dec => cases h3 : aa.jys with
        | none => rfl
        | some flux => cases h4 : aa.shp with
          | none => rfl
          | some shp =>
            simp only
            by_cases d1 : ha.length ≠ dec.length
            · rw [if_pos d1]
            · rw [if_neg d1]
              by_cases d2 : flux.rows ≠ ha.length
              · rw [if_pos d2]
              · rw [if_neg d2]
                by_cases d3 : shp.rows ≠ 3
                · rw [if_pos d3]
                · rw [if_neg d3]
                  by_cases d4 : shp.cols ≠ ha.length
                  · rw [if_pos d4]
                  · rw [if_neg d4]
                    by_cases d5 : flux.cols ≠ aa.freq.length
                    · rw [if_pos d5]
                    · rw [if_neg d5]
                      by_cases d6 : aa.supported = false
                      · rw [if_pos d6]
                      · exact absurd ⟨ha, dec, flux, shp, h1, h2, h3, h4, by omega, by omega, by omega, by omega, by omega, by simpa using d6⟩ h

/-! ### what the visibilities are like -/

/-- A source in the direction of the phase centre that is not resolved has its flux as visibility, on every baseline. -/
theorem C81_centred (j1 : ℝ → ℝ) (s : Spec.Src) (b : Vec) (f : ℝ) (k : Nat) :
    Spec.vis j1 false (Spec.dir s.ha s.dec) b f k [s] = s.flux k := by
  simp [Spec.vis, Spec.shape]

/-- The visibilities of two lists of sources add. -/
theorem C81_additive (j1 : ℝ → ℝ) (r : Bool) (c b : Vec) (f : ℝ) (k : Nat) (l m : List Spec.Src) :
    Spec.vis j1 r c b f k (l ++ m) = Spec.vis j1 r c b f k l + Spec.vis j1 r c b f k m := by
  simp [Spec.vis]

/-- The order of the sources does not matter. -/
theorem C81_order (j1 : ℝ → ℝ) (r : Bool) (c b : Vec) (f : ℝ) (k : Nat) (l m : List Spec.Src) (h : l.Perm m) :
    Spec.vis j1 r c b f k l = Spec.vis j1 r c b f k m := (h.map _).sum_eq

/-- The opposite baseline. -/
def neg (b : Vec) : Vec := ⟨-b.x, -b.y, -b.z⟩

theorem dot_neg (a b : Vec) : dot a (neg b) = -dot a b := by unfold dot neg; ring

theorem shape_neg (j1 : ℝ → ℝ) (r : Bool) (s : Spec.Src) (u v : ℝ) : Spec.shape j1 r s (-u) (-v) = Spec.shape j1 r s u v := by
  unfold Spec.shape
  rw [show (s.a0 * (-u * cos s.th - -v * sin s.th)) ^ 2 = (s.a0 * (u * cos s.th - v * sin s.th)) ^ 2 by ring,
    show (s.a1 * (-u * sin s.th + -v * cos s.th)) ^ 2 = (s.a1 * (u * sin s.th + v * cos s.th)) ^ 2 by ring]

/-- The baseline the other way round has the conjugate visibility, for real fluxes. -/
theorem C81_swap (j1 : ℝ → ℝ) (r : Bool) (c b : Vec) (f : ℝ) (k : Nat) (l : List Spec.Src)
    (h : ∀ s ∈ l, (starRingEnd ℂ) (s.flux k) = s.flux k) :
    Spec.vis j1 r c (neg b) f k l = (starRingEnd ℂ) (Spec.vis j1 r c b f k l) := by
  unfold Spec.vis
  rw [map_list_sum, List.map_map]
  apply congrArg
  apply List.map_congr_left
  intro s hs
  simp only [Function.comp, map_mul, h s hs, Complex.conj_ofReal, dot_neg]
  rw [show f * -dot (Spec.east s.ha) b = -(f * dot (Spec.east s.ha) b) by ring,
    show f * -dot (Spec.north s.ha s.dec) b = -(f * dot (Spec.north s.ha s.dec) b) by ring, shape_neg, ← Complex.exp_conj]
  congr 2
  have h2 : (starRingEnd ℂ) 2 = 2 := Complex.conj_ofNat 2
  simp only [map_mul, h2, Complex.conj_ofReal, Complex.conj_I, map_sub]
  push_cast
  ring

theorem blOf_swap (ants : List Vec) (i j : Int) : blOf ants [(j, i)] 0 = neg (blOf ants [(i, j)] 0) := by
  unfold blOf neg Vec.sub
  simp

/-- An antenna with itself, or two at the same place, see the sum of the fluxes. -/
theorem C81_auto (j1 : ℝ → ℝ) (r : Bool) (c : Vec) (f : ℝ) (k : Nat) (l : List Spec.Src) :
    Spec.vis j1 r c ⟨0, 0, 0⟩ f k l = (l.map fun s => s.flux k).sum := by
  unfold Spec.vis
  apply congrArg
  apply List.map_congr_left
  intro s _
  have d : ∀ a : Vec, dot a ⟨0, 0, 0⟩ = 0 := by intro a; unfold dot; ring
  simp only [d]
  unfold Spec.shape Spec.disc
  simp

/-- With one unresolved source the phases of baselines along a closed path cancel. -/
theorem C81_closure (j1 : ℝ → ℝ) (c : Vec) (f : ℝ) (k : Nat) (s : Spec.Src) (a1 a2 a3 : Vec) :
    Spec.vis j1 false c (a1.sub a2) f k [s] * Spec.vis j1 false c (a2.sub a3) f k [s] * Spec.vis j1 false c (a3.sub a1) f k [s]
      = s.flux k ^ 3 := by
  unfold Spec.vis Spec.shape
  simp only [List.map_cons, List.map_nil, List.sum_cons, List.sum_nil, add_zero, Bool.false_eq_true, false_and, if_false,
    Complex.ofReal_one, one_mul]
  have e3 : ∀ x y z w : ℂ, (w * Complex.exp x) * (w * Complex.exp y) * (w * Complex.exp z) = w ^ 3 * Complex.exp (x + y + z) := by
    intro x y z w; rw [Complex.exp_add, Complex.exp_add]; ring
  rw [e3]
  have : (2 * (π : ℂ) * (f * (dot (Spec.dir s.ha s.dec) (a1.sub a2) - dot c (a1.sub a2))) * Complex.I
      + 2 * π * (f * (dot (Spec.dir s.ha s.dec) (a2.sub a3) - dot c (a2.sub a3))) * Complex.I
      + 2 * π * (f * (dot (Spec.dir s.ha s.dec) (a3.sub a1) - dot c (a3.sub a1))) * Complex.I) = 0 := by
    unfold dot Vec.sub
    push_cast
    ring
  rw [this, Complex.exp_zero, mul_one]

/-! ### the phase centre -/

theorem pc_sin (lat az el : ℝ) : sin (pcDec lat az el) = sin lat * sin el + cos lat * cos el * cos az := by
  unfold pcDec
  have h1 := sin_sq_add_cos_sq lat
  have h2 := sin_sq_add_cos_sq el
  have h3 := sin_sq_add_cos_sq az
  have key : (sin lat * sin el + cos lat * cos el * cos az) ^ 2 + (cos lat * sin el - sin lat * cos el * cos az) ^ 2
      + (cos el * sin az) ^ 2 = 1 := by
    have : (sin lat * sin el + cos lat * cos el * cos az) ^ 2 + (cos lat * sin el - sin lat * cos el * cos az) ^ 2
      + (cos el * sin az) ^ 2 = (sin lat ^ 2 + cos lat ^ 2) * (sin el ^ 2 + cos el ^ 2 * cos az ^ 2) + cos el ^ 2 * sin az ^ 2 := by ring
    rw [this, h1, one_mul, add_assoc, ← mul_add, add_comm (cos az ^ 2), h3, mul_one, h2]
  apply sin_arcsin
  · nlinarith [sq_nonneg (cos lat * sin el - sin lat * cos el * cos az), sq_nonneg (cos el * sin az),
      sq_nonneg (sin lat * sin el + cos lat * cos el * cos az - 1)]
  · nlinarith [sq_nonneg (cos lat * sin el - sin lat * cos el * cos az), sq_nonneg (cos el * sin az),
      sq_nonneg (sin lat * sin el + cos lat * cos el * cos az + 1)]

/-- The hour angle and declination of the phase centre are those of the direction with the azimuth and the elevation, unless
the site or the phase centre is at a pole. -/
theorem C81_direction (lat az el : ℝ) (hl : cos lat ≠ 0) (hd : cos (pcDec lat az el) ≠ 0) :
    Spec.dir (pcHa lat az el) (pcDec lat az el) = (Verif.Uvw.trans1 lat).apply (Spec.enu az el) := by
  have hs := pc_sin lat az el
  have h1 := sin_sq_add_cos_sq lat
  have h2 := sin_sq_add_cos_sq el
  have h3 := sin_sq_add_cos_sq az
  have h4 := sin_sq_add_cos_sq (pcDec lat az el)
  have hx : (sin el - sin (pcDec lat az el) * sin lat) / (cos (pcDec lat az el) * cos lat)
      = (cos lat * sin el - sin lat * cos el * cos az) / cos (pcDec lat az el) := by
    rw [div_eq_div_iff (mul_ne_zero hd hl) hd, hs]
    linear_combination (-(sin el * cos (pcDec lat az el))) * h1
  have hc2 : cos (pcDec lat az el) ^ 2 = (cos lat * sin el - sin lat * cos el * cos az) ^ 2 + (cos el * sin az) ^ 2 := by
    have : cos (pcDec lat az el) ^ 2 = 1 - sin (pcDec lat az el) ^ 2 := by linarith
    rw [this, hs]
    linear_combination (-(sin el ^ 2 + cos el ^ 2 * cos az ^ 2)) * h1 - h2 + (-(cos el ^ 2)) * h3
  have hn : ‖(⟨(cos lat * sin el - sin lat * cos el * cos az) / cos (pcDec lat az el), -sin az * cos el / cos (pcDec lat az el)⟩ : ℂ)‖ = 1 := by
    have : ‖(⟨(cos lat * sin el - sin lat * cos el * cos az) / cos (pcDec lat az el), -sin az * cos el / cos (pcDec lat az el)⟩ : ℂ)‖ ^ 2 = 1 := by
      rw [Complex.sq_norm, Complex.normSq_apply]
      simp only
      field_simp
      rw [hc2]; ring
    nlinarith [norm_nonneg (⟨(cos lat * sin el - sin lat * cos el * cos az) / cos (pcDec lat az el), -sin az * cos el / cos (pcDec lat az el)⟩ : ℂ)]
  have hcos : cos (pcHa lat az el) = (cos lat * sin el - sin lat * cos el * cos az) / cos (pcDec lat az el) := by
    unfold pcHa atan2
    rw [hx]
    have := Complex.norm_mul_cos_arg ⟨(cos lat * sin el - sin lat * cos el * cos az) / cos (pcDec lat az el), -sin az * cos el / cos (pcDec lat az el)⟩
    rw [hn, one_mul] at this
    exact this
  have hsin : sin (pcHa lat az el) = -sin az * cos el / cos (pcDec lat az el) := by
    unfold pcHa atan2
    rw [hx]
    have := Complex.norm_mul_sin_arg ⟨(cos lat * sin el - sin lat * cos el * cos az) / cos (pcDec lat az el), -sin az * cos el / cos (pcDec lat az el)⟩
    rw [hn, one_mul] at this
    exact this
  unfold Spec.dir Verif.Uvw.trans1 Verif.Uvw.Mat.apply dot Spec.enu
  rw [hcos, hsin, hs]
  ext
  · simp only; field_simp; ring
  · simp only; field_simp; ring
  · simp only; ring

/-- The coordinates of two antennas of a station are those of `compute_uvw` for the same hour angle, declination and
frequency; frequencies of the array are in GHz. -/
theorem C81_uvw (lat ha dec f : ℝ) (a1 a2 : Vec) :
    let r := rot ha dec ((simPos lat a1).sub (simPos lat a2))
    (⟨f * r.x, f * r.y, f * r.z⟩ : Vec) = Verif.Uvw.uvw ha dec lat (f * 1e9) a1 a2 := by
  unfold rot simPos Verif.Uvw.uvw Verif.Uvw.Mat.mul Verif.Uvw.Mat.apply dot Verif.Uvw.trans1 Verif.Uvw.trans2 Vec.sub
  ext <;> simp only <;> ring

/-- The third coordinate is the distance of the antennas in the direction of the phase centre, in wavelengths. -/
theorem C81_delay (lat az el f : ℝ) (hl : cos lat ≠ 0) (hd : cos (pcDec lat az el) ≠ 0) (a1 a2 : Vec) :
    f * dot (Spec.dir (pcHa lat az el) (pcDec lat az el)) ((simPos lat a1).sub (simPos lat a2))
      = f * 1e9 / Verif.Uvw.c * dot (Spec.enu az el) (a1.sub a2) := by
  rw [C81_direction lat az el hl hd]
  unfold simPos Verif.Uvw.Mat.apply dot Verif.Uvw.trans1 Spec.enu Vec.sub
  have h1 := sin_sq_add_cos_sq lat
  simp only
  have : ∀ x y z X Y Z : ℝ, (0 * x + -sin lat * y + cos lat * z) * (0 * X + -sin lat * Y + cos lat * Z)
      + (1 * x + 0 * y + 0 * z) * (1 * X + 0 * Y + 0 * Z) + (0 * x + cos lat * y + sin lat * z) * (0 * X + cos lat * Y + sin lat * Z)
      = x * X + y * Y + z * Z := by
    intro x y z X Y Z
    linear_combination (y * Y + z * Z) * h1
  have := this (sin az * cos el) (cos az * cos el) (sin el) (a1.x - a2.x) (a1.y - a2.y) (a1.z - a2.z)
  rw [← this]
  ring

/-- The zenith is moved by 1e-8 towards azimuth `az`: the third coordinate differs from the difference in height by no more
than this angle allows. -/
theorem C81_zenith (az : ℝ) (b : Vec) :
    nudge (90 * (π / 180)) = π / 2 - 1e-8 ∧
    |dot (Spec.enu az (nudge (90 * (π / 180)))) b - b.z| ≤ 1e-8 * |sin az * b.x + cos az * b.y| + 1e-16 / 2 * |b.z| := by
  have h0 : nudge (90 * (π / 180)) = π / 2 - 1e-8 := by
    unfold nudge
    rw [show (90 : ℝ) * (π / 180) = π / 2 by ring, if_pos rfl]
  refine ⟨h0, ?_⟩
  rw [h0]
  unfold dot Spec.enu
  rw [cos_pi_div_two_sub, sin_pi_div_two_sub]
  have s1 : sin (1e-8 : ℝ) ≤ 1e-8 := sin_le (by norm_num)
  have s0 : 0 ≤ sin (1e-8 : ℝ) := by
    apply sin_nonneg_of_nonneg_of_le_pi (by norm_num)
    have := two_le_pi
    linarith [show (1e-8 : ℝ) ≤ 2 by norm_num]
  have c1 : 1 - (1e-8 : ℝ) ^ 2 / 2 ≤ cos (1e-8 : ℝ) := one_sub_sq_div_two_le_cos
  have c0 : cos (1e-8 : ℝ) ≤ 1 := cos_le_one _
  have e : sin az * sin (1e-8 : ℝ) * b.x + cos az * sin (1e-8 : ℝ) * b.y + cos (1e-8 : ℝ) * b.z - b.z
      = sin (1e-8 : ℝ) * (sin az * b.x + cos az * b.y) + (cos (1e-8 : ℝ) - 1) * b.z := by ring
  simp only
  rw [e]
  refine le_trans (abs_add_le _ _) ?_
  rw [abs_mul, abs_mul, abs_of_nonneg s0]
  have a1 : |cos (1e-8 : ℝ) - 1| ≤ 1e-16 / 2 := by
    rw [abs_le]
    constructor
    · have : (1e-8 : ℝ) ^ 2 = 1e-16 := by norm_num
      rw [this] at c1
      linarith
    · have : (0 : ℝ) ≤ 1e-16 / 2 := by norm_num
      linarith
  exact add_le_add (mul_le_mul_of_nonneg_right s1 (abs_nonneg _)) (mul_le_mul_of_nonneg_right a1 (abs_nonneg _))

/-! ### changing the phase centre -/

/-- Moving visibilities simulated for one phase centre to another gives the coordinates and visibilities of a simulation for
the other; the phase offsets of the antennas cancel. -/
theorem C81_rephase (j1 : ℝ → ℝ) (r : Bool) (f o : ℝ) (pi pj : Vec) (old new : Centre) (ho : old.up = true) (hn : new.up = true)
    (k : Nat) (l : List Spec.Src) :
    rephase f o pi pj old new (Spec.vis j1 r (Spec.dir old.ha old.dec) (pi.sub pj) f k l)
      = .ok (⟨f * dot (Spec.east new.ha) (pi.sub pj), f * dot (Spec.north new.ha new.dec) (pi.sub pj),
          f * dot (Spec.dir new.ha new.dec) (pi.sub pj)⟩, Spec.vis j1 r (Spec.dir new.ha new.dec) (pi.sub pj) f k l) := by
  unfold rephase genPhs genUvw
  rw [ho, hn]
  simp only [Bool.true_eq_false, if_false, rot_spec, Except.bind]
  congr 2
  have p1 : ∀ (v x y : ℂ) (_ : x ≠ 0), v / x * y = v * (y / x) := by intro v x y _; ring
  rw [p1 _ _ _ (e_ne_zero _)]
  unfold Spec.vis
  rw [← List.sum_map_mul_right]
  apply congrArg
  apply List.map_congr_left
  intro s _
  rw [mul_assoc]
  apply congrArg
  unfold e
  rw [← Complex.exp_sub, ← Complex.exp_add]
  congr 1
  push_cast
  ring

/-- There and back gives the same visibility. -/
theorem C81_rephase_back (f o : ℝ) (pi pj : Vec) (old new : Centre) (ho : old.up = true) (hn : new.up = true) (v : ℂ) :
    ((rephase f o pi pj old new v).bind fun r => rephase f o pi pj new old r.2).map (·.2) = .ok v := by
  unfold rephase genPhs genUvw
  rw [ho, hn]
  simp only [Bool.true_eq_false, if_false, rot_spec, Except.bind, Except.map]
  congr 1
  have h1 := e_ne_zero (-(f * dot (Spec.dir old.ha old.dec) (pi.sub pj) + o))
  have h2 := e_ne_zero (-(f * dot (Spec.dir new.ha new.dec) (pi.sub pj) + o))
  field_simp

/-- A phase centre below the horizon, the old or the new, is an exception. -/
theorem C81_rephase_down (f o : ℝ) (pi pj : Vec) (old new : Centre) (h : old.up = false ∨ new.up = false) (v : ℂ) :
    rephase f o pi pj old new v = .error .refused := by
  unfold rephase genPhs genUvw
  by_cases hn : new.up = false
  · rw [if_pos hn]; rfl
  · rcases h with h | h
    · rw [if_neg hn, if_pos h]; rfl
    · exact absurd h hn

/-! ### gains and delays -/

theorem gain_eq (amp delay f : ℝ) : gain amp delay none f = amp * e (f * delay) := by
  unfold gain e
  congr 2
  push_cast
  ring

/-- A delay of `d` ns at the first antenna is a longer baseline: the visibility of a source gets the phase of `d`; the same
delay at both antennas does nothing. -/
theorem C81_scale (ai aj di dj f : ℝ) (v : ℂ) :
    scaled (gain ai di none f) (gain aj dj none f) v = (ai * aj : ℝ) * v * e (f * (di - dj)) := by
  unfold scaled
  rw [gain_eq, gain_eq, map_mul, Complex.conj_ofReal, e_conj, show f * (di - dj) = f * di + -(f * dj) by ring, e_add]
  push_cast
  ring

/-- A phase offset is a turn by this angle. -/
theorem C81_offset (amp delay p f : ℝ) : gain amp delay (some p) f = gain amp delay none f * Complex.exp (Complex.I * p) := by
  unfold gain
  simp only [add_zero]
  rw [Complex.exp_add]
  ring

/-- Scaling with the inverse gains undoes scaling. -/
theorem C81_unscale (gi gj hi hj : ℂ) (h1 : gi * hi = 1) (h2 : gj * hj = 1) (v : ℂ) : scaled hi hj (scaled gi gj v) = v := by
  unfold scaled
  have : (starRingEnd ℂ) gj * (starRingEnd ℂ) hj = 1 := by rw [← map_mul, h2, map_one]
  linear_combination v * gi * hi * this + v * h1

/-- Gains that are phases leave the product along a closed path of baselines alone. -/
theorem C81_scale_closure (g1 g2 g3 v12 v23 v31 : ℂ) (h1 : (starRingEnd ℂ) g1 * g1 = 1) (h2 : (starRingEnd ℂ) g2 * g2 = 1)
    (h3 : (starRingEnd ℂ) g3 * g3 = 1) : scaled g1 g2 v12 * scaled g2 g3 v23 * scaled g3 g1 v31 = v12 * v23 * v31 := by
  unfold scaled
  have : v12 * ((starRingEnd ℂ) g2 * g1) * (v23 * ((starRingEnd ℂ) g3 * g2)) * (v31 * ((starRingEnd ℂ) g1 * g3))
      = v12 * v23 * v31 * ((starRingEnd ℂ) g1 * g1) * ((starRingEnd ℂ) g2 * g2) * ((starRingEnd ℂ) g3 * g3) := by ring
  rw [this, h1, h2, h3]
  ring

/-- Each row of a data set is scaled with the gains of its own two antennas. -/
theorem C81_scale_rows (g : List (Nat → ℂ)) (bls : List (Nat × Nat)) (rows : List (List ℂ)) (hl : rows.length = bls.length)
    (hg : ∀ b ∈ bls, b.1 < g.length ∧ b.2 < g.length) :
    scaleRows g bls rows = some (rows.mapIdx fun r row => row.mapIdx fun k v =>
      scaled (g.getD (bls.getD r (0, 0)).1 (fun _ => 0) k) (g.getD (bls.getD r (0, 0)).2 (fun _ => 0) k) v) := by
  unfold scaleRows
  rw [if_neg (by omega)]
  have ms := Verif.UvTable.mapM_some bls (fun b => (g[b.1]?).bind fun gi => (g[b.2]?).map fun gj => (gi, gj))
    (fun b => (g.getD b.1 (fun _ => 0), g.getD b.2 (fun _ => 0))) (by
      intro b hb
      obtain ⟨h1, h2⟩ := hg b hb
      simp [List.getElem?_eq_getElem h1, List.getElem?_eq_getElem h2])
  rw [ms]
  simp only [Option.map_some]
  apply congrArg
  apply List.ext_getElem
  · simp
  · intro i h1 h2
    have hi : i < bls.length := by simpa [hl] using h1
    simp [hi]

/-- Two integrations with their baselines in different orders: both are scaled with the baselines of the first. -/
theorem C81_not_scale_order : ∃ (g : List (Nat → ℂ)) (b1 b2 : List (Nat × Nat)) (rows : List (List ℂ)),
    b1.Perm b2 ∧ scaleRows g b1 rows ≠ scaleRows g b2 rows := by
  refine ⟨[fun _ => 1, fun _ => 2, fun _ => 3], [(0, 1), (0, 2)], [(0, 2), (0, 1)], [[1], [1]], List.Perm.swap _ _ _, ?_⟩
  rw [C81_scale_rows _ _ _ rfl (by simp), C81_scale_rows _ _ _ rfl (by simp)]
  have h2 : (starRingEnd ℂ) 2 = 2 := Complex.conj_ofNat 2
  have h3 : (starRingEnd ℂ) 3 = 3 := Complex.conj_ofNat 3
  simp [scaled, h2, h3]

/-! ### the fluxes of the products -/

theorem polFlux_eq (b : String → ℂ) (pols : List String) (h : ∀ p ∈ pols, b p ≠ 0) (s : ℂ) :
    ∀ q, b q ≠ 0 → polFlux b (some q) (some (s * b q)) pols = (pols.map (fun p => some (s * b p)), some s) := by
  induction pols with
  | nil =>
    intro q hq
    simp only [polFlux, cdiv?, List.map_nil]
    rw [if_neg hq, mul_div_cancel_right₀ _ hq]
  | cons p l ih =>
    intro q hq
    simp only [polFlux, cdiv?]
    rw [if_neg hq, mul_div_cancel_right₀ _ hq]
    simp only [Option.map_some]
    rw [ih (fun x hx => h x (List.mem_cons_of_mem _ hx)) p (h p List.mem_cons_self)]
    simp

/-- For every product the flux is that of the source times the bandpass and the response of the beams for this product, and
the cache is left with the flux of the source, provided no response and no bandpass is zero. -/
theorem C81_fluxes (raw g : ℂ) (b : String → ℂ) (pols : List String) (hg : g ≠ 0) (h : ∀ p ∈ pols, b p ≠ 0) :
    fluxes raw g b pols = (pols.map (fun p => some (g * raw * b p)), some raw) := by
  unfold fluxes
  cases pols with
  | nil =>
    simp only [polFlux, cdiv?, List.map_nil]
    rw [if_neg hg, mul_div_cancel_left₀ _ hg]
  | cons p l =>
    simp only [polFlux, Option.map_some]
    rw [polFlux_eq b l (fun x hx => h x (List.mem_cons_of_mem _ hx)) (g * raw) p (h p List.mem_cons_self)]
    simp only [cdiv?]
    rw [if_neg hg, mul_div_cancel_left₀ _ hg]
    simp

/-- Where one polarization does not see a source the other, asked for after it, is not a number, although it is fine when it
is asked for alone. -/
theorem C81_not_zero_beam : ∃ b : String → ℂ,
    (fluxes 1 1 b ["xx", "yy"]).1 = [some 0, none] ∧ (fluxes 1 1 b ["yy"]).1 = [some 1] := by
  refine ⟨fun p => if p = "yy" then 1 else 0, ?_, ?_⟩
  · simp [fluxes, polFlux, cdiv?]
  · simp [fluxes, polFlux]

/-! ### sources below the horizon -/

/-- The sources that are not below the horizon are simulated, in order; none is an exception. -/
theorem C81_above {S : Type} (alt : S → Int) (srcs : List S) :
    (∀ l, above alt srcs = .ok l → l = srcs.filter (fun s => decide (0 ≤ alt s))) ∧
    (above alt srcs = .error .refused ↔ ∀ s ∈ srcs, alt s < 0) := by
  have e : srcs.filter (fun s => decide (¬ alt s < 0)) = srcs.filter (fun s => decide (0 ≤ alt s)) := by
    apply List.filter_congr; intro s _; simp
  unfold above
  simp only [e]
  constructor
  · intro l h
    split at h
    · cases h
    · exact (Except.ok.inj h).symm
  · split
    · rename_i h
      simp only [true_iff]
      intro s hs
      have := List.filter_eq_nil_iff.mp h s hs
      simpa using this
    · rename_i h
      constructor
      · intro x; cases x
      · intro x
        exfalso
        apply h
        apply List.filter_eq_nil_iff.mpr
        intro s hs
        have := x s hs
        simpa using this

/-! ### noise -/

theorem antsOf_mem (bls : List (Nat × Nat)) : ∀ (l : List Nat) (x : Nat),
    x ∈ bls.foldl (fun l b => let l := if b.1 ∈ l then l else l ++ [b.1]; if b.2 ∈ l then l else l ++ [b.2]) l ↔
      x ∈ l ∨ ∃ b ∈ bls, x = b.1 ∨ x = b.2 := by
  induction bls with
  | nil => intro l x; simp
  | cons b t ih =>
    intro l x
    rw [List.foldl_cons, ih]
    have : x ∈ (let l := if b.1 ∈ l then l else l ++ [b.1]; if b.2 ∈ l then l else l ++ [b.2]) ↔ x ∈ l ∨ x = b.1 ∨ x = b.2 := by
      simp only
      by_cases h1 : b.1 ∈ l
      · simp only [if_pos h1]
        by_cases h2 : b.2 ∈ l
        · rw [if_pos h2]; grind
        · rw [if_neg h2]; grind
      · simp only [if_neg h1]
        by_cases h2 : b.2 ∈ l ++ [b.1]
        · rw [if_pos h2]; grind
        · rw [if_neg h2]; grind
    rw [this]
    grind

theorem antsOf_nodup (bls : List (Nat × Nat)) : ∀ (l : List Nat), l.Nodup →
    (bls.foldl (fun l b => let l := if b.1 ∈ l then l else l ++ [b.1]; if b.2 ∈ l then l else l ++ [b.2]) l).Nodup := by
  have one : ∀ (l : List Nat) (x : Nat), l.Nodup → (if x ∈ l then l else l ++ [x]).Nodup := by
    intro l x h
    by_cases hx : x ∈ l
    · rw [if_pos hx]; exact h
    · rw [if_neg hx]
      rw [List.nodup_append]
      exact ⟨h, by simp, by intro a ha b hb; rw [List.mem_singleton] at hb; rintro rfl; subst hb; exact hx ha⟩
  induction bls with
  | nil => intro l h; exact h
  | cons b t ih => intro l h; exact ih _ (one _ _ (one _ _ h))

/-- The antennas are those of the baselines, once each. -/
theorem C81_antennas (bls : List (Nat × Nat)) :
    (antsOf bls).Nodup ∧ ∀ x, x ∈ antsOf bls ↔ ∃ b ∈ bls, x = b.1 ∨ x = b.2 := by
  refine ⟨antsOf_nodup bls [] (by simp), fun x => ?_⟩
  unfold antsOf
  rw [antsOf_mem]
  simp

/-- With as many sensitivities as antennas the noise of every baseline is from those of its two antennas, if the antennas are
numbered from zero without a gap. -/
theorem C81_noise (sefd : List ℝ) (bls : List (Nat × Nat)) (hl : sefd.length = (antsOf bls).length)
    (hn : ∀ x ∈ antsOf bls, x < sefd.length) (t bw eff : ℝ) :
    noiseSigma (.inr sefd) bls t bw eff
      = some (bls.map fun b => sqrt (sefd.getD b.1 0 * sefd.getD b.2 0) * (1 / eff / sqrt (2 * bw * t))) := by
  unfold noiseSigma
  simp only
  rw [if_neg (by omega)]
  show List.mapM _ _ = _
  apply Verif.UvTable.mapM_some
  intro b hb
  have h1 := hn b.1 (((C81_antennas bls).2 b.1).mpr ⟨b, hb, Or.inl rfl⟩)
  have h2 := hn b.2 (((C81_antennas bls).2 b.2).mpr ⟨b, hb, Or.inr rfl⟩)
  simp [List.getElem?_eq_getElem h1, List.getElem?_eq_getElem h2]

/-- Sensitivities for other than the number of antennas in the data are refused. -/
theorem C81_noise_count (sefd : List ℝ) (bls : List (Nat × Nat)) (hl : sefd.length ≠ (antsOf bls).length) (t bw eff : ℝ) :
    noiseSigma (.inr sefd) bls t bw eff = none := by
  unfold noiseSigma
  simp only
  rw [if_pos hl]
  rfl

/-- Baselines of some of the antennas only, as from `get_antenna_subset`: an exception. -/
theorem C81_not_noise (s t bw eff : ℝ) : noiseSigma (.inl s) [(0, 2)] t bw eff = none := by
  simp [noiseSigma, antsOf]

/-! ### examples -/

/-- An array of two antennas, three channels and one source. -/
noncomputable def demo : Array :=
  { lat := 0, freq := [1, 2, 3], ha := some [0], dec := some [0], jys := some ⟨1, 3, [5, 6, 7]⟩, shp := some ⟨3, 1, [0, 0, 0]⟩,
    supported := true, ants := [⟨0, 0, 0⟩, ⟨10, 20, 30⟩] }

theorem demo_cache : demo.Cache [0] [0] ⟨1, 3, [5, 6, 7]⟩ ⟨3, 1, [0, 0, 0]⟩ :=
  ⟨rfl, rfl, rfl, rfl, ⟨rfl, rfl, rfl, rfl, rfl⟩, rfl, rfl, rfl⟩

/-- Two channels of it are simulated. -/
example (j1 : ℝ → ℝ) : ∃ out, fastVis j1 demo [(0, 1)] 1 2 0 90 true = .ok out ∧ out.2.length = 3 ∧ out.2[0]? = some 0 := by
  obtain ⟨out, h1, _, h3, h4⟩ := C81_simulated_partial j1 demo _ _ _ _ demo_cache [(0, 1)] 1 2 0 90 true
    (Or.inr ⟨by decide, by decide⟩) (by simp [okAnt, demo])
  refine ⟨out, h1, h3, ?_⟩
  have := h4 0 0 (by simp) (by simp [demo])
  simp only at this
  rw [if_neg (by intro x; exact absurd x.1 (by decide))] at this
  simpa using this.2.2.2

/-- The fourth channel is outside. -/
example (j1 : ℝ → ℝ) : fastVis j1 demo [(0, 1)] 0 3 0 90 true = .error .ub :=
  C81_not_channel j1 demo _ _ _ _ demo_cache _ (by simp) 0 3 (by decide) (Or.inr (by decide)) 0 90 true

/-- The equator at the zenith of a site on the equator. -/
example : cos (0 : ℝ) ≠ 0 ∧ cos (pcDec 0 0 (π / 2)) ≠ 0 := by
  refine ⟨by simp, ?_⟩
  unfold pcDec
  simp

example : (antsOf [(0, 1), (0, 2), (1, 2)]) = [0, 1, 2] := by decide

end Verif.SimFast
