import Verif.Lemmas.IonexTime
/-! # C99: maps of the ionosphere are read and interpolated as they are meant -/
namespace Verif.Ionex
open Spec Verif.Dec

/-! ## Reading files -/

/-- Any file in the format is read to its maps, whatever lines come before and after. -/
theorem C99_parse_partial (head tail : List Text) (g : Grid) (lats : List Int) (tec rms : List Chart) (hh : ∀ l ∈ head, Outside l)
    (ht : ∀ l ∈ tail, Outside l) (hg : g.Fits lats) (h0 : tec ≠ []) (hc : ∀ c ∈ tec, c.Fits g lats) (hr : ∀ c ∈ rms, c.Fits g lats) :
    parse (fileLines head tail g tec rms) = .ok (expected g lats tec rms) := by
  unfold parse fileLines
  rw [List.append_assoc, List.append_assoc, run_append_ok _ _ _ _ (run_outside start head hh rfl)]
  have h1 := run_charts true g lats tec hg hc start 0
  have h2 := run_charts false g lats rms hg hr (tec.foldl (after true g) start) 0
  simp only [if_true, Bool.false_eq_true, if_false] at h1 h2
  rw [run_append_ok _ _ _ _ h1, run_append_ok _ _ _ _ h2]
  rw [fold_after false g lats rms hr, fold_after true g lats tec hc]
  rw [run_outside _ tail ht (by simp [h0])]
  simp only [finish, h0, if_false, start, List.nil_append, List.length_nil, List.length_map, if_true, Bool.false_eq_true]
  have e1 : ((List.range tec.length).map (· + 0)).map (fun k => (tec.map valuesOf ++ rms.map valuesOf).getD k []) = tec.map valuesOf := by
    have := refs_map [] (tec.map valuesOf) (rms.map valuesOf)
    simpa using this
  have e2 : ((List.range rms.length).map (· + tec.length)).map (fun k => (tec.map valuesOf ++ rms.map valuesOf).getD k []) = rms.map valuesOf := by
    have := refs_map (tec.map valuesOf) (rms.map valuesOf) []
    simpa using this
  rw [e1, e2, regular g lats tec hc, regular g lats rms hr]
  simp only [Bool.not_true, Bool.or_self, Bool.false_eq_true, if_false]
  have hsz : (size (rms.map valuesOf) = size (tec.map valuesOf)) ↔ rms.length = tec.length := by
    rw [size_charts g lats tec hc, size_charts g lats rms hr]
    have h1 : 0 < lats.length := List.length_pos_iff.mpr hg.nonempty
    have h2 := hg.count
    exact Nat.mul_left_inj (by have := Nat.mul_pos h1 h2; omega)
  have hs : (if rms = [] then some (lats.map (fun (x : Int) => (x : Rat) / 10)) else some (lats.map (fun (x : Int) => (x : Rat) / 10))) = some (lats.map (fun (x : Int) => (x : Rat) / 10)) := by
    split <;> rfl
  have hs2 : (if rms = [] then some (lngsOf g) else some (lngsOf g)) = some (lngsOf g) := by split <;> rfl
  have hs3 : (if rms = [] then some ((g.height : Rat) / 10) else some ((g.height : Rat) / 10)) = some ((g.height : Rat) / 10) := by split <;> rfl
  rw [hs, hs2, hs3]
  simp only [expected, times, List.map_append, List.foldl_append, lngsOf]
  congr 2
  by_cases hl : rms.length = tec.length
  · rw [if_pos (hsz.mpr hl), if_pos hl]
  · rw [if_neg (fun h => hl (hsz.mp h)), if_neg hl]

/-- When every map has its own time and the uncertainties are for the same times, there is one time for each map. -/
theorem C99_times (tec rms : List Chart) (h : (tec.map timeOf).Nodup) (hr : ∀ c ∈ rms, timeOf c ∈ tec.map timeOf) :
    times (tec ++ rms) = tec.map timeOf := by
  have keep : ∀ (l : List Rat) (a : List Rat), (∀ t ∈ l, t ∈ a) → l.foldl (fun a t => if t ∈ a then a else a ++ [t]) a = a := by
    intro l
    induction l with
    | nil => intro a _; rfl
    | cons t l ih => intro a hl; rw [List.foldl_cons, if_pos (hl t (by simp))]; exact ih a (fun x hx => hl x (by simp [hx]))
  have add : ∀ (l : List Rat) (a : List Rat), (a ++ l).Nodup → l.foldl (fun a t => if t ∈ a then a else a ++ [t]) a = a ++ l := by
    intro l
    induction l with
    | nil => intro a _; simp
    | cons t l ih =>
      intro a hn
      have ht : t ∉ a := by
        intro hta
        rw [List.nodup_append] at hn
        exact hn.2.2 t hta t (by simp) rfl
      rw [List.foldl_cons, if_neg ht, ih (a ++ [t]) (by simpa [List.append_assoc] using hn)]
      simp
  unfold times
  rw [List.map_append, List.foldl_append, add _ [] (by simpa using h), List.nil_append]
  apply keep
  intro t ht
  obtain ⟨c, hc, rfl⟩ := List.mem_map.mp ht
  exact hr c hc

/-- The times returned are distinct, for any file. -/
theorem C99_distinct (lines : List Text) (d : Data) (h : parse lines = .ok d) : d.dates.Nodup := by
  have hstep : ∀ s l s', s.dates.Nodup → step s l = .ok s' → s'.dates.Nodup := by
    intro s l s' hn hs
    unfold step at hs
    split at hs
    · cases hs; exact hn
    · split at hs
      · cases hc : cmap s with
        | none => rw [hc] at hs; cases hs
        | some k =>
          rw [hc] at hs; simp only at hs
          split at hs <;> cases hs <;> exact hn
      · split at hs
        · split at hs
          · unfold epochLine at hs
            cases h6 : six l with
            | none => rw [h6] at hs; cases hs
            | some p =>
              obtain ⟨y, mo, d, hh, mi, se⟩ := p
              rw [h6] at hs; simp only at hs
              cases he : epoch y mo d hh mi se with
              | error e => rw [he] at hs; cases hs
              | ok o =>
                rw [he] at hs
                cases o with
                | none => cases hs; exact hn
                | some t =>
                  simp only [Except.ok.injEq] at hs
                  subst hs
                  simp only
                  split
                  · exact hn
                  · rename_i hnt
                    rw [List.nodup_append]
                    refine ⟨hn, by simp, ?_⟩
                    intro a ha b hb
                    simp only [List.mem_singleton] at hb
                    subst hb; intro hab; subst hab; exact hnt ha
          · split at hs
            · unfold latLine at hs
              split at hs
              · split at hs
                · cases hs
                · split at hs
                  · cases hs
                  · split at hs
                    · cases hs
                    · cases hs; exact hn
              · cases hs
            · split at hs
              · unfold dataLine at hs
                split at hs
                · cases hs
                · split at hs
                  · cases hs
                  · cases hs
                  · cases hs; exact hn
              · cases hs; exact hn
        · cases hs; exact hn
  have hrun : ∀ ls s s', s.dates.Nodup → run s ls = .ok s' → s'.dates.Nodup := by
    intro ls
    induction ls with
    | nil => intro s s' hn hr; cases hr; exact hn
    | cons l ls ih =>
      intro s s' hn hr
      simp only [run] at hr
      cases hs : step s l with
      | error e => rw [hs] at hr; cases hr
      | ok s2 => rw [hs] at hr; exact ih s2 s' (hstep s l s2 hn hs) hr
  unfold parse at h
  cases hr : run start lines with
  | error e => rw [hr] at h; cases h
  | ok s =>
    rw [hr] at h
    have hn := hrun lines start s (by simp [start]) hr
    simp only [finish] at h
    split at h
    · cases h
    · split at h
      · cases h; exact hn
      · cases h

/-! ## Times -/

/-- Between two maps the value is on the line through the maps that are `m - 1` before the one and `m - 1` after the other, where the
window has `m` steps. -/
theorem C99_chord (d0 h f : Rat) (n m i : Nat) (vals : List Rat) (hh : 0 < h) (hm : 1 ≤ m) (h1 : m ≤ i + 1) (h2 : i + m < n) (hf : 0 < f) (hf1 : f < 1) :
    timeValue id (evenly d0 h n) vals ((m : Rat) * h) (d0 + ((i : Rat) + f) * h) =
      .ok (vals.getD (i + 1 - m) 0 + (vals.getD (i + m) 0 - vals.getD (i + 1 - m) 0) * (f + (m : Rat) - 1) / (2 * (m : Rat) - 1)) := by
  obtain ⟨ha, hb⟩ := best_ends d0 h f n m i (i + 1 - m) (i + m) hh (by omega) h2 (by
    intro j hj
    rw [near_between f i m j hf hf1]; omega) (by omega)
  rw [value_of _ _ _ _ _ _ ha hb, if_neg (by omega), evenly_get d0 h n _ h2, evenly_get d0 h n _ (by omega)]
  have e1 : ((i + 1 - m : Nat) : Rat) = (i : Rat) + 1 - (m : Rat) := by
    have : ((i + 1 - m : Nat) : Rat) + (m : Rat) = (i : Rat) + 1 := by
      rw [← Rat.natCast_add, show i + 1 - m + m = i + 1 by omega, Rat.natCast_add]; rfl
    grind
  have e2 : ((i + m : Nat) : Rat) = (i : Rat) + (m : Rat) := Rat.natCast_add i m
  rw [e1, e2]
  congr 1
  have hm1 : (1 : Rat) ≤ (m : Rat) := (cast_le 1 m).mpr hm
  have hk : (2 * (m : Rat) - 1) ≠ 0 := by grind
  have ed : d0 + ((i : Rat) + (m : Rat)) * h - (d0 + ((i : Rat) + 1 - (m : Rat)) * h) = (2 * (m : Rat) - 1) * h := by grind
  have en : d0 + ((i : Rat) + f) * h - (d0 + ((i : Rat) + 1 - (m : Rat)) * h) = (f + (m : Rat) - 1) * h := by grind
  rw [ed, en]
  generalize vals.getD (i + m) 0 - vals.getD (i + 1 - m) 0 = v
  generalize (2 * (m : Rat) - 1) = k at hk
  generalize f + (m : Rat) - 1 = q
  have hh2 : h ≠ 0 := by grind
  have : v / (k * h) * (q * h) = v * q / k := by
    have hkh : k * h ≠ 0 := by
      intro hz
      rcases Rat.mul_eq_zero.mp hz with hz | hz
      · exact hk hz
      · exact hh2 hz
    grind
  rw [this]; grind

/-- Maps as far apart as the window: linear interpolation between the neighbours. -/
theorem C99_linear (d0 h f : Rat) (n i : Nat) (vals : List Rat) (hh : 0 < h) (h2 : i + 1 < n) (hf : 0 < f) (hf1 : f < 1) :
    timeValue id (evenly d0 h n) vals h (d0 + ((i : Rat) + f) * h) = .ok (vals.getD i 0 + (vals.getD (i + 1) 0 - vals.getD i 0) * f) := by
  have := C99_chord d0 h f n 1 i vals hh (by omega) (by omega) h2 hf hf1
  rw [show ((1 : Nat) : Rat) * h = h by rw [show ((1 : Nat) : Rat) = 1 from rfl]; grind] at this
  rw [this]
  congr 1
  rw [show i + 1 - 1 = i by omega, show ((1 : Nat) : Rat) = 1 from rfl]
  generalize vals.getD (i + 1) 0 - vals.getD i 0 = v
  have : v * (f + 1 - 1) / (2 * 1 - 1) = v * f := by grind
  rw [this]

/-- At the time of a map, when the window has `k + 1` steps: the mean of the maps `k` steps before and after, the map itself is not used. -/
theorem C99_at_map (d0 h : Rat) (n k i : Nat) (vals : List Rat) (hh : 0 < h) (h1 : k ≤ i) (h2 : i + k < n) :
    timeValue id (evenly d0 h n) vals (((k + 1 : Nat) : Rat) * h) (d0 + (i : Rat) * h) =
      .ok ((vals.getD (i - k) 0 + vals.getD (i + k) 0) / 2) := by
  obtain ⟨ha, hb⟩ := best_ends d0 h 0 n (k + 1) i (i - k) (i + k) hh (by omega) h2 (by
    intro j hj
    rw [near_at i (k + 1) j]; omega) (by omega)
  rw [show d0 + ((i : Rat) + 0) * h = d0 + (i : Rat) * h by grind] at ha hb
  rw [value_of _ _ _ _ _ _ ha hb, evenly_get d0 h n _ h2, evenly_get d0 h n _ (by omega)]
  congr 1
  by_cases hk : k = 0
  · subst hk
    rw [if_pos (by omega)]
    simp only [Nat.sub_zero, Nat.add_zero]; grind
  · rw [if_neg (by omega)]
    have e1 : ((i - k : Nat) : Rat) = (i : Rat) - (k : Rat) := by
      have : ((i - k : Nat) : Rat) + (k : Rat) = (i : Rat) := by
        rw [← Rat.natCast_add, show i - k + k = i by omega]
      grind
    have e2 : ((i + k : Nat) : Rat) = (i : Rat) + (k : Rat) := Rat.natCast_add i k
    rw [e1, e2]
    have hk1 : (1 : Rat) ≤ (k : Rat) := (cast_le 1 k).mpr (by omega)
    have ed : d0 + ((i : Rat) + (k : Rat)) * h - (d0 + ((i : Rat) - (k : Rat)) * h) = 2 * ((k : Rat) * h) := by grind
    have en : d0 + (i : Rat) * h - (d0 + ((i : Rat) - (k : Rat)) * h) = (k : Rat) * h := by grind
    rw [ed, en]
    have hkh : (k : Rat) * h ≠ 0 := by
      intro hz
      rcases Rat.mul_eq_zero.mp hz with hz | hz <;> grind
    generalize (k : Rat) * h = q at hkh
    grind

/-- Maps as far apart as the window: the value at the time of a map is that of the map. -/
theorem C99_exact (d0 h : Rat) (n i : Nat) (vals : List Rat) (hh : 0 < h) (h2 : i < n) :
    timeValue id (evenly d0 h n) vals h (d0 + (i : Rat) * h) = .ok (vals.getD i 0) := by
  have := C99_at_map d0 h n 0 i vals hh (by omega) (by omega)
  rw [show ((0 + 1 : Nat) : Rat) * h = h by rw [show ((0 + 1 : Nat) : Rat) = 1 from rfl]; grind] at this
  rw [this]
  congr 1
  simp only [Nat.sub_zero, Nat.add_zero]; grind

/-- After the last map its value is kept until the window ends. -/
theorem C99_after_last (d0 h f : Rat) (n : Nat) (vals : List Rat) (hh : 0 < h) (hf : 0 < f) (hf1 : f < 1) :
    timeValue id (evenly d0 h (n + 1)) vals h (d0 + ((n : Rat) + f) * h) = .ok (vals.getD n 0) := by
  obtain ⟨ha, hb⟩ := best_ends d0 h f (n + 1) 1 n n n hh (by omega) (by omega) (by
    intro j hj
    rw [near_between f n 1 j hf hf1]; omega) (by omega)
  rw [show ((1 : Nat) : Rat) * h = h by rw [show ((1 : Nat) : Rat) = 1 from rfl]; grind] at ha hb
  rw [value_of _ _ _ _ _ _ ha hb, if_pos rfl]
  congr 1; grind

/-- Without a map in the window there is an error. -/
theorem C99_no_map (rnd : Rat → Rat) (dates vals : List Rat) (w t : Rat) (h : ∀ i, i < dates.length → ¬ (rnd (dates.getD i 0 - t)).abs < w) :
    timeValue rnd dates vals w t = .error .index := by
  have : best rnd dates w t = [] := by
    unfold best
    rw [List.filter_eq_nil_iff]
    intro i hi
    simpa using h i (by simpa using hi)
  unfold timeValue
  rw [this]; rfl

/-- Hourly maps and the window of two hours: at the time of a map its own values do not count. -/
theorem C99_not_hourly : timeValue id (evenly 60000 (1 / 24) 25) (List.replicate 5 10 ++ 50 :: List.replicate 19 10) (window "CODE") (60000 + 5 / 24) = .ok 10 := by
  have := C99_at_map 60000 (1 / 24) 25 1 5 (List.replicate 5 10 ++ 50 :: List.replicate 19 10) (by decide +kernel) (by omega) (by omega)
  have hw : ((1 + 1 : Nat) : Rat) * (1 / 24) = window "CODE" := by decide +kernel
  have ht : (60000 : Rat) + ((5 : Nat) : Rat) * (1 / 24) = 60000 + 5 / 24 := by decide +kernel
  rw [hw, ht] at this
  rw [this]
  congr 1
  decide +kernel

def shown {α : Type} (e : Except Err α) : Option α ⊕ Err :=
  match e with
  | .ok a => .inl (some a)
  | .error e => .inr e

/-- A quarter of an hour in double precision: at 0:45 three maps are in the window of USTEC, so its map does not count. -/
theorem C99_not_ustec :
    best fl64 ((List.range 8).map (fun (k : Nat) => mjd64 58000 (900000 * k))) (window64 "USTEC") (mjd64 58000 2700000) = [2, 3, 4] ∧
    best id ((List.range 8).map (fun (k : Nat) => (58000 : Rat) + (k : Rat) / 96)) (window "USTEC") (58000 + 3 / 96) = [3] := by
  constructor <;> decide +kernel

/-! ## Places -/

/-- At the points of the grid the values are those of the map. -/
theorem C99_node (lats lngs : List Rat) (m : List (List Rat)) (i j : Nat) (lat lng : Rat) (row : List Rat) (v : Rat)
    (hl : Ascending (lats.zip (m.map (fun r => lerp (lngs.zip r) lng))).reverse) (hg : Ascending (lngs.zip row))
    (h1 : lats[i]? = some lat) (h2 : m[i]? = some row) (h3 : lngs[j]? = some lng) (h4 : row[j]? = some v) :
    placeValue lats lngs m lat lng = v := by
  have hv : lerp (lngs.zip row) lng = v := by
    apply lerp_node (lngs.zip row) hg (lng, v)
    apply List.mem_of_getElem? (i := j)
    rw [List.getElem?_zip_eq_some]; exact ⟨h3, h4⟩
  unfold placeValue
  have := lerp_node _ hl (lat, v) (by
    rw [List.mem_reverse]
    apply List.mem_of_getElem? (i := i)
    rw [List.getElem?_zip_eq_some]
    exact ⟨h1, by rw [List.getElem?_map, h2, Option.map_some, hv]⟩)
  exact this

/-- Between the points the values stay between the least and the greatest of the map. -/
theorem C99_between (lats lngs : List Rat) (m : List (List Rat)) (lat lng lo hi : Rat) (hl : Ascending (lats.zip (m.map (fun r => lerp (lngs.zip r) lng))).reverse)
    (hg : ∀ r ∈ m, Ascending (lngs.zip r)) (h0 : lats ≠ []) (h1 : m ≠ []) (h2 : lngs ≠ []) (h3 : ∀ r ∈ m, r ≠ [])
    (hb : ∀ r ∈ m, ∀ v ∈ r, lo ≤ v ∧ v ≤ hi) : lo ≤ placeValue lats lngs m lat lng ∧ placeValue lats lngs m lat lng ≤ hi := by
  unfold placeValue
  apply lerp_bounds _ hl
  · cases lats with
    | nil => exact absurd rfl h0
    | cons a l =>
      cases m with
      | nil => exact absurd rfl h1
      | cons r m => simp
  · intro p hp
    rw [List.mem_reverse] at hp
    obtain ⟨a, b⟩ := p
    have hb2 := (List.of_mem_zip hp).2
    obtain ⟨r, hr, rfl⟩ := List.mem_map.mp hb2
    apply lerp_bounds _ (hg r hr)
    · have := h3 r hr
      cases lngs with
      | nil => exact absurd rfl h2
      | cons a l =>
        cases r with
        | nil => exact absurd rfl this
        | cons x r => simp
    · intro q hq
      obtain ⟨x, z⟩ := q
      exact hb r hr z (List.of_mem_zip hq).2

/-- East of the last longitude the last column is kept; 190 degrees east is not the same place as 170 west. -/
theorem C99_not_wrap : placeValue [1, 0] [-180, -170, 0, 180] [[1, 2, 3, 4], [1, 2, 3, 4]] 0 (-170) = 2 ∧
    placeValue [1, 0] [-180, -170, 0, 180] [[1, 2, 3, 4], [1, 2, 3, 4]] 0 190 = 4 := by
  constructor <;> decide +kernel

/-! ## USTEC and GloTEC -/

/-- Uncertainties for as many longitudes as latitudes are complete. -/
theorem C99_ustec_square (n : Nat) (f : Nat → Nat → Rat) :
    ustecRms n n f = .ok ((List.range n).map (fun i => (List.range n).map (f i))) := by
  unfold ustecRms
  rw [if_neg (by omega)]
  congr 1
  apply List.map_congr_left
  intro i _
  apply List.map_congr_left
  intro j hj
  rw [if_pos (by simpa using hj)]

/-- With more longitudes than latitudes the rest of each row is zero. -/
theorem C99_not_ustec_rms (nlat nlng : Nat) (f : Nat → Nat → Rat) (h : nlat ≤ nlng) (i j : Nat) (hi : i < nlat) (hj : j < nlng) (hn : nlat ≤ j) :
    ∃ m row, ustecRms nlat nlng f = .ok m ∧ m[i]? = some row ∧ row[j]? = some 0 := by
  refine ⟨_, (List.range nlng).map (fun j => if j < nlat then f i j else 0), by unfold ustecRms; rw [if_neg (by omega)], ?_, ?_⟩
  · simp [hi]
  · simp [hj]; intro h2; omega

/-- With fewer longitudes than latitudes reading fails. -/
theorem C99_not_ustec_tall (nlat nlng : Nat) (f : Nat → Nat → Rat) (h : nlng < nlat) : ustecRms nlat nlng f = .error .index := by
  unfold ustecRms; rw [if_pos h]

theorem weighted_sum (height step : Rat) (data : List Rat) (n : Nat) (lo hi : Rat) (h0 : ∀ x ∈ data, 0 ≤ x)
    (hb : ∀ i, n ≤ i → i < n + data.length → lo ≤ height + (i : Rat) * step - 6371 ∧ height + (i : Rat) * step - 6371 ≤ hi) :
    lo * data.sum ≤ ((data.zipIdx n).map (fun x => (height + (x.2 : Rat) * step - 6371) * x.1)).sum ∧
    ((data.zipIdx n).map (fun x => (height + (x.2 : Rat) * step - 6371) * x.1)).sum ≤ hi * data.sum := by
  induction data generalizing n with
  | nil => simp
  | cons d ds ih =>
    have h := ih (n + 1) (fun x hx => h0 x (by simp [hx])) (fun i h1 h2 => hb i (by omega) (by simp; omega))
    have hd := h0 d (by simp)
    have hn := hb n (by omega) (by simp)
    simp only [List.zipIdx_cons, List.map_cons, List.sum_cons]
    have a1 := Rat.mul_le_mul_of_nonneg_right hn.1 hd
    have a2 := Rat.mul_le_mul_of_nonneg_right hn.2 hd
    constructor <;> grind

/-- The height of USTEC is between the lowest and the highest level, for values that are not negative. -/
theorem C99_height (height step : Rat) (data : List Rat) (lo hi : Rat) (h0 : ∀ x ∈ data, 0 ≤ x) (hs : 0 < data.sum)
    (hb : ∀ i, i < data.length → lo ≤ height + (i : Rat) * step - 6371 ∧ height + (i : Rat) * step - 6371 ≤ hi) :
    lo ≤ ustecHeight height step data ∧ ustecHeight height step data ≤ hi := by
  have h := weighted_sum height step data 0 lo hi h0 (fun i _ h2 => hb i (by omega))
  unfold ustecHeight
  generalize ((data.zipIdx).map (fun x => (height + (x.2 : Rat) * step - 6371) * x.1)).sum = S at h
  generalize data.sum = W at h hs
  have hi0 : 0 ≤ W⁻¹ := Rat.le_of_lt (Rat.inv_pos.mpr hs)
  have a1 := Rat.mul_le_mul_of_nonneg_right h.1 hi0
  have a2 := Rat.mul_le_mul_of_nonneg_right h.2 hi0
  rw [Rat.mul_assoc, Rat.mul_inv_cancel _ (by grind), Rat.mul_one] at a1 a2
  rw [Rat.div_def]
  exact ⟨a1, a2⟩

/-- The file of GloTEC that is downloaded is the one that is opened, except in the last half second of a day. -/
theorem C99_glotec (mjd : Rat) : glotecDownload mjd = glotecOpen mjd ↔ ¬ 86399500 < mpmOf mjd := by
  have h1 : 0 ≤ mpmOf mjd := by
    unfold mpmOf
    rw [Rat.le_floor_iff]
    have := Rat.floor_le (a := mjd)
    have h2 : (0 : Rat) ≤ (mjd - mjd.floor) * 86400000 := Rat.mul_nonneg (by grind) (by decide +kernel)
    exact h2
  have h2 : mpmOf mjd < 86400000 := by
    unfold mpmOf
    rw [Rat.floor_lt_iff]
    have := Rat.lt_floor_add_one (a := mjd)
    have h2 : (mjd - mjd.floor) * 86400000 < 1 * 86400000 := Rat.mul_lt_mul_of_pos_right (by grind) (by decide +kernel)
    rw [Rat.one_mul] at h2
    exact h2
  unfold glotecDownload glotecOpen
  split <;> omega

/-- In the last half second of a day the file of the next day is downloaded, but that of the day is opened. -/
theorem C99_not_glotec : glotecDownload (60801 + 863999 / 864000) = 60802 ∧ glotecOpen (60801 + 863999 / 864000) = 60801 := by
  constructor <;> decide +kernel

/-! ## Files -/

/-- Final values are preferred to rapid ones; the rapid file is taken only if the final one cannot be had; without any there is an error. -/
theorem C99_chosen (cached downloads : Bool × Bool) :
    (chosen cached downloads = .ok true ↔ cached.1 ∨ downloads.1) ∧
    (chosen cached downloads = .ok false ↔ ¬ (cached.1 ∨ downloads.1) ∧ (cached.2 ∨ downloads.2)) := by
  obtain ⟨a, b⟩ := cached
  obtain ⟨c, d⟩ := downloads
  cases a <;> cases b <;> cases c <;> cases d <;> simp [chosen]

/-! ## Files that are not as they should be -/

/-- The exponent in the header is not used: values in hundredths are read as tenths. -/
theorem C99_not_exponent (g : Grid) (lats : List Int) (tec rms : List Chart) (hg : g.Fits lats) (h0 : tec ≠ [])
    (hc : ∀ c ∈ tec, c.Fits g lats) (hr : ∀ c ∈ rms, c.Fits g lats) :
    parse (fileLines ["    -2                                                      EXPONENT".toList] [] g tec rms) =
      parse (fileLines ["    -1                                                      EXPONENT".toList] [] g tec rms) := by
  rw [C99_parse_partial _ _ g lats tec rms _ (by simp) hg h0 hc hr, C99_parse_partial _ _ g lats tec rms _ (by simp) hg h0 hc hr]
  · intro l hl s hs
    simp only [List.mem_singleton] at hl; subst hl
    revert s; decide +kernel
  · intro l hl s hs
    simp only [List.mem_singleton] at hl; subst hl
    revert s; decide +kernel

def exGrid : Grid := ⟨-1800, 1800, 3, 4500⟩
def exChart (day hour : Nat) (v : Int) : Chart := ⟨2011, 2, day, hour, 0, 0, [⟨875, [some v, none, some 3]⟩, ⟨-875, [some (-5), some 20, some 9998]⟩]⟩

/-- The second map has an impossible day: its rows go to the first one, which is then returned twice. -/
theorem C99_not_impossible_day :
    shown (parse (fileLines [] [] exGrid [exChart 28 0 7, exChart 30 0 8] [])) = shown (.ok
      ⟨[55620], [175 / 2, -175 / 2, 175 / 2, -175 / 2], [-180, 0, 180], 450,
        List.replicate 2 [[some (7 / 10), none, some (3 / 10)], [some (-1 / 2), some 2, some (4999 / 5)], [some (4 / 5), none, some (3 / 10)], [some (-1 / 2), some 2, some (4999 / 5)]],
        List.replicate 2 [[some (7 / 200), none, some (3 / 200)], [some (-1 / 40), some (1 / 10), some (4999 / 100)], [some (1 / 25), none, some (3 / 200)], [some (-1 / 40), some (1 / 10), some (4999 / 100)]]⟩) := by
  decide +kernel

/-- A file without maps is an error, not an empty result. -/
theorem C99_not_empty : shown (parse ["".toList]) = .inr .name := by decide +kernel

/-! ## The premises can be met -/

example : exGrid.Fits [875, -875] := by
  constructor <;> decide +kernel

example : (exChart 28 24 7).Fits exGrid [875, -875] := by
  constructor
  · decide +kernel
  · decide +kernel
  · decide +kernel
  · decide +kernel
  · intro b hb x hx
    simp only [exChart, List.mem_cons, List.not_mem_nil, or_false] at hb
    rcases hb with rfl | rfl <;> simp at hx <;> omega

/-- 24:00 of a day is 0:00 of the next. -/
example : timeOf (exChart 28 24 7) = timeOf ⟨2011, 3, 1, 0, 0, 0, []⟩ := by decide +kernel

example : shown (parse (fileLines [] [] exGrid [exChart 28 0 7, exChart 28 24 8] [exChart 28 0 1, exChart 28 24 2])) =
    shown (.ok (expected exGrid [875, -875] [exChart 28 0 7, exChart 28 24 8] [exChart 28 0 1, exChart 28 24 2])) := by decide +kernel

end Verif.Ionex
