import Verif.Lemmas.Catalog
import Verif.Lemmas.PyNum
/-!
# C109: catalogs have the sources of their files
-/
namespace Verif.Catalog
open Verif.Dec Verif.Astro
open Verif.Parser (isBlank strip)
open Verif.Ionex (Text words cols int?)

/-! ## Keys -/

/-- A catalog made of any sources gives for a key the last source of that name, and else the last one with that alias. -/
theorem C109_lookup (rs : List Row) (k : Text) : lookup (rs.foldl add empty) k = sourceOf Row.name Row.aliases rs k := by
  have h1 : get k (rs.foldl add empty).sources = lastWith (fun r : Row => decide (r.name = k)) rs := by
    rw [sources_fold, get_sources]; simp [empty, get]
  have h2 : get k (rs.foldl add empty).aliases = lastWith (fun r : Row => decide (k ∈ r.aliases)) rs := by
    rw [get_aliases_fold]; simp [empty, get]
  unfold lookup sourceOf
  rw [h1, h2]
  show _ = (lastWith (fun r : Row => decide (r.name = k)) rs).or _
  cases lastWith (fun r : Row => decide (r.name = k)) rs with
  | some r => rfl
  | none =>
    simp only [Option.none_or]
    congr 1
    funext r
    exact decide_eq_decide.mpr Iff.rfl

/-- It goes over the names, each once, in the order of the file. -/
theorem C109_iter (rs : List Row) : iter (rs.foldl add empty) = once (rs.map (·.name)) ∧ len (rs.foldl add empty) = (once (rs.map (·.name))).length := by
  have h : iter (rs.foldl add empty) = once (rs.map (·.name)) := by
    unfold iter
    rw [sources_fold, keys_fold]
    simp [empty]
  refine ⟨h, ?_⟩
  rw [← h]
  simp [len, iter]

theorem mem_once (l : List Text) (k : Text) : k ∈ once l ↔ k ∈ l := by
  induction l with
  | nil => simp [once]
  | cons a l ih =>
    simp only [once, List.mem_cons, List.mem_filter, ih]
    by_cases h : k = a <;> simp [h]

theorem lastWith_isSome {R : Type} (p : R → Bool) (l : List R) : (lastWith p l).isSome = l.any p := by
  induction l with
  | nil => rfl
  | cons r l ih =>
    rw [lastWith, Option.isSome_or, ih, List.any_cons, Bool.or_comm]
    cases h : p r <;> simp

/-- A key is in the catalog when it is a name or an alias; so catalogs have keys over which they do not go. -/
theorem C109_contains (rs : List Row) (k : Text) :
    contains (rs.foldl add empty) k = true ↔ k ∈ iter (rs.foldl add empty) ∨ ∃ r ∈ rs, k ∈ r.aliases := by
  unfold contains
  rw [C109_lookup, (C109_iter rs).1, mem_once, sourceOf, Option.isSome_or, lastWith_isSome, lastWith_isSome, Bool.or_eq_true,
    List.any_eq_true, List.any_eq_true]
  simp only [decide_eq_true_eq, List.mem_map]

/-- Files are their lines, and those that are not left out are one source each; the first one that cannot be read ends it. -/
theorem C109_file (skip : Text → Bool) (row : Text → Except Err Row) (ls : List Text) (c : Cat) :
    parseFile skip row ls c = ((ls.filter (fun l => !skip l)).mapM row).map (fun rs => rs.foldl add c) := by
  induction ls generalizing c with
  | nil => rfl
  | cons l ls ih =>
    unfold parseFile
    by_cases h : skip l = true
    · rw [if_pos h, List.filter_cons_of_neg (by simp [h]), ih]
    · rw [if_neg h, List.filter_cons_of_pos (by simp [h]), List.mapM_cons]
      cases hr : row l with
      | error e => rfl
      | ok r =>
        show parseFile skip row ls (add c r) = _
        rw [ih]
        cases List.mapM row (ls.filter fun l => !skip l) with
        | error e => rfl
        | ok rs => rfl

/-- Lines come back from the text of a file: all with their end, the last one with or without. -/
theorem C109_lines (ls : List Text) (t : Text) (h : ∀ l ∈ ls, '\n' ∉ l) (ht : '\n' ∉ t) :
    linesOf ((ls.map (· ++ ['\n'])).flatten ++ t) = ls.map (· ++ ['\n']) ++ (if t = [] then [] else [t]) := by
  have hone : ∀ t : Text, '\n' ∉ t → linesOf t = if t = [] then [] else [t] := by
    intro t
    induction t with
    | nil => intro _; rfl
    | cons c t ih =>
      intro hc
      simp only [List.mem_cons, not_or] at hc
      unfold linesOf
      rw [if_neg (fun e => hc.1 e.symm), ih hc.2]
      cases t <;> simp
  have hline : ∀ l rest : Text, '\n' ∉ l → linesOf (l ++ '\n' :: rest) = (l ++ ['\n']) :: linesOf rest := by
    intro l rest
    induction l with
    | nil => intro _; simp [linesOf]
    | cons c l ih =>
      intro hc
      simp only [List.mem_cons, not_or] at hc
      rw [List.cons_append]
      conv => lhs; unfold linesOf
      rw [if_neg (fun e => hc.1 e.symm), ih hc.2]
      rfl
  induction ls with
  | nil => simp only [List.map_nil, List.flatten_nil, List.nil_append]; exact hone t ht
  | cons l ls ih =>
    rw [List.map_cons, List.flatten_cons, List.append_assoc, List.append_assoc, List.singleton_append, hline l _ (h l (by simp)),
      ih (fun x hx => h x (by simp [hx]))]
    rfl

/-! ## Angles -/

/-- What is in a source is what was read, with the sign, also of no degrees. -/
theorem C109_place (name : Text) (al : List Text) (b : Bool) (h m : Int) (s : Rat) (neg : Bool) (d dm : Int) (ds : Rat) (r : Row)
    (hr : place name al b h m s neg d dm ds = .ok r) :
    r.name = name ∧ r.aliases = al ∧ r.b1950 = b ∧ hmsToDeg r.ra = ((h : Rat) + (m : Rat) / 60 + s / 3600) * 15
    ∧ dmsToDeg r.dec = (if neg then -1 else 1) * ((d : Rat) + (dm : Rat) / 60 + ds / 3600) := by
  unfold place at hr
  cases h1 : mkHms h m s with
  | none => simp [h1] at hr
  | some ra =>
    cases h2 : mkDms neg d dm ds with
    | none => simp [h1, h2] at hr
    | some dec =>
      simp only [h1, h2] at hr
      split at hr
      · injection hr with hr
        subst hr
        unfold mkHms at h1
        unfold mkDms at h2
        repeat (split at h1; · cases h1)
        repeat (split at h2; · cases h2)
        cases h1
        cases h2
        refine ⟨rfl, rfl, rfl, rfl, ?_⟩
        unfold dmsToDeg
        cases neg <;> simp <;> grind
      · cases hr

/-- Angles in their ranges are taken, all others are a `ValueError`. -/
theorem C109_place_ok (name : Text) (al : List Text) (b : Bool) (h m : Int) (s : Rat) (neg : Bool) (d dm : Int) (ds : Rat) :
    (place name al b h m s neg d dm ds = .ok ⟨name, al, ⟨h, m, s⟩, ⟨neg, d, dm, ds⟩, b⟩ ∨ place name al b h m s neg d dm ds = .error .valueError)
    ∧ (0 ≤ h ∧ h ≤ 23 ∧ 0 ≤ m ∧ m ≤ 59 ∧ 0 ≤ s ∧ s < 60 ∧ 0 ≤ d ∧ d ≤ 89 ∧ 0 ≤ dm ∧ dm ≤ 59 ∧ 0 ≤ ds ∧ ds < 60 →
      place name al b h m s neg d dm ds = .ok ⟨name, al, ⟨h, m, s⟩, ⟨neg, d, dm, ds⟩, b⟩)
    ∧ (h < 0 ∨ 23 < h ∨ m < 0 ∨ 59 < m ∨ s < 0 ∨ 60 ≤ s ∨ d < 0 ∨ 90 < d ∨ dm < 0 ∨ 59 < dm ∨ ds < 0 ∨ 60 ≤ ds →
      place name al b h m s neg d dm ds = .error .valueError) := by
  have hcast : ∀ a b : Int, a ≤ b → (a : Rat) ≤ (b : Rat) := fun a b h => Rat.intCast_le_intCast.mpr h
  refine ⟨?_, ?_, ?_⟩
  · unfold place mkHms mkDms
    split
    · exact .inr rfl
    · rename_i ra h1
      repeat (split at h1; · cases h1)
      cases h1
      split
      · exact .inr rfl
      · rename_i dec h2
        repeat (split at h2; · cases h2)
        cases h2
        split
        · exact .inl rfl
        · exact .inr rfl
  · rintro ⟨a1, a2, a3, a4, a5, a6, a7, a8, a9, a10, a11, a12⟩
    have e1 : mkHms h m s = some ⟨h, m, s⟩ := by
      unfold mkHms
      rw [if_neg (by omega), if_neg (by omega), if_neg (by grind)]
    have e2 : mkDms neg d dm ds = some ⟨neg, d, dm, ds⟩ := by
      unfold mkDms
      rw [if_neg (by omega), if_neg (by omega), if_neg (by grind)]
    unfold place
    simp only [e1, e2]
    have c1 := hcast _ _ a7
    have c2 := hcast _ _ a8
    have c3 := hcast _ _ a9
    have c4 := hcast _ _ a10
    have d1 : ((0 : Int) : Rat) = 0 := rfl
    have d2 : ((89 : Int) : Rat) = 89 := rfl
    have d3 : ((59 : Int) : Rat) = 59 := rfl
    rw [d1] at c1 c3
    rw [d2] at c2
    rw [d3] at c4
    rw [if_pos]
    unfold dmsToDeg
    cases neg <;> simp <;> grind
  · intro hbad
    unfold place
    cases h1 : mkHms h m s with
    | none => rfl
    | some ra =>
      cases h2 : mkDms neg d dm ds with
      | none => rfl
      | some dec =>
        have hh : 0 ≤ h ∧ h ≤ 23 ∧ 0 ≤ m ∧ m ≤ 59 ∧ 0 ≤ s ∧ s < 60 := by
          unfold mkHms at h1
          split at h1
          · cases h1
          · split at h1
            · cases h1
            · split at h1
              · cases h1
              · refine ⟨by omega, by omega, by omega, by omega, by grind, by grind⟩
        have hd : 0 ≤ d ∧ 0 ≤ dm ∧ dm ≤ 59 ∧ 0 ≤ ds ∧ ds < 60 ∧ dec = ⟨neg, d, dm, ds⟩ := by
          unfold mkDms at h2
          split at h2
          · cases h2
          · split at h2
            · cases h2
            · split at h2
              · cases h2
              · refine ⟨by omega, by omega, by omega, by grind, by grind, by injection h2 with h2; exact h2.symm⟩
        have hdd : 90 < d := by
          obtain ⟨x1, x2, x3, x4, x5, x6⟩ := hh
          obtain ⟨y1, y2, y3, y4, y5, _⟩ := hd
          rcases hbad with h | h | h | h | h | h | h | h | h | h | h | h
          all_goals first | omega | grind
        have c1 := hcast 91 d (by omega)
        have c3 := hcast _ _ hd.2.1
        have d1 : ((0 : Int) : Rat) = 0 := rfl
        have d2 : ((91 : Int) : Rat) = 91 := rfl
        rw [d1] at c3
        rw [d2] at c1
        obtain ⟨y1, y2, y3, y4, y5, y6⟩ := hd
        subst y6
        simp only []
        rw [if_neg]
        unfold dmsToDeg
        cases neg <;> simp <;> grind

/-- Minutes with a fraction, as in 3C and 4C, are minutes and seconds. -/
theorem C109_minutes (x : Rat) (h0 : 0 ≤ x) (h1 : x < 60) :
    0 ≤ minutesOf x ∧ minutesOf x ≤ 59 ∧ 0 ≤ secondsOf x ∧ secondsOf x < 60 ∧ (minutesOf x : Rat) / 60 + secondsOf x / 3600 = x / 60 := by
  have hb := (pyInt_bounds x).1 h0
  unfold minutesOf secondsOf
  have hn : 0 ≤ pyInt x := by
    have : ((-1 : Int) : Rat) < (pyInt x : Rat) := by
      have : ((-1 : Int) : Rat) = -1 := rfl
      grind
    have := Rat.intCast_lt_intCast.mp this
    omega
  have hm : pyInt x ≤ 59 := by
    have : (pyInt x : Rat) < ((60 : Int) : Rat) := by
      have : ((60 : Int) : Rat) = 60 := rfl
      grind
    have := Rat.intCast_lt_intCast.mp this
    omega
  refine ⟨hn, hm, by grind, by grind, by grind⟩

/-! ## Columns -/

/-- The columns of the LWA catalog: anything may stand between them. -/
theorem C109_lwa (n g1 h g2 m g3 s g4 d g5 dm g6 ds g7 rest : Text) (sg : Char) (H M D DM : Int) (S DS : Rat)
    (ln : n.length = 8) (l1 : g1.length = 1) (lh : h.length = 2) (l2 : g2.length = 1) (lm : m.length = 2) (l3 : g3.length = 1)
    (ls : s.length = 5) (l4 : g4.length = 1) (ld : d.length = 2) (l5 : g5.length = 1) (ldm : dm.length = 2) (l6 : g6.length = 1)
    (lds : ds.length = 4) (l7 : g7.length = 2)
    (eh : int? h = some H) (em : int? m = some M) (es : real? s = some S) (ed : int? d = some D) (edm : int? dm = some DM)
    (eds : real? ds = some DS) :
    lwaRow ([n, g1, h, g2, m, g3, s, g4, [sg], d, g5, dm, g6, ds, g7].flatten ++ rest)
      = place (rstripOf isBlank n) (words rest) false H M S (sg == '-') D DM DS := by
  unfold lwaRow
  rw [piece _ rest h 2 9 11 rfl (by simp [*]) (by simp [*]), piece _ rest m 4 12 14 rfl (by simp [*]) (by simp [*]),
    piece _ rest s 6 15 20 rfl (by simp [*]) (by simp [*]), piece _ rest d 9 22 24 rfl (by simp [*]) (by simp [*]),
    piece _ rest dm 11 25 27 rfl (by simp [*]) (by simp [*]), piece _ rest ds 13 28 32 rfl (by simp [*]) (by simp [*]),
    piece _ rest n 0 0 8 rfl (by simp) (by simp [*]),
    cols_one _ 21 sg (piece _ rest [sg] 8 21 22 rfl (by simp [*]) (by simp)),
    List.drop_left' (i := 34) (by simp [*])]
  simp only [eh, em, es, ed, edm, eds, want]
  rfl

/-- The columns of the PKS catalog, of the year 1950. -/
theorem C109_pks (n g0 al g1 h g2 m g3 s g4 d g5 dm g6 ds rest : Text) (sg : Char) (H M D DM DS : Int) (S : Rat)
    (ln : n.length = 8) (l0 : g0.length = 4) (la : al.length = 7) (l1 : g1.length = 3) (lh : h.length = 2) (l2 : g2.length = 1)
    (lm : m.length = 2) (l3 : g3.length = 1) (ls : s.length = 4) (l4 : g4.length = 1) (ld : d.length = 2) (l5 : g5.length = 1)
    (ldm : dm.length = 2) (l6 : g6.length = 1) (lds : ds.length = 2)
    (eh : int? h = some H) (em : int? m = some M) (es : real? s = some S) (ed : int? d = some D) (edm : int? dm = some DM)
    (eds : int? ds = some DS) :
    pksRow ([n, g0, al, g1, h, g2, m, g3, s, g4, [sg], d, g5, dm, g6, ds].flatten ++ rest)
      = place n (if strip al = [] then [] else [rstripOf isBlank al]) true H M S (sg == '-') D DM (DS : Rat) := by
  unfold pksRow
  rw [piece _ rest h 4 22 24 rfl (by simp [*]) (by simp [*]), piece _ rest m 6 25 27 rfl (by simp [*]) (by simp [*]),
    piece _ rest s 8 28 32 rfl (by simp [*]) (by simp [*]), piece _ rest d 11 34 36 rfl (by simp [*]) (by simp [*]),
    piece _ rest dm 13 37 39 rfl (by simp [*]) (by simp [*]), piece _ rest ds 15 40 42 rfl (by simp [*]) (by simp [*]),
    piece _ rest n 0 0 8 rfl (by simp) (by simp [*]), piece _ rest al 2 12 19 rfl (by simp [*]) (by simp [*]),
    cols_one _ 33 sg (piece _ rest [sg] 10 33 34 rfl (by simp [*]) (by simp))]
  simp only [eh, em, es, ed, edm, eds, want]
  rfl

/-- The columns of the PKS90 catalog, with two aliases. -/
theorem C109_pks90 (n h g2 m g3 s g4 d g5 dm g6 ds g7 a0 g8 a1 rest : Text) (sg : Char) (H M D DM : Int) (S DS : Rat)
    (ln : n.length = 10) (lh : h.length = 2) (l2 : g2.length = 1) (lm : m.length = 2) (l3 : g3.length = 1) (ls : s.length = 4)
    (l4 : g4.length = 3) (ld : d.length = 2) (l5 : g5.length = 1) (ldm : dm.length = 2) (l6 : g6.length = 1) (lds : ds.length = 4)
    (l7 : g7.length = 105) (la0 : a0.length = 9) (l8 : g8.length = 20) (la1 : a1.length = 7)
    (eh : int? h = some H) (em : int? m = some M) (es : real? s = some S) (ed : int? d = some D) (edm : int? dm = some DM)
    (eds : real? ds = some DS) :
    pks90Row ([n, h, g2, m, g3, s, g4, [sg], d, g5, dm, g6, ds, g7, a0, g8, a1].flatten ++ rest)
      = place n ((if strip a0 = [] then [] else [rstripOf isBlank a0]) ++ (if strip a1 = [] then [] else [rstripOf isBlank a1])) false
          H M S (sg == '-') D DM DS := by
  unfold pks90Row
  rw [piece _ rest h 1 10 12 rfl (by simp [*]) (by simp [*]), piece _ rest m 3 13 15 rfl (by simp [*]) (by simp [*]),
    piece _ rest s 5 16 20 rfl (by simp [*]) (by simp [*]), piece _ rest d 8 24 26 rfl (by simp [*]) (by simp [*]),
    piece _ rest dm 10 27 29 rfl (by simp [*]) (by simp [*]), piece _ rest ds 12 30 34 rfl (by simp [*]) (by simp [*]),
    piece _ rest n 0 0 10 rfl (by simp) (by simp [*]), piece _ rest a0 14 139 148 rfl (by simp [*]) (by simp [*]),
    piece _ rest a1 16 168 175 rfl (by simp [*]) (by simp [*]),
    cols_one _ 23 sg (piece _ rest [sg] 7 23 24 rfl (by simp [*]) (by simp))]
  simp only [eh, em, es, ed, edm, eds, want]
  rfl

/-- The columns of the 3C catalog, of the year 1950. -/
theorem C109_3c (n g1 h g2 m g3 s g4 d g5 dm rest : Text) (sg : Char) (H M D : Int) (S DM : Rat)
    (ln : n.length = 3) (l1 : g1.length = 9) (lh : h.length = 2) (l2 : g2.length = 1) (lm : m.length = 2) (l3 : g3.length = 1)
    (ls : s.length = 4) (l4 : g4.length = 5) (ld : d.length = 2) (l5 : g5.length = 1) (ldm : dm.length = 4)
    (eh : int? h = some H) (em : int? m = some M) (es : real? s = some S) (ed : int? d = some D) (edm : real? dm = some DM) :
    c3cRow ([n, g1, h, g2, m, g3, s, g4, [sg], d, g5, dm].flatten ++ rest)
      = place ('3' :: 'C' :: strip n) [] true H M S (sg == '-') D (minutesOf DM) (secondsOf DM) := by
  unfold c3cRow
  rw [piece _ rest h 2 12 14 rfl (by simp [*]) (by simp [*]), piece _ rest m 4 15 17 rfl (by simp [*]) (by simp [*]),
    piece _ rest s 6 18 22 rfl (by simp [*]) (by simp [*]), piece _ rest d 9 28 30 rfl (by simp [*]) (by simp [*]),
    piece _ rest dm 11 31 35 rfl (by simp [*]) (by simp [*]), piece _ rest n 0 0 3 rfl (by simp) (by simp [*]),
    cols_one _ 27 sg (piece _ rest [sg] 8 27 28 rfl (by simp [*]) (by simp))]
  simp only [eh, em, es, ed, edm, want]
  rfl

/-- The columns of the 4C catalog, of the year 1950; the alias is the rest of the line without its end. -/
theorem C109_4c_partial (n g1 h g2 m g3 s g4 d g5 dm g6 rest : Text) (sg : Char) (H M D : Int) (S DM : Rat)
    (ln : n.length = 8) (l1 : g1.length = 2) (lh : h.length = 2) (l2 : g2.length = 1) (lm : m.length = 2) (l3 : g3.length = 1)
    (ls : s.length = 4) (l4 : g4.length = 2) (ld : d.length = 2) (l5 : g5.length = 1) (ldm : dm.length = 4) (l6 : g6.length = 34)
    (hr : rest ≠ [])
    (eh : int? h = some H) (em : int? m = some M) (es : real? s = some S) (ed : int? d = some D) (edm : real? dm = some DM) :
    c4cRow ([n, g1, h, g2, m, g3, s, g4, [sg], d, g5, dm, g6].flatten ++ rest)
      = place ('4' :: 'C' :: strip n)
          (if strip (rstripOf (· == '*') (strip rest.dropLast)) = [] then [] else [rstripOf isBlank (rstripOf (· == '*') (strip rest.dropLast))])
          true H M S (sg == '-') D (minutesOf DM) (secondsOf DM) := by
  unfold c4cRow c4cAlias
  rw [piece _ rest h 2 10 12 rfl (by simp [*]) (by simp [*]), piece _ rest m 4 13 15 rfl (by simp [*]) (by simp [*]),
    piece _ rest s 6 16 20 rfl (by simp [*]) (by simp [*]), piece _ rest d 9 23 25 rfl (by simp [*]) (by simp [*]),
    piece _ rest dm 11 26 30 rfl (by simp [*]) (by simp [*]), piece _ rest n 0 0 8 rfl (by simp) (by simp [*]),
    cols_one _ 22 sg (piece _ rest [sg] 8 22 23 rfl (by simp [*]) (by simp)),
    List.dropLast_append_of_ne_nil hr, List.drop_left' (i := 64) (by simp [*])]
  simp only [eh, em, es, ed, edm, want]
  rfl

/-- A source of the LWA catalog written with its digits is read as that source. -/
theorem C109_lwa_digits (name : Text) (rest : Text) (sg : Char) (h m s cs d dm ds t : Nat) (ln : name.length = 8)
    (hh : h < 24) (hm : m < 60) (hs : s < 60) (hcs : cs < 100) (hd : d < 90) (hdm : dm < 60) (hds : ds < 60) (ht : t < 10) :
    lwaRow ([name, [' '], showPad 2 h, [' '], showPad 2 m, [' '], showPad 2 s ++ '.' :: showPad 2 cs, [' '], [sg], showPad 2 d, [' '],
        showPad 2 dm, [' '], showPad 2 ds ++ '.' :: showPad 1 t, [' ', ' ']].flatten ++ rest)
      = .ok ⟨rstripOf isBlank name, words rest, ⟨h, m, (s : Rat) + (cs : Rat) / 100⟩, ⟨sg == '-', d, dm, (ds : Rat) + (t : Rat) / 10⟩, false⟩ := by
  have e1 := real_pad 2 s 2 cs (by omega) hcs
  have e2 := real_pad 2 ds 1 t (by omega) ht
  rw [show (((10 ^ 2 : Nat) : Nat) : Rat) = 100 from rfl] at e1
  rw [show (((10 ^ 1 : Nat) : Nat) : Rat) = 10 from rfl] at e2
  rw [C109_lwa name [' '] _ [' '] _ [' '] _ [' '] _ [' '] _ [' '] _ [' ', ' '] rest sg h m d dm _ _ ln rfl
    (showPad_length 2 h (by omega) (by omega)) rfl (showPad_length 2 m (by omega) (by omega)) rfl
    (by simp [showPad_length 2 s (by omega) (by omega), showPad_length 2 cs (by omega) (by omega)]) rfl
    (showPad_length 2 d (by omega) (by omega)) rfl (showPad_length 2 dm (by omega) (by omega)) rfl
    (by simp [showPad_length 2 ds (by omega) (by omega), showPad_length 1 t (by omega) (by omega)]) rfl
    (int_pad 2 h) (int_pad 2 m) e1 (int_pad 2 d) (int_pad 2 dm) e2]
  have hn : ∀ a b : Nat, a ≤ b → (a : Rat) ≤ (b : Rat) := fun a b h => Rat.natCast_le_natCast.mpr h
  have a1 := hn _ _ (Nat.zero_le s)
  have a2 := hn s 59 (by omega)
  have a3 := hn _ _ (Nat.zero_le cs)
  have a4 := hn cs 99 (by omega)
  have b1 := hn _ _ (Nat.zero_le ds)
  have b2 := hn ds 59 (by omega)
  have b3 := hn _ _ (Nat.zero_le t)
  have b4 := hn t 9 (by omega)
  have z0 : ((0 : Nat) : Rat) = 0 := rfl
  have z1 : ((59 : Nat) : Rat) = 59 := rfl
  have z2 : ((99 : Nat) : Rat) = 99 := rfl
  have z3 : ((9 : Nat) : Rat) = 9 := rfl
  rw [z0] at a1 a3 b1 b3
  rw [z1] at a2 b2
  rw [z2] at a4
  rw [z3] at b4
  exact (C109_place_ok _ _ _ _ _ _ _ _ _ _).2.1 ⟨by omega, by omega, by omega, by omega, by grind, by grind, by omega, by omega, by omega, by omega,
    by grind, by grind⟩

/-! ## Lines that cannot be read -/

/-- Lines left out: comments and blank lines of the LWA catalog, empty lines of PKS and PKS90. -/
theorem C109_skip (l : Text) : lwaSkip ('#' :: l) = true ∧ (l ≠ [] → (∀ c ∈ l, isBlank c = true) → lwaSkip l = true)
    ∧ (∀ c, c ∈ l → isBlank c = false → l.head? ≠ some '#' → lwaSkip l = false) ∧ (pksSkip l = true ↔ l = ['\n']) := by
  refine ⟨rfl, ?_, ?_, ?_⟩
  · intro h0 h
    unfold lwaSkip
    rw [List.all_eq_true.mpr h]
    simp [h0]
  · intro c hc hb hh
    unfold lwaSkip
    have : l.all isBlank = false := by
      rw [List.all_eq_false]
      exact ⟨c, hc, by simp [hb]⟩
    rw [this]
    simp [hh]
  · simp [pksSkip]

/-- A number that is none is a `RuntimeError`. -/
theorem C109_bad_number (l : Text) :
    (int? (cols 9 11 l) = none → lwaRow l = .error .runtimeError) ∧ (int? (cols 22 24 l) = none → pksRow l = .error .runtimeError)
    ∧ (int? (cols 10 12 l) = none → pks90Row l = .error .runtimeError) ∧ (int? (cols 12 14 l) = none → c3cRow l = .error .runtimeError)
    ∧ (int? (cols 10 12 l) = none → c4cRow l = .error .runtimeError) := by
  refine ⟨?_, ?_, ?_, ?_, ?_⟩ <;> intro h
  · unfold lwaRow; rw [h]; rfl
  · unfold pksRow; rw [h]; rfl
  · unfold pks90Row; rw [h]; rfl
  · unfold c3cRow; rw [h]; rfl
  · unfold c4cRow; rw [h]; rfl

/-- Negation: a line that ends before the sign is an `IndexError`, which nothing tells of the line. -/
theorem C109_not_short (l : Text) (H M : Int) (S : Rat) (eh : int? (cols 9 11 l) = some H) (em : int? (cols 12 14 l) = some M)
    (es : real? (cols 15 20 l) = some S) (hl : l.length ≤ 21) : lwaRow l = .error .indexError := by
  unfold lwaRow
  rw [eh, em, es, List.getElem?_eq_none hl]
  rfl

/-- Negation: 3C and 4C take no empty lines. -/
theorem C109_not_blank (c : Cat) (ls : List Text) :
    parseFile noSkip c3cRow (['\n'] :: ls) c = .error .runtimeError ∧ parseFile noSkip c4cRow (['\n'] :: ls) c = .error .runtimeError := by
  have h1 : c3cRow ['\n'] = .error .runtimeError := (C109_bad_number _).2.2.2.1 (by decide +kernel)
  have h2 : c4cRow ['\n'] = .error .runtimeError := (C109_bad_number _).2.2.2.2 (by decide +kernel)
  constructor
  · unfold parseFile; rw [h1]; rfl
  · unfold parseFile; rw [h2]; rfl

theorem rstrip_id (p : Char → Bool) (a : Text) (h : ∀ c ∈ a, p c = false) : rstripOf p a = a := by
  unfold rstripOf
  have : a.reverse.dropWhile p = a.reverse := by
    cases hr : a.reverse with
    | nil => rfl
    | cons x xs =>
      have : p x = false := h x (by rw [← List.mem_reverse, hr]; simp)
      rw [List.dropWhile_cons_of_neg (by simp [this])]
  rw [this, List.reverse_reverse]

/-- An alias of 4C is read without blanks and asterisks.  Negation: at the end of a file without a line end it loses its last
character. -/
theorem C109_not_4c_end (p a : Text) (hp : p.length = 64) (h0 : a ≠ []) (h : ∀ c ∈ a, isBlank c = false ∧ c ≠ '*') :
    c4cAlias (p ++ a ++ ['\n']) = a ∧ c4cAlias (p ++ a) = a.dropLast := by
  have hs : ∀ b : Text, (∀ c ∈ b, isBlank c = false ∧ c ≠ '*') → rstripOf (· == '*') (strip b) = b := by
    intro b hb
    rw [Idf.strip_plain _ (fun c hc => (hb c hc).1), rstrip_id _ _ (fun c hc => by simp [(hb c hc).2])]
  constructor
  · unfold c4cAlias
    rw [List.dropLast_concat, List.drop_left' hp, hs a h]
  · unfold c4cAlias
    rw [List.dropLast_append_of_ne_nil h0, List.drop_left' hp, hs _ (fun c hc => h c (List.dropLast_subset a hc))]

/-! ## Pulsars -/

/-- A line of none of the five kinds. -/
def Other (l : Text) : Prop :=
  kPsrb.isPrefixOf l = false ∧ kPsrj.isPrefixOf l = false ∧ kRaj.isPrefixOf l = false ∧ kDecj.isPrefixOf l = false ∧ kEnd.isPrefixOf l = false

/-- A line of kind `k` with the value `w`. -/
def Says (k w l : Text) : Prop := k.isPrefixOf l = true ∧ (words l)[1]? = some w

theorem loop_append (a b : List Text) (s : St) : psrLoop (a ++ b) s = (psrLoop a s).bind (psrLoop b) := by
  induction a generalizing s with
  | nil => rfl
  | cons l a ih =>
    rw [List.cons_append]
    unfold psrLoop
    cases psrStep s l with
    | error e => rfl
    | ok s' => exact ih s'

theorem loop_other (f : List Text) (s : St) (h : ∀ l ∈ f, Other l) : psrLoop f s = .ok s := by
  induction f with
  | nil => rfl
  | cons l f ih =>
    obtain ⟨h1, h2, h3, h4, h5⟩ := h l (by simp)
    have : psrStep s l = .ok s := by simp [psrStep, h1, h2, h3, h4, h5]
    unfold psrLoop
    rw [this]
    exact ih (fun x hx => h x (by simp [hx]))

theorem loop_one (l : Text) (s : St) : psrLoop [l] s = psrStep s l := by
  unfold psrLoop
  cases psrStep s l <;> rfl

theorem prefix_cons (k l : Text) (h : k.isPrefixOf l = true) : ∃ r, l = k ++ r := by
  obtain ⟨r, hr⟩ := List.isPrefixOf_iff_prefix.mp h
  exact ⟨r, hr.symm⟩

theorem step_psrb (s : St) (w l : Text) (h : Says kPsrb w l) : psrStep s l = .ok { s with psrb := some w } := by
  simp [psrStep, h.1, second, h.2, want, Except.map]

theorem step_psrj (s : St) (w l : Text) (h : Says kPsrj w l) : psrStep s l = .ok { s with psrj := some w } := by
  obtain ⟨r, rfl⟩ := prefix_cons _ _ h.1
  have h0 : kPsrb.isPrefixOf (kPsrj ++ r) = false := rfl
  simp only [psrStep, h.1, h0, second, h.2, want, Except.map, if_true, Bool.false_eq_true, if_false]

theorem step_raj (s : St) (w l : Text) (h : Says kRaj w l) : psrStep s l = raLine s w := by
  obtain ⟨r, rfl⟩ := prefix_cons _ _ h.1
  have h0 : kPsrb.isPrefixOf (kRaj ++ r) = false := rfl
  have h1 : kPsrj.isPrefixOf (kRaj ++ r) = false := rfl
  simp only [psrStep, h.1, h0, h1, second, h.2, want, Except.bind, if_true, Bool.false_eq_true, if_false]

theorem step_decj (s : St) (w l : Text) (h : Says kDecj w l) : psrStep s l = decLine s w := by
  obtain ⟨r, rfl⟩ := prefix_cons _ _ h.1
  have h0 : kPsrb.isPrefixOf (kDecj ++ r) = false := rfl
  have h1 : kPsrj.isPrefixOf (kDecj ++ r) = false := rfl
  have h2 : kRaj.isPrefixOf (kDecj ++ r) = false := rfl
  simp only [psrStep, h.1, h0, h1, h2, second, h.2, want, Except.bind, if_true, Bool.false_eq_true, if_false]

theorem step_end (s : St) (l : Text) (h : kEnd.isPrefixOf l = true) : psrStep s l = endLine s := by
  obtain ⟨r, rfl⟩ := prefix_cons _ _ h
  have h0 : kPsrb.isPrefixOf (kEnd ++ r) = false := rfl
  have h1 : kPsrj.isPrefixOf (kEnd ++ r) = false := rfl
  have h2 : kRaj.isPrefixOf (kEnd ++ r) = false := rfl
  have h3 : kDecj.isPrefixOf (kEnd ++ r) = false := rfl
  simp only [psrStep, h, h0, h1, h2, h3, if_true, Bool.false_eq_true, if_false]

/-- Hours and minutes, perhaps with seconds; degrees and minutes, perhaps with seconds, with the sign in front. -/
def RaText (w : Text) (ra : Hms) : Prop := ∃ h m : Text, ∃ x : Option Text, ∃ H M : Int, ∃ S : Rat,
  splitOn ':' w = h :: m :: x.toList ∧ int? h = some H ∧ int? m = some M ∧ x.elim (some 0) real? = some S ∧ mkHms H M S = some ra
def DecText (w : Text) (dec : Dms) : Prop := ∃ d m : Text, ∃ x : Option Text, ∃ D M : Int, ∃ S : Rat, ∃ neg : Bool,
  splitOn ':' w = (if neg then '-' :: d else d) :: m :: x.toList ∧ d.head? ≠ some '-' ∧ int? d = some D ∧ int? m = some M
  ∧ x.elim (some 0) real? = some S ∧ mkDms neg D M S = some dec

theorem line_ra (s : St) (w : Text) (ra : Hms) (h : RaText w ra) : ∃ t, raLine s w = .ok { s with ra := some ra, last := some t } := by
  obtain ⟨a, m, x, H, M, S, e, e1, e2, e3, e4⟩ := h
  refine ⟨(H, M, S), ?_⟩
  unfold raLine
  rw [e]
  cases x with
  | none => simp only [Option.elim_none] at e3; simp [numbers, e1, e2, e3, Except.map, setRa, e4]
  | some x => simp only [Option.elim_some] at e3; simp [numbers, e1, e2, e3, Except.map, setRa, e4]

theorem line_dec (s : St) (w : Text) (dec : Dms) (h : DecText w dec) : decLine s w = .ok { s with dec := some dec } := by
  obtain ⟨d, m, x, D, M, S, neg, e, e0, e1, e2, e3, e4⟩ := h
  have hu : unsigned (if neg then '-' :: d else d) = (neg, d) := by
    cases neg with
    | true => rfl
    | false =>
      cases d with
      | nil => rfl
      | cons c r =>
        have : c ≠ '-' := fun h => e0 (by rw [h]; rfl)
        simp only [Bool.false_eq_true, if_false]
        unfold unsigned
        split
        · rename_i h; injection h with h _; exact absurd h this
        · rfl
  unfold decLine
  rw [e]
  cases x with
  | none => simp only [Option.elim_none] at e3; simp only [Option.toList_none]; rw [hu]; simp [numbers, e1, e2, e3, Except.map, setDec, e4]
  | some x => simp only [Option.elim_some] at e3; simp only [Option.toList_some]; rw [hu]; simp [numbers, e1, e2, e3, Except.map, setDec, e4]

/-- Lines that are one record: it adds `o` whatever came before. -/
def Record (ls : List Text) (o : Option Row) : Prop :=
  ∀ last c, ∃ last', psrLoop ls (fresh last c) = .ok (fresh last' (o.toList.foldl add c))

/-- A pulsar with two names goes under its B name, and the J name is the alias; with any other lines between. -/
theorem C109_psr_b (f0 f1 f2 f3 f4 : List Text) (lb lj lr ld le b j wr wd : Text) (ra : Hms) (dec : Dms)
    (o0 : ∀ l ∈ f0, Other l) (o1 : ∀ l ∈ f1, Other l) (o2 : ∀ l ∈ f2, Other l) (o3 : ∀ l ∈ f3, Other l) (o4 : ∀ l ∈ f4, Other l)
    (hb : Says kPsrb b lb) (hj : Says kPsrj j lj) (hr : Says kRaj wr lr) (hd : Says kDecj wd ld) (he : kEnd.isPrefixOf le = true)
    (hra : RaText wr ra) (hdec : DecText wd dec) (hin : -90 ≤ dmsToDeg dec ∧ dmsToDeg dec ≤ 90) :
    Record (f0 ++ [lb] ++ f1 ++ [lj] ++ f2 ++ [lr] ++ f3 ++ [ld] ++ f4 ++ [le]) (some ⟨b, [j], ra, dec, false⟩) := by
  intro last c
  obtain ⟨t, ht⟩ := line_ra ⟨some b, some j, none, none, false, last, c⟩ wr ra hra
  refine ⟨some t, ?_⟩
  simp only [loop_append, loop_one, loop_other _ _ o0, loop_other _ _ o1, loop_other _ _ o2, loop_other _ _ o3, loop_other _ _ o4, Except.bind,
    step_psrb _ _ _ hb, step_psrj _ _ _ hj, step_raj _ _ _ hr, step_decj _ _ _ hd, step_end _ _ he, fresh, ht, line_dec _ _ _ hdec]
  simp [endLine, hin, fresh, nameOf]

/-- A pulsar with a J name only goes under that. -/
theorem C109_psr_j (f1 f2 f3 f4 : List Text) (lj lr ld le j wr wd : Text) (ra : Hms) (dec : Dms)
    (o1 : ∀ l ∈ f1, Other l) (o2 : ∀ l ∈ f2, Other l) (o3 : ∀ l ∈ f3, Other l) (o4 : ∀ l ∈ f4, Other l)
    (hj : Says kPsrj j lj) (hr : Says kRaj wr lr) (hd : Says kDecj wd ld) (he : kEnd.isPrefixOf le = true)
    (hra : RaText wr ra) (hdec : DecText wd dec) (hin : -90 ≤ dmsToDeg dec ∧ dmsToDeg dec ≤ 90) :
    Record (f1 ++ [lj] ++ f2 ++ [lr] ++ f3 ++ [ld] ++ f4 ++ [le]) (some ⟨j, [], ra, dec, false⟩) := by
  intro last c
  obtain ⟨t, ht⟩ := line_ra ⟨none, some j, none, none, false, last, c⟩ wr ra hra
  refine ⟨some t, ?_⟩
  simp only [loop_append, loop_one, loop_other _ _ o1, loop_other _ _ o2, loop_other _ _ o3, loop_other _ _ o4, Except.bind,
    step_psrj _ _ _ hj, step_raj _ _ _ hr, step_decj _ _ _ hd, step_end _ _ he, fresh, ht, line_dec _ _ _ hdec]
  simp [endLine, hin, fresh, nameOf]

/-- A pulsar without a place, or with a declination of too many or too few parts, is left out. -/
theorem C109_psr_out (f1 f2 f3 f4 : List Text) (lj lr ld le j wr wd : Text) (ra : Hms)
    (o1 : ∀ l ∈ f1, Other l) (o2 : ∀ l ∈ f2, Other l) (o3 : ∀ l ∈ f3, Other l) (o4 : ∀ l ∈ f4, Other l)
    (hj : Says kPsrj j lj) (hr : Says kRaj wr lr) (hd : Says kDecj wd ld) (he : kEnd.isPrefixOf le = true) (hra : RaText wr ra)
    (hbad : (splitOn ':' wd).length ≠ 2 ∧ (splitOn ':' wd).length ≠ 3) :
    Record (f1 ++ [lj] ++ f2 ++ [le]) none ∧ Record (f1 ++ [lj] ++ f2 ++ [lr] ++ f3 ++ [ld] ++ f4 ++ [le]) none := by
  have hdl : ∀ s : St, decLine s wd = .ok { s with bad := true } := by
    intro s
    unfold decLine
    match h : splitOn ':' wd, hbad with
    | [], _ => rfl
    | [_], _ => rfl
    | _ :: _ :: _ :: _ :: _, _ => rfl
  constructor
  · intro last c
    refine ⟨last, ?_⟩
    simp only [loop_append, loop_one, loop_other _ _ o1, loop_other _ _ o2, Except.bind, step_psrj _ _ _ hj, step_end _ _ he, fresh]
    simp [endLine, fresh]
  · intro last c
    obtain ⟨t, ht⟩ := line_ra ⟨none, some j, none, none, false, last, c⟩ wr ra hra
    refine ⟨some t, ?_⟩
    simp only [loop_append, loop_one, loop_other _ _ o1, loop_other _ _ o2, loop_other _ _ o3, loop_other _ _ o4, Except.bind,
      step_psrj _ _ _ hj, step_raj _ _ _ hr, step_decj _ _ _ hd, step_end _ _ he, fresh, ht, hdl]
    simp [endLine, fresh]

/-- The kinds of lines. -/
theorem C109_psr_kinds : kPsrb = "PSRB".toList ∧ kPsrj = "PSRJ".toList ∧ kRaj = "RAJ".toList ∧ kDecj = "DECJ".toList ∧ kEnd = "@-".toList := by
  decide +kernel

/-- So is a pulsar with angles out of their ranges. -/
theorem C109_psr_range (f1 f2 f3 f4 : List Text) (lj lr ld le j wr wd h m x : Text) (H M : Int) (S : Rat) (dec : Dms)
    (o1 : ∀ l ∈ f1, Other l) (o2 : ∀ l ∈ f2, Other l) (o3 : ∀ l ∈ f3, Other l) (o4 : ∀ l ∈ f4, Other l)
    (hj : Says kPsrj j lj) (hr : Says kRaj wr lr) (hd : Says kDecj wd ld) (he : kEnd.isPrefixOf le = true) (hdec : DecText wd dec)
    (hw : splitOn ':' wr = [h, m, x]) (eh : int? h = some H) (em : int? m = some M) (ex : real? x = some S) (hbad : mkHms H M S = none) :
    Record (f1 ++ [lj] ++ f2 ++ [lr] ++ f3 ++ [ld] ++ f4 ++ [le]) none := by
  intro last c
  have ht : ∀ s : St, raLine s wr = .ok { s with bad := true, last := some (H, M, S) } := by
    intro s
    unfold raLine
    rw [hw]
    simp [numbers, eh, em, ex, Except.map, setRa, hbad]
  refine ⟨some (H, M, S), ?_⟩
  simp only [loop_append, loop_one, loop_other _ _ o1, loop_other _ _ o2, loop_other _ _ o3, loop_other _ _ o4, Except.bind,
    step_psrj _ _ _ hj, step_raj _ _ _ hr, step_decj _ _ _ hd, step_end _ _ he, fresh, ht, line_dec _ _ _ hdec]
  simp [endLine, fresh]

/-- Any number of records is a catalog of their pulsars. -/
theorem C109_psr_file_partial (rs : List (List Text × Option Row)) (h : ∀ r ∈ rs, Record r.1 r.2) :
    psrFile (rs.map (·.1)).flatten = .ok ((rs.filterMap (·.2)).foldl add empty) := by
  have key : ∀ last c, ∃ last', psrLoop (rs.map (·.1)).flatten (fresh last c) = .ok (fresh last' ((rs.filterMap (·.2)).foldl add c)) := by
    induction rs with
    | nil => intro last c; exact ⟨last, rfl⟩
    | cons r rs ih =>
      intro last c
      obtain ⟨l1, h1⟩ := h r (by simp) last c
      obtain ⟨l2, h2⟩ := ih (fun x hx => h x (by simp [hx])) l1 (r.2.toList.foldl add c)
      refine ⟨l2, ?_⟩
      rw [List.map_cons, List.flatten_cons, loop_append, h1]
      show psrLoop _ _ = _
      rw [h2]
      cases hr : r.2 <;> simp [hr]
  obtain ⟨l, hl⟩ := key none empty
  unfold psrFile
  rw [hl]
  rfl

/-- Negation: what comes after the last line of hyphens is lost. -/
theorem C109_not_psr_last (ls : List Text) (s s' : St) (h : ∀ l ∈ ls, kEnd.isPrefixOf l = false) (hs : psrLoop ls s = .ok s') : s'.cat = s.cat := by
  have hset : ∀ (s : St) t, (setRa s t).cat = s.cat := by intro s t; unfold setRa; split <;> rfl
  have hsetd : ∀ (s : St) n t, (setDec s n t).cat = s.cat := by intro s n t; unfold setDec; split <;> rfl
  have hmap : ∀ {α : Type} (e : Except Err α) (f : α → St) (s0 s1 : St), (∀ a, (f a).cat = s0.cat) → e.map f = .ok s1 → s1.cat = s0.cat := by
    intro α e f s0 s1 hf he
    cases e with
    | error _ => cases he
    | ok a => injection he with he; rw [← he]; exact hf a
  have hra : ∀ (s s1 : St) w, raLine s w = .ok s1 → s1.cat = s.cat := by
    intro s s1 w hw
    unfold raLine at hw
    split at hw
    · exact hmap _ _ _ _ (hset s) hw
    · exact hmap _ _ _ _ (hset s) hw
    · split at hw
      · cases hw
      · injection hw with hw; rw [← hw, hset]
  have hde : ∀ (s s1 : St) w, decLine s w = .ok s1 → s1.cat = s.cat := by
    intro s s1 w hw
    unfold decLine at hw
    split at hw
    · exact hmap _ _ _ _ (fun a => hsetd s _ a) hw
    · exact hmap _ _ _ _ (fun a => hsetd s _ a) hw
    · injection hw with hw; rw [← hw]
  have hstep : ∀ (s s1 : St) l, kEnd.isPrefixOf l = false → psrStep s l = .ok s1 → s1.cat = s.cat := by
    intro s s1 l hl hw
    unfold psrStep at hw
    split at hw
    · exact hmap _ _ s s1 (by intro _; rfl) hw
    · split at hw
      · exact hmap _ _ s s1 (by intro _; rfl) hw
      · split at hw
        · cases h2 : second l with
          | error e => rw [h2] at hw; cases hw
          | ok w => rw [h2] at hw; exact hra _ _ _ hw
        · split at hw
          · cases h2 : second l with
            | error e => rw [h2] at hw; cases hw
            | ok w => rw [h2] at hw; exact hde _ _ _ hw
          · rw [hl] at hw
            simp only [Bool.false_eq_true, if_false] at hw
            injection hw with hw; rw [← hw]
  induction ls generalizing s with
  | nil => injection hs with hs; rw [← hs]
  | cons l ls ih =>
    unfold psrLoop at hs
    cases h1 : psrStep s l with
    | error e => rw [h1] at hs; cases hs
    | ok s1 =>
      rw [h1] at hs
      rw [ih s1 (fun x hx => h x (by simp [hx])) hs, hstep s s1 l (h l (by simp)) h1]

/-- Negation: a right ascension of one part, or of four, ends it all if it is the first one. -/
theorem C109_not_psr_first (f : List Text) (lr w : Text) (ls : List Text) (o : ∀ l ∈ f, Other l) (hr : Says kRaj w lr)
    (hbad : (splitOn ':' w).length ≠ 2 ∧ (splitOn ':' w).length ≠ 3) : psrFile (f ++ lr :: ls) = .error .unboundLocal := by
  have hl : raLine (fresh none empty) w = .error .unboundLocal := by
    unfold raLine
    match h : splitOn ':' w, hbad with
    | [], _ => rfl
    | [_], _ => rfl
    | _ :: _ :: _ :: _ :: _, _ => rfl
  unfold psrFile
  rw [loop_append, loop_other _ _ o]
  show Except.map _ (psrLoop (lr :: ls) _) = _
  unfold psrLoop
  rw [step_raj _ _ _ hr, hl]
  rfl

/-- Negation: minutes with a fraction end it all, wherever they are. -/
theorem C109_not_psr_fraction (s : St) (lr w h m : Text) (ls : List Text) (hr : Says kRaj w lr) (hw : splitOn ':' w = [h, m]) (hm : int? m = none) :
    psrLoop (lr :: ls) s = .error .valueError := by
  have hl : raLine s w = .error .valueError := by
    unfold raLine
    rw [hw]
    simp only [numbers, hm]
    cases int? h <;> rfl
  unfold psrLoop
  rw [step_raj _ _ _ hr, hl]

/-- Negation: `RAJ` is also the beginning of other lines, such as `RAJD` of right ascensions in degrees; such a pulsar is left out. -/
theorem C109_not_psr_prefix (s : St) (l w : Text) (hr : Says ['R', 'A', 'J', 'D'] w l) (hw : (splitOn ':' w).length = 1)
    (hl : s.last ≠ none) : ∃ s', psrStep s l = .ok s' ∧ s'.bad = true ∧ endLine s' = .ok (fresh s'.last s.cat) := by
  have hr' : Says kRaj w l := by
    obtain ⟨r, rfl⟩ := prefix_cons _ _ hr.1
    exact ⟨rfl, hr.2⟩
  obtain ⟨t, ht⟩ := Option.ne_none_iff_exists'.mp hl
  have h1 : raLine s w = .ok (setRa { s with bad := true } t) := by
    unfold raLine
    match h : splitOn ':' w, hw with
    | [_], _ => simp only [ht]
  have hb : (setRa { s with bad := true } t).bad = true := by unfold setRa; split <;> rfl
  have hc : (setRa { s with bad := true } t).cat = s.cat := by unfold setRa; split <;> rfl
  refine ⟨_, by rw [step_raj _ _ _ hr', h1], hb, ?_⟩
  unfold endLine
  rw [hb, hc]
  split
  · rename_i h; cases h
  · rfl

/-! ## Fermi -/

/-- Names and aliases have no blanks, are otherwise what the table has, and empty aliases are left out. -/
theorem C109_fermi (name : Text) (fields : List (Option Text)) :
    (' ' ∉ (fermiNames name fields).1) ∧ (∀ i : Nat, name[i]? = some ' ' → (fermiNames name fields).1[i]? = some '_')
    ∧ (∀ a ∈ (fermiNames name fields).2, ' ' ∉ a ∧ a ≠ []) ∧ (' ' ∉ name → (fermiNames name fields).1 = name)
    ∧ (∀ a, some a ∈ fields → a ≠ [] → underscore a ∈ (fermiNames name fields).2) := by
  have hu : ∀ t : Text, ' ' ∉ underscore t := by
    intro t ht
    unfold underscore at ht
    obtain ⟨c, _, hc⟩ := List.mem_map.mp ht
    split at hc
    · cases hc
    · exact absurd hc (by assumption)
  refine ⟨hu name, by intro i hi; simp [fermiNames, underscore, hi], ?_, ?_, ?_⟩
  · intro a ha
    simp only [fermiNames, List.mem_filterMap, id] at ha
    obtain ⟨b, _, hb⟩ := ha
    split at hb
    · cases hb
    · injection hb with hb
      subst hb
      exact ⟨hu b, by simpa [underscore] using (by assumption : ¬ b = [])⟩
  · intro h
    show underscore name = name
    unfold underscore
    apply (List.map_congr_left _).trans (List.map_id _)
    intro c hc
    have : ¬ c = ' ' := by intro e; rw [e] at hc; exact h hc
    rw [if_neg this]
    rfl
  · intro a ha h0
    simp only [fermiNames, List.mem_filterMap, id]
    exact ⟨a, ⟨some a, ha, rfl⟩, by rw [if_neg h0]⟩

/-! ## The factory -/

/-- Unknown names are refused.  A catalog that was made is given again, whatever was asked for in between, and nothing is read
twice; a catalog that could not be made is tried again. -/
theorem C109_factory {C : Type} (make : String → Nat → Except Err C) (f : Factory C) (name : String) :
    (name ∉ known → getCatalog make f name = (.error .valueError, f))
    ∧ (∀ c, (getCatalog make f name).1 = .ok c → ∀ asked : List String,
        let f' := asked.foldl (fun g n => (getCatalog make g n).2) (getCatalog make f name).2
        getCatalog make f' name = (.ok c, f'))
    ∧ (∀ e, name ∈ known → f.made.lookup name = none → make name f.count = .error e → (getCatalog make f name).2.made = f.made) := by
  refine ⟨fun h => by unfold getCatalog; rw [if_pos h], ?_, ?_⟩
  · intro c hc asked
    have hk : name ∈ known := by
      by_cases h : name ∈ known
      · exact h
      · unfold getCatalog at hc; rw [if_pos h] at hc; cases hc
    have h0 : (getCatalog make f name).2.made.lookup name = some c := by
      unfold getCatalog at hc ⊢
      rw [if_neg (by simpa using hk)] at hc ⊢
      cases hl : f.made.lookup name with
      | some c' =>
        rw [hl] at hc
        injection hc with hc
        simp [hl, hc]
      | none =>
        rw [hl] at hc
        cases hm : make name f.count with
        | error e => simp [hm] at hc
        | ok c' =>
          simp only [hm] at hc
          injection hc with hc
          simp [hc]
    have hkeep : ∀ (g : Factory C) n, g.made.lookup name = some c → (getCatalog make g n).2.made.lookup name = some c := by
      intro g n hg
      unfold getCatalog
      split
      · exact hg
      · cases hl : g.made.lookup n with
        | some c' => exact hg
        | none =>
          cases hm : make n g.count with
          | error e => exact hg
          | ok c' =>
            simp only [List.lookup_cons]
            have : (name == n) = false := by
              by_cases e : name = n
              · rw [e, hl] at hg; cases hg
              · simp [e]
            rw [this]
            exact hg
    have hall : ∀ (asked : List String) (g : Factory C), g.made.lookup name = some c →
        (asked.foldl (fun g n => (getCatalog make g n).2) g).made.lookup name = some c := by
      intro asked
      induction asked with
      | nil => intro g hg; exact hg
      | cons n asked ih => intro g hg; exact ih _ (hkeep g n hg)
    show getCatalog make _ name = _
    have hf := hall asked _ h0
    generalize List.foldl (fun g n => (getCatalog make g n).2) (getCatalog make f name).2 asked = f' at *
    unfold getCatalog
    rw [if_neg (by simpa using hk), hf]
  · intro e hk hl hm
    unfold getCatalog
    rw [if_neg (by simpa using hk), hl]
    simp [hm]

/-! ## Not vacuous -/

/-- The first line of the LWA catalog, and one of the south. -/
example : (lwaRow "CasB     00 25 08.07  64 09 55.7  3C10 CTA2\n".toList).toOption
    = some ⟨"CasB".toList, ["3C10".toList, "CTA2".toList], ⟨0, 25, 807 / 100⟩, ⟨false, 64, 9, 557 / 10⟩, false⟩ := by decide +kernel

/-- A source of 3C less than a degree south. -/
example : ((c3cRow "  2   A     00 03 49.  5   -00 23.  7)    16.5\n".toList).toOption.map fun r => (r.name, dmsToDeg r.dec))
    = some ("3C2".toList, -(23 / 60)) := by decide +kernel

/-- The lines of pulsars. -/
example : Says kPsrj "J0024-7204E".toList "PSRJ     J0024-7204E                               \n".toList := by
  unfold Says; decide +kernel
example : Says kDecj "-72:05:20.1377".toList "DECJ     -72:05:20.1377           4    fck+03      \n".toList := by
  unfold Says; decide +kernel
example : DecText "-72:05:20.1377".toList ⟨true, 72, 5, 201377 / 10000⟩ :=
  ⟨"72".toList, "05".toList, some "20.1377".toList, 72, 5, 201377 / 10000, true, by decide +kernel, by decide +kernel, by decide +kernel,
    by decide +kernel, by decide +kernel, by decide +kernel⟩
example : RaText "00:24:11.1036".toList ⟨0, 24, 111036 / 10000⟩ :=
  ⟨"00".toList, "24".toList, some "11.1036".toList, 0, 24, 111036 / 10000, by decide +kernel, by decide +kernel, by decide +kernel,
    by decide +kernel, by decide +kernel⟩
example : Other "F0       282.77910703517          1    fck+03      \n".toList := by unfold Other; decide +kernel

end Verif.Catalog
