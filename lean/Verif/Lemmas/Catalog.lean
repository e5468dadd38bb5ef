import Verif.Model.Catalog
import Verif.Spec.Catalog
import Verif.Lemmas.Ionex
/-! # Lemmas on catalogs -/
namespace Verif.Catalog
open Verif.Dec Verif.Astro
open Verif.Parser (isBlank strip digit_not_blank)
open Verif.Ionex (Text words cols int?)

/-! ## Maps -/

theorem get_put {V : Type} (k k' : Text) (v : V) (d : List (Text × V)) : get k (put k' v d) = if k' = k then some v else get k d := by
  induction d with
  | nil => simp [put, get]
  | cons x d ih =>
    obtain ⟨a, b⟩ := x
    unfold put
    by_cases h : a = k'
    · rw [if_pos h]
      subst h
      unfold get
      by_cases hk : a = k
      · rw [if_pos hk, if_pos hk]
      · rw [if_neg hk, if_neg hk]; rw [if_neg hk]
    · rw [if_neg h]
      unfold get
      by_cases hk : a = k
      · rw [if_pos hk, if_pos hk, if_neg (fun e => h (by rw [hk, e]))]
      · rw [if_neg hk, ih, if_neg hk]

theorem get_aliases (k : Text) (r : Row) (as : List Text) (d : List (Text × Row)) :
    get k (as.foldl (fun d a => put a r d) d) = if k ∈ as then some r else get k d := by
  induction as generalizing d with
  | nil => simp
  | cons a as ih =>
    rw [List.foldl_cons, ih, get_put]
    by_cases h1 : k ∈ as
    · simp [h1]
    · by_cases h2 : a = k
      · simp [h2]
      · have : ¬ k = a := fun e => h2 e.symm
        simp [h1, h2, this]

theorem keys_put {V : Type} (k : Text) (v : V) (d : List (Text × V)) :
    (put k v d).map (·.1) = if k ∈ d.map (·.1) then d.map (·.1) else d.map (·.1) ++ [k] := by
  induction d with
  | nil => simp [put]
  | cons x d ih =>
    obtain ⟨a, b⟩ := x
    unfold put
    by_cases h : a = k
    · simp [h]
    · rw [if_neg h, List.map_cons, ih]
      have : ¬ k = a := fun e => h e.symm
      by_cases h2 : k ∈ d.map (·.1)
      · simp only [h2, if_true, List.map_cons, List.mem_cons, or_true]
      · simp only [h2, if_false, List.map_cons, List.mem_cons, this, or_self, List.cons_append]

theorem sources_fold (rs : List Row) (c : Cat) : (rs.foldl add c).sources = rs.foldl (fun d r => put r.name r d) c.sources := by
  induction rs generalizing c with
  | nil => rfl
  | cons r rs ih => rw [List.foldl_cons, ih]; rfl

theorem get_sources (k : Text) (rs : List Row) (d : List (Text × Row)) :
    get k (rs.foldl (fun d r => put r.name r d) d) = (lastWith (fun r : Row => decide (r.name = k)) rs).or (get k d) := by
  induction rs generalizing d with
  | nil => simp [lastWith]
  | cons r rs ih =>
    rw [List.foldl_cons, ih, get_put, lastWith, Option.or_assoc]
    congr 1
    by_cases h : r.name = k <;> simp [h]

theorem get_aliases_fold (k : Text) (rs : List Row) (c : Cat) :
    get k (rs.foldl add c).aliases = (lastWith (fun r : Row => decide (k ∈ r.aliases)) rs).or (get k c.aliases) := by
  induction rs generalizing c with
  | nil => simp [lastWith]
  | cons r rs ih =>
    rw [List.foldl_cons, ih, lastWith, Option.or_assoc]
    congr 1
    show get k (r.aliases.foldl (fun d a => put a r d) c.aliases) = _
    rw [get_aliases]
    by_cases h : k ∈ r.aliases <;> simp [h]

theorem filter_absent (k : Text) (l ks : List Text) (h : k ∈ ks) : (l.filter (· ≠ k)).filter (fun x => x ∉ ks) = l.filter (fun x => x ∉ ks) := by
  rw [List.filter_filter]
  apply List.filter_congr
  intro x _
  by_cases hx : x ∈ ks
  · simp [hx]
  · have : x ≠ k := fun e => hx (e ▸ h)
    simp [hx, this]

theorem keys_fold (rs : List Row) (d : List (Text × Row)) :
    (rs.foldl (fun d r => put r.name r d) d).map (·.1)
      = d.map (·.1) ++ (once (rs.map (·.name))).filter (fun x => x ∉ d.map (·.1)) := by
  induction rs generalizing d with
  | nil => simp [once]
  | cons r rs ih =>
    rw [List.foldl_cons, ih, keys_put, List.map_cons, once]
    by_cases h : r.name ∈ d.map (·.1)
    · rw [if_pos h, List.filter_cons_of_neg (by simpa using h), filter_absent _ _ _ h]
    · rw [if_neg h, List.filter_cons_of_pos (by simpa using h), List.append_assoc, List.filter_filter]
      congr 1
      rw [List.singleton_append]
      congr 1
      apply List.filter_congr
      intro x _
      simp only [List.mem_append, List.mem_singleton, not_or]
      by_cases h1 : x = r.name <;> by_cases h2 : x ∈ d.map (·.1) <;> simp [h1, h2]

/-! ## Columns -/

theorem piece (ps : List Text) (rest x : Text) (i a b : Nat) (hx : ps[i]? = some x) (ha : ((ps.take i).map List.length).sum = a)
    (hb : a + x.length = b) : cols a b (ps.flatten ++ rest) = x := by
  obtain ⟨hi, hx'⟩ := List.getElem?_eq_some_iff.mp hx
  have e : ps = ps.take i ++ x :: ps.drop (i + 1) := by
    rw [← hx', List.getElem_cons_drop, List.take_append_drop]
  have hl : ps.flatten ++ rest = (ps.take i).flatten ++ x ++ ((ps.drop (i + 1)).flatten ++ rest) := by
    conv => lhs; rw [e]
    simp [List.append_assoc]
  rw [hl]
  apply Ionex.cols_at
  · rw [List.length_flatten, ha]
  · omega

theorem cols_one (l : Text) (a : Nat) (c : Char) (h : cols a (a + 1) l = [c]) : l[a]? = some c := by
  unfold cols at h
  have : ((l.drop a).take (a + 1 - a))[0]? = some c := by rw [h]; rfl
  rw [show a + 1 - a = 1 by omega, List.getElem?_take] at this
  simpa using this

/-! ## Numbers -/

theorem pad_tight (w n : Nat) : ∀ c ∈ showPad w n, isBlank c = false := fun c hc => digit_not_blank c (showPad_digit w n c hc)

theorem int_pad (w n : Nat) : int? (showPad w n) = some (n : Int) := by
  unfold int?
  rw [Idf.strip_plain _ (pad_tight w n), parseInt_showPad]

theorem real_pad (w n k m : Nat) (hk : 0 < k) (hm : m < 10 ^ k) :
    real? (showPad w n ++ '.' :: showPad k m) = some ((n : Rat) + (m : Rat) / ((10 ^ k : Nat) : Rat)) := by
  have ht : ∀ c ∈ showPad w n ++ '.' :: showPad k m, isBlank c = false := by
    intro c hc
    simp only [List.mem_append, List.mem_cons] at hc
    rcases hc with hc | rfl | hc
    · exact pad_tight _ _ c hc
    · decide
    · exact pad_tight _ _ c hc
  have hd : dec? (showPad w n ++ '.' :: showPad k m) = some ((n : Rat) + (m : Rat) / ((10 ^ k : Nat) : Rat)) := by
    unfold dec?
    rw [splitOn_append _ _ _ (not_mem_showPad _ _ _ (by decide)), splitOn_not_mem _ _ (not_mem_showPad _ _ _ (by decide))]
    split
    · rename_i h
      injection h with _ h
      injection h with h _
      exact absurd h (showPad_ne_nil _ _)
    · exact parseDec_pad w n k m hk hm
  unfold real?
  rw [Idf.strip_plain _ ht]
  obtain ⟨c, r, hr⟩ := List.exists_cons_of_ne_nil (showPad_ne_nil w n)
  have hc := digit_not_minus c (showPad_digit w n c (by rw [hr]; simp))
  rw [hr, List.cons_append] at hd ⊢
  split
  · rename_i h; injection h with h _; exact absurd h hc.1
  · rename_i h; injection h with h _; exact absurd h hc.2.1
  · exact hd

end Verif.Catalog
