import Verif.Spec.UvTable
import Verif.Lemmas.Dec
/-!
# Lemmas for visibility tables
-/
namespace Verif.UvTable
open Dec Spec

/-! ## Baseline numbers -/

theorem merge_eq (s a b : Nat) (hb : b < 2 ^ s) : merge s a b = 2 ^ s * a + b := by
  unfold merge
  rw [Nat.shiftLeft_eq, Nat.mul_comm, Nat.two_pow_add_eq_or_of_lt hb]

theorem split_merge (s a b : Nat) (ha : a < 2 ^ s) (hb : b < 2 ^ s) : split s (merge s a b) = (a, b) := by
  rw [merge_eq s a b hb]
  unfold split
  rw [Nat.and_two_pow_sub_one_eq_mod, Nat.and_two_pow_sub_one_eq_mod, Nat.shiftRight_eq_div_pow,
    Nat.mul_add_div (by exact Nat.two_pow_pos s), Nat.div_eq_of_lt hb, Nat.add_zero, Nat.mod_eq_of_lt ha,
    Nat.mul_add_mod, Nat.mod_eq_of_lt hb]

theorem split_mergeUv (a b : Nat) (ha : a < 2048) (hb : b < 2048) : splitUv (mergeUv a b) = (a, b) := by
  unfold mergeUv splitUv
  by_cases h : 255 < a ∨ 255 < b
  · rw [if_pos h, if_pos (by omega)]
    ext <;> simp only <;> omega
  · rw [if_neg h, if_neg (by omega)]
    ext <;> simp only <;> omega

/-- One of the four kinds of files. -/
def Known (f : Format) : Prop := f = idi ∨ f = aips ∨ f = extended ∨ f = uv

theorem known_split (f : Format) (h : Known f) (a b : Nat) (ha : a ≤ f.maxAnts) (hb : b ≤ f.maxAnts) :
    f.split (f.merge a b) = (a, b) := by
  rcases h with rfl | rfl | rfl | rfl
  · exact split_merge 8 a b (Nat.lt_succ_of_le ha) (Nat.lt_succ_of_le hb)
  · have ha : a ≤ 99 := ha
    have hb : b ≤ 99 := hb
    exact split_merge 8 a b (by omega) (by omega)
  · exact split_merge 16 a b (Nat.lt_succ_of_le ha) (Nat.lt_succ_of_le hb)
  · exact split_mergeUv a b (Nat.lt_succ_of_le ha) (Nat.lt_succ_of_le hb)

theorem merge_lt (s a b : Nat) (hs : s ≤ 16) (ha : a < 32768) (hb : b < 2 ^ s) : merge s a b < 2 ^ 31 := by
  rw [merge_eq s a b hb]
  have h1 : (2 : Nat) ^ s ≤ 2 ^ 16 := Nat.pow_le_pow_right (by omega) hs
  have h2 : 2 ^ s * a + b < 2 ^ s * (a + 1) := by rw [Nat.mul_add]; omega
  have h3 : 2 ^ s * (a + 1) ≤ 2 ^ 16 * 32768 := Nat.mul_le_mul h1 (by omega)
  omega

theorem known_key (f : Format) (h : Known f) (a b : Nat) (ha : a ≤ f.maxAnts) (hb : b ≤ f.maxAnts) (h2 : a < 32768) :
    f.key a b < 2 ^ 31 := by
  rcases h with rfl | rfl | rfl | rfl
  · exact merge_lt 8 a b (by omega) h2 (Nat.lt_succ_of_le hb)
  · have hb : b ≤ 99 := hb
    exact merge_lt 8 a b (by omega) h2 (by omega)
  · exact merge_lt 16 a b (by omega) h2 (Nat.lt_succ_of_le hb)
  · have hb : b ≤ 2047 := hb
    exact merge_lt 16 a b (by omega) h2 (by omega)

/-! ## Names -/

theorem takeWhile_all {α : Type} (p : α → Bool) (a b : List α) (x : α) (h : ∀ y ∈ a, p y = true) (hx : p x = false) :
    (a ++ x :: b).takeWhile p = a := by
  induction a with
  | nil => simp [hx]
  | cons y a ih =>
    rw [List.cons_append, List.takeWhile_cons_of_pos (h y (by simp)), ih (fun z hz => h z (by simp [hz]))]

theorem ofDigitChars_append (a b : List Char) (n : Nat) :
    Nat.ofDigitChars 10 (a ++ b) n = Nat.ofDigitChars 10 b (Nat.ofDigitChars 10 a n) := by
  simp [Nat.ofDigitChars, List.foldl_append]

theorem ofDigitChars_start (b : List Char) (n : Nat) :
    Nat.ofDigitChars 10 b n = n * 10 ^ b.length + Nat.ofDigitChars 10 b 0 := by
  induction b generalizing n with
  | nil => simp [Nat.ofDigitChars]
  | cons c b ih =>
    have e : ∀ m, Nat.ofDigitChars 10 (c :: b) m = Nat.ofDigitChars 10 b (10 * m + (c.toNat - '0'.toNat)) := fun m => rfl
    rw [e, e, ih, ih (10 * 0 + (c.toNat - '0'.toNat)), List.length_cons, Nat.pow_succ]
    grind

theorem ofDigitChars_lt (b : List Char) (h : ∀ c ∈ b, c.isDigit = true) : Nat.ofDigitChars 10 b 0 < 10 ^ b.length := by
  induction b with
  | nil => simp [Nat.ofDigitChars]
  | cons c b ih =>
    have e : ∀ m, Nat.ofDigitChars 10 (c :: b) m = Nat.ofDigitChars 10 b (10 * m + (c.toNat - '0'.toNat)) := fun m => rfl
    have hc := h c (by simp)
    have hd : c.toNat - '0'.toNat ≤ 9 := by
      simp only [Char.isDigit, Bool.and_eq_true, decide_eq_true_eq] at hc
      have h1 : c.toNat ≤ 57 := hc.2
      have h2 : '0'.toNat = 48 := rfl
      omega
    rw [e, ofDigitChars_start, List.length_cons, Nat.pow_succ]
    have := ih (fun x hx => h x (by simp [hx]))
    have h2 : (10 * 0 + (c.toNat - '0'.toNat)) * 10 ^ b.length ≤ 9 * 10 ^ b.length := Nat.mul_le_mul_right _ (by omega)
    omega

theorem showNat_length (n k : Nat) (hk : 0 < k) (h : n < 10 ^ k) : (showNat n).length ≤ k := by
  have h1 := showPad_length k n hk h
  unfold showPad at h1
  rw [List.length_append] at h1
  omega

theorem nameNumber_name (f : Format) (h : Known f) (s : Nat) (hs : s < 100000) :
    nameNumber (name f s) = some (s % 1000) := by
  have key : ∀ (st : List Char) (c : Char) (d : Nat), c.isDigit = false → 3 ≤ d → d ≤ 5 → st.length ≤ 2 →
      nameNumber ((st ++ [c] ++ showPad d s).take 8) = some (s % 1000) := by
    intro st c d hc h3 h5 hl
    have hn := showNat_length s 5 (by omega) hs
    have hlen : (showPad d s).length ≤ 5 := by
      unfold showPad; rw [List.length_append, List.length_replicate]; omega
    have hlen3 : 3 ≤ (showPad d s).length := by
      unfold showPad; rw [List.length_append, List.length_replicate]; omega
    have hd := showPad_digit d s
    rw [List.take_of_length_le (by simp; omega)]
    unfold nameNumber
    rw [List.reverse_append, List.reverse_append, List.reverse_singleton, List.singleton_append, takeWhile_all]
    · rw [← List.take_append_drop ((showPad d s).length - 3) (showPad d s)]
      generalize ha : (showPad d s).take ((showPad d s).length - 3) = a
      generalize hb : (showPad d s).drop ((showPad d s).length - 3) = b
      have hbl : b.length = 3 := by rw [← hb, List.length_drop]; omega
      have hsum : showPad d s = a ++ b := by rw [← ha, ← hb, List.take_append_drop]
      rw [List.reverse_append, List.take_append_of_le_length (by simp [hbl]), List.take_of_length_le (by simp [hbl]),
        List.reverse_reverse]
      have hp := parseNat_showPad d s
      unfold parseNat? at hp
      rw [if_pos ⟨showPad_ne_nil d s, by rw [List.all_eq_true]; exact hd⟩, hsum, ofDigitChars_append,
        ofDigitChars_start, hbl] at hp
      have hbd : ∀ c ∈ b, c.isDigit = true := fun c hc => hd c (by rw [hsum]; simp [hc])
      have hlt := ofDigitChars_lt b hbd
      rw [hbl] at hlt
      have hp := Option.some.inj hp
      unfold parseNat?
      have hbn : b ≠ [] := by intro e; rw [e] at hbl; simp at hbl
      rw [if_pos ⟨hbn, (by rw [List.all_eq_true]; exact hbd)⟩]
      congr 1
      omega
    · intro y hy; exact hd y (by simpa using hy)
    · exact hc
  rcases h with rfl | rfl | rfl | rfl
  · exact key ['L', 'W'] 'A' 3 (by decide) (by omega) (by omega) (by simp)
  · exact key [] 'L' 3 (by decide) (by omega) (by omega) (by simp)
  · exact key ['L', 'W'] 'A' 5 (by decide) (by omega) (by omega) (by simp)
  · exact key ['L', 'W'] 'A' 3 (by decide) (by omega) (by omega) (by simp)

theorem mapM_some {α β : Type} (l : List α) (g : α → Option β) (h : α → β) (e : ∀ x ∈ l, g x = some (h x)) :
    l.mapM g = some (l.map h) := by
  induction l with
  | nil => rfl
  | cons x l ih => rw [List.mapM_cons, e x (by simp), ih (fun y hy => e y (by simp [hy]))]; rfl

/-- The stands read are the last three digits of those written. -/
theorem actual_eq (u : Setup) (h : Known u.format) (hs : ∀ s ∈ u.stands, s < 100000) :
    actual u = u.stands.map (fun s => s % 1000) := by
  unfold actual
  rw [mapM_some _ _ _ (fun s hm => nameNumber_name u.format h s (hs s hm))]

theorem map_mod (l : List Nat) (h : ∀ s ∈ l, s < 1000) : l.map (fun s => s % 1000) = l := by
  rw [List.map_congr_left (g := id)]
  · simp
  · intro s hs; exact Nat.mod_eq_of_lt (h s hs)

/-! ## Dictionaries -/

theorem nodup_map {α β : Type} (l : List α) (g : α → β) (hn : l.Nodup)
    (h : ∀ a ∈ l, ∀ b ∈ l, g a = g b → a = b) : (l.map g).Nodup := by
  induction l with
  | nil => exact List.nodup_nil
  | cons x l ih =>
    rw [List.nodup_cons] at hn
    rw [List.map_cons, List.nodup_cons]
    refine ⟨?_, ih hn.2 (fun a ha b hb => h a (by simp [ha]) b (by simp [hb]))⟩
    intro hm
    obtain ⟨y, hy, e⟩ := List.mem_map.1 hm
    rw [h y (by simp [hy]) x (by simp) e] at hy
    exact hn.1 hy


theorem find_nodup (l : List (Nat × Nat)) (k v : Nat) (hn : (l.map Prod.fst).Nodup) (h : (k, v) ∈ l) :
    l.find? (fun x => x.1 == k) = some (k, v) := by
  induction l with
  | nil => cases h
  | cons x l ih =>
    rw [List.map_cons, List.nodup_cons] at hn
    rcases List.mem_cons.1 h with h | h
    · rw [← h, List.find?_cons_of_pos (by simp)]
    · rw [List.find?_cons_of_neg, ih hn.2 h]
      intro e
      have e := beq_iff_eq.1 e
      exact hn.1 (List.mem_map.2 ⟨(k, v), h, e.symm⟩)

theorem dict_nodup (l : List (Nat × Nat)) (k v : Nat) (hn : (l.map Prod.fst).Nodup) (h : (k, v) ∈ l) :
    dict l k = some v := by
  unfold dict
  rw [find_nodup l.reverse k v]
  · rfl
  · rw [List.map_reverse]; exact (List.reverse_perm _).nodup_iff.2 hn
  · exact List.mem_reverse.2 h

/-- The number of a stand. -/
def num (u : Setup) (s : Nat) : Nat := if mapped u.format u.stands then u.stands.idxOf s + 1 else s

theorem entries_fst (f : Format) (l : List Nat) : (entries f l).map Prod.fst = l := by
  unfold entries
  exact List.ext_getElem (by simp) (by intros; simp)

theorem filterMap_some {α β : Type} (l : List α) (g : α → Option β) (h : α → β) (e : ∀ x ∈ l, g x = some (h x)) :
    l.filterMap g = l.map h := by
  induction l with
  | nil => rfl
  | cons x l ih => rw [List.filterMap_cons_some (e x (by simp)), ih (fun y hy => e y (by simp [hy])), List.map_cons]

theorem mem_entries (u : Setup) (hn : u.stands.Nodup) (s : Nat) (h : s ∈ u.stands) :
    (s, num u s) ∈ entries u.format u.stands := by
  obtain ⟨i, hi, e⟩ := List.mem_iff_getElem.1 h
  unfold entries
  rw [List.mem_mapIdx]
  refine ⟨i, hi, ?_⟩
  rw [e]
  unfold num
  split
  · rw [← e, hn.idxOf_getElem]
  · rfl

theorem nosta_eq (u : Setup) (hn : u.stands.Nodup) : nosta u.format u.stands = u.stands.map (num u) := by
  unfold nosta
  apply filterMap_some
  intro s hs
  apply dict_nodup
  · rw [entries_fst]; exact hn
  · exact mem_entries u hn s hs

theorem zip_map_left {α β : Type} (l : List α) (g : α → β) : (l.map g).zip l = l.map (fun x => (g x, x)) := by
  induction l with
  | nil => rfl
  | cons x l ih => simp [ih]

theorem number_eq (u : Setup) (hn : u.stands.Nodup) (s : Nat) (h : s ∈ u.stands) :
    number u.format u.stands s = some (num u s) := by
  unfold number
  by_cases hm : mapped u.format u.stands = true
  · rw [if_pos hm, nosta_eq u hn, zip_map_left, List.map_map]
    apply dict_nodup
    · rw [List.map_map, List.map_congr_left (g := id)]
      · simpa using hn
      · intro x _; rfl
    · exact List.mem_map.2 ⟨s, h, rfl⟩
  · rw [if_neg hm]; simp [num, hm]

theorem num_inj (u : Setup) (a b : Nat) (ha : a ∈ u.stands) (hb : b ∈ u.stands) (h : num u a = num u b) : a = b := by
  unfold num at h
  split at h
  · have h : u.stands.idxOf a = u.stands.idxOf b := by omega
    have e1 := List.getElem_idxOf (List.idxOf_lt_length_of_mem ha)
    have e2 := List.getElem_idxOf (List.idxOf_lt_length_of_mem hb)
    rw [← e1, ← e2]
    simp only [h]
  · exact h

theorem num_le (u : Setup) (s : Nat) (h : s ∈ u.stands) (hf : u.stands.length ≤ u.format.maxAnts) :
    num u s ≤ u.format.maxAnts := by
  unfold num
  split
  · have := List.idxOf_lt_length_of_mem h; omega
  · rename_i hm
    by_cases hx : u.format.maxAnts < s
    · exact absurd (List.any_eq_true.2 ⟨s, h, by simpa using hx⟩) hm
    · omega

theorem num_small (u : Setup) (hs : ∀ s ∈ u.stands, s < 1000) (s : Nat) (h : s ∈ u.stands)
    (hf : u.stands.length ≤ u.format.maxAnts) : num u s < 1000 := by
  unfold num
  split
  · rename_i hm
    obtain ⟨x, hx, h2⟩ := List.any_eq_true.1 hm
    have := hs x hx
    have := List.idxOf_lt_length_of_mem h
    simp only [decide_eq_true_eq] at h2
    omega
  · exact hs s h

theorem standMap_num (u : Setup) (hk : Known u.format) (hg : GoodSetup u) (s : Nat) (h : s ∈ u.stands) :
    standMap u (num u s) = some s := by
  unfold standMap
  rw [nosta_eq u hg.distinct, actual_eq u hk (fun s h => by have := hg.small s h; omega), map_mod _ hg.small, zip_map_left]
  apply dict_nodup
  · rw [List.map_map]
    have : (Prod.fst ∘ fun x => (num u x, x)) = num u := rfl
    rw [this]
    exact nodup_map _ _ hg.distinct (fun a ha b hb e => num_inj u a b ha hb e)
  · exact List.mem_map.2 ⟨s, h, rfl⟩

end Verif.UvTable
