import Verif.Model.FileCache
/-!
# C20: cache eviction
-/
namespace Verif.FileCache

theorem minTime_le (l : List Entry) (e : Entry) (h : e ∈ l) : minTime l ≤ e.mtime := by
  induction l with
  | nil => simp at h
  | cons a l ih =>
    cases l with
    | nil => simp only [List.mem_singleton] at h; subst h; exact Nat.le_refl _
    | cons b l =>
      simp only [minTime]
      rcases List.mem_cons.mp h with h | h
      · subst h; exact Nat.min_le_left _ _
      · exact Nat.le_trans (Nat.min_le_right _ _) (ih h)

theorem minTime_mem (l : List Entry) (h : l ≠ []) : minTime l ∈ l.map Entry.mtime := by
  induction l with
  | nil => exact absurd rfl h
  | cons a l ih =>
    cases l with
    | nil => simp [minTime]
    | cons b l =>
      simp only [minTime]
      rcases Nat.le_total a.mtime (minTime (b :: l)) with h1 | h1
      · rw [Nat.min_eq_left h1]; simp
      · rw [Nat.min_eq_right h1]
        have := ih (by simp)
        rw [List.map_cons]
        exact List.mem_cons_of_mem _ this

/-- The entry looked at is one of the oldest. -/
theorem oldest_get (l : List Entry) (h : l ≠ []) :
    ∃ e, ∃ hi : oldestIdx l < l.length, l[oldestIdx l] = e ∧ l[oldestIdx l]? = some e ∧
      e.mtime = minTime l := by
  have hi : oldestIdx l < (l.map Entry.mtime).length := List.idxOf_lt_length_of_mem (minTime_mem l h)
  have hi' : oldestIdx l < l.length := by simpa using hi
  refine ⟨l[oldestIdx l], hi', rfl, List.getElem?_eq_getElem hi', ?_⟩
  have := List.getElem_idxOf (x := minTime l) (xs := l.map Entry.mtime) hi
  exact (List.getElem_map (l := l) (i := oldestIdx l) (h := hi) Entry.mtime).symm.trans this

theorem cons_eraseIdx_perm (l : List Entry) : ∀ (i : Nat) (h : i < l.length),
    (l[i] :: l.eraseIdx i).Perm l := by
  induction l with
  | nil => intro i h; simp at h
  | cons a l ih =>
    intro i h
    cases i with
    | zero => exact List.Perm.refl _
    | succ i =>
      simp only [List.getElem_cons_succ, List.eraseIdx_cons_succ]
      exact (List.Perm.swap _ _ _).trans (List.Perm.cons a (ih i (by simpa using h)))

theorem totalSize_perm {a b : List Entry} (h : a.Perm b) : totalSize a = totalSize b := by
  unfold totalSize
  induction h with
  | nil => rfl
  | cons x _ ih => simp [ih]
  | swap x y l => simp; omega
  | trans _ _ ih1 ih2 => omega

/-- What one successful pass does. -/
theorem pass_ok (l : List Entry) (h : l ≠ []) : ∃ e, e ∈ l ∧ (e :: passOnce (fun _ => true) l).Perm l ∧
    (passOnce (fun _ => true) l).Sublist l ∧ (∀ x ∈ l, e.mtime ≤ x.mtime) ∧
    (passOnce (fun _ => true) l).length + 1 = l.length := by
  obtain ⟨e, hi, he, hs, hm⟩ := oldest_get l h
  have hp : passOnce (fun _ => true) l = l.eraseIdx (oldestIdx l) := by
    unfold passOnce; rw [hs]; rfl
  refine ⟨e, by rw [← he]; exact List.getElem_mem hi, ?_, ?_, ?_, ?_⟩
  · rw [hp, ← he]; exact cons_eraseIdx_perm l _ hi
  · rw [hp]; exact List.eraseIdx_sublist _ _
  · intro x hx; rw [hm]; exact minTime_le l x hx
  · rw [hp, List.length_eraseIdx_of_lt hi]; omega

/-- Full description of a finished eviction: what is removed, what is kept and why. -/
structure Evicted (limit : Nat) (l kept removed : List Entry) : Prop where
  /-- nothing else happens to the files: each is kept or removed, the kept ones unchanged -/
  perm : (removed ++ kept).Perm l
  sub : kept.Sublist l
  /-- the limit holds, or only one file is left -/
  fits : totalSize kept ≤ limit ∨ kept.length ≤ 1
  /-- only the oldest go -/
  old : ∀ r ∈ removed, ∀ k ∈ kept, r.mtime ≤ k.mtime
  /-- no more than needed: the last one removed was needed -/
  needed : removed = [] ∨ ∃ r ∈ removed, limit < totalSize kept + r.size ∧ 1 ≤ kept.length ∧
    ∀ r' ∈ removed, r'.mtime ≤ r.mtime

/-- Missing from the full property: files that cannot be unlinked (`C20_stuck`).  When every removal
succeeds the loop ends, after at most as many passes as there are files, in a state that keeps the
limit (or one file), removes only oldest files and no more than needed. -/
theorem C20_evicts_partial (limit : Nat) : ∀ (n : Nat) (l : List Entry), l.length ≤ n →
    ∃ kept removed, evictLoop (fun _ => true) limit (n + 1) l = some kept ∧
      Evicted limit l kept removed := by
  intro n
  induction n with
  | zero =>
    intro l hl
    refine ⟨l, [], ?_, ?_, List.Sublist.refl _, .inr (by omega), by simp, .inl rfl⟩
    · unfold evictLoop; rw [if_neg (by omega)]
    · exact List.Perm.refl _
  | succ n ih =>
    intro l hl
    by_cases hc : limit < totalSize l ∧ 1 < l.length
    · have hne : l ≠ [] := by intro h; subst h; simp at hc
      obtain ⟨e, hmem, hperm, hsub, hold, hlen⟩ := pass_ok l hne
      obtain ⟨kept, removed, hr, hp, hs, hf, ho, hn⟩ := ih (passOnce (fun _ => true) l) (by omega)
      have hep : ∀ x ∈ removed ++ kept, e.mtime ≤ x.mtime := by
        intro x hx
        exact hold x (hsub.subset (hp.subset hx))
      refine ⟨kept, e :: removed, ?_, ?_, hs.trans hsub, hf, ?_, ?_⟩
      · unfold evictLoop; rw [if_pos hc]; exact hr
      · rw [List.cons_append]; exact (List.Perm.cons e hp).trans hperm
      · intro r hr k hk
        rcases List.mem_cons.mp hr with h | h
        · subst h; exact hep k (by simp [hk])
        · exact ho r h k hk
      · right
        rcases hn with hn | ⟨r, h1, h2, h3, h4⟩
        · subst hn
          have hpk : kept.Perm (passOnce (fun _ => true) l) := by simpa using hp
          refine ⟨e, by simp, ?_, ?_, ?_⟩
          · have h1 := totalSize_perm ((List.Perm.cons e hpk).trans hperm)
            have h2 : totalSize (e :: kept) = e.size + totalSize kept := by simp [totalSize]
            omega
          · have := hpk.length_eq; omega
          · intro r' hr'
            simp only [List.mem_singleton] at hr'
            subst hr'; exact Nat.le_refl _
        · refine ⟨r, by simp [h1], h2, h3, ?_⟩
          intro r' hr'
          rcases List.mem_cons.mp hr' with h | h
          · subst h; exact hep r (by simp [h1])
          · exact h4 r' h
    · refine ⟨l, [], ?_, List.Perm.refl _, List.Sublist.refl _, by omega, by simp, .inl rfl⟩
      unfold evictLoop; rw [if_neg hc]

/-- Without a limit nothing is removed, whatever the files. -/
theorem C20_no_limit (ok : Entry → Bool) (fuel : Nat) (l : List Entry) : manage ok 0 fuel l = some l := by
  simp [manage]

/-- With a limit, `_cache_management` is the loop described above. -/
theorem C20_managed_partial (limit : Nat) (h : 0 < limit) (l : List Entry) :
    ∃ kept removed, manage (fun _ => true) limit (l.length + 1) l = some kept ∧
      Evicted limit l kept removed := by
  unfold manage
  rw [if_pos h]
  exact C20_evicts_partial limit l.length l (Nat.le_refl _)

/-- A cache below its limit is left alone, even if files could not be removed. -/
theorem C20_below_limit (ok : Entry → Bool) (limit fuel : Nat) (l : List Entry)
    (h : totalSize l ≤ limit) : manage ok limit (fuel + 1) l = some l := by
  unfold manage evictLoop
  rw [if_neg (c := limit < totalSize l ∧ 1 < l.length) (by omega)]
  simp

/-- The newest file survives, if it is the only newest. -/
theorem C20_newest (limit : Nat) (l kept removed : List Entry) (h : Evicted limit l kept removed)
    (hk : kept ≠ []) (e : Entry) (he : e ∈ l) (hnew : ∀ x ∈ l, x ≠ e → x.mtime < e.mtime) :
    e ∈ kept := by
  have hm : e ∈ removed ++ kept := h.perm.symm.subset he
  rcases List.mem_append.mp hm with hr | hr
  · cases hkk : kept with
    | nil => exact absurd hkk hk
    | cons k ks =>
      have hkm : k ∈ kept := by rw [hkk]; simp
      have h1 := h.old e hr k hkm
      by_cases heq : k = e
      · rw [heq]; simp
      · have := hnew k (h.sub.subset hkm) heq
        omega
  · exact hr

/-- The property fails when the oldest entry cannot be unlinked, for example a sub-directory made by
`open('sub/x', 'w')`: above the limit the loop never ends, for any number of passes. -/
theorem C20_stuck (ok : Entry → Bool) (limit : Nat) (l : List Entry) (hc : limit < totalSize l)
    (hl : 1 < l.length) (hbad : ∀ e ∈ l, e.mtime = minTime l → ok e = false) (fuel : Nat) :
    evictLoop ok limit fuel l = none := by
  induction fuel with
  | zero => rfl
  | succ fuel ih =>
    have hne : l ≠ [] := by intro h; subst h; simp at hl
    obtain ⟨e, hi, he, hs, hm⟩ := oldest_get l hne
    have : passOnce ok l = l := by
      unfold passOnce
      rw [hs]
      simp [hbad e (by rw [← he]; exact List.getElem_mem hi) hm]
    unfold evictLoop
    rw [if_pos ⟨hc, hl⟩, this]
    exact ih

/-- Files and a limit for which eviction takes place. -/
example : manage (fun _ => true) 10 4 [⟨1, 6, 30⟩, ⟨2, 6, 10⟩, ⟨3, 6, 20⟩] = some [⟨1, 6, 30⟩] := by
  decide

/-- An old directory for which it hangs. -/
example : ∀ fuel, evictLoop (fun e => e.name != 2) 10 fuel [⟨1, 6, 30⟩, ⟨2, 6, 10⟩] = none :=
  C20_stuck _ _ _ (by decide) (by decide) (by decide)

end Verif.FileCache
