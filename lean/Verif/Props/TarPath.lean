import Verif.Model.TarPath
/-!
# C46 nothing outside the temporary directory, C66 choice of the member, C67 current content
-/
namespace Verif.TarPath

/-- An absolute path as `tempfile.mkdtemp` gives it: without empty components, `.` and `..`. -/
def Clean (d : Dir) : Prop := ∀ c ∈ d, c ≠ [] ∧ c ≠ ['.'] ∧ c ≠ ['.', '.']

theorem commonpath_eq (a b : Dir) : commonpath a b = a ↔ a <+: b := by
  induction a generalizing b with
  | nil => simp [commonpath]
  | cons x a ih =>
    cases b with
    | nil => simp [commonpath]
    | cons y b =>
      simp only [commonpath]
      split
      · next h => subst h; simp [ih]
      · next h => simp [List.cons_prefix_cons, h]

/-- C46: a member is extracted exactly when its normalised path lies below the temporary directory. -/
theorem C46_check (temp : Dir) (n : Name) : accepted temp n = true ↔ temp <+: normpath (join temp n) := by
  simp [accepted, commonpath_eq]

theorem resolve_nolinks (fuel : Nat) (cs : List Comp) (cur : Dir) :
    resolve [] fuel cur cs = some (cs.foldl normStep cur) := by
  induction cs generalizing cur with
  | nil => simp [resolve]
  | cons c r ih =>
    rw [resolve]
    · simp only [List.foldl_cons, normStep]
      split
      · exact ih _
      · split <;> exact ih _
    · rfl

/-- C46: without links in the tarball every file is written below the temporary directory, whatever the names. -/
theorem C46_writes_partial (temp : Dir) (names : List Name) (w : Dir)
    (h : w ∈ (extractAll temp [] (names.map Member.file)).2) : temp <+: w := by
  induction names with
  | nil => simp [extractAll] at h
  | cons n l ih =>
    simp only [List.map_cons, extractAll] at h
    split at h
    · next ha =>
      simp only [extract1, List.mem_append] at h
      rcases h with h | h
      · have hr := resolve_nolinks maxLinks (join temp n) []
        rw [hr] at h
        have hw : w = normpath (join temp n) := by simpa [normpath] using h
        rw [hw]; exact (C46_check temp n).1 ha
      · exact ih h
    · exact ih h

/-- C46: and every member with such a name is written. -/
theorem C46_written (temp : Dir) (names : List Name) :
    (extractAll temp [] (names.map Member.file)).2 =
      (names.filter (fun n => accepted temp n)).map (fun n => normpath (join temp n)) := by
  induction names with
  | nil => rfl
  | cons n l ih =>
    simp only [List.map_cons, extractAll, Member.name, List.filter_cons]
    by_cases ha : accepted temp n = true
    · simp only [ha, if_true, extract1, resolve_nolinks, Option.toList_some, List.map_cons, List.cons_append,
        List.nil_append, ih]
      rfl
    · simp only [ha, Bool.false_eq_true, if_false]; exact ih

/-- C46: the file then opened lies below the temporary directory exactly if the member was extracted; a member
refused because of its name is opened where its name points. -/
theorem C46_opened (temp : Dir) (n : Name) :
    ∃ d, opened temp [] n = some d ∧ (temp <+: d ↔ accepted temp n = true) :=
  ⟨normpath (join temp n), resolve_nolinks _ _ _, (C46_check temp n).symm⟩

theorem normpath_clean (d : Dir) (h : Clean d) (acc : Dir) : d.foldl normStep acc = acc ++ d := by
  induction d generalizing acc with
  | nil => simp
  | cons c l ih =>
    obtain ⟨h1, h2, h3⟩ := h c (List.mem_cons_self ..)
    rw [List.foldl_cons, ih (fun x hx => h x (List.mem_cons_of_mem _ hx))]
    simp [normStep, h1, h2, h3]

/-- A plain file name is extracted to, and opened from, the temporary directory. -/
theorem C46_plain (temp : Dir) (ht : Clean temp) (c : Comp) (hc : Clean [c]) (hs : '/' ∉ c) :
    accepted temp c = true ∧ opened temp [] c = some (temp ++ [c]) := by
  have hsp : splitSlash c = [c] := by
    clear hc
    induction c with
    | nil => rfl
    | cons x c ih =>
      have h1 : x ≠ '/' := fun h => hs (by simp [h])
      simp [splitSlash, ih (fun h => hs (List.mem_cons_of_mem _ h)), h1]
  have hne : c ≠ [] := (hc c (by simp)).1
  have habs : isAbs c = false := by
    cases c with
    | nil => exact absurd rfl hne
    | cons x c =>
      have h1 : x ≠ '/' := fun h => hs (by simp [h])
      simp [isAbs, h1]
  have hn : normpath (join temp c) = temp ++ [c] := by
    rw [join, habs, if_neg (by simp), hsp, normpath, normpath_clean]
    · rfl
    · intro x hx
      rcases List.mem_append.1 hx with h | h
      · exact ht x h
      · exact hc x h
  refine ⟨(C46_check temp c).2 (by rw [hn]; exact List.prefix_append _ _), ?_⟩
  rw [opened, resolve_nolinks]
  exact congrArg some hn

/-- The temporary directory `/tmp/x` of the examples. -/
def tmp : Dir := ["tmp".toList, "x".toList]

example : Clean tmp ∧ accepted tmp "a.obs".toList = true ∧ accepted tmp "../a.obs".toList = false ∧
    accepted tmp "/etc/a.obs".toList = false ∧ accepted tmp "b/../c.obs".toList = true := by
  refine ⟨?_, by decide, by decide, by decide, by decide⟩
  simp only [Clean, tmp]; decide

/-- C46: `/etc/x_metadata.txt` is not extracted, but the file of that name on the machine is read. -/
theorem C46_open_witness : accepted tmp "/etc/x_metadata.txt".toList = false ∧
    opened tmp [] "/etc/x_metadata.txt".toList = some ["etc".toList, "x_metadata.txt".toList] := by
  refine ⟨by decide, ?_⟩
  rw [opened, resolve_nolinks]; decide

/-- C46: a link in the tarball takes the next member out of the temporary directory. -/
theorem C46_link_witness :
    (extractAll tmp [] [.link "d.obs".toList "/home/u".toList, .file "d.obs/x.obs".toList]).2 =
      [["tmp".toList, "x".toList, "d.obs".toList], ["home".toList, "u".toList, "x.obs".toList]] := by
  have h1 : accepted tmp "d.obs".toList = true := by decide
  have h2 : accepted tmp "d.obs/x.obs".toList = true := by decide
  simp only [extractAll, Member.name, h1, h2, if_true, extract1, resolve_nolinks]
  have e1 : (join tmp "d.obs".toList).getLast? = some "d.obs".toList := by decide
  have e2 : (join tmp "d.obs".toList).dropLast.foldl normStep [] = tmp := by decide
  have e3 : join tmp "d.obs/x.obs".toList = ["tmp".toList, "x".toList, "d.obs".toList, "x.obs".toList] := by decide
  simp only [e1, e2, e3]
  simp [resolve, maxLinks, tmp, isAbs, splitSlash]

/-! ## C66 -/

/-- C66: if a member matches, the first one is used. -/
theorem C66_pick_partial {α : Type} (p : α → Bool) (l : List α) (h : ∃ a ∈ l, p a = true) : pick p l = l.find? p := by
  induction l with
  | nil => simp at h
  | cons a l ih =>
    cases l with
    | nil => simp at h; simp [pick, h]
    | cons b l =>
      simp only [pick, List.find?_cons]
      by_cases ha : p a = true
      · simp [ha]
      · simp only [ha, Bool.false_eq_true, if_false]
        have : p a = false := by simpa using ha
        rw [ih (by
          obtain ⟨x, hx, hp⟩ := h
          rcases List.mem_cons.1 hx with rfl | hx
          · exact absurd hp ha
          · exact ⟨x, hx, hp⟩)]
        simp [List.find?_cons]

/-- C66: if none does, the last member of the tarball is used in its place. -/
theorem C66_pick_none {α : Type} (p : α → Bool) (l : List α) (h : ∀ a ∈ l, p a = false) : pick p l = l.getLast? := by
  induction l with
  | nil => rfl
  | cons a l ih =>
    cases l with
    | nil => rfl
    | cons b l =>
      simp only [pick, h a (List.mem_cons_self ..), Bool.false_eq_true, if_false]
      rw [ih (fun x hx => h x (List.mem_cons_of_mem _ hx))]
      simp [List.getLast?_cons_cons]

example : pick (fun n : Nat => n == 7) [1, 2, 3] = some 3 := by decide

/-! ## C67 -/

/-- C67: another tarball is read as it is now. -/
theorem C67_other_partial {α : Type} (cache : Option (Name × α)) (disk : Name → α) (n : Name)
    (h : ∀ m c, cache = some (m, c) → m ≠ n) : (openTarball cache disk n).2 = disk n := by
  unfold openTarball
  split
  · next m c => rw [if_neg (h m c rfl)]
  · rfl

/-- C67: opened twice in a row, a tarball that changed in between is given as it was. -/
theorem C67_stale {α : Type} (cache : Option (Name × α)) (disk disk' : Name → α) (n : Name)
    (h : ∀ m c, cache = some (m, c) → m ≠ n) :
    (openTarball (openTarball cache disk n).1 disk' n).2 = disk n := by
  have : (openTarball cache disk n).1 = some (n, disk n) := by
    unfold openTarball
    split
    · next m c => rw [if_neg (h m c rfl)]
    · rfl
  rw [this]; simp [openTarball]

theorem C67_stale_witness : ∃ (disk disk' : Name → Nat) (n : Name),
    (openTarball (openTarball none disk n).1 disk' n).2 ≠ disk' n :=
  ⟨fun _ => 1, fun _ => 2, [], by decide⟩

end Verif.TarPath
