import Verif.Model.Telemetry
/-!
# C37: nothing counted twice or lost, C60: sending
-/
namespace Verif.Telemetry

/-! ### specification -/

/-- Uses of `n` in a set of calls. -/
def uses (c : Cache) (n : Name) : Nat := ((c.filter (fun p => decide (p.1 = n))).map (fun p => p.2.count)).sum

/-- Uses of `n` in all log files and in memory. -/
def total (s : State) (n : Name) : Nat := uses s.cache n + (s.disk.map (fun f => uses f.2 n)).sum

/-- The log file written at a second. -/
def fileAt (d : Disk) (sec : Nat) : Cache :=
  match d.find? (fun f => decide (f.1 = sec)) with
  | some f => f.2
  | none => []

/-- State between calls: the counter is the number of names, each name and each file is there once. -/
structure Wf (s : State) : Prop where
  count : s.cacheCount = s.cache.length
  names : (s.cache.map Prod.fst).Nodup
  files : (s.disk.map Prod.fst).Nodup

/-- Whether a call replaces what was written earlier in the same second. -/
def willWrite (maxEntries : Nat) (s : State) (n : Name) : Bool :=
  decide (maxEntries ≤ s.cache.length + (if n ∈ s.cache.map Prod.fst then 0 else 1))

/-! ### lemmas -/

theorem uses_cons (m n : Name) (i : Info) (l : Cache) :
    uses ((m, i) :: l) n = (if m = n then i.count else 0) + uses l n := by
  unfold uses
  by_cases h : m = n <;> simp [h]

theorem bump_uses (c : Cache) (k n : Name) (t : Rat) (hn : (c.map Prod.fst).Nodup) :
    uses (bump c k t).1 n = uses c n + (if k = n then 1 else 0) := by
  induction c with
  | nil =>
    simp only [bump, uses_cons]
    have h0 : uses ([] : Cache) n = 0 := rfl
    rw [h0]; omega
  | cons x l ih =>
    obtain ⟨m, i⟩ := x
    simp only [List.map_cons, List.nodup_cons] at hn
    simp only [bump]
    by_cases hm : m = k
    · subst hm
      simp only [if_true, uses_cons]
      by_cases hmn : m = n
      · simp [hmn]; omega
      · simp [hmn]
    · simp only [hm, if_false, uses_cons, ih hn.2]
      omega

theorem bump_names (c : Cache) (k : Name) (t : Rat) :
    (bump c k t).1.map Prod.fst = if k ∈ c.map Prod.fst then c.map Prod.fst else c.map Prod.fst ++ [k] := by
  induction c with
  | nil => simp [bump]
  | cons x l ih =>
    obtain ⟨m, i⟩ := x
    simp only [bump]
    by_cases hm : m = k
    · subst hm; simp
    · simp only [hm, if_false, List.map_cons, ih, List.mem_cons, Ne.symm hm, false_or]
      split <;> simp

theorem bump_new (c : Cache) (k : Name) (t : Rat) : (bump c k t).2 = decide (k ∉ c.map Prod.fst) := by
  induction c with
  | nil => simp [bump]
  | cons x l ih =>
    obtain ⟨m, i⟩ := x
    simp only [bump]
    by_cases hm : m = k
    · subst hm; simp
    · simp only [hm, if_false, ih, List.map_cons, List.mem_cons, Ne.symm hm, false_or]

theorem bump_length (c : Cache) (k : Name) (t : Rat) :
    (bump c k t).1.length = c.length + (if k ∈ c.map Prod.fst then 0 else 1) := by
  have h := congrArg List.length (bump_names c k t)
  rw [List.length_map] at h
  rw [h]
  split <;> simp

theorem put_sum (d : Disk) (sec : Nat) (c : Cache) (n : Name) :
    ((put d sec c).map (fun f => uses f.2 n)).sum + uses (fileAt d sec) n =
      (d.map (fun f => uses f.2 n)).sum + uses c n := by
  induction d with
  | nil => simp [put, fileAt, uses]
  | cons x l ih =>
    obtain ⟨s, y⟩ := x
    simp only [put]
    by_cases hs : s = sec
    · subst hs
      simp only [if_true, List.map_cons, List.sum_cons, fileAt, List.find?_cons, decide_true]
      omega
    · have : fileAt ((s, y) :: l) sec = fileAt l sec := by simp [fileAt, hs]
      rw [this]
      simp only [hs, if_false, List.map_cons, List.sum_cons]
      omega

theorem put_names (d : Disk) (sec : Nat) (c : Cache) :
    (put d sec c).map Prod.fst = if sec ∈ d.map Prod.fst then d.map Prod.fst else d.map Prod.fst ++ [sec] := by
  induction d with
  | nil => simp [put]
  | cons x l ih =>
    obtain ⟨s, y⟩ := x
    simp only [put]
    by_cases hs : s = sec
    · subst hs; simp
    · simp only [hs, if_false, List.map_cons, ih, List.mem_cons, Ne.symm hs, false_or]
      split <;> simp

theorem nodup_snoc {α : Type} [DecidableEq α] (l : List α) (a : α) (h : l.Nodup) :
    (if a ∈ l then l else l ++ [a]).Nodup := by
  split
  · exact h
  · rename_i ha
    rw [List.nodup_append]
    exact ⟨h, by simp, fun x hx y hy => by simp at hy; subst hy; exact fun e => ha (e ▸ hx)⟩

theorem wf_clear (s : State) (h : Wf s) : Wf (clear s) := ⟨rfl, by simp [clear], h.files⟩

theorem wf_write (s : State) (now : Nat) (ok : Bool) (h : Wf s) : Wf (write s now ok).1 := by
  unfold write
  split
  · split
    · refine ⟨rfl, by simp [clear], ?_⟩
      simp only [clear]
      rw [put_names]
      exact nodup_snoc _ _ h.files
    · exact h
  · exact wf_clear s h

theorem wf_bump (s : State) (n : Name) (t : Rat) (h : Wf s) :
    Wf (count s n t) := by
  refine ⟨?_, ?_, h.files⟩
  · simp only [count, bump_length, bump_new, h.count]
    by_cases hn : n ∈ s.cache.map Prod.fst <;> simp [hn]
  · simp only [count, bump_names]
    exact nodup_snoc _ _ h.names

theorem wf_step (mx : Nat) (ro : Bool) (s : State) (o : Op) (h : Wf s) : Wf (step mx ro s o).1 := by
  cases o with
  | track n t now ok =>
    simp only [step, track]
    split
    · exact h
    · split
      · exact wf_write _ _ _ (wf_bump s n t h)
      · exact wf_bump s n t h
  | write now ok => exact wf_write s now ok h
  | clear => exact wf_clear s h
  | enable => exact ⟨h.count, h.names, h.files⟩
  | disable => exact ⟨h.count, h.names, h.files⟩
  | ignore => exact ⟨h.count, h.names, h.files⟩

theorem wf_run (mx : Nat) (ro : Bool) (l : List Op) : ∀ s, Wf s → Wf (run mx ro s l) := by
  induction l with
  | nil => intro s h; exact h
  | cons o l ih => intro s h; exact ih _ (wf_step mx ro s o h)

theorem total_write (s : State) (now : Nat) (n : Name) (ha : s.active = true) (hc : 0 < s.cacheCount) :
    total (write s now true).1 n + uses (fileAt s.disk now) n = total s n := by
  have := put_sum s.disk now s.cache n
  simp only [write, ha, hc, decide_true, Bool.and_self, if_true, clear, total]
  have h0 : uses ([] : Cache) n = 0 := rfl
  rw [h0]
  omega

theorem total_clear (s : State) (n : Name) : total (clear s) n + uses s.cache n = total s n := by
  simp only [total, clear]
  have h0 : uses ([] : Cache) n = 0 := rfl
  rw [h0]
  omega

/-! ### C37 -/

/-- A call is counted exactly when its name is of this library and the client is active. -/
theorem C37_counted_iff (mx : Nat) (ro : Bool) (s : State) (n : Name) (t : Rat) (now : Nat) (ok : Bool) :
    (step mx ro s (.track n t now ok)).2 = true ↔ n.startsWith "lsl" = true ∧ s.active = true := by
  simp only [step, track]
  cases n.startsWith "lsl" <;> cases s.active <;> simp
  split <;> rfl

/-- Exact bookkeeping of one `track`: the total of that name goes up by one, the others stay; only what a
log file of the same second held is lost, and only when the call leads to writing. -/
theorem C37_track (mx : Nat) (ro : Bool) (s : State) (k n : Name) (t : Rat) (now : Nat) (ok : Bool) (h : Wf s)
    (hc : (step mx ro s (.track k t now ok)).2 = true) :
    total (step mx ro s (.track k t now ok)).1 n +
        (if willWrite mx s k && ok then uses (fileAt s.disk now) n else 0) =
      total s n + (if k = n then 1 else 0) := by
  obtain ⟨h1, h2⟩ := (C37_counted_iff mx ro s k t now ok).mp hc
  simp only [step, track, h1, h2, Bool.not_true, Bool.or_self, Bool.false_eq_true, if_false]
  have hwf := wf_bump s k t h
  have hcount : (count s k t).cacheCount = s.cache.length + (if k ∈ s.cache.map Prod.fst then 0 else 1) := by
    rw [hwf.count]
    simp only [count]
    rw [bump_length]
  have htot : total (count s k t) n = total s n + (if k = n then 1 else 0) := by
    simp only [total, count]
    rw [bump_uses _ _ _ _ h.names]
    omega
  have hpos : 0 < (count s k t).cacheCount := by
    rw [hcount]
    by_cases hk : k ∈ s.cache.map Prod.fst
    · have : 0 < (s.cache.map Prod.fst).length := List.length_pos_of_mem hk
      rw [List.length_map] at this
      simp [hk, this]
    · simp [hk]
  have hact : (count s k t).active = true := h2
  unfold willWrite
  rw [← hcount]
  by_cases hw : mx ≤ (count s k t).cacheCount
  · simp only [ge_iff_le, hw, if_true, decide_true, Bool.true_and]
    cases ok with
    | true =>
      simp only [if_true]
      rw [← htot]
      exact total_write _ now n hact hpos
    | false =>
      simp only [write, hpos, hact, decide_true, Bool.and_self, if_true, Bool.false_eq_true, if_false, Nat.add_zero]
      exact htot
  · simp only [ge_iff_le, hw, if_false, decide_false, Bool.false_and, Bool.false_eq_true, Nat.add_zero]
    exact htot

/-- Exact bookkeeping of `write`: nothing when it fails; what the file of the same second held when it
succeeds; everything in memory when the client is not active. -/
theorem C37_write (mx : Nat) (ro : Bool) (s : State) (n : Name) (now : Nat) (ok : Bool) (h : Wf s) :
    total (step mx ro s (.write now ok)).1 n +
        (if s.active = false then uses s.cache n
         else if ok = true ∧ s.cache ≠ [] then uses (fileAt s.disk now) n else 0) = total s n := by
  simp only [step]
  cases ha : s.active with
  | false =>
    simp only [write, ha, Bool.false_and, Bool.false_eq_true, if_false, if_true]
    exact total_clear s n
  | true =>
    simp only [Bool.true_eq_false, if_false]
    by_cases hc : s.cache = []
    · have : ¬ 0 < s.cacheCount := by rw [h.count, hc]; simp
      simp only [write, ha, this, hc, decide_false, Bool.and_false, Bool.false_eq_true, if_false, ne_eq,
        not_true_eq_false, and_false, Nat.add_zero]
      have := total_clear s n
      rw [hc] at this
      have h0 : uses ([] : Cache) n = 0 := rfl
      rw [h0] at this
      simpa using this
    · have hp : 0 < s.cacheCount := by rw [h.count]; exact List.length_pos_iff.mpr hc
      cases ok with
      | true =>
        simp only [ne_eq, hc, not_false_eq_true, and_self, if_true]
        exact total_write s now n ha hp
      | false => simp [write, ha, hp]

/-- Number of the calls in the history that were counted for `n`. -/
def counted (mx : Nat) (ro : Bool) (n : Name) : State → List Op → Nat
  | _, [] => 0
  | s, o :: l =>
    let r := step mx ro s o
    (match o with
     | .track k _ _ _ => if k = n ∧ r.2 = true then 1 else 0
     | _ => 0) + counted mx ro n r.1 l

/-- Seconds at which an operation may write. -/
def seconds : List Op → List Nat
  | [] => []
  | .track _ _ now _ :: l => now :: seconds l
  | .write now _ :: l => now :: seconds l
  | _ :: l => seconds l

/-- Histories of an active client: only counting, writing and enabling. -/
def Plain : List Op → Prop
  | [] => True
  | .track _ _ _ _ :: l => Plain l
  | .write _ _ :: l => Plain l
  | .enable :: l => Plain l
  | _ :: _ => False

theorem fileAt_none (d : Disk) (sec : Nat) (h : sec ∉ d.map Prod.fst) : fileAt d sec = [] := by
  unfold fileAt
  have : d.find? (fun f => decide (f.1 = sec)) = none := by
    rw [List.find?_eq_none]
    intro x hx
    simp only [decide_eq_true_eq]
    rintro rfl
    exact h (List.mem_map_of_mem hx)
  rw [this]

theorem write_disk (s : State) (now : Nat) (ok : Bool) (x : Nat) (h : x ∈ (write s now ok).1.disk.map Prod.fst) :
    x ∈ s.disk.map Prod.fst ∨ x = now := by
  unfold write at h
  split at h
  · split at h
    · simp only [clear] at h
      rw [put_names] at h
      split at h
      · exact Or.inl h
      · simp only [List.mem_append, List.mem_singleton] at h; exact h
    · exact Or.inl h
  · exact Or.inl h

theorem write_active (s : State) (now : Nat) (ok : Bool) : (write s now ok).1.active = s.active := by
  unfold write
  split
  · split <;> rfl
  · rfl

/-- While the client is active and no two writes fall in the same second, no use is lost and none is
counted twice: files plus memory hold exactly the counted calls, whether or not writes succeed.
Missing from the full property: writes in the same second (`C37_overwrite`), and writing while
inactive and clearing, which drop the uses in memory (`C37_write`). -/
theorem C37_conserved_partial (mx : Nat) (ro : Bool) (n : Name) (l : List Op) : ∀ (s : State), Wf s →
    s.active = true → Plain l → (seconds l).Nodup → (∀ x ∈ seconds l, x ∉ s.disk.map Prod.fst) →
    total (run mx ro s l) n = total s n + counted mx ro n s l := by
  induction l with
  | nil => intro s _ _ _ _ _; rfl
  | cons o l ih =>
    intro s hwf ha hp hs hd
    have hwf' := wf_step mx ro s o hwf
    simp only [run, counted]
    cases o with
    | track k t now ok =>
      simp only [seconds, List.nodup_cons] at hs
      have hfile : fileAt s.disk now = [] := fileAt_none _ _ (hd now (by simp [seconds]))
      have hact : (step mx ro s (.track k t now ok)).1.active = true := by
        simp only [step, track]
        split
        · exact ha
        · split
          · rw [write_active]; exact ha
          · exact ha
      have hdisk : ∀ x ∈ seconds l, x ∉ (step mx ro s (.track k t now ok)).1.disk.map Prod.fst := by
        intro x hx hm
        have h1 := hd x (by simp [seconds, hx])
        simp only [step, track] at hm
        split at hm
        · exact h1 hm
        · split at hm
          · rcases write_disk _ _ _ _ hm with h2 | h2
            · exact h1 h2
            · exact hs.1 (h2 ▸ hx)
          · exact h1 hm
      rw [ih _ hwf' hact hp hs.2 hdisk]
      by_cases hc : (step mx ro s (.track k t now ok)).2 = true
      · have := C37_track mx ro s k n t now ok hwf hc
        rw [hfile] at this
        have h0 : uses ([] : Cache) n = 0 := rfl
        rw [h0] at this
        simp only [ite_self, Nat.add_zero] at this
        rw [this]
        simp only [hc, and_true]
        omega
      · have : (step mx ro s (.track k t now ok)).1 = s := by
          simp only [step, track] at hc ⊢
          split at hc
          · rename_i hh; rw [if_pos hh]
          · exfalso
            split at hc <;> simp at hc
        rw [this]
        simp [hc]
    | write now ok =>
      simp only [seconds, List.nodup_cons] at hs
      have hfile : fileAt s.disk now = [] := fileAt_none _ _ (hd now (by simp [seconds]))
      have hact : (step mx ro s (.write now ok)).1.active = true := by
        simp only [step]; rw [write_active]; exact ha
      have hdisk : ∀ x ∈ seconds l, x ∉ (step mx ro s (.write now ok)).1.disk.map Prod.fst := by
        intro x hx hm
        rcases write_disk _ _ _ _ hm with h2 | h2
        · exact hd x (by simp [seconds, hx]) h2
        · exact hs.1 (h2 ▸ hx)
      rw [ih _ hwf' hact hp hs.2 hdisk]
      have := C37_write mx ro s n now ok hwf
      rw [hfile, ha] at this
      have h0 : uses ([] : Cache) n = 0 := rfl
      rw [h0] at this
      simp only [Bool.true_eq_false, if_false, ite_self, Nat.add_zero] at this
      rw [this]
      simp only
      omega
    | enable =>
      have hact : (step mx ro s .enable).1.active = true := by
        simp only [step, enable]; split
        · exact ha
        · rfl
      rw [ih _ hwf' hact hp hs hd]
      have : total (step mx ro s .enable).1 n = total s n := rfl
      rw [this]
      simp only
      omega
    | clear => exact hp.elim
    | disable => exact hp.elim
    | ignore => exact hp.elim

/-- Two writes in the same second: the second replaces the first, whose uses are lost. -/
theorem C37_overwrite (s : State) (now : Nat) (n k : Name) (t : Rat) (mx : Nat) (ro : Bool) (h : Wf s)
    (ha : s.active = true) (hk : k.startsWith "lsl" = true) (hc : s.cache ≠ []) (hnew : now ∉ s.disk.map Prod.fst)
    (hmx : 1 < mx) :
    total (run mx ro s [.write now true, .track k t now true, .write now true]) n + uses s.cache n =
      total s n + (if k = n then 1 else 0) := by
  simp only [run]
  have h1 := C37_write mx ro s n now true h
  have hact : (step mx ro s (.write now true)).1.active = true := by
    simp only [step]; rw [write_active]; exact ha
  have hwf1 := wf_step mx ro s (.write now true) h
  have hp : 0 < s.cacheCount := by rw [h.count]; exact List.length_pos_iff.mpr hc
  have hs1 : (step mx ro s (.write now true)).1 = clear { s with disk := put s.disk now s.cache } := by
    simp [step, write, ha, hp]
  have hfile : fileAt (put s.disk now s.cache) now = s.cache := by
    have : ∀ d : Disk, fileAt (put d now s.cache) now = s.cache := by
      intro d
      induction d with
      | nil => simp [put, fileAt]
      | cons x l ih =>
        obtain ⟨a, y⟩ := x
        simp only [put]
        by_cases ha : a = now
        · simp [ha, fileAt]
        · simp only [ha, if_false]
          simp only [fileAt, List.find?_cons, ha, decide_false] at ih ⊢
          exact ih
    exact this _
  have hc2 : (step mx ro (step mx ro s (.write now true)).1 (.track k t now true)).2 = true :=
    (C37_counted_iff mx ro _ k t now true).mpr ⟨hk, hact⟩
  have h2 := C37_track mx ro (step mx ro s (.write now true)).1 k n t now true hwf1 hc2
  have hwf2 := wf_step mx ro _ (.track k t now true) hwf1
  have hww : willWrite mx (step mx ro s (.write now true)).1 k = false := by
    rw [hs1]; simp [willWrite, clear]; omega
  rw [hww] at h2
  have hs2 : (step mx ro (step mx ro s (.write now true)).1 (.track k t now true)).1 =
      ⟨[(k, ⟨1, if t > 0 then 1 else 0, t⟩)], 1, true, s.enabled, put s.disk now s.cache⟩ := by
    rw [hs1]
    have : ¬ mx ≤ 1 := by omega
    simp [step, track, hk, clear, count, bump, ha, this]
  have h3 := C37_write mx ro _ n now true hwf2
  rw [hs2] at h3 h2
  rw [hs2]
  simp only [Bool.true_eq_false, if_false, hfile, ne_eq, not_false_eq_true, and_self, if_true,
    List.cons_ne_nil] at h3
  rw [fileAt_none _ _ hnew, ha] at h1
  have h0 : uses ([] : Cache) n = 0 := rfl
  rw [h0] at h1
  simp only [Bool.true_eq_false, if_false, ite_self, Nat.add_zero] at h1
  simp only [Bool.false_and, Bool.false_eq_true, if_false, Nat.add_zero] at h2
  omega

/-- `ignore()` does not stop the counting: while counting is enabled the client stays active; and on a
client that could not use its directory it even starts it. -/
theorem C37_ignore (mx : Nat) (ro : Bool) (s : State) (he : s.enabled = true) (n : Name) (t : Rat) (now : Nat)
    (ok : Bool) (hn : n.startsWith "lsl" = true) :
    (step mx ro (step mx ro s .ignore).1 (.track n t now ok)).2 = true :=
  (C37_counted_iff mx ro _ n t now ok).mpr ⟨hn, he⟩

/-- After `disable()` nothing is counted until `enable()`. -/
theorem C37_disable (mx : Nat) (ro : Bool) (l : List Op) : ∀ (s : State) (n : Name), s.enabled = false →
    s.active = false → Op.enable ∉ l → counted mx ro n s l = 0 := by
  induction l with
  | nil => intro s n _ _ _; rfl
  | cons o l ih =>
    intro s n he ha hm
    simp only [List.mem_cons, not_or] at hm
    have hw : ∀ now ok, (write s now ok).1.enabled = false ∧ (write s now ok).1.active = false := by
      intro now ok
      simp [write, ha, clear, he]
    simp only [counted]
    have key : (step mx ro s o).1.enabled = false ∧ (step mx ro s o).1.active = false ∧
        (step mx ro s o).2 = false := by
      cases o with
      | track k t now ok => simp [step, track, ha, he]
      | write now ok => exact ⟨(hw now ok).1, (hw now ok).2, rfl⟩
      | clear => exact ⟨he, ha, rfl⟩
      | enable => exact absurd rfl hm.1
      | disable => exact ⟨rfl, rfl, rfl⟩
      | ignore => exact ⟨he, he, rfl⟩
    rw [ih _ n key.1 key.2.1 hm.2]
    cases o <;> simp [key.2.2]

/-- With working writes the memory never holds as many names as the limit. -/
theorem C37_bounded (mx : Nat) (ro : Bool) (hmx : 0 < mx) (s : State) (o : Op) (h : Wf s)
    (hb : s.cache.length < mx) (hok : ∀ n t now ok, o = .track n t now ok → ok = true) :
    (step mx ro s o).1.cache.length < mx := by
  have hw : ∀ (s : State) now ok, s.cache.length < mx → (write s now ok).1.cache.length < mx := by
    intro s now ok hh
    unfold write
    split
    · split
      · simpa [clear] using hmx
      · exact hh
    · simpa [clear] using hmx
  cases o with
  | track k t now ok =>
    have := hok k t now ok rfl
    subst this
    simp only [step, track]
    split
    · exact hb
    · rename_i hact
      have hwf := wf_bump s k t h
      split
      · rename_i hge
        have ha : s.active = true := by cases hh : s.active <;> simp_all
        have hpos : 0 < (count s k t).cacheCount := by omega
        have ha' : (count s k t).active = true := ha
        simp only [write, ha', hpos, decide_true, Bool.and_self, if_true, clear, List.length_nil]
        exact hmx
      · rename_i hge
        have := hwf.count
        simp only at this hge ⊢
        omega
  | write now ok => exact hw s now ok hb
  | clear => simpa [step, clear] using hmx
  | enable => exact hb
  | disable => exact hb
  | ignore => exact hb

/-- A client with one use in memory. -/
def sample : State := ⟨[("lsl.reader", ⟨2, 0, 0⟩)], 1, true, true, []⟩

example : Wf sample ∧ sample.cache.length < 100 ∧ Plain [.track "lsl.astro" 1 7 true, .write 8 true] ∧
    total sample "lsl.reader" = 2 := by
  refine ⟨⟨rfl, by decide, by decide⟩, by decide, trivial, by decide⟩

/-! ### C60 -/

/-- Nothing is removed unless something was sent and accepted, and nothing is sent before the oldest file
is a week old. -/
theorem C60_kept (files : List Log) (accepted : Bool) :
    ((send files accepted).1 = none ∨ accepted = false → (send files accepted).2 = files) ∧
    ((∀ f ∈ files, f.age < 604800) → (send files accepted).1 = none) ∧
    (∀ p, (send files accepted).1 = some p → p = files.filterMap Log.payload ∧ ∃ f ∈ files, 604800 ≤ f.age) := by
  unfold send
  refine ⟨?_, ?_, ?_⟩
  · intro h
    split
    · rfl
    · split
      · rfl
      · simp only
        split
        · rfl
        · split
          · rename_i h1 h2 h3 h4
            simp [h1, h2, h3, h4] at h
          · rfl
  · intro h
    have : files.all (fun f => decide (f.age < 7 * 86400)) = true := by
      rw [List.all_eq_true]; intro f hf; simpa using h f hf
    split
    · rfl
    · rfl
  · intro p h
    split at h
    · simp at h
    · split at h
      · simp at h
      · rename_i h1 h2
        have hex : ∃ f ∈ files, 604800 ≤ f.age := by
          simp only [List.all_eq_true, decide_eq_true_eq, Classical.not_forall] at h2
          obtain ⟨f, hf, hn⟩ := h2
          exact ⟨f, hf, by omega⟩
        simp only at h
        split at h
        · simp at h
        · split at h <;> (simp only [Option.some.injEq] at h; exact ⟨h.symm, hex⟩)

/-- When every log file can be read, the files removed are those sent.  Missing from the full property: a
file that cannot be read at that moment is removed although it was not sent (`C60_unreadable_removed`). -/
theorem C60_sent_partial (files : List Log) (accepted : Bool) (hr : ∀ f ∈ files, f.payload.isSome)
    (f : Log) (hf : f ∈ files) (hgone : f ∉ (send files accepted).2) :
    ∃ p, (send files accepted).1 = some p ∧ ∃ q ∈ p, f.payload = some q := by
  have h := (C60_kept files accepted).1
  cases hs : (send files accepted).1 with
  | none => rw [h (Or.inl hs)] at hgone; exact absurd hf hgone
  | some p =>
    obtain ⟨q, hq⟩ := Option.isSome_iff_exists.mp (hr f hf)
    refine ⟨p, rfl, q, ?_, hq⟩
    rw [((C60_kept files accepted).2.2 p hs).1]
    exact List.mem_filterMap.mpr ⟨f, hf, hq⟩

/-- Any file that cannot be read is removed together with the ones that were sent. -/
theorem C60_unreadable_removed (files : List Log) (f g : Log) (hf : f ∈ files) (_hu : f.payload = none)
    (hg : g ∈ files) (hp : g.payload.isSome) (hage : 604800 ≤ g.age) :
    f ∉ (send files true).2 ∧ (send files true).2 = [] := by
  have : (send files true).2 = [] := by
    unfold send
    have h1 : files ≠ [] := List.ne_nil_of_mem hf
    have h2 : ¬ files.all (fun f => decide (f.age < 7 * 86400)) = true := by
      rw [List.all_eq_true]
      intro h
      have := h g hg
      simp only [decide_eq_true_eq] at this
      omega
    have h3 : files.filterMap Log.payload ≠ [] := by
      obtain ⟨q, hq⟩ := Option.isSome_iff_exists.mp hp
      exact List.ne_nil_of_mem (List.mem_filterMap.mpr ⟨g, hg, hq⟩)
    simp [h1, h2, h3]
  rw [this]
  simp

example : send [⟨"telemetry_1_9.log", 700000, some "a"⟩, ⟨"telemetry_2_9.log", 5, none⟩] true = (some ["a"], []) := by
  decide

end Verif.Telemetry
