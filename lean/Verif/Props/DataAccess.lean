import Verif.Model.DataAccess
/-!
# C49 fetching data files
-/
namespace Verif.DataAccess

/-- The copies a caller may get: `good` holds of the complete versions of the file. -/
abbrev Good := Content → Prop

/-- A download that ends as a complete copy, or fails with an error of the network, or brings nothing. -/
def CleanNet (good : Good) : Net → Prop
  | .ended r w => 3 ≤ r → good w
  | .ioError _ => True
  | .raised _ => False
  | .crash _ => False

/-- Nothing is cut short. -/
def CleanEnv (good : Good) (e : Env) : Prop :=
  (∀ d t, e.localFile = some (d, t) → good d) ∧ e.disk = .done ∧ CleanNet good e.net ∧ CleanNet good e.backup

/-- The cache holds nothing or a complete copy. -/
def Sound (good : Good) (c : Cache) : Prop := ∀ d t, c = some (d, t) → good d

theorem download_sound (good : Good) (e : Env) (n : Net) (h : CleanNet good n) :
    Sound good (download e n).1 ∧ (∃ b, (download e n).2 = .ok b ∧ (b = true → (download e n).1.isSome)) := by
  cases n with
  | ended r w =>
    simp only [download]
    by_cases hr : r < 3
    · rw [if_pos hr]
      refine ⟨?_, false, rfl, ?_⟩
      · intro d t hd; cases hd
      · intro hb; cases hb
    · rw [if_neg hr]
      refine ⟨?_, true, rfl, fun _ => rfl⟩
      intro d t hd; cases hd; exact h (by omega)
  | ioError w =>
    refine ⟨?_, false, rfl, ?_⟩
    · intro d t hd; cases hd
    · intro hb; cases hb
  | raised w => exact absurd h (by simp [CleanNet])
  | crash w => exact absurd h (by simp [CleanNet])

theorem getNew_sound (good : Good) (e : Env) (h : CleanEnv good e) :
    Sound good (getNew e).1 ∧ ((getNew e).2 = .ok ∧ (getNew e).1.isSome ∨ (getNew e).2 = .runtimeError ∧ (getNew e).1 = none) := by
  obtain ⟨h1, h2, h3, h4⟩ := h
  have hloc : (∃ d, localCopy e = (some (d, e.now), .ok true) ∧ good d) ∨ localCopy e = (none, .ok false) := by
    unfold localCopy
    cases hl : e.localFile with
    | none => exact .inr rfl
    | some p =>
      obtain ⟨d, t⟩ := p
      rw [h2]
      simp only
      by_cases hd : d.length < 3
      · rw [if_pos hd]; exact .inr rfl
      · rw [if_neg hd]; exact .inl ⟨d, rfl, h1 d t hl⟩
  unfold getNew
  rcases hloc with ⟨d, hd, hg⟩ | hd
  · rw [hd]
    refine ⟨?_, .inl ⟨rfl, rfl⟩⟩
    intro d' t' he; cases he; exact hg
  · rw [hd]
    obtain ⟨s1, b1, e1, i1⟩ := download_sound good e e.net h3
    cases hn : download e e.net with
    | mk c2 r2 =>
      rw [hn] at s1 e1 i1
      simp only at s1 e1 i1
      subst e1
      cases b1 with
      | true => exact ⟨s1, .inl ⟨rfl, i1 rfl⟩⟩
      | false =>
        simp only
        have hb := download_sound good e e.backup h4
        cases hbk : e.backup with
        | ended r w =>
          rw [hbk] at hb
          simp only [download] at hb ⊢
          by_cases hr : r < 3
          · rw [if_pos hr]
            refine ⟨?_, .inr ⟨rfl, rfl⟩⟩
            intro d t he; cases he
          · rw [if_neg hr] at hb ⊢
            exact ⟨hb.1, .inl ⟨rfl, rfl⟩⟩
        | ioError w =>
          refine ⟨?_, .inr ⟨rfl, rfl⟩⟩
          intro d t he; cases he
        | raised w => rw [hbk] at h4; exact absurd h4 (by simp [CleanNet])
        | crash w => rw [hbk] at h4; exact absurd h4 (by simp [CleanNet])

theorem open_sound (good : Good) (e : Env) (h : CleanEnv good e) (c : Cache) (hc : Sound good c) :
    Sound good («open» e c).1 ∧
    ((∃ d, («open» e c).2 = .ok d ∧ good d ∧ ∃ t, («open» e c).1 = some (d, t)) ∨
      («open» e c).2 = .error .runtimeError ∧ («open» e c).1 = none) := by
  have new : Sound good (reading (getNew e)).1 ∧
      ((∃ d, (reading (getNew e)).2 = .ok d ∧ good d ∧ ∃ t, (reading (getNew e)).1 = some (d, t)) ∨
        (reading (getNew e)).2 = .error .runtimeError ∧ (reading (getNew e)).1 = none) := by
    obtain ⟨g1, g2⟩ := getNew_sound good e h
    cases hg : getNew e with
    | mk k r =>
      rw [hg] at g1 g2
      simp only at g1 g2
      rcases g2 with ⟨rfl, hs⟩ | ⟨rfl, rfl⟩
      · cases k with
        | none => cases hs
        | some p => exact ⟨g1, .inl ⟨p.1, rfl, g1 p.1 p.2 rfl, p.2, rfl⟩⟩
      · refine ⟨?_, .inr ⟨rfl, rfl⟩⟩
        intro d t he; cases he
  unfold «open» fetch
  cases c with
  | none => exact new
  | some p =>
    obtain ⟨d, t⟩ := p
    simp only
    by_cases hs : stale e t = true
    · rw [if_pos hs]; exact new
    · rw [if_neg hs]
      exact ⟨hc, .inl ⟨d, rfl, hc d t rfl, t, rfl⟩⟩

/-- C49: as long as no download or copy is cut short, every call of every sequence either gives a complete copy or
reports the failure, and what is left in the cache is complete. -/
theorem C49_sequence_partial (good : Good) (es : List Env) (h : ∀ e ∈ es, CleanEnv good e) (c : Cache) (hc : Sound good c) :
    Sound good (run c es).1 ∧ ∀ r ∈ (run c es).2, r = .error .runtimeError ∨ ∃ d, r = .ok d ∧ good d := by
  induction es generalizing c with
  | nil => exact ⟨hc, by intro r hr; cases hr⟩
  | cons e es ih =>
    obtain ⟨h1, h2⟩ := open_sound good e (h e (List.mem_cons_self ..)) c hc
    obtain ⟨h3, h4⟩ := ih (fun x hx => h x (List.mem_cons_of_mem _ hx)) _ h1
    refine ⟨h3, ?_⟩
    intro r hr
    rcases List.mem_cons.1 hr with rfl | hr
    · rcases h2 with ⟨d, hd, hg, _⟩ | ⟨hd, _⟩
      · exact .inr ⟨d, hd, hg⟩
      · exact .inl hd
    · exact h4 r hr

/-- C49: with an empty cache and every source failing with an error the call reports it and leaves nothing. -/
theorem C49_unreachable (e : Env) (h0 : e.localFile = none) (w w' : Content) (h1 : e.net = .ioError w) (h2 : e.backup = .ioError w') :
    «open» e none = (none, .error .runtimeError) := by
  simp [«open», reading, fetch, getNew, localCopy, download, h0, h1, h2]

/-- C49: after a failed call the next one tries again: it gives what the sources then give. -/
theorem C49_retry (e : Env) (d : Content) (r : Nat) (hr : 3 ≤ r) (h0 : e.localFile = none) (h1 : e.net = .ended r d) :
    «open» e none = (some (d, e.now), .ok d) := by
  have : ¬ r < 3 := by omega
  simp [«open», reading, fetch, getNew, localCopy, download, h0, h1, this]

/-- C49: the backup is used when the first source fails. -/
theorem C49_backup (e : Env) (w d : Content) (r : Nat) (hr : 3 ≤ r) (h0 : e.localFile = none) (h1 : e.net = .ioError w)
    (h2 : e.backup = .ended r d) : «open» e none = (some (d, e.now), .ok d) := by
  have : ¬ r < 3 := by omega
  simp [«open», reading, fetch, getNew, localCopy, download, h0, h1, h2, this]

/-- C49: a file that is not due for a refresh, or has nothing newer, is given as it is. -/
theorem C49_kept (e : Env) (d : Content) (t : Int)
    (h : e.now - t ≤ e.refreshAge * 86400 ∨
      ((∀ d' t', e.localFile = some (d', t') → t' ≤ t) ∧ 0 ≤ t ∧ e.netTime ≤ t ∧ e.backupTime ≤ t)) :
    «open» e (some (d, t)) = (some (d, t), .ok d) := by
  have hs : stale e t = false := by
    unfold stale
    rcases h with h | ⟨h1, h0, h2, h3⟩
    · rw [show decide (e.refreshAge * 86400 < e.now - t) = false by simp; omega]; rfl
    · have hl : (e.localFile.map Prod.snd).getD 0 ≤ t := by
        cases hf : e.localFile with
        | none => exact h0
        | some p => exact h1 p.1 p.2 hf
      have : ¬ t < max ((e.localFile.map Prod.snd).getD 0) (if e.netTime = 0 then e.backupTime else e.netTime) := by
        split <;> omega
      simp [this]
  simp [«open», reading, fetch, hs]

/-- C49: as long as the installation has the file, that is what is given, however new the remote one is. -/
theorem C49_local_first (e : Env) (d : Content) (t : Int) (h : e.localFile = some (d, t)) (hd : 3 ≤ d.length) (hk : e.disk = .done)
    (c : Cache) (hc : c = none ∨ ∃ x y, c = some (x, y) ∧ stale e y = true) :
    «open» e c = (some (d, e.now), .ok d) := by
  have hl : ¬ d.length < 3 := by omega
  have new : getNew e = (some (d, e.now), .ok) := by
    simp [getNew, localCopy, h, hk, hl]
  rcases hc with rfl | ⟨x, y, rfl, hs⟩
  · simp [«open», reading, fetch, new]
  · simp [«open», reading, fetch, new, hs]

/-! ## What goes wrong -/

/-- A quiet day: nothing local, nothing newer. -/
def quiet (n b : Net) (now : Int) : Env :=
  { now := now, refreshAge := 14, localFile := none, disk := .done, net := n, backup := b, netTime := 0, backupTime := 0 }

example : CleanEnv (fun d => d = [1, 2, 3, 4]) (quiet (.ioError [1]) (.ended 4 [1, 2, 3, 4]) 5) :=
  ⟨(fun d t h => by cases h), rfl, trivial, fun _ => rfl⟩

theorem kept_run (w : Content) (t : Int) (es : List Env) (h : ∀ e ∈ es, e.now - t ≤ e.refreshAge * 86400) :
    run (some (w, t)) es = (some (w, t), es.map (fun _ => .ok w)) := by
  induction es with
  | nil => rfl
  | cons e es ih =>
    have := C49_kept e w t (.inl (h e (List.mem_cons_self ..)))
    rw [run, this, ih (fun x hx => h x (List.mem_cons_of_mem _ hx))]
    rfl

/-- C49: a connection that breaks after three bytes leaves its part of the file, and every later call gives it until
the refresh is due. -/
theorem C49_truncated (w : Content) (r : Nat) (hr : 3 ≤ r) (now : Int) (b : Net) (es : List Env)
    (h : ∀ e ∈ es, e.now - now ≤ e.refreshAge * 86400) :
    (run none (quiet (.ended r w) b now :: es)).2 = .ok w :: es.map (fun _ => .ok w) := by
  have : ¬ r < 3 := by omega
  have h1 : «open» (quiet (.ended r w) b now) none = (some (w, now), .ok w) := by
    simp [«open», reading, fetch, getNew, localCopy, download, quiet, this]
  rw [run, h1, kept_run w now es h]

/-- C49: an exception that is not an `IOError` leaves what was written, and the next calls give that. -/
theorem C49_raised (w : Content) (now : Int) (b : Net) (es : List Env) (h : ∀ e ∈ es, e.now - now ≤ e.refreshAge * 86400) :
    (run none (quiet (.raised w) b now :: es)).2 = .error .exception :: es.map (fun _ => .ok w) := by
  have h1 : «open» (quiet (.raised w) b now) none = (some (w, now), .error .exception) := rfl
  rw [run, h1, kept_run w now es h]

/-- C49: so does the end of the process during a download. -/
theorem C49_crash (w : Content) (now : Int) (b : Net) (es : List Env) (h : ∀ e ∈ es, e.now - now ≤ e.refreshAge * 86400) :
    (run none (quiet (.crash w) b now :: es)).2 = .error .crashed :: es.map (fun _ => .ok w) := by
  have h1 : «open» (quiet (.crash w) b now) none = (some (w, now), .error .crashed) := rfl
  rw [run, h1, kept_run w now es h]

/-- C49: and the end of the process while the local file is copied. -/
theorem C49_local_crash (d : Content) (t : Int) (k : Nat) (now : Int) (n b : Net) (es : List Env)
    (h : ∀ e ∈ es, e.now - now ≤ e.refreshAge * 86400) :
    (run none ({ quiet n b now with localFile := some (d, t), disk := .crash k } :: es)).2 =
      .error .crashed :: es.map (fun _ => .ok (d.take k)) := by
  have h1 : «open» { quiet n b now with localFile := some (d, t), disk := .crash k } none =
      (some (d.take k, now), .error .crashed) := rfl
  rw [run, h1, kept_run _ now es h]

/-- C49: a refresh that fails loses the copy that was there. -/
theorem C49_refresh_lost (d : Content) :
    «open» { quiet (.ioError []) (.ioError []) 2000000 with netTime := 1000 } (some (d, 0)) = (none, .error .runtimeError) := by
  rfl

end Verif.DataAccess
