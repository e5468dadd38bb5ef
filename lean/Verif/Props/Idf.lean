import Verif.Lemmas.IdfParse
/-!
# C94: writing and reading an interferometer definition

Every scan is read from the text that was written, with the settings in force.
-/
namespace Verif.Idf

open Dec Parser Spec

variable (all plus : List Text)

/-! ## C94 -/

/-- A project that is written and read again is the one that was rendered, with the numbers as they are written, with the scans
sorted, and with the settings in force at each scan; a scan is refused exactly if the number of alternate phase centers in force is not
its own. -/
theorem C94_round_trip_partial (w : Shown) (hw : ShownOk w) (p : Project) (hp : HeadOk plus (rendered p))
    (hs : ∀ s ∈ p.run.scans, ScanOk s) (hpo : OfficeOk (p.poScans.headD [])) :
    parse all plus (render w p) =
      (receivedAll Carry.none (rendered p).run.scans).map (receivedProject w (rendered p)) := by
  have hsc : ∀ s ∈ (rendered p).run.scans, ScanOk s := by
    intro s h
    have : (rendered p).run.scans = (sorted p.run).scans := by
      unfold rendered stamp
      simp only
      split <;> rfl
    rw [this] at h
    exact hs s (List.mem_mergeSort.mp h)
  unfold parse render
  rw [linesOf_lines, List.append_assoc, top_parse all plus _ hp, scans_all all plus w hw _ _ hpo _ hsc rfl rfl]
  · rfl
  · intro l hl
    rcases List.mem_append.mp hl with hl | hl
    · exact top_lines plus _ hp l hl
    · exact scansFrom_lines w hw 1 _ hpo _ hsc l hl

theorem rendered_scans (p : Project) : (rendered p).run.scans = p.run.scans.mergeSort fun a b => a.at ≤ b.at := by
  unfold rendered stamp
  simp only
  split <;> rfl

/-- The scans are written in the order of their starts, each of them once. -/
theorem C94_order (p : Project) : (rendered p).run.scans.Perm p.run.scans ∧ (rendered p).run.scans.Pairwise fun a b => a.at ≤ b.at := by
  rw [rendered_scans]
  refine ⟨List.mergeSort_perm _ _, ?_⟩
  have := List.pairwise_mergeSort (le := fun a b : Scan => decide (a.at ≤ b.at))
    (by intro a b c; simp only [decide_eq_true_eq]; omega) (by intro a b; simp only [Bool.or_eq_true, decide_eq_true_eq]; omega) p.run.scans
  simpa only [decide_eq_true_eq] using this

/-! ### what comes back unchanged -/

/-- Alternate phase centers that come back unchanged. -/
structure ExactAlts (l : List Alt) : Prop where
  ra : ∀ a ∈ l, toFixed 9 a.ra = a.ra
  dec : ∀ a ∈ l, toFixed 9 a.dec = a.dec
  pm : ∀ a ∈ l, (toFixed 1 a.pm.1, toFixed 1 a.pm.2) = a.pm
  still : (∀ a ∈ l, a.pm ≠ (0, 0)) ∨ ∀ a ∈ l, a.pm = (0, 0)

theorem motion_set (prev pm : Rat × Rat) (h : pm ≠ (0, 0)) : motion prev pm = (toFixed 1 pm.1, toFixed 1 pm.2) := by
  unfold motion
  rw [if_pos]
  by_cases h1 : pm.1 = 0
  · right
    intro h2
    exact h (Prod.ext h1 h2)
  · exact .inl h1

theorem motion_zero (prev : Rat × Rat) : motion prev (0, 0) = prev := by
  simp [motion]

theorem exactAlts (prev : Rat × Rat) (l : List Alt) (h1 : ∀ a ∈ l, toFixed 9 a.ra = a.ra) (h2 : ∀ a ∈ l, toFixed 9 a.dec = a.dec)
    (h3 : ∀ a ∈ l, (toFixed 1 a.pm.1, toFixed 1 a.pm.2) = a.pm)
    (h : (∀ a ∈ l, a.pm ≠ (0, 0)) ∨ (prev = (0, 0) ∧ ∀ a ∈ l, a.pm = (0, 0))) : receivedAlts prev l = l := by
  induction l generalizing prev with
  | nil => rfl
  | cons a l ih =>
    have hm : motion prev a.pm = a.pm := by
      rcases h with h | ⟨rfl, h⟩
      · rw [motion_set prev _ (h a (by simp)), h3 a (by simp)]
      · rw [h a (by simp), motion_zero]
    simp only [receivedAlts, hm, h1 a (by simp), h2 a (by simp)]
    rw [ih a.pm (fun b hb => h1 b (by simp [hb])) (fun b hb => h2 b (by simp [hb])) (fun b hb => h3 b (by simp [hb]))]
    rcases h with h | ⟨rfl, h⟩
    · exact .inl fun b hb => h b (by simp [hb])
    · exact .inr ⟨h a (by simp), fun b hb => h b (by simp [hb])⟩

/-- A scan all numbers of which are written exactly. -/
structure Exact (s : Scan) : Prop where
  comments : s.comments = some (remark s.comments)
  ra : if s.mode = .radec then toFixed 9 s.ra = s.ra else s.ra = 0
  dec : if s.mode = .radec then toFixed 9 s.dec = s.dec else s.dec = 0
  pm : if s.mode = .radec then (toFixed 1 s.pm.1, toFixed 1 s.pm.2) = s.pm else s.pm = (0, 0)
  alts : ExactAlts s.alts

/-- Settings that are made in all scans, or in none and are not in force. -/
structure Uniform (c : Carry) (l : List Scan) : Prop where
  pm : (∀ s ∈ l, s.mode = .radec → s.pm ≠ (0, 0)) ∨ (c.pm = (0, 0) ∧ ∀ s ∈ l, s.mode = .radec → s.pm = (0, 0))
  gain : (∀ s ∈ l, s.gain ≠ -1) ∨ (c.gain = -1 ∧ ∀ s ∈ l, s.gain = -1)
  asp : (∀ s ∈ l, s.asp ≠ -1) ∨ (c.asp = -1 ∧ ∀ s ∈ l, s.asp = -1)
  alts : (∀ s ∈ l, s.alts ≠ []) ∨ (c.nAlt = 0 ∧ ∀ s ∈ l, s.alts = [])

theorem received_exact (c : Carry) (s : Scan) (l : List Scan) (hs : Exact s) (hu : Uniform c (s :: l)) :
    received c s = some s ∧ Uniform (c.next s) l := by
  have g1 : (c.next s).gain = s.gain := by
    simp only [Carry.next]
    rcases hu.gain with h | ⟨h, h'⟩
    · rw [if_pos (h s (by simp))]
    · have := h' s (by simp)
      simp [this, h]
  have g2 : (c.next s).asp = s.asp := by
    simp only [Carry.next]
    rcases hu.asp with h | ⟨h, h'⟩
    · rw [if_pos (h s (by simp))]
    · have := h' s (by simp)
      simp [this, h]
  have g3 : (c.next s).nAlt = s.alts.length := by
    simp only [Carry.next]
    rcases hu.alts with h | ⟨h, h'⟩
    · rw [if_pos (h s (by simp))]
    · have := h' s (by simp)
      simp [this, h]
  have g4 : s.mode = .radec → (c.next s).pm = s.pm := by
    intro hm
    have hp := hs.pm
    rw [if_pos hm] at hp
    simp only [Carry.next, hm, if_true]
    rcases hu.pm with h | ⟨h, h'⟩
    · rw [motion_set _ _ (h s (by simp) hm), hp]
    · rw [h' s (by simp) hm, h, motion_zero]
  have g5 : receivedAlts (0, 0) s.alts = s.alts := by
    refine exactAlts _ _ hs.alts.ra hs.alts.dec hs.alts.pm ?_
    rcases hs.alts.still with h | h
    · exact .inl h
    · exact .inr ⟨rfl, h⟩
  constructor
  · unfold received
    rw [if_neg (by simp [g3])]
    obtain ⟨mode, target, intent, comments, mjd, mpm, dur, ra, dec, pm, f1, f2, fl, alts, asp, gain⟩ := s
    have h1 := hs.comments
    have h2 := hs.ra
    have h3 := hs.dec
    have h4 := hs.pm
    simp only at h1 h2 h3 h4 g1 g2 g4 g5
    by_cases hm : mode = .radec
    · simp only [hm, if_true] at h2 h3 h4
      have g4 := g4 hm
      subst hm
      simp only [if_true, g1, g2, g4, g5, h2, h3, ← h1]
    · simp only [hm, if_false] at h2 h3 h4
      simp only [g1, g2]
      simp only [hm, if_false, g5, h2, h3, h4, ← h1]
  · constructor
    · rcases hu.pm with h | ⟨h, h'⟩
      · exact .inl fun x hx => h x (by simp [hx])
      · refine .inr ⟨?_, fun x hx => h' x (by simp [hx])⟩
        by_cases hm : s.mode = .radec
        · rw [g4 hm, h' s (by simp) hm]
        · simp [Carry.next, hm, h]
    · rcases hu.gain with h | ⟨h, h'⟩
      · exact .inl fun x hx => h x (by simp [hx])
      · exact .inr ⟨by rw [g1, h' s (by simp)], fun x hx => h' x (by simp [hx])⟩
    · rcases hu.asp with h | ⟨h, h'⟩
      · exact .inl fun x hx => h x (by simp [hx])
      · exact .inr ⟨by rw [g2, h' s (by simp)], fun x hx => h' x (by simp [hx])⟩
    · rcases hu.alts with h | ⟨h, h'⟩
      · exact .inl fun x hx => h x (by simp [hx])
      · exact .inr ⟨by rw [g3, h' s (by simp)]; rfl, fun x hx => h' x (by simp [hx])⟩

theorem receivedAll_exact (c : Carry) (l : List Scan) (h : ∀ s ∈ l, Exact s) (hu : Uniform c l) : receivedAll c l = some l := by
  induction l generalizing c with
  | nil => rfl
  | cons s l ih =>
    obtain ⟨h1, h2⟩ := received_exact c s l (h s (by simp)) hu
    simp [receivedAll, h1, ih _ (fun x hx => h x (by simp [hx])) h2]

/-- If each setting is made in all scans or in none, then the scans come back as they are. -/
theorem C94_exact (w : Shown) (hw : ShownOk w) (p : Project) (hp : HeadOk plus (rendered p))
    (hs : ∀ s ∈ p.run.scans, ScanOk s ∧ Exact s) (hpo : OfficeOk (p.poScans.headD [])) (hu : Uniform Carry.none p.run.scans) :
    parse all plus (render w p) = some (receivedProject w (rendered p) (p.run.scans.mergeSort fun a b => a.at ≤ b.at)) := by
  have hm : ∀ s, s ∈ (rendered p).run.scans ↔ s ∈ p.run.scans := fun s => by
    rw [rendered_scans]
    exact List.mem_mergeSort
  rw [C94_round_trip_partial all plus w hw p hp (fun s h => (hs s h).1) hpo, receivedAll_exact]
  · rw [Option.map_some, ← rendered_scans]
  · exact fun s h => (hs s ((hm s).mp h)).2
  · have e : ∀ P : Scan → Prop, (∀ s ∈ (rendered p).run.scans, P s) ↔ ∀ s ∈ p.run.scans, P s :=
      fun P => ⟨fun h s hs => h s ((hm s).mpr hs), fun h s hs => h s ((hm s).mp hs)⟩
    exact ⟨by rw [e, e]; exact hu.pm, by rw [e, e]; exact hu.gain, by rw [e, e]; exact hu.asp, by rw [e, e]; exact hu.alts⟩

/-! ### settings that stay in force -/

theorem receivedAll_append (c : Carry) (a b : List Scan) :
    receivedAll c (a ++ b) = (receivedAll c a).bind fun x => (receivedAll (a.foldl Carry.next c) b).map fun y => x ++ y := by
  induction a generalizing c with
  | nil => simp [receivedAll]
  | cons s a ih =>
    simp only [List.cons_append, receivedAll, List.foldl_cons]
    cases received c s with
    | none => rfl
    | some o =>
      simp only [Option.bind_some, ih]
      cases receivedAll (c.next s) a with
      | none => rfl
      | some x =>
        simp only [Option.bind_some, Option.map_some]
        cases receivedAll (List.foldl Carry.next (c.next s) a) b <;> rfl

theorem nAlt_stays (c : Carry) (l : List Scan) (h : 0 < c.nAlt) : 0 < (l.foldl Carry.next c).nAlt := by
  induction l generalizing c with
  | nil => exact h
  | cons s l ih =>
    rw [List.foldl_cons]
    apply ih
    simp only [Carry.next]
    split
    · next h => exact List.length_pos_iff.mpr h
    · exact h

theorem gain_stays (c : Carry) (l : List Scan) (h : c.gain ≠ -1) : (l.foldl Carry.next c).gain ≠ -1 := by
  induction l generalizing c with
  | nil => exact h
  | cons s l ih =>
    rw [List.foldl_cons]
    apply ih
    simp only [Carry.next]
    split
    · assumption
    · exact h

/-- Once a scan has alternate phase centers, a later scan without any stops the file from being read. -/
theorem C94_not_mixed (c : Carry) (pre mid post : List Scan) (s t : Scan) (hs : s.alts ≠ []) (ht : t.alts = []) :
    receivedAll c (pre ++ s :: (mid ++ t :: post)) = none := by
  rw [receivedAll_append]
  cases receivedAll c pre with
  | none => rfl
  | some x =>
    simp only [Option.bind_some, Option.map_eq_none_iff, receivedAll]
    cases received (pre.foldl Carry.next c) s with
    | none => rfl
    | some o =>
      simp only [Option.bind_some, Option.map_eq_none_iff, receivedAll_append]
      cases receivedAll ((pre.foldl Carry.next c).next s) mid with
      | none => rfl
      | some y =>
        simp only [Option.bind_some, Option.map_eq_none_iff, receivedAll]
        have h1 : 0 < (mid.foldl Carry.next ((pre.foldl Carry.next c).next s)).nAlt := by
          apply nAlt_stays
          simp only [Carry.next, if_pos hs]
          exact List.length_pos_iff.mpr hs
        generalize mid.foldl Carry.next ((pre.foldl Carry.next c).next s) = c' at h1 ⊢
        have : received c' t = none := by
          unfold received
          rw [if_pos]
          simp only [Carry.next, ht, ne_eq, not_true, if_false, List.length_nil]
          omega
        rw [this]
        rfl

/-- The gain of a scan becomes the gain of a later scan that has none. -/
theorem C94_not_gain (c : Carry) (mid : List Scan) (s t o : Scan) (hs : s.gain ≠ -1) (ht : t.gain = -1)
    (h : received (mid.foldl Carry.next (c.next s)) t = some o) : o.gain ≠ t.gain := by
  have h1 : (mid.foldl Carry.next (c.next s)).gain ≠ -1 := by
    apply gain_stays
    simp only [Carry.next, if_pos hs]
    exact hs
  unfold received at h
  split at h
  · cases h
  · injection h with h
    rw [← h, ht]
    simp only [Carry.next, ht, ne_eq, not_true, if_false] at h1 ⊢
    exact h1

/-! ### the user name in the comments -/

theorem ucfAt_shorter (s u : Text) (d : Option Text) (r : Text) (h : ucfAt s = some (u, d, r)) : r.length < s.length := by
  unfold ucfAt at h
  split at h
  · next hp =>
    have hlen : 8 ≤ s.length := (List.isPrefixOf_iff_prefix.mp hp).length_le
    simp only at h
    have hd : ((s.drop 8).dropWhile fun c => c == ' ' || c == '\t').length ≤ s.length - 8 := by
      have := (List.dropWhile_suffix (l := s.drop 8) (fun c => c == ' ' || c == '\t')).length_le
      simpa using this
    generalize ((s.drop 8).dropWhile fun c => c == ' ' || c == '\t') = v at h hd
    split at h
    · cases h
    · split at h
      · next q hq =>
        have hl : ('/' :: q).length ≤ v.length := by
          rw [← hq]
          simp
        split at h
        · injection h with h
          injection h with _ h
          injection h with _ h
          rw [← h]
          omega
        · injection h with h
          injection h with _ h
          injection h with _ h
          rw [← h]
          have := (List.dropWhile_suffix (l := q) dirChar).length_le
          simp only [List.length_cons] at hl
          omega
      · injection h with h
        injection h with _ h
        injection h with _ h
        rw [← h]
        simp only [List.length_drop]
        omega
  · cases h

theorem ucfSubN_enough (n : Nat) (s : Text) (h : s.length ≤ n) : ucfSubN n s = ucfSub s := by
  unfold ucfSub
  suffices H : ∀ m n (s : Text), s.length ≤ m → m ≤ n → ucfSubN n s = ucfSubN m s from H _ _ s (Nat.le_refl _) h
  clear h s n
  intro m
  induction m with
  | zero =>
    intro n s h1 _
    have : s = [] := List.eq_nil_of_length_eq_zero (by omega)
    subst this
    cases n <;> rfl
  | succ m ih =>
    intro n s h1 h2
    obtain ⟨n, rfl⟩ : ∃ k, n = k + 1 := ⟨n - 1, by omega⟩
    cases s with
    | nil => rfl
    | cons c l =>
      simp only [ucfSubN]
      cases hc : ucfAt (c :: l) with
      | none =>
        simp only [List.length_cons] at h1
        rw [ih n l (by omega) (by omega)]
      | some x =>
        obtain ⟨u, d, r⟩ := x
        have := ucfAt_shorter _ _ _ _ hc
        simp only [List.length_cons] at h1 this
        exact ih n r (by omega) (by omega)

/-- Taking the match at the front away. -/
theorem ucfSub_match (s u : Text) (d : Option Text) (r : Text) (h : ucfAt s = some (u, d, r)) : ucfSub s = ucfSub r := by
  cases s with
  | nil => exact absurd (ucfAt_shorter _ _ _ _ h) (by simp)
  | cons c l =>
    have hl := ucfAt_shorter _ _ _ _ h
    simp only [List.length_cons] at hl
    rw [← ucfSubN_enough r.length.succ r (by omega), ← ucfSubN_enough (l.length + 1) (c :: l) (by simp)]
    simp only [ucfSubN, h]
    rw [ucfSubN_enough _ _ (by omega), ucfSubN_enough _ _ (by omega)]

theorem user_not_blank (c : Char) (h : userChar c = true) : (c == ' ' || c == '\t') = false := by
  by_cases h1 : c = ' '
  · subst h1; exact absurd h (by decide)
  · by_cases h2 : c = '\t'
    · subst h2; exact absurd h (by decide)
    · simp [h1, h2]

theorem takeWhile_stop {p : Char → Bool} (a r : Text) (ha : ∀ c ∈ a, p c = true) (hr : ∀ x, r.head? = some x → p x = false) :
    (a ++ r).takeWhile p = a ∧ (a ++ r).dropWhile p = r := by
  induction a with
  | nil =>
    cases r with
    | nil => simp
    | cons x r => simp [hr x rfl]
  | cons c a ih =>
    have := ih (fun x hx => ha x (by simp [hx]))
    simp [ha c (by simp), this]

theorem ucfAt_plain (u r : Text) (hu : ∀ c ∈ u, userChar c = true) (hne : u ≠ []) (hr : ∀ x, r.head? = some x → userChar x = false ∧ x ≠ '/') :
    ucfAt (ucfWord ++ (u ++ r)) = some (u, none, r) := by
  have hp : ucfWord.isPrefixOf (ucfWord ++ (u ++ r)) = true := List.isPrefixOf_iff_prefix.mpr (List.prefix_append _ _)
  have hd : (ucfWord ++ (u ++ r)).drop 8 = u ++ r := by
    rw [show 8 = ucfWord.length by decide +kernel, List.drop_left]
  obtain ⟨c, u', rfl⟩ := List.exists_cons_of_ne_nil hne
  have hb : (c :: u' ++ r).dropWhile (fun c => c == ' ' || c == '\t') = c :: u' ++ r := by
    simp [user_not_blank c (hu c (by simp))]
  have ht := (takeWhile_stop (c :: u') r hu (fun x hx => (hr x hx).1)).1
  unfold ucfAt
  simp only [hp, if_true, hd, hb, ht]
  rw [if_neg hne, List.drop_left]
  split
  · exact absurd rfl (hr '/' rfl).2
  · rfl

theorem ucfAt_dir (u d r : Text) (hu : ∀ c ∈ u, userChar c = true) (hne : u ≠ []) (hd : ∀ c ∈ d, dirChar c = true) (hdne : d ≠ [])
    (hr : ∀ x, r.head? = some x → dirChar x = false) :
    ucfAt (ucfWord ++ (u ++ '/' :: (d ++ r))) = some (u, some d, r) := by
  have hp : ucfWord.isPrefixOf (ucfWord ++ (u ++ '/' :: (d ++ r))) = true := List.isPrefixOf_iff_prefix.mpr (List.prefix_append _ _)
  have h8 : (ucfWord ++ (u ++ '/' :: (d ++ r))).drop 8 = u ++ '/' :: (d ++ r) := by
    rw [show 8 = ucfWord.length by decide +kernel, List.drop_left]
  obtain ⟨c, u', rfl⟩ := List.exists_cons_of_ne_nil hne
  have hb : (c :: u' ++ '/' :: (d ++ r)).dropWhile (fun c => c == ' ' || c == '\t') = c :: u' ++ '/' :: (d ++ r) := by
    simp [user_not_blank c (hu c (by simp))]
  have ht := (takeWhile_stop (c :: u') ('/' :: (d ++ r)) hu (by intro x hx; cases hx; decide)).1
  obtain ⟨e1, e2⟩ := takeWhile_stop (p := dirChar) d r hd hr
  unfold ucfAt
  simp only [hp, if_true, h8, hb, ht]
  rw [if_neg hne, List.drop_left]
  simp only [e1, e2]
  rw [if_neg hdne]

theorem ucfFind_at (s u : Text) (d : Option Text) (r : Text) (h : ucfAt s = some (u, d, r)) : ucfFind s = some (u, d) := by
  cases s with
  | nil => exact absurd (ucfAt_shorter _ _ _ _ h) (by simp)
  | cons c l => simp only [ucfFind, h]

/-- Names of users: a name, or a name and a directory that is not an absolute path. -/
inductive UserName : Text → Prop where
  | plain (u : Text) : u ≠ [] → (∀ c ∈ u, userChar c = true) → UserName u
  | dir (u d : Text) : u ≠ [] → (∀ c ∈ u, userChar c = true) → d ≠ [] → (∀ c ∈ d, dirChar c = true) → d.head? ≠ some '/' →
      UserName (u ++ '/' :: d)

/-- A user name in front of the comments is found again and taken away. -/
theorem C94_user (u r : Text) (hu : UserName u) (hr : r = [] ∨ ∃ t, r = ';' :: t) :
    userOf (ucfWord ++ (u ++ r)) = some u ∧ ucfSub (ucfWord ++ (u ++ r)) = ucfSub r := by
  cases hu with
  | plain u hne hc =>
    have h := ucfAt_plain u r hc hne (by
      rcases hr with rfl | ⟨t, rfl⟩
      · simp
      · intro x hx; cases hx; decide)
    refine ⟨?_, ucfSub_match _ _ _ _ h⟩
    simp [userOf, ucfFind_at _ _ _ _ h]
  | dir u d hne hc hdne hd hh =>
    have h := ucfAt_dir u d r hc hne hd hdne (by
      rcases hr with rfl | ⟨t, rfl⟩
      · simp
      · intro x hx; cases hx; decide)
    have e : ucfWord ++ (u ++ '/' :: d ++ r) = ucfWord ++ (u ++ '/' :: (d ++ r)) := by simp
    rw [e]
    refine ⟨?_, ucfSub_match _ _ _ _ h⟩
    simp [userOf, ucfFind_at _ _ _ _ h, joinPath, hh]

theorem ucfWord_eq : ucfWord = 'u' :: "cfuser:".toList := by decide +kernel

theorem ucfSub_semi (r : Text) : ucfSub (';' :: r) = ';' :: ucfSub r := by
  have h : ucfAt (';' :: r) = none := by
    unfold ucfAt
    rw [ucfWord_eq, if_neg (by simp)]
  rw [← ucfSubN_enough (r.length + 1) (';' :: r) (by simp)]
  simp only [ucfSubN, h]
  rfl

theorem remark_short (t : Text) (h1 : t ≠ []) (h2 : t.length ≤ 4090) : remark (some t) = t := by
  cases t with
  | nil => exact absurd rfl h1
  | cons c l =>
    unfold remark
    exact List.take_of_length_le h2

/-- The comments of a run with a user name come back with two more characters in front. -/
theorem C94_not_comments (r : Run) (u x : Text) (hu : UserName u) (h1 : r.ucf = some u) (h2 : ucfSub (r.comments.getD []) = x) (h3 : x ≠ [])
    (h4 : 10 + u.length + x.length ≤ 4090) :
    userOf (remark (stamp r).comments) = some u ∧ ucfSub (remark (stamp r).comments) = ";;".toList ++ ucfSub x := by
  have e : (stamp r).comments = some (ucfWord ++ (u ++ (';' :: ';' :: x))) := by
    unfold stamp
    simp only [h1, h2]
    rw [if_neg h3]
    simp [show ";;".toList = [';', ';'] from rfl]
  have hl : (ucfWord ++ (u ++ (';' :: ';' :: x))).length ≤ 4090 := by
    simp only [List.length_append, List.length_cons, show ucfWord.length = 8 by decide +kernel]
    omega
  have er : remark (stamp r).comments = ucfWord ++ (u ++ (';' :: ';' :: x)) := by
    rw [e]
    exact remark_short _ (by rw [ucfWord_eq]; simp) hl
  rw [er]
  have := C94_user u (';' :: ';' :: x) hu (.inr ⟨_, rfl⟩)
  rw [this.1, this.2, ucfSub_semi, ucfSub_semi]
  exact ⟨rfl, rfl⟩

/-! ### witnesses -/

theorem clean_of (t : Text) (h : (match t with | [] => false | c :: _ => !isBlank c) = true ∧ '\n' ∉ t ∧ '\r' ∉ t) : Clean t := by
  refine ⟨?_, h.2⟩
  cases t with
  | nil => exact absurd h.1 (by decide)
  | cons c l => exact ⟨c, l, rfl, by simpa using h.1⟩

def demoShown : Shown := ⟨fun _ _ => "UTC 2026/11/16 00:00:00.000000".toList, fun _ => "1 MB".toList, fun _ => "19.6 MHz".toList⟩

theorem demoShown_ok : ShownOk demoShown := by
  exact ⟨fun _ _ => clean_of "UTC 2026/11/16 00:00:00.000000".toList (by decide +kernel), fun _ => clean_of "1 MB".toList (by decide +kernel),
    fun _ => clean_of "19.6 MHz".toList (by decide +kernel)⟩

def demoAlt : Alt := ⟨"B".toList, "phasecal".toList, 5, 20, (0, 0)⟩

def demoScan : Scan :=
  ⟨.radec, "A".toList, "target".toList, some "x".toList, 61360, 1000, 60000, 41 / 8, -20, (0, 0), 832697741, 0, 7, [], -1, -1⟩

def demoRun : Run :=
  ⟨3, some "R".toList, "UCF".toList, none, some "none".toList, 512, 1, "linear".toList, ["VL".toList, "SV".toList], [demoScan]⟩

def demo : Project := ⟨7, "P".toList, "AB001".toList, "T".toList, some "c".toList, none, [], [], demoRun⟩

def both : List Text := ["VL".toList, "SV".toList]

theorem demo_head (ss : List Scan) : HeadOk both (rendered { demo with run := { demoRun with scans := ss } }) := by
  have e : rendered { demo with run := { demoRun with scans := ss } } =
      { demo with run := { demoRun with scans := (rendered { demo with run := { demoRun with scans := ss } }).run.scans } } := rfl
  rw [e]
  generalize (rendered { demo with run := { demoRun with scans := ss } }).run.scans = l
  constructor
  · exact clean_of "P".toList (by decide +kernel)
  · exact clean_of "AB001".toList (by decide +kernel)
  · exact clean_of "T".toList (by decide +kernel)
  · exact clean_of "c".toList (by decide +kernel)
  · exact clean_of "None".toList (by decide +kernel)
  · exact clean_of "R".toList (by decide +kernel)
  · intro n hn
    simp only [demoRun, List.mem_cons, List.not_mem_nil, or_false] at hn
    rcases hn with rfl | rfl
    all_goals exact ⟨by decide +kernel, by decide +kernel, by decide +kernel, by decide +kernel, clean_of _ (by decide +kernel)⟩
  · exact Nat.le_refl 2
  · show (16 : Int) ≤ 512 ∧ (512 : Int) ≤ 32768 ∧ (512 : Int) % 2 = 0
    decide
  · show 1 / 10 ≤ toFixed 3 1 ∧ toFixed 3 1 ≤ 10
    decide +kernel
  · show lower "linear".toList ∈ _
    decide +kernel
  · exact clean_of "linear".toList (by decide +kernel)
  · exact clean_of "none".toList (by decide +kernel)
  · show '\n' ∉ "UCF".toList ∧ '\r' ∉ "UCF".toList ∧ ';' ∉ "UCF".toList
    decide +kernel
  · intro t ht
    exact absurd ht (by simp [demo, given?])

theorem demo_scan (m : Int) (a g : Int) (pm : Rat × Rat) (al : List Alt) (hm : 0 ≤ m ∧ m < 86400000) (ha : ∀ x ∈ al, AltOk x) :
    ScanOk { demoScan with mpm := m, asp := a, gain := g, pm := pm, alts := al } :=
  ⟨clean_of "A".toList (by decide +kernel), by show "target".toList ∈ intents; decide +kernel, clean_of "x".toList (by decide +kernel), hm,
    fun _ => by show SdfParse.raDecOk (toFixed 9 (41 / 8)) (toFixed 9 (-20)) = true; decide +kernel, ha⟩

theorem demoAlt_ok : AltOk demoAlt :=
  ⟨clean_of _ (by decide +kernel), by decide +kernel, by unfold InRange; decide +kernel⟩

/-- There are projects as in the theorems: this one comes back with its scans. -/
theorem demo_back : (parse both both (render demoShown demo)).map (fun q => q.run.scans) = some [demoScan] := by
  have h := C94_round_trip_partial both both demoShown demoShown_ok demo (demo_head [demoScan])
    (by
      intro s hs
      simp only [demo, demoRun, List.mem_singleton] at hs
      subst hs
      exact demo_scan 1000 (-1) (-1) (0, 0) [] (by decide) (by simp)) (by intro x hx; simp [demo] at hx)
  rw [h]
  decide +kernel

/-- A scan with the settings given. -/
def at' (m : Int) (a g : Int) (pm : Rat × Rat) (al : List Alt) : Scan := { demoScan with mpm := m, asp := a, gain := g, pm := pm, alts := al }

theorem sort_two (le : Scan → Scan → Bool) (a b : Scan) : [a, b].mergeSort le = if le a b then [a, b] else [b, a] := by
  simp [List.mergeSort, List.merge, List.MergeSort.Internal.splitInTwo]

theorem pair_back (s t : Scan) (hs : ScanOk s) (ht : ScanOk t) :
    (parse both both (render demoShown { demo with run := { demoRun with scans := [s, t] } })).map (fun q => q.run.scans) =
      receivedAll Carry.none (if s.at ≤ t.at then [s, t] else [t, s]) := by
  have h := C94_round_trip_partial both both demoShown demoShown_ok { demo with run := { demoRun with scans := [s, t] } } (demo_head _)
    (by
      intro x hx
      simp only [List.mem_cons, List.not_mem_nil, or_false] at hx
      rcases hx with rfl | rfl <;> assumption) (by intro x hx; simp [demo] at hx)
  rw [h, rendered_scans, Option.map_map, sort_two]
  simp only [decide_eq_true_eq]
  generalize receivedAll Carry.none (if s.at ≤ t.at then [s, t] else [t, s]) = o
  cases o <;> rfl

/-- Gain, ASP filter and proper motion of the first scan are read for the second one, which has none. -/
theorem C94_not_reset :
    (parse both both (render demoShown { demo with run := { demoRun with scans := [at' 1000 2 6 (10, -5) [], at' 900000 (-1) (-1) (0, 0) []] } })).map
      (fun q => q.run.scans.map fun s => (s.asp, s.gain, s.pm)) = some [(2, 6, (10, -5)), (2, 6, (10, -5))] := by
  have h := pair_back (at' 1000 2 6 (10, -5) []) (at' 900000 (-1) (-1) (0, 0) []) (demo_scan _ _ _ _ _ (by decide) (by simp))
    (demo_scan _ _ _ _ _ (by decide) (by simp))
  have e : ∀ o : Option Project, o.map (fun q => q.run.scans.map fun s => (s.asp, s.gain, s.pm)) =
      (o.map fun q => q.run.scans).map fun l => l.map fun s => (s.asp, s.gain, s.pm) := by
    intro o; cases o <;> rfl
  rw [e, h]
  decide +kernel

/-- A file that was written cannot be read: the first scan has an alternate phase center and the second has none. -/
theorem C94_not_readable :
    parse both both (render demoShown { demo with run := { demoRun with scans := [at' 1000 (-1) (-1) (0, 0) [demoAlt], at' 900000 (-1) (-1) (0, 0) []] } })
      = none := by
  have h := pair_back (at' 1000 (-1) (-1) (0, 0) [demoAlt]) (at' 900000 (-1) (-1) (0, 0) [])
    (demo_scan _ _ _ _ _ (by decide) (by intro x hx; simp only [List.mem_singleton] at hx; subst hx; exact demoAlt_ok))
    (demo_scan _ _ _ _ _ (by decide) (by simp))
  have e : receivedAll Carry.none
      (if (at' 1000 (-1) (-1) (0, 0) [demoAlt]).at ≤ (at' 900000 (-1) (-1) (0, 0) []).at then
        [at' 1000 (-1) (-1) (0, 0) [demoAlt], at' 900000 (-1) (-1) (0, 0) []]
      else [at' 900000 (-1) (-1) (0, 0) [], at' 1000 (-1) (-1) (0, 0) [demoAlt]]) = none := by
    decide +kernel
  rw [e] at h
  simpa using h

/-- The proper motion of an alternate phase center is read for the next one. -/
theorem C94_not_alternate : receivedAlts (0, 0) [{ demoAlt with pm := (10, 0) }, demoAlt] = [{ demoAlt with pm := (10, 0) }, { demoAlt with pm := (10, 0) }] := by
  decide +kernel

/-- A right ascension just below 24 h is written as 24 and then refused. -/
theorem C94_not_range : SdfParse.raDecOk (24 - 1 / 10 ^ 10) 0 = true ∧ ¬ InRange (24 - 1 / 10 ^ 10) 0 := by
  unfold InRange
  constructor <;> decide +kernel

/-- Two slashes make the directory an absolute path, and the user name is lost. -/
theorem C94_not_user : userOf "ucfuser:me//data".toList = some "/data".toList := by decide +kernel

/-- The comments of the project office stay where they are when the scans are sorted. -/
theorem C94_not_office :
    let a := at' 900000 (-1) (-1) (0, 0) []
    let b := at' 1000 (-1) (-1) (0, 0) []
    (rendered { demo with poScans := [[some "late".toList, some "early".toList]], run := { demoRun with scans := [a, b] } }).run.scans = [b, a] ∧
      (rendered { demo with poScans := [[some "late".toList, some "early".toList]], run := { demoRun with scans := [a, b] } }).poScans =
        [[some "late".toList, some "early".toList]] := by
  refine ⟨?_, rfl⟩
  rw [rendered_scans, sort_two]
  decide +kernel

/-- A scan without a target is read with the target of the scan before. -/
theorem C94_not_target :
    (steps both both ⟨demo, { Temp.new with target := "old".toList }, []⟩ [row "SCAN_TARGET" 17 []]).map (fun s => s.t.target) = some "old".toList := by
  decide +kernel

/-- Milliseconds beyond a day count for the days after. -/
theorem C94_day (t : Temp) (alts : List AltTemp) (s : Scan) (h : create t alts = some s) (mjd mpm : Int) (h1 : t.mjd = some mjd) (h2 : t.mpm = some mpm) :
    s.at = mjd * 86400000 + mpm ∧ 0 ≤ s.mpm ∧ s.mpm < 86400000 := by
  unfold create at h
  rw [h1, h2] at h
  split at h
  · next a b _ _ _ _ e1 e2 _ _ _ _ =>
    injection e1 with e1
    injection e2 with e2
    subst e1 e2
    split at h
    · cases h
    · split at h
      · cases h
      · injection h with h
        subst h
        simp only [Scan.at]
        omega
  · cases h

/-- One part of the proper motion of an alternate phase center leaves the other as it is. -/
theorem C94_parts (all plus : List Text) (s s' : State) (a : AltTemp) (v : Text) (h : s.alts = [a]) :
    (act all plus s .altPmRa a.id v = some s' → ∃ x, float? v = some x ∧ s'.alts = [{ a with pm := (x, a.pm.2) }]) ∧
    (act all plus s .altPmDec a.id v = some s' → ∃ x, float? v = some x ∧ s'.alts = [{ a with pm := (a.pm.1, x) }]) := by
  constructor <;>
  · intro hs
    simp only [act, h] at hs
    rw [Option.bind_eq_some_iff] at hs
    obtain ⟨x, hx, hs⟩ := hs
    injection hs with hs
    subst hs
    exact ⟨x, hx, by simp [onAlt]⟩

/-- What is read of a run is within limits: two stations at least, an even number of channels from 16 to 32768, and integrations of 0.1 to 10 s. -/
theorem C94_limits (all plus : List Text) (s s' : State) (id : Int) (v : Text) :
    (act all plus s .runStations id v = some s' → 2 ≤ s'.p.run.stations.length) ∧
    (act all plus s .runChannels id v = some s' → 16 ≤ s'.p.run.channels ∧ s'.p.run.channels ≤ 32768 ∧ s'.p.run.channels % 2 = 0) ∧
    (act all plus s .runInttime id v = some s' → 1 / 10 ≤ s'.p.run.inttime ∧ s'.p.run.inttime ≤ 10) := by
  refine ⟨fun h => ?_, fun h => ?_, fun h => ?_⟩
  · simp only [act] at h
    split at h
    · cases h
    · injection h with h
      subst h
      simp only
      omega
  · simp only [act] at h
    rw [Option.bind_eq_some_iff] at h
    obtain ⟨n, -, h⟩ := h
    split at h
    · cases h
    · injection h with h
      subst h
      simp only
      omega
  · simp only [act] at h
    rw [Option.bind_eq_some_iff] at h
    obtain ⟨x, -, h⟩ := h
    split at h
    · cases h
    · next hx =>
      injection h with h
      subst h
      simp only
      exact ⟨Rat.not_lt.mp fun c => hx (.inl c), Rat.not_lt.mp fun c => hx (.inr c)⟩

/-- Comments of the project office that read None are as good as none. -/
theorem C94_none (w : Shown) (id : Nat) (s : Scan) (r : Run) :
    headLines w id (some noneText) s = headLines w id none s ∧ runRemark r (some noneText) = runRemark r none := ⟨rfl, rfl⟩

example : UserName "me/data_1".toList := by
  have := UserName.dir "me".toList "data_1".toList (by decide +kernel) (by decide +kernel) (by decide +kernel) (by decide +kernel) (by decide +kernel)
  exact this

example : Uniform Carry.none [demoScan] :=
  ⟨.inr ⟨rfl, by decide +kernel⟩, .inr ⟨rfl, by decide +kernel⟩, .inr ⟨rfl, by decide +kernel⟩, .inr ⟨rfl, by decide +kernel⟩⟩

example : Exact demoScan :=
  ⟨by decide +kernel, by decide +kernel, by decide +kernel, by decide +kernel,
    ⟨by simp [demoScan], by simp [demoScan], by simp [demoScan], by simp [demoScan]⟩⟩

end Verif.Idf
