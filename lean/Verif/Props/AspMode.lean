import Verif.Model.AspMode
/-!
# C47 the summary is the mode, C68 each MIB entry sets its own antenna
-/
namespace Verif.AspMode

theorem bump_spec (d : List (Int × Nat)) (v w : Int) (n : Nat) (hk : (d.map (·.1)).Nodup) :
    ((w, n) ∈ bump d v ↔ if w = v then (∃ m, (v, m) ∈ d ∧ n = m + 1) ∨ ((∀ m, (v, m) ∉ d) ∧ n = 1)
      else (w, n) ∈ d) ∧ ((bump d v).map (·.1)).Nodup ∧ (∀ x, x ∈ (bump d v).map (·.1) ↔ x = v ∨ x ∈ d.map (·.1)) := by
  induction d with
  | nil =>
    refine ⟨?_, by simp [bump], by simp [bump]⟩
    simp only [bump]
    split <;> simp_all
  | cons e d ih =>
    obtain ⟨u, k⟩ := e
    rw [List.map_cons, List.nodup_cons] at hk
    obtain ⟨ih1, ih2, ih3⟩ := ih hk.2
    simp only [bump]
    split
    · next huv =>
      subst huv
      refine ⟨?_, ?_, ?_⟩
      · have hno : ∀ m, (u, m) ∉ d := fun m hm => hk.1 (List.mem_map.2 ⟨(u, m), hm, rfl⟩)
        by_cases hw : w = u
        · subst hw; simp [hno]
        · simp [hw]
      · simpa using hk
      · intro x; simp
    · next huv =>
      refine ⟨?_, ?_, ?_⟩
      · by_cases hw : w = v
        · subst hw
          simp only [if_true] at ih1 ⊢
          simp only [List.mem_cons, Prod.mk.injEq, Ne.symm huv, false_and, false_or, ih1]
        · simp only [hw, if_false] at ih1 ⊢
          simp [ih1]
      · rw [List.map_cons, List.nodup_cons]
        refine ⟨?_, ih2⟩
        rw [ih3]
        intro h
        rcases h with h | h
        · exact huv h
        · exact hk.1 h
      · intro x
        simp only [List.map_cons, List.mem_cons, ih3]
        grind

/-- The dictionary holds every value once, with how often it occurs. -/
theorem countAll_spec (l : List Int) :
    ((countAll l).map (·.1)).Nodup ∧ ∀ v n, (v, n) ∈ countAll l ↔ v ∈ l ∧ n = l.count v := by
  suffices h : ∀ (r : List Int), ((r.reverse.foldl bump []).map (·.1)).Nodup ∧
      ∀ v n, (v, n) ∈ r.reverse.foldl bump [] ↔ v ∈ r ∧ n = r.count v by
    have := h l.reverse
    simpa [countAll] using this
  intro r
  induction r with
  | nil => simp
  | cons a r ih =>
    rw [List.reverse_cons, List.foldl_append, List.foldl_cons, List.foldl_nil]
    have hs := fun v n => bump_spec (r.reverse.foldl bump []) a v n ih.1
    refine ⟨(hs 0 0).2.1, ?_⟩
    intro v n
    rw [(hs v n).1]
    split
    · next hv =>
      subst hv
      simp only [ih.2, List.mem_cons, true_or, true_and, List.count_cons_self]
      constructor
      · rintro (⟨m, ⟨_, rfl⟩, rfl⟩ | ⟨h, rfl⟩)
        · rfl
        · have : v ∉ r := fun hv => h _ ⟨hv, rfl⟩
          rw [List.count_eq_zero_of_not_mem this]
      · intro h
        by_cases hv : v ∈ r
        · exact Or.inl ⟨_, ⟨hv, rfl⟩, h⟩
        · refine Or.inr ⟨fun m hm => hv hm.1, ?_⟩
          rw [h, List.count_eq_zero_of_not_mem hv]
    · next hv =>
      rw [ih.2, List.count_cons_of_ne (Ne.symm hv)]
      simp [hv]

theorem pick_max (d : List (Int × Nat)) (s : Nat × Int) :
    s.1 ≤ (d.foldl pickStep s).1 ∧ (∀ e ∈ d, e.2 ≤ (d.foldl pickStep s).1) ∧
    (d.foldl pickStep s = s ∨ ((d.foldl pickStep s).2, (d.foldl pickStep s).1) ∈ d) := by
  induction d generalizing s with
  | nil => simp
  | cons e d ih =>
    obtain ⟨h1, h2, h3⟩ := ih (pickStep s e)
    have hs : s.1 ≤ (pickStep s e).1 ∧ e.2 ≤ (pickStep s e).1 := by
      unfold pickStep; split <;> simp <;> omega
    rw [List.foldl_cons]
    refine ⟨by omega, ?_, ?_⟩
    · intro x hx
      rcases List.mem_cons.1 hx with rfl | hx
      · omega
      · exact h2 x hx
    · rcases h3 with h3 | h3
      · rw [h3]
        unfold pickStep
        split
        · right; exact List.mem_cons_self ..
        · left; rfl
      · right; exact List.mem_cons_of_mem _ h3

/-- C47: the summary is one of the settings, and no setting occurs more often. -/
theorem C47_mode (l : List Int) (hl : l ≠ []) : mode l ∈ l ∧ ∀ w, l.count w ≤ l.count (mode l) := by
  obtain ⟨hnd, hc⟩ := countAll_spec l
  obtain ⟨h1, h2, h3⟩ := pick_max (countAll l) (0, 0)
  have hpos : 0 < ((countAll l).foldl pickStep (0, 0)).1 := by
    obtain ⟨a, t, rfl⟩ := List.exists_cons_of_ne_nil hl
    have := h2 (a, (a :: t).count a) ((hc _ _).2 ⟨List.mem_cons_self .., rfl⟩)
    simp only [List.count_cons_self] at this; omega
  rcases h3 with h3 | h3
  · rw [h3] at hpos; simp at hpos
  · obtain ⟨hm, hn⟩ := (hc _ _).1 h3
    refine ⟨hm, ?_⟩
    intro w
    by_cases hw : w ∈ l
    · have := h2 (w, l.count w) ((hc _ _).2 ⟨hw, rfl⟩)
      rw [show l.count (mode l) = ((countAll l).foldl pickStep (0, 0)).1 from hn.symm]
      exact this
    · rw [List.count_eq_zero_of_not_mem hw]; omega

/-- C47: without settings the summary is 0. -/
theorem C47_empty : mode [] = 0 := rfl

example : mode [3, -1, 3, 5, -1, 3] = 3 := by decide

/-! ## C68 -/

/-- The four parameters: filter and the three attenuators. -/
inductive Param
  | flt | at1 | at2 | at3
  deriving DecidableEq

/-- The column of a parameter. -/
def col (a : Asp) : Param → List Int
  | .flt => a.flt
  | .at1 => a.at1
  | .at2 => a.at2
  | .at3 => a.at3

/-- MIB index of the setting of antenna `i`: `3.i`, `4.1.i`, `4.2.i`, `4.3.i`. -/
def mibIndex (p : Param) (i : Int) : List Int :=
  match p with
  | .flt => [3, i]
  | .at1 => [4, 1, i]
  | .at2 => [4, 2, i]
  | .at3 => [4, 3, i]

/-- An entry of a setting, or of something else. -/
structure Entry where
  param : Param
  ant : Int
  value : Int

def Full (a : Asp) : Prop := ∀ p, (col a p).length = 256

theorem applyEntry_setting (a : Asp) (p : Param) (i v : Int) (hf : Full a) (h0 : 1 ≤ i) :
    ∃ a', applyEntry a (mibIndex p i) v = some a' ∧ Full a' ∧
      ∀ q (k : Nat), k < 256 → (col a' q).getD k 0 =
        if q = p ∧ (k : Int) + 1 = i then v else (col a q).getD k 0 := by
  have key : ∀ l : List Int, l.length = 256 →
      (match pySet l (i - 1) v with | some l => l | none => l).length = 256 ∧
      ∀ k : Nat, k < 256 → (match pySet l (i - 1) v with | some l => l | none => l).getD k 0 =
        if (k : Int) + 1 = i then v else l.getD k 0 := by
    intro l hl
    simp only [pySet, show ¬ i - 1 < 0 by omega, if_false, hl]
    split
    · next h =>
      split at h
      · next hr =>
        cases h
        refine ⟨by simp [hl], ?_⟩
        intro k hk
        simp only [List.getD_eq_getElem?_getD, List.getElem?_set, hl]
        by_cases he : (k : Int) + 1 = i
        · have : (i - 1).toNat = k := by omega
          simp [he, this, hk]
        · have : (i - 1).toNat ≠ k := by omega
          rw [if_neg this, if_neg he]
      · cases h
    · next h =>
      split at h
      · cases h
      · next hr =>
        refine ⟨hl, ?_⟩
        intro k hk
        rw [if_neg (by omega)]
  have e : ∀ (o : Option (List Int)) (f : List Int → Asp) (b : Asp) (g : Asp → List Int),
      g (match o with | some l => f l | none => b) = match o with | some l => g (f l) | none => g b := by
    intro o f b g; cases o <;> rfl
  cases p
  · refine ⟨_, rfl, ?_, ?_⟩
    · intro q; cases q <;> cases h : pySet a.flt (i - 1) v <;> have := key a.flt (hf .flt) <;> have := hf .flt <;>
        have := hf .at1 <;> have := hf .at2 <;> have := hf .at3 <;> simp_all [col]
    · intro q k hk
      have hk' := (key a.flt (hf .flt)).2 k hk
      cases q <;> cases h : pySet a.flt (i - 1) v <;> simp_all [col]
  · refine ⟨_, rfl, ?_, ?_⟩
    · intro q; cases q <;> cases h : pySet a.at1 (i - 1) v <;> have := key a.at1 (hf .at1) <;> have := hf .flt <;>
        have := hf .at1 <;> have := hf .at2 <;> have := hf .at3 <;> simp_all [col]
    · intro q k hk
      have hk' := (key a.at1 (hf .at1)).2 k hk
      cases q <;> cases h : pySet a.at1 (i - 1) v <;> simp_all [col]
  · refine ⟨_, rfl, ?_, ?_⟩
    · intro q; cases q <;> cases h : pySet a.at2 (i - 1) v <;> have := key a.at2 (hf .at2) <;> have := hf .flt <;>
        have := hf .at1 <;> have := hf .at2 <;> have := hf .at3 <;> simp_all [col]
    · intro q k hk
      have hk' := (key a.at2 (hf .at2)).2 k hk
      cases q <;> cases h : pySet a.at2 (i - 1) v <;> simp_all [col]
  · refine ⟨_, rfl, ?_, ?_⟩
    · intro q; cases q <;> cases h : pySet a.at3 (i - 1) v <;> have := key a.at3 (hf .at3) <;> have := hf .flt <;>
        have := hf .at1 <;> have := hf .at2 <;> have := hf .at3 <;> simp_all [col]
    · intro q k hk
      have hk' := (key a.at3 (hf .at3)).2 k hk
      cases q <;> cases h : pySet a.at3 (i - 1) v <;> simp_all [col]

/-- The value set last for a parameter and antenna, or the one before. -/
def lastSet (q : Param) (k : Nat) (old : Int) (l : List Entry) : Int :=
  l.foldl (fun v e => if e.param = q ∧ e.ant = (k : Int) + 1 then e.value else v) old

/-- C68: after any settings with antenna numbers from 1 on, each antenna has what was set for it (entries above 256
are ignored) and every other antenna still has -1. -/
theorem C68_settings_partial (l : List Entry) (h : ∀ e ∈ l, 1 ≤ e.ant) :
    ∃ a, applyAll stub (l.map (fun e => (mibIndex e.param e.ant, e.value))) = some a ∧
      ∀ q (k : Nat), k < 256 → (col a q).getD k 0 = lastSet q k (-1) l := by
  have hstub : Full stub := by intro p; cases p <;> exact List.length_replicate
  have hstub' : ∀ q (k : Nat), k < 256 → (col stub q).getD k 0 = -1 := by
    intro q k hk; cases q <;>
      (rw [List.getD_eq_getElem?_getD]; exact (congrArg (Option.getD · 0) (List.getElem?_replicate (n := 256))).trans (by rw [if_pos hk]; rfl))
  have gen : ∀ (l : List Entry), (∀ e ∈ l, 1 ≤ e.ant) → ∀ b, Full b →
      ∃ a, applyAll b (l.map (fun e => (mibIndex e.param e.ant, e.value))) = some a ∧
      ∀ q (k : Nat), k < 256 → (col a q).getD k 0 = lastSet q k ((col b q).getD k 0) l := by
    intro l
    induction l with
    | nil => intro _ b _; exact ⟨b, rfl, fun q k _ => rfl⟩
    | cons e l ih =>
      intro h b hb
      obtain ⟨b', h1, h2, h3⟩ := applyEntry_setting b e.param e.ant e.value hb (h e (List.mem_cons_self ..))
      obtain ⟨a, h4, h5⟩ := ih (fun x hx => h x (List.mem_cons_of_mem _ hx)) b' h2
      refine ⟨a, ?_, ?_⟩
      · simp only [List.map_cons, applyAll, h1]; exact h4
      · intro q k hk
        rw [h5 q k hk, h3 q k hk]
        simp only [lastSet, List.foldl_cons]
        congr 1
        by_cases hc : q = e.param ∧ (k : Int) + 1 = e.ant
        · rw [if_pos hc, if_pos ⟨hc.1.symm, hc.2.symm⟩]
        · rw [if_neg hc, if_neg (fun h => hc ⟨h.1.symm, h.2.symm⟩)]
  obtain ⟨a, h1, h2⟩ := gen l h stub hstub
  exact ⟨a, h1, fun q k hk => by rw [h2 q k hk, hstub' q k hk]⟩

/-- C68: an entry numbered 0 changes the last antenna. -/
theorem C68_zero_witness : ∃ a, applyEntry stub [3, 0] 7 = some a ∧ a.flt.getD 255 0 = 7 :=
  ⟨_, rfl, by decide +kernel⟩

/-- C68: an entry with the index 4 alone is an error. -/
theorem C68_short_witness (a : Asp) (v : Int) : applyEntry a [4] v = none := rfl

end Verif.AspMode
