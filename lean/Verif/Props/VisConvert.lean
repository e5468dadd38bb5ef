import Verif.Lemmas.VisData
/-!
# C72: Stokes parameters and products
-/
namespace Verif.VisData
open Spec

/-- Arrays of the same shape. -/
def SameShape {α β : Type} (a : List (List α)) (b : List (List β)) : Prop := a.map List.length = b.map List.length

theorem zipWith_first {α β : Type} (f : α → β → α) (hf : ∀ x y, f x y = x) (a : List α) (b : List β) (h : a.length = b.length) :
    List.zipWith f a b = a := by
  induction a generalizing b with
  | nil => simp
  | cons x a ih =>
    cases b with
    | nil => simp at h
    | cons y b => rw [List.zipWith_cons_cons, hf, ih b (by simpa using h)]

theorem zipWith_second {α β : Type} (f : α → β → β) (hf : ∀ x y, f x y = y) (a : List α) (b : List β) (h : a.length = b.length) :
    List.zipWith f a b = b := by
  induction b generalizing a with
  | nil => simp
  | cons y b ih =>
    cases a with
    | nil => simp at h
    | cons x a => rw [List.zipWith_cons_cons, hf, ih a (by simpa using h)]

theorem zipWith_zipWith {α β γ δ ε : Type} (f : γ → δ → ε) (g : α → β → γ) (h : α → β → δ) (a : List α) (b : List β) :
    List.zipWith f (List.zipWith g a b) (List.zipWith h a b) = List.zipWith (fun x y => f (g x y) (h x y)) a b := by
  induction a generalizing b with
  | nil => simp
  | cons x a ih =>
    cases b with
    | nil => simp
    | cons y b => simp [ih]

theorem zip2_zip2 {α β γ δ ε : Type} (f : γ → δ → ε) (g : α → β → γ) (h : α → β → δ) (a : List (List α)) (b : List (List β)) :
    zip2 f (zip2 g a b) (zip2 h a b) = zip2 (fun x y => f (g x y) (h x y)) a b := by
  unfold zip2
  rw [zipWith_zipWith]
  congr 1
  funext x y
  exact zipWith_zipWith f g h x y

theorem zip2_first {α β : Type} (f : α → β → α) (hf : ∀ x y, f x y = x) (a : List (List α)) (b : List (List β))
    (h : SameShape a b) : zip2 f a b = a := by
  unfold zip2
  unfold SameShape at h
  induction a generalizing b with
  | nil => simp
  | cons x a ih =>
    cases b with
    | nil => simp at h
    | cons y b =>
      simp only [List.map_cons, List.cons.injEq] at h
      rw [List.zipWith_cons_cons, zipWith_first f hf x y h.1, ih b h.2]

theorem zip2_second {α β : Type} (f : α → β → β) (hf : ∀ x y, f x y = y) (a : List (List α)) (b : List (List β))
    (h : SameShape a b) : zip2 f a b = b := by
  unfold zip2
  unfold SameShape at h
  induction b generalizing a with
  | nil => simp
  | cons y b ih =>
    cases a with
    | nil => simp at h
    | cons x a =>
      simp only [List.map_cons, List.cons.injEq] at h
      rw [List.zipWith_cons_cons, zipWith_second f hf x y h.1, ih a h.2]

theorem zip2_length {α β γ : Type} (f : α → β → γ) (a : List (List α)) (b : List (List β)) (h : a.length = b.length) :
    (zip2 f a b).length = a.length := by
  unfold zip2; rw [List.length_zipWith, ← h, Nat.min_self]

/-! ## One sample -/

theorem back_xx (a b : C) : (C.add (C.add a b) (C.sub a b)).half = a := by
  cases a; cases b; simp only [C.add, C.sub, C.half, C.mk.injEq]; constructor <;> grind
theorem back_yy (a b : C) : (C.sub (C.add a b) (C.sub a b)).half = b := by
  cases a; cases b; simp only [C.add, C.sub, C.half, C.mk.injEq]; constructor <;> grind
theorem back_xy (a b : C) : (C.sub (C.add a b) (C.sub a b).mulI.mulI).half = a := by
  cases a; cases b; simp only [C.add, C.sub, C.half, C.mulI, C.mk.injEq]; constructor <;> grind
theorem back_yx (a b : C) : (C.add (C.add a b) (C.sub a b).mulI.mulI).half = b := by
  cases a; cases b; simp only [C.add, C.sub, C.half, C.mulI, C.mk.injEq]; constructor <;> grind
theorem back_i (a b : C) : C.add (C.add a b).half (C.sub a b).half = a := by
  cases a; cases b; simp only [C.add, C.sub, C.half, C.mk.injEq]; constructor <;> grind
theorem back_q (a b : C) : C.sub (C.add a b).half (C.sub a b).half = b := by
  cases a; cases b; simp only [C.add, C.sub, C.half, C.mk.injEq]; constructor <;> grind
theorem back_u (a b : C) : C.add (C.sub a b.mulI).half (C.add a b.mulI).half = a := by
  cases a; cases b; simp only [C.add, C.sub, C.half, C.mulI, C.mk.injEq]; constructor <;> grind
theorem back_v (a b : C) : (C.sub (C.sub a b.mulI).half (C.add a b.mulI).half).mulI = b := by
  cases a; cases b; simp only [C.add, C.sub, C.half, C.mulI, C.mk.injEq]; constructor <;> grind

theorem avg_avg (x y : Rat) : ((x + y) / 2 + (x + y) / 2) / 2 = (x + y) / 2 := by grind

/-! ## Data sets -/

section
variable {U : Type}

/-- Any two products have visibilities of one shape. -/
def Uniform (s : Set U C Rat) : Prop := ∀ p ∈ s.pols, ∀ q ∈ s.pols, SameShape p.data q.data

/-- A product with the average of two weights and both flags. -/
def blended (name : String) (d : List (List C)) (p q : Pol C Rat) : Pol C Rat :=
  { name := name, data := d, weight := zip2 (fun x y => (x + y) / 2) p.weight q.weight, mask := zip2 or p.mask q.mask }

theorem get_mem (s : Set U C Rat) (n : String) (p : Pol C Rat) (h : s.get n = some p) : p ∈ s.pols ∧ p.name = n := by
  unfold Set.get at h
  exact ⟨List.mem_of_find?_eq_some h, by simpa using List.find?_some h⟩

/-- Every product has visibilities for each baseline. -/
def Rows (s : Set U C Rat) : Prop := ∀ p ∈ s.pols, p.data.length = s.baselines.length

/-- What two new products have in common. -/
theorem pair_pols (s : Set U C Rat) (hs : Rows s) (a b : String) (x y : String × (C → C → C)) (p : Pol C Rat)
    (hp : p ∈ pair s a b x y) : p.data.length = s.baselines.length ∧ (p.name = x.1 ∨ p.name = y.1) := by
  unfold pair at hp
  cases ha : s.get a with
  | none => rw [ha] at hp; cases hp
  | some u =>
    cases hb : s.get b with
    | none => rw [ha, hb] at hp; cases hp
    | some v =>
      rw [ha, hb] at hp
      have h1 := hs u (get_mem s a u ha).1
      have h2 := hs v (get_mem s b v hb).1
      simp only [List.mem_cons, List.not_mem_nil, or_false] at hp
      rcases hp with rfl | rfl
      · refine ⟨?_, Or.inl rfl⟩
        simp only [combine]
        rw [zip2_length _ _ _ (by rw [h1, h2]), h1]
      · refine ⟨?_, Or.inr rfl⟩
        simp only [combine]
        rw [zip2_length _ _ _ (by rw [h1, h2]), h1]

theorem pair_names (s : Set U C Rat) (a b : String) (x y : String × (C → C → C)) :
    (pair s a b x y).map Pol.name = [x.1, y.1] ∨ pair s a b x y = [] := by
  unfold pair
  split
  · left; rfl
  · right; rfl

/-- Whether two products are both there. -/
def Both (s : Set U C Rat) (a b : String) : Prop := ∃ p q, s.get a = some p ∧ s.get b = some q

theorem pair_both (s : Set U C Rat) (a b : String) (x y : String × (C → C → C)) (p q : Pol C Rat) (h1 : s.get a = some p)
    (h2 : s.get b = some q) : pair s a b x y = [combine x.1 x.2 p q, combine y.1 y.2 p q] := by
  unfold pair; rw [h1, h2]

theorem pair_not (s : Set U C Rat) (a b : String) (x y : String × (C → C → C)) (h : ¬ Both s a b) : pair s a b x y = [] := by
  unfold pair
  split
  · rename_i p q h1 h2; exact absurd ⟨p, q, h1, h2⟩ h
  · rfl

/-- The outcome of a conversion of the pairs `a b` and `c d`. -/
theorem convert_spec (s : Set U C Rat) (hs : Rows s) (forbid : List String) (a b c d : String)
    (x y z w : String × (C → C → C)) (hf : ∀ p ∈ s.pols, p.name ∉ forbid)
    (hn : [x.1, y.1, z.1, w.1].Nodup) (hb : Both s a b ∨ Both s c d) :
    ∃ t, convert s forbid (pair s a b x y ++ pair s c d z w) = some t ∧ t.baselines = s.baselines ∧ t.uvw = s.uvw ∧
      t.jd = s.jd ∧ t.nchan = s.nchan ∧ t.stands = s.stands ∧ Rows t ∧ (∀ p ∈ t.pols, p.name ∈ [x.1, y.1, z.1, w.1]) ∧
      (∀ p q, s.get a = some p → s.get b = some q →
        t.get x.1 = some (combine x.1 x.2 p q) ∧ t.get y.1 = some (combine y.1 y.2 p q)) ∧
      (∀ p q, s.get c = some p → s.get d = some q →
        t.get z.1 = some (combine z.1 z.2 p q) ∧ t.get w.1 = some (combine w.1 w.2 p q)) ∧
      t.pols = pair s a b x y ++ pair s c d z w := by
  have hne : pair s a b x y ++ pair s c d z w ≠ [] := by
    rcases hb with ⟨p, q, h1, h2⟩ | ⟨p, q, h1, h2⟩
    · rw [pair_both s a b x y p q h1 h2]; simp
    · rw [pair_both s c d z w p q h1 h2]; simp
  have hrow : ∀ p ∈ pair s a b x y ++ pair s c d z w, p.data.length = s.baselines.length ∧ p.name ∈ [x.1, y.1, z.1, w.1] := by
    intro p hp
    rcases List.mem_append.1 hp with h | h
    · have := pair_pols s hs _ _ _ _ p h
      refine ⟨this.1, ?_⟩
      rcases this.2 with e | e <;> rw [e] <;> simp
    · have := pair_pols s hs _ _ _ _ p h
      refine ⟨this.1, ?_⟩
      rcases this.2 with e | e <;> rw [e] <;> simp
  refine ⟨⟨s.jd, s.nchan, s.baselines, s.uvw, s.stands, pair s a b x y ++ pair s c d z w⟩, ?_, rfl, rfl, rfl, rfl, rfl,
    fun p hp => (hrow p hp).1, fun p hp => (hrow p hp).2, ?_, ?_, rfl⟩
  · unfold convert
    rw [if_neg (by
      intro h
      obtain ⟨p, hp, h⟩ := List.any_eq_true.1 h
      exact hf p hp (by simpa using h)), if_neg hne, append_all]
    · simp
    · exact fun p hp => (hrow p hp).1
    · simp only [List.nil_append]
      rw [List.map_append]
      simp only [List.nodup_cons, List.mem_cons, List.not_mem_nil, or_false, not_or] at hn
      rcases pair_names s a b x y with h1 | h1 <;> rcases pair_names s c d z w with h2 | h2 <;> rw [h1, h2]
      all_goals simp_all
  · intro p q h1 h2
    simp only [List.nodup_cons, List.mem_cons, List.not_mem_nil, or_false, not_or] at hn
    unfold Set.get
    simp only
    rw [pair_both s a b x y p q h1 h2]
    simp [combine, hn.1.1]
  · intro p q h1 h2
    simp only [List.nodup_cons, List.mem_cons, List.not_mem_nil, or_false, not_or] at hn
    obtain ⟨⟨n1, n2, n3⟩, ⟨n4, n5⟩, n6, _⟩ := hn
    unfold Set.get
    simp only
    rw [pair_both s c d z w p q h1 h2]
    by_cases hb : Both s a b
    · obtain ⟨p', q', h1', h2'⟩ := hb
      rw [pair_both s a b x y p' q' h1' h2']
      simp [combine, n2, n3, n4, n5, n6]
    · rw [pair_not s a b x y hb]
      simp [combine, n6]

theorem combine_combine (n n1 n2 : String) (f g h : C → C → C) (p q : Pol C Rat) :
    combine n f (combine n1 g p q) (combine n2 h p q)
      = blended n (zip2 (fun x y => f (g x y) (h x y)) p.data q.data) p q := by
  unfold combine blended
  simp only [zip2_zip2, Pol.mk.injEq, true_and]
  refine ⟨?_, ?_⟩
  · congr 1; funext x y; exact avg_avg x y
  · congr 1; funext x y; simp

/-- Linear products to Stokes parameters and back: every pair comes back with its visibilities; the weights are the average
of the two and the flags those of both. -/
theorem C72_linear_back (s : Set U C Rat) (hs : Rows s) (hu : Uniform s)
    (hno : ∀ p ∈ s.pols, p.name ∉ ["I", "Q", "U", "V"]) (hsome : Both s "XX" "YY" ∨ Both s "XY" "YX") :
    ∃ st t, toStokes s = some st ∧ toLinear st = some t ∧ t.baselines = s.baselines ∧ t.uvw = s.uvw ∧ t.jd = s.jd ∧
      (∀ p q, s.get "XX" = some p → s.get "YY" = some q →
        t.get "XX" = some (blended "XX" p.data p q) ∧ t.get "YY" = some (blended "YY" q.data p q)) ∧
      (∀ p q, s.get "XY" = some p → s.get "YX" = some q →
        t.get "XY" = some (blended "XY" p.data p q) ∧ t.get "YX" = some (blended "YX" q.data p q)) := by
  have hdata : ∀ p q n m, s.get n = some p → s.get m = some q → SameShape p.data q.data := fun p q n m h1 h2 =>
    hu p (get_mem s n p h1).1 q (get_mem s m q h2).1
  obtain ⟨st, e1, a1, a2, a3, _, _, hr, hn, hab, hcd, _⟩ := convert_spec s hs ["I", "Q", "U", "V"] "XX" "YY" "XY" "YX"
    ("I", C.add) ("Q", C.sub) ("U", C.add) ("V", fun a b => (C.sub a b).mulI) hno (by decide) hsome
  obtain ⟨t, e2, b1, b2, b3, _, _, _, _, hab2, hcd2, _⟩ := convert_spec st hr ["XX", "YY", "XY", "YX"] "I" "Q" "U" "V"
    ("XX", fun a b => (C.add a b).half) ("YY", fun a b => (C.sub a b).half)
    ("XY", fun a b => (C.sub a b.mulI).half) ("YX", fun a b => (C.add a b.mulI).half)
    (by
      intro p hp
      have := hn p hp
      simp only [List.mem_cons, List.not_mem_nil, or_false] at this
      rcases this with h | h | h | h <;> rw [h] <;> decide)
    (by decide)
    (by
      rcases hsome with ⟨p, q, h1, h2⟩ | ⟨p, q, h1, h2⟩
      · exact Or.inl ⟨_, _, (hab p q h1 h2).1, (hab p q h1 h2).2⟩
      · exact Or.inr ⟨_, _, (hcd p q h1 h2).1, (hcd p q h1 h2).2⟩)
  refine ⟨st, t, e1, e2, by rw [b1, a1], by rw [b2, a2], by rw [b3, a3], ?_, ?_⟩
  · intro p q h1 h2
    obtain ⟨h3, h4⟩ := hab2 _ _ (hab p q h1 h2).1 (hab p q h1 h2).2
    simp only at h3 h4
    rw [h3, h4, combine_combine, combine_combine, zip2_first _ (fun x y => back_xx x y) _ _ (hdata p q _ _ h1 h2),
      zip2_second _ (fun x y => back_yy x y) _ _ (hdata p q _ _ h1 h2)]
    exact ⟨rfl, rfl⟩
  · intro p q h1 h2
    obtain ⟨h3, h4⟩ := hcd2 _ _ (hcd p q h1 h2).1 (hcd p q h1 h2).2
    simp only at h3 h4
    rw [h3, h4, combine_combine, combine_combine, zip2_first _ (fun x y => back_xy x y) _ _ (hdata p q _ _ h1 h2),
      zip2_second _ (fun x y => back_yx x y) _ _ (hdata p q _ _ h1 h2)]
    exact ⟨rfl, rfl⟩

/-- Stokes parameters to linear products and back. -/
theorem C72_stokes_back (s : Set U C Rat) (hs : Rows s) (hu : Uniform s)
    (hno : ∀ p ∈ s.pols, p.name ∉ ["XX", "YY", "XY", "YX"]) (hsome : Both s "I" "Q" ∨ Both s "U" "V") :
    ∃ l t, toLinear s = some l ∧ toStokes l = some t ∧ t.baselines = s.baselines ∧ t.uvw = s.uvw ∧ t.jd = s.jd ∧
      (∀ p q, s.get "I" = some p → s.get "Q" = some q →
        t.get "I" = some (blended "I" p.data p q) ∧ t.get "Q" = some (blended "Q" q.data p q)) ∧
      (∀ p q, s.get "U" = some p → s.get "V" = some q →
        t.get "U" = some (blended "U" p.data p q) ∧ t.get "V" = some (blended "V" q.data p q)) := by
  have hdata : ∀ p q n m, s.get n = some p → s.get m = some q → SameShape p.data q.data := fun p q n m h1 h2 =>
    hu p (get_mem s n p h1).1 q (get_mem s m q h2).1
  obtain ⟨l, e1, a1, a2, a3, _, _, hr, hn, hab, hcd, _⟩ := convert_spec s hs ["XX", "YY", "XY", "YX"] "I" "Q" "U" "V"
    ("XX", fun a b => (C.add a b).half) ("YY", fun a b => (C.sub a b).half)
    ("XY", fun a b => (C.sub a b.mulI).half) ("YX", fun a b => (C.add a b.mulI).half) hno (by decide) hsome
  obtain ⟨t, e2, b1, b2, b3, _, _, _, _, hab2, hcd2, _⟩ := convert_spec l hr ["I", "Q", "U", "V"] "XX" "YY" "XY" "YX"
    ("I", C.add) ("Q", C.sub) ("U", C.add) ("V", fun a b => (C.sub a b).mulI)
    (by
      intro p hp
      have := hn p hp
      simp only [List.mem_cons, List.not_mem_nil, or_false] at this
      rcases this with h | h | h | h <;> rw [h] <;> decide)
    (by decide)
    (by
      rcases hsome with ⟨p, q, h1, h2⟩ | ⟨p, q, h1, h2⟩
      · exact Or.inl ⟨_, _, (hab p q h1 h2).1, (hab p q h1 h2).2⟩
      · exact Or.inr ⟨_, _, (hcd p q h1 h2).1, (hcd p q h1 h2).2⟩)
  refine ⟨l, t, e1, e2, by rw [b1, a1], by rw [b2, a2], by rw [b3, a3], ?_, ?_⟩
  · intro p q h1 h2
    obtain ⟨h3, h4⟩ := hab2 _ _ (hab p q h1 h2).1 (hab p q h1 h2).2
    simp only at h3 h4
    rw [h3, h4, combine_combine, combine_combine, zip2_first _ (fun x y => back_i x y) _ _ (hdata p q _ _ h1 h2),
      zip2_second _ (fun x y => back_q x y) _ _ (hdata p q _ _ h1 h2)]
    exact ⟨rfl, rfl⟩
  · intro p q h1 h2
    obtain ⟨h3, h4⟩ := hcd2 _ _ (hcd p q h1 h2).1 (hcd p q h1 h2).2
    simp only at h3 h4
    rw [h3, h4, combine_combine, combine_combine, zip2_first _ (fun x y => back_u x y) _ _ (hdata p q _ _ h1 h2),
      zip2_second _ (fun x y => back_v x y) _ _ (hdata p q _ _ h1 h2)]
    exact ⟨rfl, rfl⟩

/-- Twice a number. -/
def twice (a : C) : C := ⟨2 * a.re, 2 * a.im⟩

theorem zip2_map {α β γ : Type} (f : α → β → γ) (g : α → γ) (hf : ∀ x y, f x y = g x) (a : List (List α)) (b : List (List β))
    (h : SameShape a b) : zip2 f a b = a.map (fun r => r.map g) := by
  have e : a.map (fun r => r.map g) = zip2 f a b := by
    have h1 := zip2_first (fun (x : α) (_ : β) => x) (fun _ _ => rfl) a b h
    conv => lhs; rw [← h1]
    unfold zip2
    rw [List.map_zipWith]
    congr 1
    funext x y
    rw [List.map_zipWith]
    congr 1
    funext x y
    exact (hf x y).symm
  exact e.symm

theorem zip2_map2 {α β γ : Type} (f : α → β → γ) (g : β → γ) (hf : ∀ x y, f x y = g y) (a : List (List α)) (b : List (List β))
    (h : SameShape a b) : zip2 f a b = b.map (fun r => r.map g) := by
  have e : b.map (fun r => r.map g) = zip2 f a b := by
    have h1 := zip2_second (fun (_ : α) (y : β) => y) (fun _ _ => rfl) a b h
    conv => lhs; rw [← h1]
    unfold zip2
    rw [List.map_zipWith]
    congr 1
    funext x y
    rw [List.map_zipWith]
    congr 1
    funext x y
    exact (hf x y).symm
  exact e.symm

theorem sum_circ (a b : C) : C.add (C.add a b) (C.sub a b) = twice a := by
  cases a; cases b; simp only [C.add, C.sub, twice, C.mk.injEq]; constructor <;> grind
theorem diff_circ (a b : C) : C.sub (C.add a b) (C.sub a b) = twice b := by
  cases a; cases b; simp only [C.add, C.sub, twice, C.mk.injEq]; constructor <;> grind
theorem sum_circ2 (a b : C) : C.add (C.add a b.mulI) (C.sub a b.mulI) = twice a := by
  cases a; cases b; simp only [C.add, C.sub, C.mulI, twice, C.mk.injEq]; constructor <;> grind
theorem diff_circ2 (a b : C) : C.sub (C.add a b.mulI) (C.sub a b.mulI) = (twice b).mulI := by
  cases a; cases b; simp only [C.add, C.sub, C.mulI, twice, C.mk.injEq]; constructor <;> grind

/-- Circular products determine the Stokes parameters: the sum and difference of `RR` and `LL` are twice `I` and `V`, those of
`RL` and `LR` twice `Q` and `i U`. -/
theorem C72_circular (s : Set U C Rat) (hs : Rows s) (hu : Uniform s)
    (hno : ∀ p ∈ s.pols, p.name ∉ ["RR", "RL", "LR", "LL"]) (hsome : Both s "I" "V" ∨ Both s "Q" "U") :
    ∃ c, toCircular s = some c ∧ c.baselines = s.baselines ∧ c.uvw = s.uvw ∧ c.jd = s.jd ∧
      (∀ i v, s.get "I" = some i → s.get "V" = some v → ∃ r l, c.get "RR" = some r ∧ c.get "LL" = some l ∧
        zip2 C.add r.data l.data = i.data.map (fun x => x.map twice) ∧
        zip2 C.sub r.data l.data = v.data.map (fun x => x.map twice) ∧
        r.weight = (blended "" [] i v).weight ∧ l.weight = r.weight ∧ r.mask = (blended "" [] i v).mask ∧ l.mask = r.mask) ∧
      (∀ q u, s.get "Q" = some q → s.get "U" = some u → ∃ r l, c.get "RL" = some r ∧ c.get "LR" = some l ∧
        zip2 C.add r.data l.data = q.data.map (fun x => x.map twice) ∧
        zip2 C.sub r.data l.data = u.data.map (fun x => x.map (fun y => (twice y).mulI)) ∧
        r.weight = (blended "" [] q u).weight ∧ l.weight = r.weight ∧ r.mask = (blended "" [] q u).mask ∧ l.mask = r.mask) := by
  have hdata : ∀ p q n m, s.get n = some p → s.get m = some q → SameShape p.data q.data := fun p q n m h1 h2 =>
    hu p (get_mem s n p h1).1 q (get_mem s m q h2).1
  obtain ⟨c, e1, a1, a2, a3, _, _, hr, hn, hab, hcd, _⟩ := convert_spec s hs ["RR", "RL", "LR", "LL"] "I" "V" "Q" "U"
    ("RR", C.add) ("LL", C.sub) ("RL", fun a b => C.add a b.mulI) ("LR", fun a b => C.sub a b.mulI) hno (by decide) hsome
  refine ⟨c, e1, a1, a2, a3, ?_, ?_⟩
  · intro i v h1 h2
    obtain ⟨h3, h4⟩ := hab i v h1 h2
    refine ⟨_, _, h3, h4, ?_, ?_, rfl, rfl, rfl, rfl⟩
    · simp only [combine]; rw [zip2_zip2]; exact zip2_map _ _ sum_circ _ _ (hdata i v _ _ h1 h2)
    · simp only [combine]; rw [zip2_zip2]; exact zip2_map2 _ _ diff_circ _ _ (hdata i v _ _ h1 h2)
  · intro q u h1 h2
    obtain ⟨h3, h4⟩ := hcd q u h1 h2
    refine ⟨_, _, h3, h4, ?_, ?_, rfl, rfl, rfl, rfl⟩
    · simp only [combine]; rw [zip2_zip2]; exact zip2_map _ _ sum_circ2 _ _ (hdata q u _ _ h1 h2)
    · simp only [combine]; rw [zip2_zip2]; exact zip2_map2 _ _ diff_circ2 _ _ (hdata q u _ _ h1 h2)

/-- The formulas, real and imaginary parts apart. -/
theorem C72_values (s : Set U C Rat) (hs : Rows s) :
    (∀ st, toStokes s = some st →
      (∀ p q, s.get "XX" = some p → s.get "YY" = some q →
        (st.get "I").map Pol.data = some (zip2 (fun x y => ⟨x.re + y.re, x.im + y.im⟩) p.data q.data) ∧
        (st.get "Q").map Pol.data = some (zip2 (fun x y => ⟨x.re - y.re, x.im - y.im⟩) p.data q.data)) ∧
      (∀ p q, s.get "XY" = some p → s.get "YX" = some q →
        (st.get "U").map Pol.data = some (zip2 (fun x y => ⟨x.re + y.re, x.im + y.im⟩) p.data q.data) ∧
        (st.get "V").map Pol.data = some (zip2 (fun x y => ⟨y.im - x.im, x.re - y.re⟩) p.data q.data))) ∧
    (∀ c, toCircular s = some c →
      (∀ p q, s.get "I" = some p → s.get "V" = some q →
        (c.get "RR").map Pol.data = some (zip2 (fun x y => ⟨x.re + y.re, x.im + y.im⟩) p.data q.data) ∧
        (c.get "LL").map Pol.data = some (zip2 (fun x y => ⟨x.re - y.re, x.im - y.im⟩) p.data q.data)) ∧
      (∀ p q, s.get "Q" = some p → s.get "U" = some q →
        (c.get "RL").map Pol.data = some (zip2 (fun x y => ⟨x.re - y.im, x.im + y.re⟩) p.data q.data) ∧
        (c.get "LR").map Pol.data = some (zip2 (fun x y => ⟨x.re + y.im, x.im - y.re⟩) p.data q.data))) := by
  have key : ∀ (forbid : List String) (a b c d : String) (x y z w : String × (C → C → C)) (t : Set U C Rat),
      [x.1, y.1, z.1, w.1].Nodup →
      convert s forbid (pair s a b x y ++ pair s c d z w) = some t →
      (∀ p q, s.get a = some p → s.get b = some q → (t.get x.1).map Pol.data = some (zip2 x.2 p.data q.data) ∧
        (t.get y.1).map Pol.data = some (zip2 y.2 p.data q.data)) ∧
      (∀ p q, s.get c = some p → s.get d = some q → (t.get z.1).map Pol.data = some (zip2 z.2 p.data q.data) ∧
        (t.get w.1).map Pol.data = some (zip2 w.2 p.data q.data)) := by
    intro forbid a b c d x y z w t hn h
    by_cases hf : ∀ p ∈ s.pols, p.name ∉ forbid
    · by_cases hb : Both s a b ∨ Both s c d
      · obtain ⟨t', e, _, _, _, _, _, _, _, h1, h2, _⟩ := convert_spec s hs forbid a b c d x y z w hf hn hb
        rw [h] at e
        have e := Option.some.inj e
        subst e
        refine ⟨fun p q hp hq => ?_, fun p q hp hq => ?_⟩
        · rw [(h1 p q hp hq).1, (h1 p q hp hq).2]; exact ⟨rfl, rfl⟩
        · rw [(h2 p q hp hq).1, (h2 p q hp hq).2]; exact ⟨rfl, rfl⟩
      · refine ⟨fun p q hp hq => absurd (Or.inl ⟨p, q, hp, hq⟩) hb, fun p q hp hq => absurd (Or.inr ⟨p, q, hp, hq⟩) hb⟩
    · have : ∃ p ∈ s.pols, p.name ∈ forbid := by
        apply Classical.byContradiction
        intro hc
        exact hf (fun p hp hm => hc ⟨p, hp, hm⟩)
      obtain ⟨p, hp, hm⟩ := this
      unfold convert at h
      rw [if_pos (List.any_eq_true.2 ⟨p, hp, by simpa using hm⟩)] at h
      cases h
  have hv : (fun a b : C => (C.sub a b).mulI) = fun x y => ⟨y.im - x.im, x.re - y.re⟩ := by
    funext x y; simp only [C.sub, C.mulI, C.mk.injEq, and_true]; grind
  have hr : (fun a b : C => C.add a b.mulI) = fun x y => ⟨x.re - y.im, x.im + y.re⟩ := by
    funext x y; simp only [C.add, C.mulI, C.mk.injEq, and_true]; grind
  have hl : (fun a b : C => C.sub a b.mulI) = fun x y => ⟨x.re + y.im, x.im - y.re⟩ := by
    funext x y; simp only [C.sub, C.mulI, C.mk.injEq, and_true]; grind
  refine ⟨fun st h => ?_, fun c h => ?_⟩
  · have := key _ _ _ _ _ _ _ _ _ st (by decide) h
    rw [hv] at this
    exact this
  · have := key _ _ _ _ _ _ _ _ _ c (by decide) h
    rw [hr, hl] at this
    exact this

theorem convert_refused (s : Set U C Rat) (forbid : List String) (new : List (Pol C Rat)) (p : Pol C Rat) (hp : p ∈ s.pols)
    (h : p.name ∈ forbid) : convert s forbid new = none := by
  unfold convert
  rw [if_pos (List.any_eq_true.2 ⟨p, hp, by simpa using h⟩)]

/-- Data that have a product of the kind asked for are refused, and data with neither pair. -/
theorem C72_refused (s : Set U C Rat) :
    (∀ p ∈ s.pols, p.name ∈ ["I", "Q", "U", "V"] → toStokes s = none) ∧
    (∀ p ∈ s.pols, p.name ∈ ["XX", "YY", "XY", "YX"] → toLinear s = none) ∧
    (∀ p ∈ s.pols, p.name ∈ ["RR", "RL", "LR", "LL"] → toCircular s = none) ∧
    (¬ Both s "XX" "YY" → ¬ Both s "XY" "YX" → toStokes s = none) ∧
    (¬ Both s "I" "Q" → ¬ Both s "U" "V" → toLinear s = none) ∧
    (¬ Both s "I" "V" → ¬ Both s "Q" "U" → toCircular s = none) := by
  refine ⟨fun p hp h => convert_refused s _ _ p hp h, fun p hp h => convert_refused s _ _ p hp h,
    fun p hp h => convert_refused s _ _ p hp h, ?_, ?_, ?_⟩
  · intro h1 h2
    unfold toStokes convert
    rw [pair_not s _ _ _ _ h1, pair_not s _ _ _ _ h2]; simp
  · intro h1 h2
    unfold toLinear convert
    rw [pair_not s _ _ _ _ h1, pair_not s _ _ _ _ h2]; simp
  · intro h1 h2
    unfold toCircular convert
    rw [pair_not s _ _ _ _ h1, pair_not s _ _ _ _ h2]; simp

end

/-! ## Examples -/

/-- A data set with one sample of each linear product. -/
def sample (xx yy xy yx : C) : Set Unit C Rat :=
  ⟨0, 1, [(0, 1)], [()], none, [⟨"XX", [[xx]], [[1]], [[false]]⟩, ⟨"YY", [[yy]], [[3]], [[true]]⟩,
    ⟨"XY", [[xy]], [[1]], [[false]]⟩, ⟨"YX", [[yx]], [[1]], [[false]]⟩]⟩

/-- The value of the one sample of a product. -/
def value (s : Option (Set Unit C Rat)) (n : String) : Option C :=
  s.bind (fun s => (s.get n).bind (fun p => (p.data.head?).bind List.head?))

/-- Linear products go to Stokes parameters as sums, and circular ones come from them as sums: the total of `RR` and `LL` is
twice that of `XX` and `YY`. -/
theorem C72_not_total :
    ∃ s : Set Unit C Rat, value (some s) "XX" = some ⟨1, 0⟩ ∧ value (some s) "YY" = some ⟨0, 0⟩ ∧
      value ((toStokes s).bind toCircular) "RR" = some ⟨1, 0⟩ ∧ value ((toStokes s).bind toCircular) "LL" = some ⟨1, 0⟩ :=
  ⟨sample ⟨1, 0⟩ ⟨0, 0⟩ ⟨0, 0⟩ ⟨0, 0⟩, by decide +kernel⟩

/-- Weights and flags do not come back. -/
theorem C72_not_weights :
    ∃ s t : Set Unit C Rat, (toStokes s).bind toLinear = some t ∧ (s.get "XX").map Pol.weight = some [[1]] ∧
      (t.get "XX").map Pol.weight = some [[2]] ∧ (s.get "XX").map Pol.mask = some [[false]] ∧
      (t.get "XX").map Pol.mask = some [[true]] := by
  refine ⟨sample ⟨1, 0⟩ ⟨0, 0⟩ ⟨0, 0⟩ ⟨0, 0⟩,
    ⟨0, 1, [(0, 1)], [()], none, [⟨"XX", [[⟨1, 0⟩]], [[2]], [[true]]⟩, ⟨"YY", [[⟨0, 0⟩]], [[2]], [[true]]⟩,
      ⟨"XY", [[⟨0, 0⟩]], [[1]], [[false]]⟩, ⟨"YX", [[⟨0, 0⟩]], [[1]], [[false]]⟩]⟩, by decide +kernel⟩

example : Rows (sample ⟨1, 2⟩ ⟨3, 4⟩ ⟨5, 6⟩ ⟨7, 8⟩) := by unfold Rows; decide
example : Both (sample ⟨1, 2⟩ ⟨3, 4⟩ ⟨5, 6⟩ ⟨7, 8⟩) "XX" "YY" := ⟨_, _, rfl, rfl⟩
example : value (toStokes (sample ⟨1, 2⟩ ⟨3, 4⟩ ⟨5, 6⟩ ⟨7, 8⟩)) "V" = some ⟨2, -2⟩ := by decide +kernel

end Verif.VisData
