import Verif.Model.SdFits
import Verif.Lemmas.PyNum
/-!
# C110: single dish files have every scan
-/
namespace Verif.SdFits

variable {S : Type}

/-! ## Sorting -/

theorem ins_perm {α : Type} (le : α → α → Bool) (x : α) (l : List α) : (ins le x l).Perm (x :: l) := by
  induction l with
  | nil => exact List.Perm.refl _
  | cons y l ih =>
    unfold ins
    split
    · exact List.Perm.refl _
    · exact (ih.cons y).trans (List.Perm.swap x y l)

theorem sort_perm {α : Type} (le : α → α → Bool) (l : List α) : (sortBy le l).Perm l := by
  induction l with
  | nil => exact List.Perm.refl _
  | cons x l ih => exact (ins_perm le x _).trans (ih.cons x)

theorem ins_sorted {α : Type} (le : α → α → Bool) (ht : ∀ a b c, le a b = true → le b c = true → le a c = true)
    (hl : ∀ a b, le a b = true ∨ le b a = true) (x : α) (l : List α) (h : l.Pairwise (fun a b => le a b = true)) :
    (ins le x l).Pairwise (fun a b => le a b = true) := by
  induction l with
  | nil => exact List.pairwise_singleton _ _
  | cons y l ih =>
    rw [List.pairwise_cons] at h
    unfold ins
    split
    · rename_i hxy
      rw [List.pairwise_cons]
      refine ⟨?_, List.pairwise_cons.mpr h⟩
      intro z hz
      rcases List.mem_cons.mp hz with rfl | hz
      · exact hxy
      · exact ht _ _ _ hxy (h.1 z hz)
    · rename_i hxy
      rw [List.pairwise_cons]
      refine ⟨?_, ih h.2⟩
      intro z hz
      rcases List.mem_cons.mp ((ins_perm le x l).mem_iff.mp hz) with rfl | hz
      · rcases hl z y with h' | h'
        · exact absurd h' hxy
        · exact h'
      · exact h.1 z hz

theorem sort_sorted {α : Type} (le : α → α → Bool) (ht : ∀ a b c, le a b = true → le b c = true → le a c = true)
    (hl : ∀ a b, le a b = true ∨ le b a = true) (l : List α) : (sortBy le l).Pairwise (fun a b => le a b = true) := by
  induction l with
  | nil => exact List.Pairwise.nil
  | cons x l ih => exact ins_sorted le ht hl x _ ih

theorem sort_map {α β : Type} (le : α → α → Bool) (le' : β → β → Bool) (f : α → β) (h : ∀ a b, le' (f a) (f b) = le a b) (l : List α) :
    sortBy le' (l.map f) = (sortBy le l).map f := by
  have hi : ∀ x (l : List α), ins le' (f x) (l.map f) = (ins le x l).map f := by
    intro x l
    induction l with
    | nil => rfl
    | cons y l ih =>
      simp only [List.map_cons, ins, h, ih]
      split <;> rfl
  induction l with
  | nil => rfl
  | cons x l ih => rw [List.map_cons, sortBy, ih, hi]; rfl

theorem before_trans (a b c : DataSet S) (h1 : before a b = true) (h2 : before b c = true) : before a c = true := by
  unfold before at *
  simp only [decide_eq_true_eq] at *
  grind

theorem before_total (a b : DataSet S) : before a b = true ∨ before b a = true := by
  unfold before
  simp only [decide_eq_true_eq]
  grind

/-- Data sets come in the one order of their keys, whatever the order in which they were given. -/
theorem C110_sorted (data e : List (DataSet S)) (hp : data.Perm e) (h : e.Pairwise (fun a b => key a < key b)) : sorted data = e := by
  have hs : (sorted data).Perm e := (sort_perm before data).trans hp
  have hle : e.Pairwise (fun a b => before a b = true) := by
    apply h.imp
    intro a b hab
    unfold before
    simp only [decide_eq_true_eq]
    grind
  apply List.Perm.eq_of_pairwise (le := fun a b => before a b = true) _ (sort_sorted before before_trans before_total data) hle hs
  intro a b ha hb h1 h2
  have ha : a ∈ e := hs.mem_iff.mp ha
  unfold before at h1 h2
  simp only [decide_eq_true_eq] at h1 h2
  have he : key a = key b := by grind
  obtain ⟨i, hi, rfl⟩ := List.mem_iff_getElem.mp ha
  obtain ⟨j, hj, rfl⟩ := List.mem_iff_getElem.mp hb
  rcases Nat.lt_trichotomy i j with hij | hij | hij
  · have := List.pairwise_iff_getElem.mp h i j hi hj hij; grind
  · subst hij; rfl
  · have := List.pairwise_iff_getElem.mp h j i hj hi hij; grind

/-! ## One scan -/

/-- The data set of a product of a scan. -/
def Scan.set (s : Scan S) (p : Int) : DataSet S := ⟨s.time, s.int, s.beams.map fun b => (b, s.spec p b), p⟩

theorem inOrder_set (s : Scan S) (p : Int) : inOrder (s.set p).beams = (order s.beams).map fun b => (b, s.spec p b) :=
  sort_map _ _ _ (fun _ _ => rfl) _

theorem put_spec (p : Int) (f : Nat → S) (bs : List Nat) (t : Int → Nat → Option S) (q : Int) (b : Nat) :
    putAll p (bs.map fun b => (b, f b)) t q b = if q = p ∧ b ∈ bs then some (f b) else t q b := by
  unfold putAll
  induction bs generalizing t with
  | nil => simp
  | cons x bs ih =>
    rw [List.map_cons, List.foldl_cons, ih]
    by_cases hq : q = p
    · by_cases hb : b ∈ bs
      · simp [hq, hb]
      · by_cases hx : b = x
        · simp [hq, hx]
        · simp [hq, hb, hx]
    · simp [hq]

/-- What is loaded of a scan after the products `done`. -/
def loaded (s : Scan S) (done : List Int) : Int → Nat → Option S := fun q b => if q ∈ done ∧ b ∈ order s.beams then some (s.spec q b) else none

theorem put_loaded (s : Scan S) (done : List Int) (p : Int) (hp : p ∉ done) :
    putAll p ((order s.beams).map fun b => (b, s.spec p b)) (loaded s done) = loaded s (done ++ [p]) := by
  funext q b
  rw [put_spec p (s.spec p)]
  unfold loaded
  by_cases hq : q = p
  · subst hq
    simp [hp]
  · simp [hq]

theorem order_ne (l : List Nat) (h : l ≠ []) : order l ≠ [] := by
  intro e
  have := (sort_perm (fun a b : Nat => decide (a ≤ b)) l).length_eq
  unfold order at e
  rw [e] at this
  exact h (List.eq_nil_of_length_eq_zero this.symm)

/-- The products after the first one, up to the last. -/
theorem loop_rest (zero : S) (s : Scan S) (p0 : Int) (hb : s.beams ≠ []) (rest done : List Int) (st : St S)
    (hn : (done ++ rest).Nodup) (h0 : done.head? = some p0) (hr : rest ≠ []) (ht : st.temp = some (loaded s done)) :
    loop zero (done ++ rest) (rest.map s.set) st
      = .ok { st with temp := some (loaded s (done ++ rest)), mats := st.mats ++ st.raw.map (matrix zero (done ++ rest) (some (loaded s (done ++ rest)))),
                      count := st.count + 1, raw := [] } := by
  induction rest generalizing done st with
  | nil => exact absurd rfl hr
  | cons p rest ih =>
    have hpd : p ∉ done := by
      intro h
      rw [List.nodup_append] at hn
      exact hn.2.2 p h p (by simp) rfl
    have hh : (done ++ p :: rest).head? = some p0 := by
      cases done with
      | nil => cases h0
      | cons x d => simpa using h0
    have hne : ¬ (some p = (done ++ p :: rest).head?) := by
      rw [hh]
      intro e
      injection e with e
      subst e
      cases done with
      | nil => cases h0
      | cons x d =>
        simp only [List.head?_cons, Option.some.injEq] at h0
        exact hpd (by simp [h0])
    have hbs : (s.set p).beams ≠ [] := by simp [Scan.set, hb]
    have hload : load (done ++ p :: rest) (reset (done ++ p :: rest) st (s.set p)) (s.set p) = .ok { st with temp := some (loaded s (done ++ [p])) } := by
      have hr : reset (done ++ p :: rest) st (s.set p) = st := by
        unfold reset
        rw [if_neg]
        exact hne
      rw [hr]
      unfold load
      rw [if_neg hbs, ht]
      simp only
      rw [if_neg (by simp [Scan.set]), if_neg (show ¬ some (s.set p).pol = _ from hne), inOrder_set]
      show Except.ok { st with temp := some (putAll p _ _) } = _
      rw [put_loaded s done p hpd]
    rw [List.map_cons]
    unfold loop
    have hstep : step zero (done ++ p :: rest) st (s.set p)
        = .ok (finish zero (done ++ p :: rest) { st with temp := some (loaded s (done ++ [p])) } (s.set p)) := by
      unfold step
      rw [hload]
      rfl
    rw [hstep]
    show loop zero (done ++ p :: rest) (rest.map s.set) _ = _
    cases rest with
    | nil =>
      unfold finish
      rw [if_pos (by simp [Scan.set])]
      rfl
    | cons p' rest' =>
      have hl : ¬ (some (s.set p).pol = (done ++ p :: p' :: rest').getLast?) := by
        intro e
        have : p ∈ p' :: rest' := by
          rw [List.getLast?_append, List.getLast?_cons_cons] at e
          cases hg : (p' :: rest').getLast? with
          | none => simp at hg
          | some z =>
            rw [hg] at e
            simp only [Option.some_or, Option.some.injEq] at e
            have := List.mem_of_getLast? hg
            rw [← e] at this
            exact this
        rw [List.nodup_append, List.nodup_cons] at hn
        exact hn.2.1.1 this
      unfold finish
      rw [if_neg hl]
      have hd : done ++ p :: p' :: rest' = (done ++ [p]) ++ p' :: rest' := by simp
      rw [hd] at hn ⊢
      have := ih (done ++ [p]) { st with temp := some (loaded s (done ++ [p])) } hn (by
        cases done with
        | nil => cases h0
        | cons x d => simpa using h0) (by simp) rfl
      rw [this]

theorem matrix_loaded (zero : S) (s : Scan S) (stokes : List Int) (b : Nat) (hb : b ∈ order s.beams) :
    matrix zero stokes (some (loaded s stokes)) b = stokes.map fun p => s.spec p b := by
  unfold matrix
  apply List.map_congr_left
  intro p hp
  simp [loaded, hp, hb]

/-- All products of a scan: its heads and matrices are added, the count goes on. -/
theorem loop_scan (zero : S) (s : Scan S) (stokes : List Int) (hs : stokes ≠ []) (hn : stokes.Nodup) (hb : s.beams ≠ []) (st : St S) (hr : st.raw = []) :
    ∃ t, loop zero stokes (stokes.map s.set) st
      = .ok ⟨t, [], st.count + 1, st.heads ++ (order s.beams).map (fun b => (st.count, s.time, s.int, b)),
             st.mats ++ (order s.beams).map fun b => stokes.map fun p => s.spec p b⟩ := by
  obtain ⟨p0, rest, rfl⟩ := List.exists_cons_of_ne_nil hs
  refine ⟨some (loaded s (p0 :: rest)), ?_⟩
  have hbs : (s.set p0).beams ≠ [] := by simp [Scan.set, hb]
  have hl0 : (fun (_ : Int) (_ : Nat) => (none : Option S)) = loaded s [] := by
    funext q b; simp [loaded]
  have hload : load (p0 :: rest) (reset (p0 :: rest) st (s.set p0)) (s.set p0)
      = .ok ⟨some (loaded s [p0]), order s.beams, st.count, st.heads ++ (order s.beams).map (fun b => (st.count, s.time, s.int, b)), st.mats⟩ := by
    have hres : reset (p0 :: rest) st (s.set p0) = { st with temp := some (loaded s []) } := by
      unfold reset
      rw [if_pos (by rfl), hl0]
    rw [hres]
    unfold load
    rw [if_neg hbs]
    simp only
    rw [if_neg (by simp [Scan.set]), if_pos (by rfl), inOrder_set, hr]
    show Except.ok (⟨some (putAll p0 _ _), _, _, _, _⟩ : St S) = _
    rw [put_loaded s [] p0 (by simp)]
    simp [List.map_map, Function.comp_def, Scan.set]
  have hmat : (order s.beams).map (matrix zero (p0 :: rest) (some (loaded s (p0 :: rest))))
      = (order s.beams).map fun b => (p0 :: rest).map fun p => s.spec p b := by
    apply List.map_congr_left
    intro b hb
    exact matrix_loaded zero s _ b hb
  rw [List.map_cons]
  unfold loop
  have hstep : step zero (p0 :: rest) st (s.set p0) = .ok (finish zero (p0 :: rest)
      ⟨some (loaded s [p0]), order s.beams, st.count, st.heads ++ (order s.beams).map (fun b => (st.count, s.time, s.int, b)), st.mats⟩ (s.set p0)) := by
    unfold step
    rw [hload]
    rfl
  rw [hstep]
  show loop zero (p0 :: rest) (rest.map s.set) _ = _
  cases rest with
  | nil =>
    unfold finish
    rw [if_pos (by rfl)]
    simp only [List.map_nil, loop]
    rw [hmat]
  | cons p1 rest =>
    have hl : ¬ (some (s.set p0).pol = (p0 :: p1 :: rest).getLast?) := by
      intro e
      rw [List.getLast?_cons_cons] at e
      have : p0 ∈ p1 :: rest := List.mem_of_getLast? e.symm
      exact (List.nodup_cons.mp hn).1 this
    unfold finish
    rw [if_neg hl]
    have := loop_rest zero s p0 hb (p1 :: rest) [p0]
      ⟨some (loaded s [p0]), order s.beams, st.count, st.heads ++ (order s.beams).map (fun b => (st.count, s.time, s.int, b)), st.mats⟩
      hn rfl (by simp) rfl
    rw [List.singleton_append] at this
    rw [this]
    simp only [hmat]

theorem loop_append (zero : S) (stokes : List Int) (a b : List (DataSet S)) (st : St S) :
    loop zero stokes (a ++ b) st = (loop zero stokes a st).bind (loop zero stokes b) := by
  induction a generalizing st with
  | nil => rfl
  | cons d a ih =>
    rw [List.cons_append]
    unfold loop
    cases step zero stokes st d with
    | error e => rfl
    | ok s' => exact ih s'

/-! ## Files -/

/-- Scans one after another, far enough apart: `gap` is by how much the codes of products differ. -/
def Apart (stokes : List Int) (scans : List (Scan S)) : Prop :=
  scans.Pairwise fun a b => ∀ p ∈ stokes, ∀ q ∈ stokes, ((p.natAbs : Rat) - (q.natAbs : Rat)) < (b.time - a.time) * 10000000

/-- Every scan, every beam and every product is in the table once, in its place, with the number, time and integration time of its
scan, whatever the order in which the data were given, if scans are 10^-7 days apart for every difference of the codes. -/
theorem C110_write_partial (zero : S) (stokes : List Int) (scans : List (Scan S)) (data : List (DataSet S)) (hs : stokes ≠ [])
    (ho : stokes.Pairwise (fun p q => p.natAbs < q.natAbs)) (hb : ∀ s ∈ scans, s.beams ≠ []) (ha : Apart stokes scans)
    (hd : data.Perm (scans.flatMap fun s => stokes.map s.set)) :
    (write zero stokes data) = .ok (tableRows order stokes 1 scans) := by
  have hn : stokes.Nodup := by
    apply ho.imp
    intro p q h e
    subst e
    omega
  have hkey : (scans.flatMap fun s => stokes.map s.set).Pairwise (fun a b => key a < key b) := by
    rw [List.pairwise_flatMap]
    constructor
    · intro s _
      rw [List.pairwise_map]
      apply ho.imp
      intro p q h
      have : (p.natAbs : Rat) < (q.natAbs : Rat) := Rat.natCast_lt_natCast.mpr h
      simp only [key, Scan.set]
      grind
    · apply ha.imp
      intro a b hab x hx y hy
      obtain ⟨p, hp, rfl⟩ := List.mem_map.mp hx
      obtain ⟨q, hq, rfl⟩ := List.mem_map.mp hy
      have := hab p hp q hq
      simp only [key, Scan.set]
      grind
  have hall : ∀ (scans : List (Scan S)) (st : St S), (∀ s ∈ scans, s.beams ≠ []) → st.raw = [] → st.heads.length = st.mats.length →
      ∃ st', loop zero stokes (scans.flatMap fun s => stokes.map s.set) st = .ok st'
        ∧ (st'.heads.zip st'.mats).map rowOf = (st.heads.zip st.mats).map rowOf ++ tableRows order stokes st.count scans := by
    intro scans
    induction scans with
    | nil => intro st _ _ _; exact ⟨st, rfl, by simp [tableRows]⟩
    | cons s scans ih =>
      intro st hb hr hl
      obtain ⟨t, ht⟩ := loop_scan zero s stokes hs hn (hb s (by simp)) st hr
      obtain ⟨st', h1, h2⟩ := ih (⟨t, [], st.count + 1,
        st.heads ++ (order s.beams).map (fun b => (st.count, s.time, s.int, b)),
        st.mats ++ (order s.beams).map fun b => stokes.map fun p => s.spec p b⟩ : St S) (fun x hx => hb x (by simp [hx])) rfl (by simp [hl])
      refine ⟨st', ?_, ?_⟩
      · rw [List.flatMap_cons, loop_append, ht]
        exact h1
      · rw [h2, List.zip_append hl, List.map_append, List.append_assoc, tableRows]
        congr 2
        unfold scanRows
        induction order s.beams with
        | nil => rfl
        | cons b l ih => simp only [List.map_cons, List.zip_cons_cons, ih]; rfl
  obtain ⟨st', h1, h2⟩ := hall scans start hb rfl rfl
  unfold write
  rw [C110_sorted data _ hd hkey, h1]
  show Except.ok ((st'.heads.zip st'.mats).map rowOf) = _
  rw [h2]
  rfl

/-- The order of beams is that of their numbers. -/
theorem C110_beams (l : List Nat) : (order l).Perm l ∧ (order l).Pairwise (· ≤ ·) := by
  refine ⟨sort_perm _ l, ?_⟩
  have := sort_sorted (fun a b : Nat => decide (a ≤ b)) (by intro a b c; simp only [decide_eq_true_eq]; omega)
    (by intro a b; simp only [decide_eq_true_eq]; omega) l
  exact this.imp fun h => by simpa using h

/-- Scans with the four products of linear polarization need only be 26 ms apart. -/
theorem C110_apart (scans : List (Scan S)) (h : scans.Pairwise fun a b => (26 : Rat) / 1000 / 86400 ≤ b.time - a.time) :
    Apart [-5, -6, -7, -8] scans := by
  apply h.imp
  intro a b hab p hp q hq
  have h8 : ∀ p ∈ ([-5, -6, -7, -8] : List Int), (5 : Rat) ≤ (p.natAbs : Rat) ∧ (p.natAbs : Rat) ≤ 8 := by decide +kernel
  have := h8 p hp
  have := h8 q hq
  grind

/-! ## What is not so -/

/-- Numbers for spectra; two scans of two products. -/
def sc (t : Rat) (n : Nat) (bs : List Nat) : Scan Nat := ⟨t, 1, bs, fun p b => 1000 * n + 10 * b + p.natAbs⟩
def look (r : Except Err (List (Row Nat))) : Option (List (Nat × Rat × Nat × List Nat)) :=
  r.toOption.map fun l => l.map fun x => (x.scan, x.time, x.beam, x.data)

example : look (write 0 [-5, -6] [(sc 2 2 [1, 2]).set (-6), (sc 1 1 [2, 1]).set (-5), (sc 2 2 [1, 2]).set (-5), (sc 1 1 [2, 1]).set (-6)])
    = some [(1, 1, 1, [1015, 1016]), (1, 1, 2, [1025, 1026]), (2, 2, 1, [2015, 2016]), (2, 2, 2, [2025, 2026])] := by decide +kernel

/-- Scans 4.3 ms apart: the second one begins before the first one ends; both have number 1, the spectra of the first one are lost,
and its last product stands in the row of both. -/
theorem C110_not_fast : look (write 0 [-5, -6] ([-5, -6].map (sc 0 1 [1]).set ++ [-5, -6].map (sc (1 / 20000000) 2 [1]).set))
    = some [(1, 0, 1, [2015, 1016]), (1, 1 / 20000000, 1, [2015, 1016])] := by decide +kernel

/-- Without its last product a scan has the number and the spectra of the next one. -/
theorem C110_not_missing : look (write 0 [-5, -6] ([-5].map (sc 1 1 [1]).set ++ [-5, -6].map (sc 2 2 [1]).set))
    = some [(1, 1, 1, [2015, 2016]), (1, 2, 1, [2015, 2016])] := by decide +kernel

/-- Without its first product it goes into the scan before: there are no rows, but the next scan has one number more. -/
theorem C110_not_first_lost : look (write 0 [-5, -6] ([-5, -6].map (sc 1 1 [1]).set ++ [-6].map (sc 2 2 [1]).set ++ [-5, -6].map (sc 3 3 [1]).set))
    = some [(1, 1, 1, [1015, 1016]), (3, 3, 1, [3015, 3016])] := by decide +kernel

/-- If it is the first scan of the file, there is no file. -/
theorem C110_not_first : (match write 0 [-5, -6] [(sc 1 1 [1]).set (-6)] with | .error e => some e | .ok _ => none) = some .unboundLocal := by
  decide +kernel

/-- Nor is there for a product which `set_stokes` was not told. -/
theorem C110_not_product : (match write 0 [-5, -6] [(sc 1 1 [1]).set (-5), (sc 1 1 [1]).set (-7)] with | .error e => some e | .ok _ => none)
    = some .keyError := by decide +kernel

/-- A beam which the first product does not have is left out; one that only the first has gets zeros. -/
theorem C110_not_beam : look (write 0 [-5, -6] [(sc 1 1 [1]).set (-5), (sc 1 1 [2]).set (-6)]) = some [(1, 1, 1, [1015, 0])] := by decide +kernel

/-! ## Axes -/

/-- Products with successive codes are read as they are. -/
theorem C110_products_partial (x : Int) (n k : Nat) (hk : k < n) :
    let stokes := (List.range n).map fun (i : Nat) => if x < 0 then x - (i : Int) else x + (i : Int)
    some (codeRead stokes k) = stokes[k]? := by
  intro stokes
  have h0 : crval2 stokes = x := by
    obtain ⟨m, rfl⟩ : ∃ m, n = m + 1 := ⟨n - 1, by omega⟩
    simp only [stokes, crval2, List.range_succ_eq_map, List.map_cons, List.headD_cons]
    split <;> simp
  simp only [codeRead, cdelt2, h0, stokes, List.getElem?_map, List.getElem?_range hk, Option.map_some]
  split <;> congr 1 <;> omega

example : (UvTable.setStokes [] [-7, -5, -8, -6]) = [-5, -6, -7, -8] ∧ [0, 1, 2, 3].map (codeRead [-5, -6, -7, -8]) = [-5, -6, -7, -8] := by decide +kernel

/-- `I` and `V` are read as `I` and `Q`. -/
theorem C110_not_gaps : [0, 1].map (codeRead (UvTable.setStokes [] [1, 4])) = [1, 2] := by decide +kernel

/-- The name of every code is that of the product, but `LR`, which is `RL`. -/
theorem C110_names : ∀ x ∈ codes, names.lookup x.2 = some (if x.1 = "LR" then "RL" else x.1) := by decide +kernel

/-- Channels at equal steps upwards are read where they are. -/
theorem C110_frequency_partial (f0 df : Rat) (hd : 0 < df) (n k : Nat) (hn : 2 ≤ n) (hk : k < n) :
    let f := (List.range n).map fun (i : Nat) => f0 + df * (i : Rat)
    (setFrequency f).map (freqRead · k) = f[k]? ∧ (setFrequency f).map (·.total) = some (df * ((n - 1 : Nat) : Rat)) := by
  intro f
  obtain ⟨m, rfl⟩ : ∃ m, n = m + 2 := ⟨n - 2, by omega⟩
  have hl : f.getLast? = some (f0 + df * ((m + 1 : Nat) : Rat)) := by
    simp [f, List.range_succ]
  have hc : ∃ l, f = f0 :: (f0 + df) :: l := by
    refine ⟨(List.range m).map (fun i => f0 + df * ((i + 2 : Nat) : Rat)), ?_⟩
    simp only [f, List.range_succ_eq_map, List.map_cons, List.map_map]
    congr 1
    · simp [Rat.add_zero]
    · congr 1
      simp
  obtain ⟨l, hc⟩ := hc
  have hw : (f0 + df - f0).abs = df := by
    have : f0 + df - f0 = df := by grind
    rw [this, Rat.abs_of_nonneg (by grind)]
  have hset : setFrequency f = some ⟨f0, df, df * ((m + 1 : Nat) : Rat)⟩ := by
    have h1 : setFrequency f = some ⟨f0, (f0 + df - f0).abs, (f.getLast?.getD f0 - f0).abs⟩ := by
      rw [hc]; rfl
    rw [h1, hl, hw]
    congr 2
    show (f0 + df * ((m + 1 : Nat) : Rat) - f0).abs = _
    have : f0 + df * ((m + 1 : Nat) : Rat) - f0 = df * ((m + 1 : Nat) : Rat) := by grind
    rw [this]
    exact Rat.abs_of_nonneg (Rat.mul_nonneg (by grind) (Rat.natCast_nonneg))
  rw [hset]
  refine ⟨?_, rfl⟩
  simp only [Option.map_some, freqRead, f, List.getElem?_map, List.getElem?_range hk]

/-- Channels downwards are read upwards, and of a single channel there is no file. -/
theorem C110_not_down : (setFrequency [30, 20, 10]).map (fun q => [0, 1, 2].map (freqRead q)) = some [30, 40, 50] ∧ (setFrequency [30]).isNone := by
  decide +kernel

/-- `DATE-OBS` and `TIME` together are the time. -/
theorem C110_date (utc : Rat) : 0 ≤ timeObs utc ∧ timeObs utc < 86400 ∧ (dateObs utc : Rat) + timeObs utc / 86400 = utc := by
  have h1 : ((utc.floor : Int) : Rat) ≤ utc := Rat.floor_le utc
  have h2 : utc < ((utc.floor : Int) : Rat) + 1 := by
    have := Rat.lt_floor (x := utc)
    grind
  unfold timeObs dateObs
  generalize ((utc.floor : Int) : Rat) = z at *
  refine ⟨?_, ?_, ?_⟩ <;> grind

end Verif.SdFits
