import Verif.Model.FlatMulti
/-!
# C27: reshaping keeps every element at the C position
-/
namespace Verif.FlatMulti
variable {α : Type}

/-! ## Specification -/

/-- Product of the dimensions. -/
def prod : List Nat → Nat
  | [] => 1
  | d :: ds => d * prod ds

/-- An index within the dimensions. -/
def InBounds : List Nat → List Nat → Prop
  | [], [] => True
  | d :: ds, i :: is => i < d ∧ InBounds ds is
  | _, _ => False

/-- C (row-major) position of an index. -/
def rowMajor : List Nat → List Nat → Nat
  | _ :: ds, i :: is => i * prod ds + rowMajor ds is
  | _, _ => 0

/-- `x[i][j]...` on a nested list. -/
def get : Nest α → List Nat → Option α
  | .elem a, [] => some a
  | .list l, i :: is =>
    match l[i]? with
    | some x => get x is
    | none => none
  | _, _ => none

/-- Every nesting level has exactly the length of its dimension. -/
def HasShape : List Nat → Nest α → Prop
  | [], .elem _ => True
  | d :: ds, .list l => l.length = d ∧ ∀ x ∈ l, HasShape ds x
  | _, _ => False

mutual
/-- All elements, left to right. -/
def flat : Nest α → List α
  | .elem a => [a]
  | .list l => flatList l
def flatList : List (Nest α) → List α
  | [] => []
  | x :: xs => flat x ++ flatList xs
end

/-! ## Proofs -/

theorem foldl_prod (l : List Nat) (a : Nat) : l.foldl (fun x y => x * y) a = a * prod l := by
  induction l generalizing a with
  | nil => simp [prod]
  | cons x xs ih => simp [prod, ih, Nat.mul_assoc]

theorem prod_append (a b : List Nat) : prod (a ++ b) = prod a * prod b := by
  induction a with
  | nil => simp [prod]
  | cons x xs ih => simp [prod, ih, Nat.mul_assoc]

theorem prod_reverse (a : List Nat) : prod a.reverse = prod a := by
  induction a with
  | nil => rfl
  | cons x xs ih => simp [prod, prod_append, ih, Nat.mul_comm]

theorem flatList_append (a b : List (Nest α)) : flatList (a ++ b) = flatList a ++ flatList b := by
  induction a with
  | nil => simp [flatList]
  | cons x xs ih => simp [flatList, ih]

theorem flatList_elem (l : List α) : flatList (l.map .elem) = l := by
  induction l with
  | nil => rfl
  | cons x xs ih => simp [flatList, flat, ih]

theorem flatList_map_list (cs : List (List (Nest α))) :
    flatList (cs.map .list) = flatList cs.flatten := by
  induction cs with
  | nil => rfl
  | cons x xs ih => simp [flatList, flat, flatList_append, ih]

theorem chunks_flatten_aux {β : Type} (d : Nat) (hd : d ≠ 0) (m : Nat) :
    ∀ out : List β, out.length = m * d →
      ((List.range m).map fun k => (out.drop (k * d)).take d).flatten = out := by
  induction m with
  | zero => intro out h; simp at h; simp [h]
  | succ m ih =>
    intro out h
    rw [List.range_succ_eq_map]
    simp only [List.map_cons, List.map_map, List.flatten_cons, Nat.zero_mul, List.drop_zero]
    have h2 := ih (out.drop d) (by rw [List.length_drop, h, Nat.succ_mul]; omega)
    rw [show (List.map ((fun k => List.take d (List.drop (k * d) out)) ∘ Nat.succ) (List.range m)) =
      (List.map (fun k => List.take d (List.drop (k * d) (List.drop d out))) (List.range m)) by
        apply List.map_congr_left
        intro k _
        simp only [Function.comp, List.drop_drop]
        rw [Nat.succ_mul, Nat.add_comm]]
    rw [h2, List.take_append_drop]

theorem ceil_div (m d : Nat) (hd : d ≠ 0) : (m * d + d - 1) / d = m := by
  have : m * d + d - 1 = (d - 1) + d * m := by rw [Nat.mul_comm]; omega
  rw [this, Nat.add_mul_div_left _ _ (by omega), Nat.div_eq_of_lt (by omega)]; omega

/-- What the loop maintains: `out` lists the sub-arrays of the dimensions already folded. -/
structure Inv (l : List α) (out : List (Nest α)) (rem done : List Nat) : Prop where
  len : out.length = prod rem
  shape : ∀ x ∈ out, HasShape done x
  flat : flatList out = l
  get : ∀ p (h : p < out.length) ix, InBounds done ix →
    get out[p] ix = l[p * prod done + rowMajor done ix]?

theorem inv_step (l : List α) (out : List (Nest α)) (d : Nat) (rest done : List Nat) (hd : d ≠ 0)
    (h : Inv l out (d :: rest) done) :
    ∃ cs, chunks d out = some cs ∧ Inv l (cs.map .list) rest (d :: done) := by
  have hlen : out.length = prod rest * d := by rw [h.len, prod, Nat.mul_comm]
  refine ⟨_, by rw [chunks, if_neg hd], ?_⟩
  rw [hlen, ceil_div _ _ hd]
  have hsl : ∀ k, k < prod rest → ((out.drop (k * d)).take d).length = d := by
    intro k hk
    rw [List.length_take, List.length_drop, hlen]
    have : (k + 1) * d ≤ prod rest * d := Nat.mul_le_mul_right _ hk
    rw [Nat.add_mul] at this
    omega
  refine ⟨by simp, ?_, ?_, ?_⟩
  · intro x hx
    simp only [List.mem_map, List.mem_range] at hx
    obtain ⟨_, ⟨k, hk, rfl⟩, rfl⟩ := hx
    exact ⟨hsl k hk, fun y hy => h.shape y (List.mem_of_mem_drop (List.mem_of_mem_take hy))⟩
  · rw [flatList_map_list, chunks_flatten_aux d hd _ out hlen, h.flat]
  · intro p hp ix hix
    simp only [List.length_map, List.length_range] at hp
    match ix, hix with
    | i :: is, hix =>
      have hi : i < d := hix.1
      have hb : (p + 1) * d ≤ prod rest * d := Nat.mul_le_mul_right _ hp
      rw [Nat.add_mul] at hb
      have hq : p * d + i < out.length := by rw [hlen]; omega
      simp only [List.getElem_map, List.getElem_range, get]
      rw [List.getElem?_take_of_lt hi, List.getElem?_drop, List.getElem?_eq_getElem hq]
      simp only
      rw [h.get _ hq _ hix.2]
      congr 1
      simp only [prod, rowMajor, Nat.add_mul, Nat.mul_assoc]
      omega

theorem loop_inv (l : List α) (rem : List Nat) : ∀ (out : List (Nest α)) (done : List Nat) (d0 : Nat),
    (∀ d ∈ rem, d ≠ 0) → Inv l out (rem ++ [d0]) done →
    ∃ r, loop out (rem ++ [d0]) = some r ∧ Inv l r [d0] (rem.reverse ++ done) := by
  induction rem with
  | nil => intro out done d0 _ h; exact ⟨out, rfl, by simpa using h⟩
  | cons d rem ih =>
    intro out done d0 hnz h
    obtain ⟨cs, hcs, hinv⟩ := inv_step l out d (rem ++ [d0]) done (hnz d (by simp)) h
    obtain ⟨r, hr, hr2⟩ := ih (cs.map .list) (d :: done) d0 (fun x hx => hnz x (by simp [hx])) hinv
    refine ⟨r, ?_, by simpa using hr2⟩
    cases hrem : rem with
    | nil => subst hrem; simpa [loop, hcs] using hr
    | cons e es => subst hrem; simpa [loop, hcs] using hr

theorem init_inv (l : List α) (rem : List Nat) (h : prod rem = l.length) :
    Inv l (l.map .elem) rem [] := by
  refine ⟨by simp [h], ?_, flatList_elem l, ?_⟩
  · intro x hx
    simp only [List.mem_map] at hx
    obtain ⟨a, _, rfl⟩ := hx
    trivial
  · intro p hp ix hix
    match ix, hix with
    | [], _ =>
      simp only [List.length_map] at hp
      simp [get, prod, rowMajor, hp]

/-- For every flat list and every shape (no zero after the first dimension) with as many cells as
elements, the call succeeds; every nesting level has the length of its dimension; the element at any
index is the one at the C row-major position of the flat list; and flattening gives the list back. -/
theorem C27_reshape (l : List α) (d0 : Nat) (ds : List Nat) (hlen : prod (d0 :: ds) = l.length)
    (hnz : ∀ d ∈ ds, d ≠ 0) :
    ∃ r, flatToMulti l (d0 :: ds) = some r ∧
      HasShape (d0 :: ds) (.list r) ∧
      (∀ ix, InBounds (d0 :: ds) ix → get (.list r) ix = l[rowMajor (d0 :: ds) ix]?) ∧
      flat (.list r) = l := by
  have h0 := init_inv l (ds.reverse ++ [d0])
    (by rw [← hlen, ← List.reverse_cons, prod_reverse])
  obtain ⟨r, hr, hinv⟩ := loop_inv l ds.reverse _ [] d0 (by simpa using hnz) h0
  simp only [List.reverse_reverse, List.append_nil] at hinv
  have hrl : r.length = d0 := by rw [hinv.len]; simp [prod]
  refine ⟨r, ?_, ⟨hrl, hinv.shape⟩, ?_, ?_⟩
  · unfold flatToMulti
    rw [foldl_prod, if_neg (by simp [hlen]), List.reverse_cons]
    exact hr
  · intro ix hix
    match ix, hix with
    | i :: is, hix =>
      have hi : i < r.length := by rw [hrl]; exact hix.1
      simp only [get]
      rw [List.getElem?_eq_getElem hi]
      exact hinv.get i hi is hix.2
  · simp only [flat]; exact hinv.flat

/-- The in-bounds positions really are positions of the flat list (so nothing is "absent"). -/
theorem C27_in_range (ds ix : List Nat) (h : InBounds ds ix) : rowMajor ds ix < prod ds := by
  induction ds generalizing ix with
  | nil => cases ix <;> simp_all [InBounds, rowMajor, prod]
  | cons d ds ih =>
    cases ix with
    | nil => simp [InBounds] at h
    | cons i is =>
      have h2 := ih is h.2
      have h3 : (i + 1) * prod ds ≤ d * prod ds := Nat.mul_le_mul_right _ h.1
      simp only [rowMajor, prod, Nat.add_mul] at *
      omega

/-- The wrong number of elements is always refused. -/
theorem C27_mismatch (l : List α) (shape : List Nat) (h : prod shape ≠ l.length) :
    flatToMulti l shape = none := by
  unfold flatToMulti
  rw [foldl_prod, if_pos (by simpa using h)]

example : ∃ r, flatToMulti [10, 11, 12, 13, 14, 15] [2, 3] = some r ∧
    get (.list r) [1, 2] = some 15 ∧ get (.list r) [1, 0] = some 13 := ⟨_, rfl, rfl, rfl⟩
example : prod [2, 3] = [10, 11, 12, 13, 14, 15].length ∧ InBounds [2, 3] [1, 2] := by
  simp [prod, InBounds]

end Verif.FlatMulti
