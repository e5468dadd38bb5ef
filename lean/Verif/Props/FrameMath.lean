import Verif.Model.FrameMath

/-! C113: arithmetic and order of frames. -/

namespace Verif.FrameMath

/-! Which frames an operation changes -/

/-- In-place operations change the array of the frame and no other. -/
theorem C113_inplace (h h' : Heap) (op : Op) (i : Nat) (y : Operand)
    (hr : inplace h op i y = .ok h') :
    h'.length = h.length ∧ (∀ k, k ≠ i → h'[k]? = h[k]?) ∧
      ∃ x b r, h[i]? = some x ∧ arrOp op x b = .ok r ∧ h'[i]? = some r ∧
        ((∃ j, y = .frame j ∧ h[j]? = some b) ∨ convert x.dtype y = .ok b) := by
  unfold inplace at hr
  cases hx : h[i]? with
  | none => rw [hx] at hr; simp at hr
  | some x =>
    have hi : i < h.length := by
      rw [List.getElem?_eq_some_iff] at hx
      exact hx.1
    rw [hx] at hr
    have fin : ∀ b r, arrOp op x b = .ok r → h' = h.set i r →
        ((∃ j, y = .frame j ∧ h[j]? = some b) ∨ convert x.dtype y = .ok b) →
        h'.length = h.length ∧ (∀ k, k ≠ i → h'[k]? = h[k]?) ∧
        ∃ x' b r, some x = some x' ∧ arrOp op x' b = .ok r ∧ h'[i]? = some r ∧
          ((∃ j, y = .frame j ∧ h[j]? = some b) ∨ convert x'.dtype y = .ok b) := by
      intro b r h1 h2 h3
      subst h2
      refine ⟨by simp, fun k hk => ?_, x, b, r, rfl, h1, ?_, h3⟩
      · rw [List.getElem?_set_ne (Ne.symm hk)]
      · rw [List.getElem?_set_self hi]
    have gen : ∀ y', y' = y → (do
        let b ← convert x.dtype y'
        let r ← arrOp op x b
        pure (h.set i r) : Except Err Heap) = .ok h' →
        h'.length = h.length ∧ (∀ k, k ≠ i → h'[k]? = h[k]?) ∧
        ∃ x' b r, some x = some x' ∧ arrOp op x' b = .ok r ∧ h'[i]? = some r ∧
          ((∃ j, y = .frame j ∧ h[j]? = some b) ∨ convert x'.dtype y = .ok b) := by
      intro y' hy hq
      rw [hy] at hq
      cases hc : convert x.dtype y with
      | error e => rw [hc] at hq; simp [bind, Except.bind] at hq
      | ok b =>
        rw [hc] at hq
        cases ha : arrOp op x b with
        | error e => simp [bind, Except.bind, ha] at hq
        | ok r =>
          simp only [bind, Except.bind, ha, pure, Except.pure, Except.ok.injEq] at hq
          exact fin b r ha hq.symm (Or.inr hc)
    cases y with
    | scalar q => simp at hr
    | frame j =>
      simp only at hr
      cases hj : h[j]? with
      | none => rw [hj] at hr; simp at hr
      | some b =>
        rw [hj] at hr
        cases ha : arrOp op x b with
        | error e => simp [ha, Except.map] at hr
        | ok r =>
          simp only [ha, Except.map, Except.ok.injEq] at hr
          exact fin b r ha hr.symm (Or.inl ⟨j, rfl, hj⟩)
    | int n => exact gen _ rfl hr
    | float q => exact gen _ rfl hr
    | complex z => exact gen _ rfl hr
    | array a => exact gen _ rfl hr

/-- Operations that give a new frame leave all frames as they were. -/
theorem C113_new (h h' : Heap) (op : Op) (i : Nat) (y : Operand)
    (hr : binary h op i y = .ok h') :
    h'.length = h.length + 1 ∧ ∀ k, k < h.length → h'[k]? = h[k]? := by
  unfold binary at hr
  cases hx : h[i]? with
  | none => rw [hx] at hr; simp at hr
  | some x =>
    rw [hx] at hr
    obtain ⟨h1, h2, -⟩ := C113_inplace _ _ _ _ _ hr
    refine ⟨by simpa using h1, fun k hk => ?_⟩
    rw [h2 k (by omega), List.getElem?_append_left hk]

/-- The new frame has what the operation in place would have left: with frames. -/
theorem C113_same_frame (h : Heap) (op : Op) (i j : Nat) (x b r : Arr)
    (hx : h[i]? = some x) (hb : h[j]? = some b) (ha : arrOp op x b = .ok r) :
    inplace h op i (.frame j) = .ok (h.set i r) ∧
      binary h op i (.frame j) = .ok (h ++ [r]) := by
  have hj : j < h.length := (List.getElem?_eq_some_iff.mp hb).1
  constructor
  · simp [inplace, hx, hb, ha, Except.map]
  · unfold binary
    rw [hx]
    simp only [inplace]
    rw [List.getElem?_append_right (Nat.le_refl _), List.getElem?_append_left hj, hb]
    simp [ha, Except.map]

/-- The new frame has what the operation in place would have left: with numbers and
arrays. -/
theorem C113_same_number (h : Heap) (op : Op) (i : Nat) (y : Operand) (x b r : Arr)
    (hy : ∀ j, y ≠ .frame j) (hx : h[i]? = some x) (hc : convert x.dtype y = .ok b)
    (ha : arrOp op x b = .ok r) :
    inplace h op i y = .ok (h.set i r) ∧ binary h op i y = .ok (h ++ [r]) := by
  have hs : ∀ q, y ≠ .scalar q := by
    rintro q rfl
    simp only [convert] at hc
    split at hc <;> simp at hc
  have key : ∀ (g : Heap) (k : Nat), g[k]? = some x →
      inplace g op k y = .ok (g.set k r) := by
    intro g k hk
    unfold inplace
    rw [hk]
    cases y with
    | scalar q => exact absurd rfl (hs q)
    | frame j => exact absurd rfl (hy j)
    | int n => simp [hc, ha, bind, Except.bind, pure, Except.pure]
    | float q => simp [hc, ha, bind, Except.bind, pure, Except.pure]
    | complex z => simp [hc, ha, bind, Except.bind, pure, Except.pure]
    | array a => simp [hc, ha, bind, Except.bind, pure, Except.pure]
  refine ⟨key h i hx, ?_⟩
  unfold binary
  rw [hx]
  simp only
  rw [key]
  · simp
  · simp

/-- A frame can be combined with itself. -/
theorem C113_self (h : Heap) (op : Op) (i : Nat) (x : Arr) (hx : h[i]? = some x)
    (ha : allowed op x.dtype x.dtype = true) :
    inplace h op i (.frame i) =
      .ok (h.set i ⟨x.dtype, List.zipWith (cellOp x.dtype op) x.data x.data⟩) :=
  (C113_same_frame h op i i x x _ hx hx (by simp [arrOp, ha])).1

/-! Values -/

theorem zip_each (R : Num → Num → Num → Prop) (f : Num → Num → Num) (x y : List Num)
    (hl : x.length = y.length) (hf : ∀ k (hx : k < x.length) (hy : k < y.length),
      R x[k] y[k] (f x[k] y[k])) : Each R x y (List.zipWith f x y) := by
  refine ⟨by simp [hl], fun k h hx hy => ?_⟩
  rw [List.getElem_zipWith]
  exact hf k hx hy

/-- Sums of complex frames of any length. -/
theorem C113_complex_sum_partial (x y : List Num) (hl : x.length = y.length) :
    ∃ r, arrOp .add ⟨.c64, x⟩ ⟨.c64, y⟩ = .ok ⟨.c64, r⟩ ∧ Each IsSum x y r := by
  refine ⟨List.zipWith (cellOp .c64 .add) x y, by simp [arrOp, allowed, rank, hl],
    zip_each _ _ _ _ hl ?_⟩
  intro k hx hy
  exact ⟨rfl, rfl⟩

/-- Differences of complex frames. -/
theorem C113_complex_difference_partial (x y : List Num) (hl : x.length = y.length) :
    ∃ r, arrOp .sub ⟨.c64, x⟩ ⟨.c64, y⟩ = .ok ⟨.c64, r⟩ ∧
      Each (fun a b c => IsSum b c a) x y r := by
  refine ⟨List.zipWith (cellOp .c64 .sub) x y, by simp [arrOp, allowed, rank, hl],
    zip_each _ _ _ _ hl ?_⟩
  intro k hx hy
  constructor
  · show _ = _ + (_ - _); grind
  · show _ = _ + (_ - _); grind

/-- Products of complex frames. -/
theorem C113_complex_product_partial (x y : List Num) (hl : x.length = y.length) :
    ∃ r, arrOp .mul ⟨.c64, x⟩ ⟨.c64, y⟩ = .ok ⟨.c64, r⟩ ∧ Each IsProduct x y r := by
  refine ⟨List.zipWith (cellOp .c64 .mul) x y, by simp [arrOp, allowed, rank, hl],
    zip_each _ _ _ _ hl ?_⟩
  intro k hx hy
  exact ⟨rfl, rfl⟩

theorem sq_nonneg' (a : Rat) : 0 ≤ a * a := by
  rcases Rat.le_total (a := 0) (b := a) with h | h
  · exact Rat.mul_nonneg h h
  · have : 0 ≤ -a := by grind
    have := Rat.mul_nonneg this this
    grind

theorem norm_ne {b : Num} (hb : b ≠ (0, 0)) : b.1 * b.1 + b.2 * b.2 ≠ 0 := by
  intro h
  have h1 := sq_nonneg' b.1
  have h2 := sq_nonneg' b.2
  have e1 : b.1 * b.1 = 0 := by grind
  have e2 : b.2 * b.2 = 0 := by grind
  apply hb
  have z1 : b.1 = 0 := by
    rcases Rat.mul_eq_zero.mp e1 with h | h <;> exact h
  have z2 : b.2 = 0 := by
    rcases Rat.mul_eq_zero.mp e2 with h | h <;> exact h
  exact Prod.ext z1 z2

theorem div_product (a b : Num) (hb : b ≠ (0, 0)) :
    IsProduct b (cplxOp .truediv a b) a := by
  have hn := norm_ne hb
  constructor
  · show a.1 = b.1 * (_ / _) - b.2 * (_ / _)
    generalize hN : b.1 * b.1 + b.2 * b.2 = N at *
    have : b.1 * ((a.1 * b.1 + a.2 * b.2) / N) - b.2 * ((a.2 * b.1 - a.1 * b.2) / N)
        = a.1 * (N / N) := by
      simp only [Rat.div_def]
      rw [← hN]
      grind
    rw [this, Rat.div_def, Rat.mul_inv_cancel _ hn]
    grind
  · show a.2 = b.1 * (_ / _) + b.2 * (_ / _)
    generalize hN : b.1 * b.1 + b.2 * b.2 = N at *
    have : b.1 * ((a.2 * b.1 - a.1 * b.2) / N) + b.2 * ((a.1 * b.1 + a.2 * b.2) / N)
        = a.2 * (N / N) := by
      simp only [Rat.div_def]
      rw [← hN]
      grind
    rw [this, Rat.div_def, Rat.mul_inv_cancel _ hn]
    grind

/-- Quotients of complex frames, by numbers that are not zero. -/
theorem C113_complex_quotient_partial (x y : List Num) (hl : x.length = y.length)
    (h0 : ∀ b ∈ y, b ≠ (0, 0)) :
    ∃ r, arrOp .truediv ⟨.c64, x⟩ ⟨.c64, y⟩ = .ok ⟨.c64, r⟩ ∧
      Each (fun a b c => IsProduct b c a) x y r := by
  refine ⟨List.zipWith (cellOp .c64 .truediv) x y, by simp [arrOp, allowed, rank, hl],
    zip_each _ _ _ _ hl ?_⟩
  intro k hx hy
  exact div_product _ _ (h0 _ (List.getElem_mem hy))

/-- A number with a complex frame: the same with every number of the frame. -/
theorem C113_complex_number (h : Heap) (op : Op) (i : Nat) (x : List Num) (z : Num)
    (hx : h[i]? = some ⟨.c64, x⟩) (ho : op ≠ .floordiv) :
    inplace h op i (.complex z) = .ok (h.set i ⟨.c64, x.map (cplxOp op · z)⟩) := by
  refine (C113_same_number h op i (.complex z) ⟨.c64, x⟩ ⟨.c64, [z]⟩ _ (by simp) hx
    (by simp [convert]) ?_).1
  have ha : allowed op .c64 .c64 = true := by
    cases op <;> first | rfl | exact absurd rfl ho
  unfold arrOp
  simp only [ha, ↓reduceIte]
  split
  · rename_i hl
    match x, hl with
    | [a], _ => rfl
  · rfl

/-- Integers and fractions with a complex frame are taken as they are. -/
theorem C113_complex_real (h : Heap) (op : Op) (i : Nat) (x : List Num)
    (hx : h[i]? = some ⟨.c64, x⟩) :
    (∀ n : Int, inplace h op i (.int n) = inplace h op i (.complex (n, 0))) ∧
      ∀ q : Rat, inplace h op i (.float q) = inplace h op i (.complex (q, 0)) := by
  constructor
  · intro n; simp [inplace, hx, convert]
  · intro q; simp [inplace, hx, convert, castCell]

/-- Taking away what was added gives the frame again. -/
theorem C113_undo_sum (x y : List Num) (hl : x.length = y.length) (r : Arr)
    (h : arrOp .add ⟨.c64, x⟩ ⟨.c64, y⟩ = .ok r) :
    arrOp .sub r ⟨.c64, y⟩ = .ok ⟨.c64, x⟩ := by
  simp only [arrOp, allowed, rank, hl, ↓reduceIte] at h
  simp at h
  subst h
  simp only [arrOp, allowed, rank]
  simp [hl]
  apply List.ext_getElem (by simp [hl])
  intro k h1 h2
  simp only [List.getElem_zipWith, cellOp, cplxOp]
  apply Prod.ext <;> simp <;> grind

/-- Signed bytes. -/
theorem wrap_byte (n : Int) : IsByteOf n (wrap n) := by
  unfold wrap
  refine ⟨by omega, by omega, (n + 128) / 256, by omega⟩

theorem C113_byte_unique (n r : Int) (h : IsByteOf n r) : wrap n = r := by
  obtain ⟨h1, h2, m, h3⟩ := h
  unfold wrap
  omega

/-- Frames of bytes: sums, differences and products modulo 256. -/
theorem C113_bytes (x y : List Int) (hl : x.length = y.length) (op : Op)
    (f : Int → Int → Int)
    (hop : (op = .add ∧ f = (· + ·)) ∨ (op = .sub ∧ f = (· - ·)) ∨ (op = .mul ∧ f = (· * ·))
      ∨ (op = .floordiv ∧ f = Int.fdiv)) :
    ∃ r : List Int, arrOp op ⟨.i8, x.map fun (n : Int) => ((n : Rat), (0 : Rat))⟩
        ⟨.i8, y.map fun (n : Int) => ((n : Rat), (0 : Rat))⟩ = .ok ⟨.i8, r.map fun (n : Int) => ((n : Rat), (0 : Rat))⟩ ∧
      r.length = x.length ∧ ∀ k (hr : k < r.length) (hx : k < x.length) (hy : k < y.length),
        IsByteOf (f x[k] y[k]) r[k] := by
  refine ⟨List.zipWith (byteOp op) x y, ?_, by simp [hl], ?_⟩
  · have ha : allowed op .i8 .i8 = true := by
      rcases hop with h | h | h | h <;> rw [h.1] <;> rfl
    unfold arrOp
    simp only [ha, ↓reduceIte, List.length_map, hl]
    congr 2
    apply List.ext_getElem (by simp)
    intro k h1 h2
    simp [cellOp]
  · intro k hr hx hy
    rw [List.getElem_zipWith]
    have : byteOp op x[k] y[k] = wrap (f x[k] y[k]) := by
      rcases hop with h | h | h | h <;> rw [h.1, h.2] <;> rfl
    rw [this]
    exact wrap_byte _

/-- Frames of bytes whose results are bytes are combined exactly. -/
theorem C113_bytes_exact (a b : Int) (h : -128 ≤ a + b ∧ a + b ≤ 127) :
    byteOp .add a b = a + b := by
  simp only [byteOp, wrap]
  omega

/-- Real frames. -/
theorem C113_real (x y : List Rat) (hl : x.length = y.length) (op : Op) (e : DType)
    (he : e = .f32 ∨ e = .i8) :
    arrOp op ⟨.f32, x.map fun q => (q, 0)⟩ ⟨e, y.map fun q => (q, 0)⟩ =
      .ok ⟨.f32, (List.zipWith (realOp op) x y).map fun q => (q, 0)⟩ := by
  have ha : allowed op .f32 e = true := by
    rcases he with rfl | rfl <;> cases op <;> rfl
  unfold arrOp
  simp only [ha, ↓reduceIte, List.length_map, hl]
  congr 2
  apply List.ext_getElem (by simp)
  intro k h1 h2
  simp [cellOp]

/-- The operations on real numbers. -/
theorem C113_real_laws (a b : Rat) : realOp .add a b = a + b ∧
    b + realOp .sub a b = a ∧ realOp .mul a b = a * b ∧
    (b ≠ 0 → b * realOp .truediv a b = a) ∧
    (0 < b → realOp .floordiv a b * b ≤ a ∧ a < (realOp .floordiv a b + 1) * b) := by
  refine ⟨rfl, by show b + (a - b) = a; grind, rfl, fun h => ?_, fun h => ?_⟩
  · show b * (a / b) = a
    rw [Rat.div_def, Rat.mul_comm a, ← Rat.mul_assoc, Rat.mul_inv_cancel _ h]
    grind
  · show (((a / b).floor : Int) : Rat) * b ≤ a ∧ a < ((((a / b).floor : Int) : Rat) + 1) * b
    have h1 : (((a / b).floor : Int) : Rat) ≤ a / b := Rat.floor_le _
    have h2 : a / b < (((a / b).floor : Int) : Rat) + 1 := by
      have := Rat.lt_floor (x := a / b)
      grind
    have e : a / b * b = a := by
      rw [Rat.div_def, Rat.mul_assoc, Rat.inv_mul_cancel _ (by grind)]
      grind
    constructor
    · have := Rat.mul_le_mul_of_nonneg_right h1 (Rat.le_of_lt h)
      rwa [e] at this
    · have := Rat.mul_lt_mul_of_pos_right h2 h
      rwa [e] at this

/-- Complex frames take real and complex arrays and frames as they are. -/
theorem C113_complex_array (h : Heap) (op : Op) (i j : Nat) (x : List Num) (y : Arr)
    (hx : h[i]? = some ⟨.c64, x⟩) (hy : h[j]? = some y)
    (ht : y.dtype = .c64 ∨ y.dtype = .f32 ∨ y.dtype = .i8) :
    inplace h op i (.array y) = inplace h op i (.frame j) := by
  have hc : convert .c64 (.array y) = .ok ⟨.c64, y.data⟩ := by
    have : y.dtype ≠ .ci8 := by rcases ht with h | h | h <;> rw [h] <;> decide
    have e : castCell .c64 = id := by funext z; rfl
    simp [convert, this, e]
  have ha : arrOp op ⟨.c64, x⟩ ⟨.c64, y.data⟩ = arrOp op ⟨.c64, x⟩ y := by
    have : allowed op .c64 .c64 = allowed op .c64 y.dtype := by
      rcases ht with h | h | h <;> rw [h] <;> cases op <;> rfl
    simp only [arrOp, this]
  simp only [inplace, hx, hy, hc, bind, Except.bind, ha, Except.map]
  cases arrOp op ⟨.c64, x⟩ y <;> rfl

/-- What arrays and numbers become: complex numbers lose their imaginary part, and
numbers their fraction, towards zero. -/
theorem C113_converted :
    convert .f32 (.array ⟨.c64, [(1, 5), (2, 0)]⟩) = .ok ⟨.f32, [(1, 0), (2, 0)]⟩ ∧
    convert .i8 (.float (-3 / 2)) = .ok ⟨.i8, [(-1, 0)]⟩ ∧
    convert .i8 (.array ⟨.f32, [(-3 / 2, 0), (3 / 2, 0)]⟩) = .ok ⟨.i8, [(-1, 0), (1, 0)]⟩ := by
  decide +kernel

/-- Frames of different length are not combined, unless the second has one number. -/
theorem C113_lengths (op : Op) (x y : Arr) (h : x.data.length ≠ y.data.length)
    (h1 : y.data.length ≠ 1) : ∀ r, arrOp op x y ≠ .ok r := by
  intro r
  unfold arrOp
  split
  · split
    · rename_i hy
      simp [hy] at h1
    · simp
  · simp

/-- A frame of numbers of a smaller type takes no numbers of a larger one. -/
theorem C113_types (op : Op) (x y : Arr) (h : rank x.dtype < rank y.dtype) :
    arrOp op x y = .error .type := by
  have : allowed op x.dtype y.dtype = false := by
    unfold allowed
    have : decide (rank y.dtype ≤ rank x.dtype) = false := by simp; omega
    simp [this]
  simp [arrOp, this]

example : inplace [⟨.c64, [(1, 2), (3, 4)]⟩, ⟨.c64, [(0, 1), (2, 0)]⟩] .mul 0 (.frame 1) =
    .ok [⟨.c64, [(-2, 1), (6, 8)]⟩, ⟨.c64, [(0, 1), (2, 0)]⟩] := by decide +kernel

example : binary [⟨.f32, [(1, 0), (3, 0)]⟩] .truediv 0 (.int 2) =
    .ok [⟨.f32, [(1, 0), (3, 0)]⟩, ⟨.f32, [(1 / 2, 0), (3 / 2, 0)]⟩] := by decide +kernel

example : binary [⟨.f32, [(-1, 0), (3, 0)]⟩] .floordiv 0 (.int 2) =
    .ok [⟨.f32, [(-1, 0), (3, 0)]⟩, ⟨.f32, [(-1, 0), (1, 0)]⟩] := by decide +kernel

example : binary [⟨.i8, [(-7, 0), (7, 0)]⟩] .floordiv 0 (.int 2) =
    .ok [⟨.i8, [(-7, 0), (7, 0)]⟩, ⟨.i8, [(-4, 0), (3, 0)]⟩] := by decide +kernel

/-- Frames of bytes multiplied by a half, or by any fraction less than one, are zero, for
the number is made a byte first. -/
theorem C113_not_half (h : Heap) (i : Nat) (x : List Num) (q : Rat)
    (hx : h[i]? = some ⟨.i8, x⟩) (h0 : 0 ≤ q) (h1 : q < 1) :
    inplace h .mul i (.float q) = .ok (h.set i ⟨.i8, x.map fun _ => (0, 0)⟩) := by
  have hf : q.floor = 0 := by
    have a : (0 : Int) ≤ q.floor := Rat.le_floor_iff.mpr (by simpa using h0)
    have b : q.floor < 1 := Rat.floor_lt_iff.mpr (by simpa using h1)
    omega
  have ht : trunc q = 0 := by simp [trunc, h0, hf]
  refine (C113_same_number h .mul i (.float q) ⟨.i8, x⟩ ⟨.i8, [(0, 0)]⟩ _ (by simp) hx
    (by simp [convert, castCell, ht, wrap]) ?_).1
  unfold arrOp
  simp only [show allowed .mul .i8 .i8 = true from rfl, ↓reduceIte]
  have hc : ∀ a : Num, cellOp .i8 .mul a (0, 0) = (0, 0) := by
    intro a
    have : (0 : Rat).floor = 0 := rfl
    simp [cellOp, byteOp, this, wrap]
  split
  · rename_i hl
    match x, hl with
    | [a], _ => simp [hc]
  · simp [hc]

/-- Two frames of bytes do not give their mean. -/
theorem C113_not_mean :
    (inplace [⟨.i8, [(100, 0)]⟩, ⟨.i8, [(100, 0)]⟩] .add 0 (.frame 1)).bind
        (fun h => inplace h .floordiv 0 (.int 2)) =
      .ok [⟨.i8, [(-28, 0)]⟩, ⟨.i8, [(100, 0)]⟩] := by decide +kernel

/-- A fraction is dropped when it is given as number or array, but refused as frame. -/
theorem C113_not_fraction :
    inplace [⟨.i8, [(3, 0)]⟩, ⟨.f32, [(3 / 2, 0)]⟩] .add 0 (.float (3 / 2)) =
      .ok [⟨.i8, [(4, 0)]⟩, ⟨.f32, [(3 / 2, 0)]⟩] ∧
    inplace [⟨.i8, [(3, 0)]⟩, ⟨.f32, [(3 / 2, 0)]⟩] .add 0 (.array ⟨.f32, [(3 / 2, 0)]⟩) =
      .ok [⟨.i8, [(4, 0)]⟩, ⟨.f32, [(3 / 2, 0)]⟩] ∧
    inplace [⟨.i8, [(3, 0)]⟩, ⟨.f32, [(3 / 2, 0)]⟩] .add 0 (.frame 1) = .error .type := by
  decide +kernel

/-- The imaginary parts of an array are dropped when the frame is real. -/
theorem C113_not_imaginary :
    inplace [⟨.f32, [(3, 0)]⟩] .add 0 (.array ⟨.c64, [(1, 5)]⟩) = .ok [⟨.f32, [(4, 0)]⟩] ∧
    inplace [⟨.f32, [(3, 0)]⟩] .add 0 (.complex (1, 5)) = .error .type := by
  decide +kernel

/-- Bytes have no quotient with fraction, complex frames none without, pairs of bytes
have no arithmetic, and scalars of numpy are refused. -/
theorem C113_not_all (h : Heap) (i : Nat) (x : Arr) (hx : h[i]? = some x) :
    (x.dtype = .i8 → ∀ q, inplace h .truediv i (.float q) = .error .type) ∧
    (x.dtype = .c64 → ∀ q, inplace h .floordiv i (.float q) = .error .type) ∧
    (x.dtype = .ci8 → ∀ op y h', inplace h op i y ≠ .ok h') ∧
    ∀ op q, inplace h op i (.scalar q) = .error .type := by
  refine ⟨fun hd q => ?_, fun hd q => ?_, fun hd op y h' hr => ?_, fun op q => ?_⟩
  · simp [inplace, hx, convert, hd, arrOp, allowed, bind, Except.bind]
  · simp [inplace, hx, convert, hd, arrOp, allowed, bind, Except.bind]
  · obtain ⟨-, -, x', b, r, h1, h2, -, -⟩ := C113_inplace _ _ _ _ _ hr
    rw [hx] at h1
    cases h1
    simp [arrOp, allowed, hd] at h2
  · simp [inplace, hx]

/-- Integers that are no bytes are refused. -/
theorem C113_integers (h : Heap) (op : Op) (i : Nat) (x : List Num) (n : Int)
    (hx : h[i]? = some ⟨.i8, x⟩) (hn : n < -128 ∨ 127 < n) :
    inplace h op i (.int n) = .error .overflow := by
  have : ¬ (-128 ≤ n ∧ n ≤ 127) := by omega
  simp [inplace, hx, convert, this, bind, Except.bind]

/-- A header of another class gives an error other than the one meant. -/
theorem C113_not_init : initHeader false ≠ .error .type ∧ initHeader true = .ok () := by
  decide

/-! Order -/

/-- Comparisons are those of the times. -/
theorem C113_order (x t : Rat) :
    eqFrame x (some t) = .ok (decide (x = t)) ∧ ltFrame x (some t) = .ok (decide (x < t)) ∧
    leFrame x (some t) = .ok (decide (x ≤ t)) ∧ gtFrame x (some t) = .ok (decide (t < x)) ∧
    geFrame x (some t) = .ok (decide (t ≤ x)) := by
  refine ⟨rfl, rfl, ?_, ?_, ?_⟩
  · simp only [leFrame, ltFrame, eqFrame, other, Except.map, bind, Except.bind, pure,
      Except.pure, Except.ok.injEq]
    by_cases h1 : x < t <;> by_cases h2 : x = t <;> by_cases h3 : x ≤ t <;> simp [h1, h2, h3] <;> grind
  · simp only [gtFrame, ltFrame, eqFrame, other, Except.map, bind, Except.bind, pure,
      Except.pure, Except.ok.injEq]
    by_cases h1 : x < t <;> by_cases h2 : x = t <;> by_cases h3 : t < x <;> simp [h1, h2, h3] <;> grind
  · simp only [geFrame, ltFrame, other, Except.map, bind, Except.bind, pure,
      Except.pure, Except.ok.injEq]
    by_cases h1 : x < t <;> by_cases h3 : t ≤ x <;> simp [h1, h3] <;> grind

/-- Of two frames at most one is before the other, and frames in a row are in order. -/
theorem C113_transitive (x y z : Rat) (h1 : ltFrame x (some y) = .ok true)
    (h2 : ltFrame y (some z) = .ok true) :
    ltFrame x (some z) = .ok true ∧ ltFrame z (some x) = .ok false := by
  simp only [ltFrame, other, Except.map, Except.ok.injEq, decide_eq_true_eq] at h1 h2 ⊢
  constructor
  · grind
  · simp; grind

/-- A frame cannot be compared with something that has no time: not even `==` gives an
answer. -/
theorem C113_not_equal (x : Rat) : eqFrame x none = .error .type ∧
    ltFrame x none = .error .type ∧ leFrame x none = .error .type ∧
    gtFrame x none = .error .type ∧ geFrame x none = .error .type :=
  ⟨rfl, rfl, rfl, rfl, rfl⟩

/-! Spectrometer frames -/

theorem mem_attrs (ps : List String) (k : Attr) :
    k ∈ attrs ps ↔ k.1 ∈ ps ∧ (k.2 = 0 ∨ k.2 = 1) := by
  obtain ⟨p, t⟩ := k
  simp only [attrs, List.mem_flatMap, List.mem_cons, Prod.mk.injEq, List.not_mem_nil, or_false]
  constructor
  · rintro ⟨a, ha, ⟨rfl, rfl⟩ | ⟨rfl, rfl⟩⟩ <;> simp [ha]
  · rintro ⟨h, rfl | rfl⟩
    · exact ⟨p, h, Or.inl ⟨rfl, rfl⟩⟩
    · exact ⟨p, h, Or.inr ⟨rfl, rfl⟩⟩

theorem nodup_attrs (ps : List String) (h : ps.Nodup) : (attrs ps).Nodup := by
  induction ps with
  | nil => simp [attrs]
  | cons p ps ih =>
    rw [List.nodup_cons] at h
    have e : attrs (p :: ps) = (p, 0) :: (p, 1) :: attrs ps := rfl
    rw [e, List.nodup_cons, List.nodup_cons]
    refine ⟨?_, ?_, ih h.2⟩
    · simp only [List.mem_cons, Prod.mk.injEq, mem_attrs, not_or]
      exact ⟨by simp, fun hh => h.1 hh.1⟩
    · simp only [mem_attrs]
      exact fun hh => h.1 hh.1

theorem loop_ok (op : Op) (y : SOperand) : ∀ (ks : List Attr) (d : Attr → Option (List Rat)),
    ks.Nodup → (∀ k ∈ ks, ∃ v, attrOp op (d k) y k = .ok v) →
    (loop op y ks d).2 = none ∧
    (∀ k ∈ ks, ∃ v, attrOp op (d k) y k = .ok v ∧ (loop op y ks d).1 k = some v) ∧
    ∀ k, k ∉ ks → (loop op y ks d).1 k = d k := by
  intro ks
  induction ks with
  | nil => intro d _ _; exact ⟨rfl, by simp, fun k _ => rfl⟩
  | cons k ks ih =>
    intro d hn hv
    rw [List.nodup_cons] at hn
    obtain ⟨v, hk⟩ := hv k (by simp)
    have e : loop op y (k :: ks) d = loop op y ks (setData d k v) := by
      conv => lhs; unfold loop
      rw [hk]
    have same : ∀ j ∈ ks, setData d k v j = d j := by
      intro j hj
      have : j ≠ k := fun h => hn.1 (h ▸ hj)
      simp [setData, this]
    obtain ⟨h1, h2, h3⟩ := ih (setData d k v) hn.2 (fun j hj => by
      rw [same j hj]
      exact hv j (by simp [hj]))
    rw [e]
    refine ⟨h1, fun j hj => ?_, fun j hj => ?_⟩
    · rw [List.mem_cons] at hj
      rcases hj with rfl | hj
      · refine ⟨v, hk, ?_⟩
        rw [h3 j hn.1]
        simp [setData]
      · obtain ⟨w, hw, hw'⟩ := h2 j hj
        exact ⟨w, by rw [← same j hj]; exact hw, hw'⟩
    · rw [List.mem_cons, not_or] at hj
      rw [h3 j hj.2]
      simp [setData, hj.1]

/-- Spectrometer frames with the same products and channels are combined in every
product of both tunings and every channel, and nothing else is changed. -/
theorem C113_spectra_partial (op : Op) (x y : Spectra) (hn : x.products.Nodup)
    (hd : ∀ p ∈ x.products, ∀ t, t = 0 ∨ t = 1 → ∃ a b, x.data (p, t) = some a ∧
      y.data (p, t) = some b ∧ a.length = b.length) :
    (inplaceS op x (.frame y)).2 = none ∧
    (inplaceS op x (.frame y)).1.products = x.products ∧
    (∀ p ∈ x.products, ∀ t, t = 0 ∨ t = 1 → ∀ a b, x.data (p, t) = some a →
      y.data (p, t) = some b →
      (inplaceS op x (.frame y)).1.data (p, t) = some (List.zipWith (realOp op) a b)) ∧
    ∀ p t, (p ∉ x.products ∨ 1 < t) →
      (inplaceS op x (.frame y)).1.data (p, t) = x.data (p, t) := by
  obtain ⟨h1, h2, h3⟩ := loop_ok op (.frame y) (attrs x.products) x.data
    (nodup_attrs _ hn) (by
      intro k hk
      rw [mem_attrs] at hk
      obtain ⟨a, b, ha, hb, hl⟩ := hd k.1 hk.1 k.2 hk.2
      exact ⟨List.zipWith (realOp op) a b, by simp [attrOp, ha, hb, broadcast, hl]⟩)
  refine ⟨h1, rfl, fun p hp t ht a b ha hb => ?_, fun p t h => ?_⟩
  · obtain ⟨v, hv, hv'⟩ := h2 (p, t) ((mem_attrs _ _).mpr ⟨hp, ht⟩)
    obtain ⟨a', b', ha', hb', hl⟩ := hd p hp t ht
    rw [ha] at ha'
    rw [hb] at hb'
    cases ha'
    cases hb'
    simp only [attrOp, ha, hb, broadcast, hl, ↓reduceIte, Except.ok.injEq] at hv
    show (loop _ _ _ _).1 _ = _
    rw [hv', hv]
  · refine h3 (p, t) ?_
    rw [mem_attrs]
    rintro ⟨hp, ht⟩
    rcases h with h | h
    · exact h hp
    · simp only at ht
      omega

/-- A number with spectrometer frames. -/
theorem C113_spectra_number (op : Op) (x : Spectra) (q : Rat) (hn : x.products.Nodup)
    (hd : ∀ p ∈ x.products, ∀ t, t = 0 ∨ t = 1 → ∃ a, x.data (p, t) = some a) :
    (inplaceS op x (.number q)).2 = none ∧
    ∀ p ∈ x.products, ∀ t, t = 0 ∨ t = 1 → ∀ a, x.data (p, t) = some a →
      (inplaceS op x (.number q)).1.data (p, t) = some (a.map (realOp op · q)) := by
  obtain ⟨h1, h2, -⟩ := loop_ok op (.number q) (attrs x.products) x.data
    (nodup_attrs _ hn) (by
      intro k hk
      rw [mem_attrs] at hk
      obtain ⟨a, ha⟩ := hd k.1 hk.1 k.2 hk.2
      exact ⟨a.map (realOp op · q), by simp only [attrOp, ha]⟩)
  refine ⟨h1, fun p hp t ht a ha => ?_⟩
  obtain ⟨v, hv, hv'⟩ := h2 (p, t) ((mem_attrs _ _).mpr ⟨hp, ht⟩)
  simp only [attrOp, ha, Except.ok.injEq] at hv
  show (loop _ _ _ _).1 _ = _
  rw [hv', hv]

/-- The first product that the second frame does not have ends the loop with a
`NameError`, after the products before it were changed. -/
theorem C113_not_products (op : Op) (x y : Spectra) (p q : String) (rest : List String)
    (hp : x.products = p :: q :: rest)
    (hd : ∀ t, t = 0 ∨ t = 1 → ∃ a b, x.data (p, t) = some a ∧ y.data (p, t) = some b ∧
      a.length = b.length) (hq : y.data (q, 0) = none) :
    (inplaceS op x (.frame y)).2 = some .name ∧
    ∀ t, t = 0 ∨ t = 1 → ∀ a b, x.data (p, t) = some a → y.data (p, t) = some b →
      (inplaceS op x (.frame y)).1.data (p, t) = some (List.zipWith (realOp op) a b) := by
  obtain ⟨a0, b0, ha0, hb0, hl0⟩ := hd 0 (Or.inl rfl)
  obtain ⟨a1, b1, ha1, hb1, hl1⟩ := hd 1 (Or.inr rfl)
  have e : loop op (.frame y) (attrs x.products) x.data =
      (setData (setData x.data (p, 0) (List.zipWith (realOp op) a0 b0)) (p, 1)
        (List.zipWith (realOp op) a1 b1), some .name) := by
    rw [hp]
    show loop op (.frame y) ((p, 0) :: (p, 1) :: (q, 0) :: _) x.data = _
    have hne : ((p, 1) : Attr) ≠ (p, 0) := by simp
    simp only [loop, attrOp, ha0, hb0, broadcast, hl0, ↓reduceIte]
    simp only [setData, hne, ↓reduceIte, ha1, hb1, hl1]
    simp only [hq]
    split
    · rename_i e he
      split at he
      · rename_i hn
        cases hn
      · cases he
        rfl
    · rename_i v he
      split at he
      · rename_i hn
        cases hn
      · cases he
  constructor
  · show (loop _ _ _ _).2 = _
    rw [e]
  · intro t ht a b ha hb
    show (loop _ _ _ _).1 _ = _
    rw [e]
    rcases ht with rfl | rfl
    · rw [ha0] at ha
      rw [hb0] at hb
      cases ha
      cases hb
      simp [setData]
    · rw [ha1] at ha
      rw [hb1] at hb
      cases ha
      cases hb
      simp [setData]

/-- The opposite way there is no error: products that only the second frame has are left
out of the sum. -/
theorem C113_not_symmetric :
    ∃ x y : Spectra, (inplaceS .add x (.frame y)).2 = none ∧
      (inplaceS .add y (.frame x)).2 = some .name := by
  refine ⟨⟨["I"], fun k => if k.1 = "I" then some [1] else none⟩,
    ⟨["I", "V"], fun k => if k.1 = "I" ∨ k.1 = "V" then some [1] else none⟩, ?_, ?_⟩
  · decide +kernel
  · decide +kernel

/-- A spectrum of one channel is given as many channels as the other frame has. -/
theorem C113_not_channels :
    (inplaceS .add ⟨["I"], fun _ => some [1]⟩ (.frame ⟨["I"], fun _ => some [1, 2, 3]⟩)).1.data
      ("I", 0) = some [2, 3, 4] := by decide +kernel

example : ((inplaceS .floordiv ⟨["I"], fun _ => some [7, -7]⟩ (.number 2)).1.data ("I", 1)) =
    some [3, -4] := by decide +kernel

end Verif.FrameMath
