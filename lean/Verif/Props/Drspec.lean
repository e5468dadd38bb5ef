import Verif.Model.Drspec
import Verif.Props.Tbx
/-!
# C11: DR spectrometer reader
-/
namespace Verif.Drspec

/-! ## Specification -/

/-- Products announced by a format byte, lowest bit first. -/
def products (fmt : Nat) : List Nat := (List.range 8).filter (fun k => fmt.testBit k)

/-- The formats that a recorder writes. -/
def recorded : List Nat :=
  [0x01, 0x02, 0x04, 0x08, 0x09, 0x06, 0x0F, 0x10, 0x20, 0x40, 0x80, 0x90, 0xF0]

/-- Where the format puts product number `r` of `m`: per tuning, per channel, interleaved. -/
def place (m n t i r : Nat) : Nat := (t * n + i) * m + r

/-- Fill counts that enter product `k` of tuning `t`. -/
def inputs (h : Header) (k t : Nat) : List Nat :=
  if k = 0 then [h.fills.getD (2 * t) 0]
  else if k = 3 then [h.fills.getD (2 * t + 1) 0]
  else [h.fills.getD (2 * t) 0, h.fills.getD (2 * t + 1) 0]

/-! ## Proofs -/

theorem polCount_zero : polCount 0 = 0 := by unfold polCount; rfl

theorem polCount_pos (v : Nat) (h : v ≠ 0) : polCount v = polCount (v &&& (v - 1)) + 1 := by
  rw [polCount]; simp [h]

/-- The bit-clearing loop with a step bound, for evaluation. -/
def countFuel : Nat → Nat → Option Nat
  | 0, _ => none
  | k + 1, v => if v = 0 then some 0 else (countFuel k (v &&& (v - 1))).map (· + 1)

theorem countFuel_eq : ∀ (k v c : Nat), countFuel k v = some c → polCount v = c
  | 0, v, c, h => by simp [countFuel] at h
  | k + 1, v, c, h => by
    unfold countFuel at h
    split at h
    · rename_i hv; subst hv; simp at h; rw [polCount_zero, h]
    · rename_i hv
      simp only [Option.map_eq_some_iff] at h
      obtain ⟨c', h1, h2⟩ := h
      rw [polCount_pos v hv, countFuel_eq k _ _ h1, h2]

theorem count_all : ∀ v : Fin 256, countFuel 9 v.val = some (products v.val).length := by
  decide +kernel

/-- The number of products is the number of bits set, for every format byte. -/
theorem polCount_eq (fmt : Nat) (h : fmt < 256) : polCount fmt = (products fmt).length :=
  countFuel_eq 9 _ _ (count_all ⟨fmt, h⟩)

theorem strides_all : ∀ v : Fin 256,
    ((∃ o ∈ parser v.val, o.stride ≤ (products v.val).length) ↔
      v.val ∈ recorded ∨ 4 ≤ (products v.val).length) ∧
    (∀ o ∈ parser v.val, o.off < o.stride ∧ ∀ o' ∈ parser v.val, o'.stride = o.stride) ∧
    (∃ o ∈ parser v.val, o.off + 1 = o.stride) := by decide +kernel

/-- Reads past the block happen exactly for the formats that are neither recorded nor have four
products or more. -/
theorem C11_in_bounds_iff (fmt n : Nat) (hf : fmt < 256) (hn : 0 < n) :
    (∀ o ∈ parser fmt, ∀ t i, t < 2 → i < n → o.index n t i < polCount fmt * 2 * n) ↔
      fmt ∈ recorded ∨ 4 ≤ (products fmt).length := by
  obtain ⟨h1, h2, o, ho, hoff⟩ := strides_all ⟨fmt, hf⟩
  rw [polCount_eq fmt hf]
  rw [← h1]
  simp only at h2 ho hoff ⊢
  generalize hm : (products fmt).length = m at *
  constructor
  · intro h
    refine ⟨o, ho, ?_⟩
    have := h o ho 1 (n - 1) (by omega) (by omega)
    unfold Out.index at this
    rw [Nat.one_mul, Nat.mul_sub, Nat.mul_one] at this
    have hle : o.stride ≤ o.stride * n := Nat.le_mul_of_pos_right _ hn
    have e : o.stride * n * 2 ≤ m * 2 * n := by omega
    have e' : o.stride * (2 * n) ≤ m * (2 * n) := by
      rw [Nat.mul_assoc] at e
      rw [Nat.mul_comm n 2] at e
      rw [Nat.mul_assoc] at e
      exact e
    exact Nat.le_of_mul_le_mul_right e' (by omega)
  · rintro ⟨o1, ho1, hle⟩ o2 ho2 t i ht hi
    have hs := (h2 o2 ho2).2 o1 ho1
    have hof := (h2 o2 ho2).1
    rw [hs] at hle
    unfold Out.index
    have a : o2.stride * i + o2.off < o2.stride * n := by
      have : o2.stride * (i + 1) ≤ o2.stride * n := Nat.mul_le_mul_left _ hi
      rw [Nat.mul_add] at this; omega
    have b : t * o2.stride * n ≤ o2.stride * n := by
      have : t * o2.stride ≤ 1 * o2.stride := Nat.mul_le_mul_right _ (by omega)
      rw [Nat.one_mul] at this
      exact Nat.mul_le_mul_right _ this
    have c : o2.stride * n ≤ m * n := Nat.mul_le_mul_right _ hle
    have d : m * 2 * n = m * n + m * n := by
      rw [Nat.mul_assoc, Nat.two_mul, Nat.mul_add]
    omega

/-- Missing from the full property: the other formats (`C11_out_of_bounds`) and zero divisors
(`C11_zero_fill`).  Every recorded format is parsed inside its block. -/
theorem C11_safe_partial (fmt n : Nat) (hf : fmt ∈ recorded) :
    ∀ o ∈ parser fmt, ∀ t i, t < 2 → i < n → o.index n t i < polCount fmt * 2 * n := by
  intro o ho t i ht hi
  have h256 : fmt < 256 := by
    simp only [recorded, List.mem_cons, List.not_mem_nil, or_false] at hf; omega
  exact (C11_in_bounds_iff fmt n h256 (by omega)).mpr (.inl hf) o ho t i ht hi

/-- The property is false: XX + real(XY) + imag(XY), for any number of channels, reads past the
block (the last channel of the second tuning). -/
theorem C11_out_of_bounds (n : Nat) (hn : 0 < n) : ∃ o ∈ parser 0x07, ∃ t i, t < 2 ∧ i < n ∧
    polCount 0x07 * 2 * n ≤ o.index n t i := by
  have h := mt (C11_in_bounds_iff 0x07 n (by decide) hn).mp (by decide)
  simp only [Classical.not_forall] at h
  obtain ⟨o, ho, t, i, ht, hi, hlt⟩ := h
  exact ⟨o, ho, t, i, ht, hi, by omega⟩

/-- A header without any product at all makes the reader look at eight values per channel. -/
theorem C11_empty_format (n : Nat) : polCount 0 * 2 * n = 0 ∧ (parser 0).length = 4 := by
  rw [polCount_zero]; exact ⟨by simp, by decide⟩

theorem parser_table : ∀ fmt ∈ recorded, ∀ r : Fin 8, ∀ k ∈ (products fmt)[r.val]?,
    (parser fmt).find? (fun o => o.slot == k % 4) = some ⟨k % 4, (products fmt).length, r.val,
      if k = 0 then .x else if k = 3 then .y else .both⟩ ∧ fmt.testBit k = true := by
  decide +kernel

/-- For every recorded format, every product, tuning and channel: the value stored under the
product's name is the one the format puts there, divided by nFreqs times the smallest fill count of
its inputs (as a 32-bit product). -/
theorem C11_products (h : Header) (data : List Nat) (hf : h.fmt ∈ recorded) (r k : Nat)
    (hk : (products h.fmt)[r]? = some k) (t i : Nat) (hi : i < h.nFreqs) :
    ∃ a, attr h data k t = some a ∧ a.length = h.nFreqs ∧ a[i]? = some
      (data[place (products h.fmt).length h.nFreqs t i r]?,
       h.nFreqs * (inputs h k t).min?.getD 0 % 2 ^ 32) := by
  have hr : r < 8 := by
    have h1 : r < (products h.fmt).length := by
      rcases Nat.lt_or_ge r (products h.fmt).length with h | h
      · exact h
      · rw [List.getElem?_eq_none h] at hk; simp at hk
    have h2 : (products h.fmt).length ≤ 8 := by
      unfold products
      exact Nat.le_trans (List.length_filter_le _ _) (by simp)
    omega
  obtain ⟨h1, h2⟩ := parser_table h.fmt hf ⟨r, hr⟩ k (by simp [hk])
  refine ⟨slotData h data (k % 4) t, by simp [attr, h2], ?_, ?_⟩
  · simp [slotData, h1, Out.fill]
  · simp only [slotData, h1, Out.fill, List.getElem?_map, List.getElem?_range hi, Option.map_some,
      Out.index, place]
    rw [show t * (products h.fmt).length * h.nFreqs + (products h.fmt).length * i + r =
      (t * h.nFreqs + i) * (products h.fmt).length + r by grind]
    congr 2
    unfold inputs
    by_cases k0 : k = 0
    · simp [k0, normValue]
    · by_cases k3 : k = 3
      · simp [k3, normValue]
      · simp [k0, k3, normValue]

/-- A product that the format does not announce is not stored. -/
theorem C11_absent (h : Header) (data : List Nat) (k t : Nat) (hk : h.fmt.testBit k = false) :
    attr h data k t = none := by simp [attr, hk]

/-- Distinct products, tunings and channels of a recorded format come from distinct places of the
block, and every place of the block is used: nothing is mixed up or dropped. -/
theorem C11_place_bijective (m n : Nat) (j : Nat) (hj : j < m * 2 * n) :
    ∃ t i r, t < 2 ∧ i < n ∧ r < m ∧ place m n t i r = j ∧
      ∀ t' i' r', t' < 2 → i' < n → r' < m → place m n t' i' r' = j → t' = t ∧ i' = i ∧ r' = r := by
  have hm : 0 < m := by
    rcases Nat.eq_zero_or_pos m with h | h
    · subst h; simp at hj
    · exact h
  have hn : 0 < n := by
    rcases Nat.eq_zero_or_pos n with h | h
    · subst h; simp at hj
    · exact h
  have hq : j / m < 2 * n := by
    rw [Nat.div_lt_iff_lt_mul hm]
    rw [Nat.mul_assoc, Nat.mul_comm m] at hj; exact hj
  refine ⟨j / m / n, j / m % n, j % m, ?_, Nat.mod_lt _ hn, Nat.mod_lt _ hm, ?_, ?_⟩
  · rw [Nat.div_lt_iff_lt_mul hn]; exact hq
  · unfold place
    rw [Nat.mul_comm (j / m / n) n, Nat.div_add_mod, Nat.mul_comm, Nat.div_add_mod]
  · intro t' i' r' ht hi hr h
    unfold place at h
    have e1 : j / m = t' * n + i' := by
      rw [← h, Nat.mul_comm, Nat.mul_add_div hm, Nat.div_eq_of_lt hr, Nat.add_zero]
    have e2 : j % m = r' := by
      rw [← h, Nat.mul_comm, Nat.mul_add_mod, Nat.mod_eq_of_lt hr]
    rw [e1, e2, Nat.mul_comm t' n, Nat.mul_add_div hn, Nat.mul_add_mod, Nat.div_eq_of_lt hi,
      Nat.mod_eq_of_lt hi]
    simp

/-- No zero division when no fill count is zero and the products fit in 32 bits. -/
theorem C11_nonzero_partial (h : Header) (hn : 0 < h.nFreqs) (t : Nat) (ht : t < 2)
    (hl : h.fills.length = 4) (hfill : ∀ x ∈ h.fills, 0 < x ∧ h.nFreqs * x < 2 ^ 32) (m : Norm) :
    normValue h t m ≠ 0 := by
  have key : ∀ x ∈ h.fills, h.nFreqs * x % 2 ^ 32 ≠ 0 := by
    intro x hx
    obtain ⟨h1, h2⟩ := hfill x hx
    rw [Nat.mod_eq_of_lt h2]
    exact Nat.ne_of_gt (Nat.mul_pos hn h1)
  have mem : ∀ j, j < 4 → h.fills.getD j 0 ∈ h.fills := by
    intro j hj
    rw [List.getD_eq_getElem?_getD, List.getElem?_eq_getElem (by omega)]
    simp
  cases m with
  | x => exact key _ (mem _ (by omega))
  | y => exact key _ (mem _ (by omega))
  | both =>
    unfold normValue
    rcases Nat.le_total (h.fills.getD (2 * t) 0) (h.fills.getD (2 * t + 1) 0) with hle | hle
    · rw [Nat.min_eq_left hle]; exact key _ (mem _ (by omega))
    · rw [Nat.min_eq_right hle]; exact key _ (mem _ (by omega))

/-- The property is false: a tuning without any fill is divided by zero. -/
theorem C11_zero_fill (h : Header) (t : Nat) (hx : h.fills.getD (2 * t) 0 = 0) :
    normValue h t .x = 0 ∧ normValue h t .both = 0 := by
  constructor
  · simp only [normValue, hx, Nat.mul_zero, Nat.zero_mod]
  · simp only [normValue, hx, Nat.zero_min, Nat.mul_zero, Nat.zero_mod]

/-- It is also divided by zero when the 32-bit product overflows to zero: 65536 channels filled
65536 times. -/
theorem C11_overflow (h : Header) (hn : h.nFreqs = 65536) (hf : h.fills = [65536, 65536, 65536, 65536]) :
    normValue h 0 .x = 0 := by simp [normValue, hn, hf]

/-! ## The read itself -/

theorem floats_length : ∀ (k : Nat) (b : Bytes), b.length = 4 * k → (floats b).length = k
  | 0, b, h => by
    have : b = [] := List.eq_nil_of_length_eq_zero (by omega)
    subst this; rfl
  | k + 1, b, h => by
    match b, h with
    | a :: b :: c :: d :: l, h =>
      simp only [floats, List.length_cons]
      rw [floats_length k l (by simp only [List.length_cons] at h; omega)]

/-- Value `j` of the block is made of its bytes `4 j .. 4 j + 3`. -/
theorem C11_float_at : ∀ (j : Nat) (b : Bytes), 4 * j + 4 ≤ b.length →
    (floats b)[j]? = some (leDec (slice b (4 * j) 4))
  | 0, b, h => by
    match b, h with
    | a :: b :: c :: d :: l, h => rfl
  | j + 1, b, h => by
    match b, h with
    | a :: b :: c :: d :: l, h =>
      have := C11_float_at j l (by simp only [List.length_cons] at h; omega)
      simp only [floats, List.getElem?_cons_succ, this]
      rw [show 4 * (j + 1) = 4 * j + 4 by omega]
      rfl

/-- The cached size of the data section never matters. -/
theorem C11_history (c1 c2 : Option Nat) (f : Bytes) (pos : Nat) :
    (read c1 f pos).1 = (read c2 f pos).1 ∧ (read c1 f pos).2.1 = (read c2 f pos).2.1 := by
  have hd : ∀ c n, datSize c n = n := by
    intro c n; unfold datSize; split
    · rfl
    · split
      · rfl
      · rename_i h; simpa using h
  unfold read
  simp only [hd]
  split
  · exact ⟨rfl, rfl⟩
  · split
    · exact ⟨rfl, rfl⟩
    · split <;> exact ⟨rfl, rfl⟩

/-- A spectrometer frame in a file, from the format description: little-endian numbers. -/
def wire (h : Header) (block : Bytes) : List Bytes :=
  [[0xDE, 0xC0, 0xDE, 0xC0], leEnc 8 h.timeTag, leEnc 2 h.timeOffset, leEnc 2 h.decFactor] ++
  h.freqCode.map (leEnc 4) ++ h.fills.map (leEnc 4) ++ h.errors.map (leEnc 1) ++
  [leEnc 1 h.beam, leEnc 1 h.fmt, leEnc 1 h.version, leEnc 1 h.flags, leEnc 4 h.nFreqs,
    leEnc 4 h.nInts] ++ h.sat.map (leEnc 4) ++ [[0x0C, 0xED, 0x0C, 0xED], block]

/-- Header values that fit their fields. -/
structure Header.Ok (h : Header) : Prop where
  timeTag : h.timeTag < 2 ^ 64
  timeOffset : h.timeOffset < 2 ^ 16
  decFactor : h.decFactor < 2 ^ 16
  freqCode : ∃ a b, h.freqCode = [a, b] ∧ a < 2 ^ 32 ∧ b < 2 ^ 32
  fills : ∃ a b c d, h.fills = [a, b, c, d] ∧ a < 2 ^ 32 ∧ b < 2 ^ 32 ∧ c < 2 ^ 32 ∧ d < 2 ^ 32
  errors : ∃ a b c d, h.errors = [a, b, c, d] ∧ a < 256 ∧ b < 256 ∧ c < 256 ∧ d < 256
  beam : h.beam < 256
  fmt : h.fmt < 256
  version : h.version < 256
  flags : h.flags < 256
  nFreqs : h.nFreqs < 2 ^ 32
  nInts : h.nInts < 2 ^ 32
  sat : ∃ a b c d, h.sat = [a, b, c, d] ∧ a < 2 ^ 32 ∧ b < 2 ^ 32 ∧ c < 2 ^ 32 ∧ d < 2 ^ 32

theorem slice_take (f : Bytes) (n off w : Nat) (h : off + w ≤ n) :
    slice (f.take n) off w = slice f off w := by
  unfold slice
  rw [List.drop_take, List.take_take, Nat.min_eq_left (by omega)]

theorem wlen (l0 l1 block : Bytes) (h0 : l0.length = 4) (h1 : l1.length = 4)
    (tt to df c0 c1 f0 f1 f2 f3 e0 e1 e2 e3 be fm ve fl nf ni s0 s1 s2 s3 : Nat) : ([l0, leEnc 8 tt, leEnc 2 to, leEnc 2 df,
      leEnc 4 c0, leEnc 4 c1, leEnc 4 f0, leEnc 4 f1, leEnc 4 f2, leEnc 4 f3, leEnc 1 e0, leEnc 1 e1,
      leEnc 1 e2, leEnc 1 e3, leEnc 1 be, leEnc 1 fm, leEnc 1 ve, leEnc 1 fl, leEnc 4 nf, leEnc 4 ni,
      leEnc 4 s0, leEnc 4 s1, leEnc 4 s2, leEnc 4 s3, l1, block]).flatten.length = 76 + block.length := by
  simp only [List.length_flatten, List.map_cons, List.map_nil, leEnc_length, List.sum_cons,
      List.sum_nil, h0, h1]
  simp only [← Nat.add_assoc, Nat.reduceAdd, Nat.add_zero]
theorem decodeHeader_wire (h : Header) (ok : h.Ok) (block : Bytes) :
    decodeHeader ((wire h block).flatten.take 76) = h ∧
    leDec (slice ((wire h block).flatten.take 76) 0 4) = 0xC0DEC0DE ∧
    leDec (slice ((wire h block).flatten.take 76) 72 4) = 0xED0CED0C ∧
    (wire h block).flatten.length = 76 + block.length ∧
    (wire h block).flatten.drop 76 = block := by
  obtain ⟨a1, a2, a3, ⟨c0, c1, hc, a4, a5⟩, ⟨f0, f1, f2, f3, hf, a6, a7, a8, a9⟩,
    ⟨e0, e1, e2, e3, he, b1, b2, b3, b4⟩, b5, b6, b7, b8, b9, b10, ⟨s0, s1, s2, s3, hs, d1, d2, d3, d4⟩⟩ := ok
  obtain ⟨tt, to, df, fc, fi, er, be, fm, ve, fl, nf, ni, sa⟩ := h
  simp only at *
  subst hc hf he hs
  have hw : wire ⟨tt, to, df, [c0, c1], [f0, f1, f2, f3], [e0, e1, e2, e3], be, fm, ve, fl, nf, ni,
      [s0, s1, s2, s3]⟩ block = [[0xDE, 0xC0, 0xDE, 0xC0], leEnc 8 tt, leEnc 2 to, leEnc 2 df,
      leEnc 4 c0, leEnc 4 c1, leEnc 4 f0, leEnc 4 f1, leEnc 4 f2, leEnc 4 f3, leEnc 1 e0, leEnc 1 e1,
      leEnc 1 e2, leEnc 1 e3, leEnc 1 be, leEnc 1 fm, leEnc 1 ve, leEnc 1 fl, leEnc 4 nf, leEnc 4 ni,
      leEnc 4 s0, leEnc 4 s1, leEnc 4 s2, leEnc 4 s3, [0x0C, 0xED, 0x0C, 0xED], block] := rfl
  rw [hw]
  refine ⟨?_, ?_, ?_, ?_, ?_⟩
  · unfold decodeHeader
    simp only [slice_take _ 76 _ _ (show (4:Nat) + 8 ≤ 76 by omega),
      slice_take _ 76 _ _ (show (12:Nat) + 2 ≤ 76 by omega),
      slice_take _ 76 _ _ (show (14:Nat) + 2 ≤ 76 by omega),
      slice_take _ 76 _ _ (show (16:Nat) + 4 ≤ 76 by omega),
      slice_take _ 76 _ _ (show (20:Nat) + 4 ≤ 76 by omega),
      slice_take _ 76 _ _ (show (24:Nat) + 4 ≤ 76 by omega),
      slice_take _ 76 _ _ (show (28:Nat) + 4 ≤ 76 by omega),
      slice_take _ 76 _ _ (show (32:Nat) + 4 ≤ 76 by omega),
      slice_take _ 76 _ _ (show (36:Nat) + 4 ≤ 76 by omega),
      slice_take _ 76 _ _ (show (40:Nat) + 1 ≤ 76 by omega),
      slice_take _ 76 _ _ (show (41:Nat) + 1 ≤ 76 by omega),
      slice_take _ 76 _ _ (show (42:Nat) + 1 ≤ 76 by omega),
      slice_take _ 76 _ _ (show (43:Nat) + 1 ≤ 76 by omega),
      slice_take _ 76 _ _ (show (44:Nat) + 1 ≤ 76 by omega),
      slice_take _ 76 _ _ (show (45:Nat) + 1 ≤ 76 by omega),
      slice_take _ 76 _ _ (show (46:Nat) + 1 ≤ 76 by omega),
      slice_take _ 76 _ _ (show (47:Nat) + 1 ≤ 76 by omega),
      slice_take _ 76 _ _ (show (48:Nat) + 4 ≤ 76 by omega),
      slice_take _ 76 _ _ (show (52:Nat) + 4 ≤ 76 by omega),
      slice_take _ 76 _ _ (show (56:Nat) + 4 ≤ 76 by omega),
      slice_take _ 76 _ _ (show (60:Nat) + 4 ≤ 76 by omega),
      slice_take _ 76 _ _ (show (64:Nat) + 4 ≤ 76 by omega),
      slice_take _ 76 _ _ (show (68:Nat) + 4 ≤ 76 by omega)]
    rw [slice_fields _ 1 (leEnc 8 tt) rfl (by simp) (by simp),
      slice_fields _ 2 (leEnc 2 to) rfl (by simp) (by simp),
      slice_fields _ 3 (leEnc 2 df) rfl (by simp) (by simp),
      slice_fields _ 4 (leEnc 4 c0) rfl (by simp) (by simp),
      slice_fields _ 5 (leEnc 4 c1) rfl (by simp) (by simp),
      slice_fields _ 6 (leEnc 4 f0) rfl (by simp) (by simp),
      slice_fields _ 7 (leEnc 4 f1) rfl (by simp) (by simp),
      slice_fields _ 8 (leEnc 4 f2) rfl (by simp) (by simp),
      slice_fields _ 9 (leEnc 4 f3) rfl (by simp) (by simp),
      slice_fields _ 10 (leEnc 1 e0) rfl (by simp) (by simp),
      slice_fields _ 11 (leEnc 1 e1) rfl (by simp) (by simp),
      slice_fields _ 12 (leEnc 1 e2) rfl (by simp) (by simp),
      slice_fields _ 13 (leEnc 1 e3) rfl (by simp) (by simp),
      slice_fields _ 14 (leEnc 1 be) rfl (by simp) (by simp),
      slice_fields _ 15 (leEnc 1 fm) rfl (by simp) (by simp),
      slice_fields _ 16 (leEnc 1 ve) rfl (by simp) (by simp),
      slice_fields _ 17 (leEnc 1 fl) rfl (by simp) (by simp),
      slice_fields _ 18 (leEnc 4 nf) rfl (by simp) (by simp),
      slice_fields _ 19 (leEnc 4 ni) rfl (by simp) (by simp),
      slice_fields _ 20 (leEnc 4 s0) rfl (by simp) (by simp),
      slice_fields _ 21 (leEnc 4 s1) rfl (by simp) (by simp),
      slice_fields _ 22 (leEnc 4 s2) rfl (by simp) (by simp),
      slice_fields _ 23 (leEnc 4 s3) rfl (by simp) (by simp)]
    simp only [Nat.reducePow] at a1 a2 a3 a4 a5 a6 a7 a8 a9 b9 b10 d1 d2 d3 d4
    simp only [leDec_leEnc, Nat.reducePow, Nat.mod_eq_of_lt a1, Nat.mod_eq_of_lt a2,
      Nat.mod_eq_of_lt a3, Nat.mod_eq_of_lt a4, Nat.mod_eq_of_lt a5, Nat.mod_eq_of_lt a6,
      Nat.mod_eq_of_lt a7, Nat.mod_eq_of_lt a8, Nat.mod_eq_of_lt a9, Nat.mod_eq_of_lt b1,
      Nat.mod_eq_of_lt b2, Nat.mod_eq_of_lt b3, Nat.mod_eq_of_lt b4, Nat.mod_eq_of_lt b5,
      Nat.mod_eq_of_lt b6, Nat.mod_eq_of_lt b7, Nat.mod_eq_of_lt b8, Nat.mod_eq_of_lt b9,
      Nat.mod_eq_of_lt b10, Nat.mod_eq_of_lt d1, Nat.mod_eq_of_lt d2, Nat.mod_eq_of_lt d3,
      Nat.mod_eq_of_lt d4]
  · rw [slice_take _ _ _ _ (by omega)]
    rw [slice_fields _ 0 [0xDE, 0xC0, 0xDE, 0xC0] (off := 0) (w := 4) rfl rfl rfl]
    decide
  · rw [slice_take _ _ _ _ (by omega)]
    rw [slice_fields _ 24 [0x0C, 0xED, 0x0C, 0xED] (off := 72) (w := 4) rfl (by simp) rfl]
    decide
  · exact wlen _ _ block rfl rfl ..
  · have := slice_fields [[0xDE, 0xC0, 0xDE, 0xC0], leEnc 8 tt, leEnc 2 to, leEnc 2 df,
      leEnc 4 c0, leEnc 4 c1, leEnc 4 f0, leEnc 4 f1, leEnc 4 f2, leEnc 4 f3, leEnc 1 e0, leEnc 1 e1,
      leEnc 1 e2, leEnc 1 e3, leEnc 1 be, leEnc 1 fm, leEnc 1 ve, leEnc 1 fl, leEnc 4 nf, leEnc 4 ni,
      leEnc 4 s0, leEnc 4 s1, leEnc 4 s2, leEnc 4 s3, [0x0C, 0xED, 0x0C, 0xED], block] 25 block
      (off := 76) rfl (by simp) rfl
    unfold slice at this
    rw [List.take_of_length_le] at this
    · exact this
    · rw [List.length_drop, wlen _ _ block rfl rfl, Nat.add_sub_cancel_left]
      exact Nat.le_refl _

/-- Every frame in a file is read back, header and block, in every context and after every history,
and the position is moved past it. -/
theorem C11_wire (cached : Option Nat) (h : Header) (ok : h.Ok) (block pre post : Bytes)
    (hb : block.length = 8 * (products h.fmt).length * h.nFreqs) :
    ∃ st, read cached (pre ++ (wire h block).flatten ++ post) pre.length =
      (.ok ⟨h, floats block⟩, pre.length + 76 + block.length, st) := by
  obtain ⟨h1, h2, h3, h4, h5⟩ := decodeHeader_wire h ok block
  have hbb : blockBytes h = block.length := by
    unfold blockBytes; rw [polCount_eq _ ok.fmt, hb]
    rw [show 4 * ((products h.fmt).length * 2) = 8 * (products h.fmt).length by omega]
  have hd : ∀ c n, datSize c n = n := by
    intro c n; unfold datSize; split
    · rfl
    · split
      · rfl
      · rename_i h; simpa using h
  have r1 : readAt (pre ++ (wire h block).flatten ++ post) pre.length headerSize =
      (wire h block).flatten.take 76 := by
    unfold readAt headerSize
    rw [List.append_assoc, List.drop_append_of_le_length (by omega),
      List.drop_of_length_le (Nat.le_refl _), List.nil_append,
      List.take_append_of_le_length (by omega)]
  have r2 : readAt (pre ++ (wire h block).flatten ++ post) (pre.length + headerSize) block.length =
      block := by
    unfold readAt headerSize
    rw [List.append_assoc, List.drop_append, List.drop_of_length_le (by omega), List.nil_append,
      Nat.add_sub_cancel_left, List.drop_append_of_le_length (by omega), h5,
      List.take_append_of_le_length (by omega), List.take_of_length_le (by omega)]
  unfold read
  simp only [r1, h1, h2, h3, hd, hbb, r2]
  rw [if_neg (by rw [List.length_take]; unfold headerSize; omega)]
  rw [if_neg (by simp)]
  simp only [ne_eq, not_true_eq_false, ↓reduceIte]
  exact ⟨_, rfl⟩

/-- Every frame returned holds exactly the values its format announces, so that with
`C11_in_bounds_iff` every value stored for a recorded format was in the file. -/
theorem C11_data_length (cached : Option Nat) (f : Bytes) (pos : Nat) (fr : Frame)
    (h : (read cached f pos).1 = .ok fr) : fr.data.length = polCount fr.header.fmt * 2 * fr.header.nFreqs := by
  unfold read at h
  simp only at h
  split at h
  · simp at h
  · split at h
    · simp at h
    · split at h
      · simp at h
      · rename_i hl
        simp only [Except.ok.injEq] at h
        subst h
        apply floats_length
        simp only [ne_eq, Decidable.not_not] at hl
        rw [hl]
        unfold blockBytes
        rw [Nat.mul_assoc 4]

/-- A synchronisation error leaves the position; so the caller may skip and retry. -/
theorem C11_sync_position (cached : Option Nat) (f : Bytes) (pos : Nat)
    (h : (read cached f pos).1 = .error .sync) : (read cached f pos).2.1 = pos := by
  unfold read at h ⊢
  simp only at h ⊢
  split at h
  · simp at h
  · rename_i hl
    split at h
    · rename_i hs
      rw [if_neg hl, if_pos hs]
      simp only [ne_eq, Decidable.not_not] at hl
      simp only
      omega
    · split at h <;> simp at h

/-- A header, a block and a format to which the theorems above apply. -/
example : (⟨1, 2, 3, [4, 5], [6, 7, 8, 9], [0, 0, 0, 0], 1, 0x09, 2, 0, 2, 100, [0, 0, 0, 0]⟩ : Header).Ok ∧
    (List.replicate 32 (0x3F : UInt8)).length = 8 * (products 0x09).length * 2 ∧
    0x09 ∈ recorded ∧ (products 0x09)[1]? = some 3 := by
  refine ⟨⟨by simp, by simp, by simp, ⟨4, 5, rfl, by omega, by omega⟩,
    ⟨6, 7, 8, 9, rfl, by omega, by omega, by omega, by omega⟩,
    ⟨0, 0, 0, 0, rfl, by omega, by omega, by omega, by omega⟩, by simp, by simp, by simp, by simp,
    by simp, by simp, ⟨0, 0, 0, 0, rfl, by omega, by omega, by omega, by omega⟩⟩, by decide, by decide, by decide⟩

end Verif.Drspec
