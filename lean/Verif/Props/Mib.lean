import Verif.Model.Mib
import Verif.Lemmas.Bytes
/-!
# C28: integer MIB entries

The specification of an entry: the number is stored little-endian in its `w` bytes, the rest of the
value field is zero.
-/
namespace Verif.Mib

/-- The integer type codes, with their width and signedness. -/
inductive IntType | i1u | i2u | i4u | i4s | i8u
  deriving DecidableEq, Repr

def IntType.code : IntType → List Char
  | .i1u => ['i', '1', 'u'] | .i2u => ['i', '2', 'u'] | .i4u => ['i', '4', 'u']
  | .i4s => ['i', '4', 's'] | .i8u => ['i', '8', 'u']

def IntType.width : IntType → Nat
  | .i1u => 1 | .i2u => 2 | .i4u => 4 | .i4s => 4 | .i8u => 8

/-- Numbers the type can hold. -/
def IntType.Holds : IntType → Int → Prop
  | .i4s, n => -2147483648 ≤ n ∧ n ≤ 2147483647
  | t, n => 0 ≤ n ∧ n < (256 ^ t.width : Nat)

/-- The bytes of a number in the type: its two's complement little-endian form. -/
def IntType.store (t : IntType) (n : Int) : Bytes := leEnc t.width (n % (256 ^ t.width : Nat)).toNat

/-- The value field of an entry holding the number. -/
def field (t : IntType) (n : Int) (pad : Nat) : Bytes := t.store n ++ List.replicate pad 0

theorem leEnc_length (w n : Nat) : (leEnc w n).length = w := by
  induction w generalizing n with
  | zero => rfl
  | succ w ih => simp [leEnc, ih]

theorem store_length (t : IntType) (n : Int) : (t.store n).length = t.width := leEnc_length _ _

theorem takeWhile_full {b : Bytes} (h : (0 : UInt8) ∉ b) (k : Nat) :
    cField (b ++ List.replicate k 0) = b := by
  unfold cField
  induction b with
  | nil => cases k <;> simp [List.replicate_succ]
  | cons x xs ih =>
    simp only [List.mem_cons, not_or] at h
    rw [List.cons_append, List.takeWhile_cons_of_pos (by simpa using fun e => h.1 e.symm), ih h.2]

theorem takeWhile_short {b : Bytes} (h : (0 : UInt8) ∈ b) (r : Bytes) :
    (cField (b ++ r)).length < b.length := by
  unfold cField
  induction b with
  | nil => simp at h
  | cons x xs ih =>
    by_cases hx : x = 0
    · subst hx; simp
    · rw [List.cons_append, List.takeWhile_cons_of_pos (by simpa using hx)]
      have := ih (by simpa [Ne.symm hx] using h)
      simp only [List.length_cons]; omega

theorem parse_code (t : IntType) (v : Bytes) :
    parseValue v t.code = some (.int (((unpackLE t.width v).map
      (fun n => if t = .i4s then signed32 n else n)).getD 0)) := by
  cases t <;> simp [parseValue, IntType.code, IntType.width] <;>
    cases unpackLE _ v <;> rfl

theorem store_dec (t : IntType) (n : Int) (h : t.Holds n) :
    (if t = .i4s then signed32 (leDec (t.store n)) else (leDec (t.store n) : Int)) = n := by
  have key : ∀ W : Nat, 0 < W → (n % (W : Int)).toNat < W := by
    intro W hW
    have := Int.emod_nonneg n (b := (W : Int)) (by omega)
    have := Int.emod_lt_of_pos n (b := (W : Int)) (by omega)
    omega
  rw [IntType.store, leDec_leEnc_of_lt (key _ (Nat.pow_pos (by omega)))]
  cases t <;> simp [IntType.Holds, IntType.width, signed32] at * <;> omega

/-- A stored integer is read back correctly when none of its bytes is zero.  Missing from the full
property: numbers with a zero byte, for which it is false (`C28_zero_byte`). -/
theorem C28_int_partial (t : IntType) (n : Int) (pad : Nat) (h : t.Holds n)
    (hz : (0 : UInt8) ∉ t.store n) : entryValue (field t n pad) t.code = some (.int n) := by
  unfold entryValue field
  rw [takeWhile_full hz, parse_code, unpackLE, if_pos (store_length t n)]
  simp [store_dec t n h]

/-- Every number with a zero byte in its stored form is read as 0. -/
theorem C28_zero_byte (t : IntType) (n : Int) (pad : Nat) (hz : (0 : UInt8) ∈ t.store n) :
    entryValue (field t n pad) t.code = some (.int 0) := by
  have hs := takeWhile_short hz (List.replicate pad 0)
  unfold entryValue field
  rw [parse_code, unpackLE, if_neg (by rw [store_length] at hs; omega)]
  simp

/-- So an entry decodes correctly exactly when the number is 0 or has no zero byte. -/
theorem C28_correct_iff (t : IntType) (n : Int) (pad : Nat) (h : t.Holds n) :
    entryValue (field t n pad) t.code = some (.int n) ↔ n = 0 ∨ (0 : UInt8) ∉ t.store n := by
  by_cases hz : (0 : UInt8) ∈ t.store n
  · rw [C28_zero_byte t n pad hz]
    simp [hz, eq_comm]
  · simp [C28_int_partial t n pad h hz, hz]

/-- In particular every 4-byte number below 2^24 (such as a counter) reads as 0. -/
theorem C28_small_i4u (n pad : Nat) (h : n < 16777216) :
    entryValue (field .i4u n pad) IntType.i4u.code = some (.int 0) := by
  apply C28_zero_byte
  have e : ((n : Int) % ((256 ^ 4 : Nat) : Int)).toNat = n := by omega
  simp only [IntType.store, IntType.width, e, leEnc, List.mem_cons]
  right; right; right; left
  have : n / 256 / 256 / 256 = 0 := by omega
  rw [this]; rfl

/-- The property is false: 256 stored in a 2-byte entry reads as 0. -/
theorem C28_fails : ∃ t n pad, IntType.Holds t n ∧ entryValue (field t n pad) t.code ≠ some (.int n) :=
  ⟨.i2u, 256, 8190, by simp [IntType.Holds, IntType.width], by rw [C28_zero_byte _ _ _ (by decide)]; simp⟩

example : IntType.Holds .i4s (-2) ∧ (0 : UInt8) ∉ IntType.store .i4s (-2) ∧
    IntType.Holds .i2u 513 ∧ (0 : UInt8) ∉ IntType.store .i2u 513 :=
  ⟨by simp [IntType.Holds], by decide, by simp [IntType.Holds, IntType.width], by decide⟩

end Verif.Mib
