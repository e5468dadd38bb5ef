import Verif.Model.Bytes

namespace Verif

@[simp] theorem beEnc_length (w n : Nat) : (beEnc w n).length = w := by
  induction w with
  | zero => rfl
  | succ w ih => simp [beEnc, ih]

@[simp] theorem leEnc_length (w n : Nat) : (leEnc w n).length = w := by
  induction w generalizing n with
  | zero => rfl
  | succ w ih => simp [leEnc, ih]

theorem foldl_be (l : Bytes) (a : Nat) :
    l.foldl (fun a b => a * 256 + b.toNat) a = a * 256 ^ l.length + beDec l := by
  unfold beDec
  induction l generalizing a with
  | nil => simp
  | cons b l ih =>
    simp only [List.foldl_cons, List.length_cons]
    rw [ih, ih (0 * 256 + b.toNat)]
    rw [Nat.pow_succ]
    grind

theorem beDec_cons (b : UInt8) (l : Bytes) : beDec (b :: l) = b.toNat * 256 ^ l.length + beDec l := by
  rw [beDec, List.foldl_cons, foldl_be]; simp

@[simp] theorem beDec_nil : beDec [] = 0 := rfl

theorem beDec_beEnc (w n : Nat) : beDec (beEnc w n) = n % 256 ^ w := by
  induction w with
  | zero => simp [beEnc, Nat.mod_one]
  | succ w ih =>
    rw [beEnc, beDec_cons, ih, beEnc_length, Nat.pow_succ]
    rw [Nat.mod_mul]
    simp [Nat.mul_comm]
    omega

theorem beDec_beEnc_of_lt {w n : Nat} (h : n < 256 ^ w) : beDec (beEnc w n) = n := by
  rw [beDec_beEnc, Nat.mod_eq_of_lt h]

theorem beDec_lt (l : Bytes) : beDec l < 256 ^ l.length := by
  induction l with
  | nil => simp
  | cons b l ih =>
    rw [beDec_cons, List.length_cons, Nat.pow_succ]
    have hb : b.toNat < 256 := b.toNat_lt
    have : b.toNat * 256 ^ l.length ≤ 255 * 256 ^ l.length := Nat.mul_le_mul_right _ (by omega)
    omega

theorem leDec_leEnc (w n : Nat) : leDec (leEnc w n) = n % 256 ^ w := by
  induction w generalizing n with
  | zero => simp [leEnc, leDec, Nat.mod_one]
  | succ w ih =>
    rw [leEnc, leDec, ih, Nat.pow_succ, Nat.mul_comm (256 ^ w) 256, Nat.mod_mul]
    simp

theorem leDec_leEnc_of_lt {w n : Nat} (h : n < 256 ^ w) : leDec (leEnc w n) = n := by
  rw [leDec_leEnc, Nat.mod_eq_of_lt h]

theorem leDec_lt (l : Bytes) : leDec l < 256 ^ l.length := by
  induction l with
  | nil => simp [leDec]
  | cons b l ih =>
    rw [leDec, List.length_cons, Nat.pow_succ]
    have hb : b.toNat < 256 := b.toNat_lt
    omega

theorem leEnc_leDec (l : Bytes) : leEnc l.length (leDec l) = l := by
  induction l with
  | nil => rfl
  | cons b l ih =>
    rw [List.length_cons, leEnc, leDec]
    have hb : b.toNat < 256 := b.toNat_lt
    rw [show (b.toNat + 256 * leDec l) / 256 = leDec l by omega, ih]
    congr 1
    apply UInt8.toNat_inj.1
    simp

theorem readAt_length (f : Bytes) (pos n : Nat) : (readAt f pos n).length = min n (f.length - pos) := by
  simp [readAt]

theorem readAt_append (pre mid post : Bytes) :
    readAt (pre ++ mid ++ post) pre.length mid.length = mid := by
  simp [readAt]

/-- Field `i` of a packed structure. -/
theorem slice_fields (fs : List Bytes) (i : Nat) (m : Bytes) {off w : Nat} (h : fs[i]? = some m)
    (ho : ((fs.take i).map List.length).sum = off) (hw : m.length = w) :
    slice fs.flatten off w = m := by
  induction fs generalizing i off with
  | nil => simp at h
  | cons a fs ih =>
    cases i with
    | zero =>
      simp only [List.getElem?_cons_zero, Option.some.injEq] at h
      subst h; simp only [List.take_zero, List.map_nil, List.sum_nil] at ho
      subst ho hw
      simp [slice]
    | succ i =>
      simp only [List.getElem?_cons_succ] at h
      simp only [List.take_succ_cons, List.map_cons, List.sum_cons] at ho
      have := ih i h rfl
      rw [← ho]
      unfold slice at this ⊢
      rw [List.flatten_cons, List.drop_append, List.drop_of_length_le (by omega), List.nil_append,
        Nat.add_sub_cancel_left]
      exact this

end Verif
