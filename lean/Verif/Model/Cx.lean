/-!
# Complex numbers with rational parts

`std::complex` of the C++ sources and `complex` of NumPy, with exact arithmetic.
-/
namespace Verif

/-- A complex number, `std::complex<float>` in /repo/lsl/correlator/common.hpp:118-119. -/
structure Cx where
  re : Rat
  im : Rat
deriving DecidableEq

namespace Cx

theorem ext' {a b : Cx} (h1 : a.re = b.re) (h2 : a.im = b.im) : a = b := by
  cases a; cases b; simp_all

instance : Add Cx := ⟨fun a b => ⟨a.re + b.re, a.im + b.im⟩⟩
instance : Sub Cx := ⟨fun a b => ⟨a.re - b.re, a.im - b.im⟩⟩
instance : Neg Cx := ⟨fun a => ⟨-a.re, -a.im⟩⟩
instance : Mul Cx := ⟨fun a b => ⟨a.re * b.re - a.im * b.im, a.re * b.im + a.im * b.re⟩⟩
instance : NatCast Cx := ⟨fun n => ⟨n, 0⟩⟩
instance : IntCast Cx := ⟨fun n => ⟨n, 0⟩⟩
instance (n : Nat) : OfNat Cx n := ⟨⟨n, 0⟩⟩
instance : SMul Nat Cx := ⟨fun n a => (n : Cx) * a⟩
instance : SMul Int Cx := ⟨fun n a => (n : Cx) * a⟩

def pow (a : Cx) : Nat → Cx
  | 0 => ⟨1, 0⟩
  | n + 1 => pow a n * a

instance : HPow Cx Nat Cx := ⟨pow⟩

@[simp] theorem add_re (a b : Cx) : (a + b).re = a.re + b.re := rfl
@[simp] theorem add_im (a b : Cx) : (a + b).im = a.im + b.im := rfl
@[simp] theorem sub_re (a b : Cx) : (a - b).re = a.re - b.re := rfl
@[simp] theorem sub_im (a b : Cx) : (a - b).im = a.im - b.im := rfl
@[simp] theorem neg_re (a : Cx) : (-a).re = -a.re := rfl
@[simp] theorem neg_im (a : Cx) : (-a).im = -a.im := rfl
@[simp] theorem mul_re (a b : Cx) : (a * b).re = a.re * b.re - a.im * b.im := rfl
@[simp] theorem mul_im (a b : Cx) : (a * b).im = a.re * b.im + a.im * b.re := rfl
@[simp] theorem natCast_re (n : Nat) : (n : Cx).re = n := rfl
@[simp] theorem natCast_im (n : Nat) : (n : Cx).im = 0 := rfl
@[simp] theorem intCast_re (n : Int) : (n : Cx).re = n := rfl
@[simp] theorem intCast_im (n : Int) : (n : Cx).im = 0 := rfl
@[simp] theorem ofNat_re (n : Nat) : (OfNat.ofNat n : Cx).re = n := rfl
@[simp] theorem ofNat_im (n : Nat) : (OfNat.ofNat n : Cx).im = 0 := rfl
@[simp] theorem zero_re : (0 : Cx).re = 0 := rfl
@[simp] theorem zero_im : (0 : Cx).im = 0 := rfl
@[simp] theorem one_re : (1 : Cx).re = 1 := rfl
@[simp] theorem one_im : (1 : Cx).im = 0 := rfl

instance : Lean.Grind.CommRing Cx where
  add_zero a := by apply ext' <;> simp <;> grind
  add_comm a b := by apply ext' <;> simp <;> grind
  add_assoc a b c := by apply ext' <;> simp <;> grind
  mul_assoc a b c := by apply ext' <;> simp <;> grind
  mul_one a := by apply ext' <;> simp <;> grind
  one_mul a := by apply ext' <;> simp <;> grind
  left_distrib a b c := by apply ext' <;> simp <;> grind
  right_distrib a b c := by apply ext' <;> simp <;> grind
  zero_mul a := by apply ext' <;> simp <;> grind
  mul_zero a := by apply ext' <;> simp <;> grind
  mul_comm a b := by apply ext' <;> simp <;> grind
  pow_zero a := rfl
  pow_succ a n := rfl
  ofNat_succ n := by apply ext' <;> simp <;> push_cast <;> grind
  ofNat_eq_natCast n := rfl
  nsmul_eq_natCast_mul n a := rfl
  neg_add_cancel a := by apply ext' <;> simp <;> grind
  sub_eq_add_neg a b := by apply ext' <;> simp <;> grind
  neg_zsmul i a := by show ((-i : Int) : Cx) * a = -((i : Cx) * a); apply ext' <;> simp <;> grind
  zsmul_natCast_eq_nsmul n a := by show (((n : Int)) : Cx) * a = (n : Cx) * a; apply ext' <;> simp [Rat.intCast_natCast]
  intCast_ofNat n := by
    apply ext'
    · show (((n : Int)) : Rat) = (n : Rat); exact Rat.intCast_natCast n
    · rfl
  intCast_neg i := by apply ext' <;> simp

/-- `std::conj`. -/
def conj (a : Cx) : Cx := ⟨a.re, -a.im⟩

/-- `std::norm`, the square of the absolute value. -/
def norm (a : Cx) : Rat := a.re * a.re + a.im * a.im

/-- `OutType(0,1)`. -/
def I : Cx := ⟨0, 1⟩

@[simp] theorem conj_re (a : Cx) : (conj a).re = a.re := rfl
@[simp] theorem conj_im (a : Cx) : (conj a).im = -a.im := rfl

theorem conj_conj (a : Cx) : conj (conj a) = a := by apply ext' <;> simp
theorem conj_add (a b : Cx) : conj (a + b) = conj a + conj b := by apply ext' <;> simp <;> grind
theorem conj_mul (a b : Cx) : conj (a * b) = conj a * conj b := by apply ext' <;> simp <;> grind
theorem conj_zero : conj 0 = 0 := by decide +kernel

end Cx

end Verif
