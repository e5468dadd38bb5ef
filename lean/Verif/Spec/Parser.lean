import Verif.Model.Dec
/-!
# What the lists of the command line mean
-/
namespace Verif.Parser.Spec
open Dec

/-- `n` whole numbers from `a` on. -/
def upFrom (a : Int) : Nat → List Int
  | 0 => []
  | n + 1 => a :: upFrom (a + 1) n

/-- A number or a range with its ends, with `p` and `q` blanks around the sign. -/
inductive Item where
  | one (n : Int)
  | upto (a : Int) (p q : Nat) (b : Int)

def blanks (n : Nat) : List Char := List.replicate n ' '

def Item.text : Item → List Char
  | .one n => showInt n
  | .upto a p q b => showInt a ++ blanks p ++ '~' :: (blanks q ++ showInt b)

/-- The numbers: both ends are included. -/
def Item.mean : Item → List Int
  | .one n => [n]
  | .upto a _ _ b => upFrom a (b + 1 - a).toNat

/-- What stands between two commas: an item among blanks, or only blanks. -/
inductive Piece where
  | blank (n : Nat)
  | item (before : Nat) (i : Item) (after : Nat)

def Piece.text : Piece → List Char
  | .blank n => blanks n
  | .item b i a => blanks b ++ i.text ++ blanks a

def Piece.mean : Piece → List Int
  | .blank _ => []
  | .item _ i _ => i.mean

/-- Pieces joined by commas. -/
def join : List (List Char) → List Char
  | [] => []
  | [p] => p
  | p :: ps => p ++ ',' :: join ps

/-- A pair of antenna selections. -/
structure Pair where
  i : Item
  j : Item

/-- Numbers of a pair are not negative: `-` parts them. -/
def Item.Nat : Item → Prop
  | .one n => 0 ≤ n
  | .upto a _ _ b => 0 ≤ a ∧ 0 ≤ b

def Pair.text (p : Pair) : List Char := p.i.text ++ '-' :: p.j.text

/-- Every first antenna with every second one. -/
def Pair.mean (p : Pair) : List (Int × Int) := p.i.mean.flatMap (fun a => p.j.mean.map (fun b => (a, b)))

/-! ## Hosts -/

/-- `n` whole numbers from `a` on. -/
def upNat (a : Nat) : Nat → List Nat
  | 0 => []
  | n + 1 => a :: upNat (a + 1) n

/-- A field of an address: a number or a range. -/
inductive Field where
  | one (n : Nat)
  | upto (a b : Nat)

def Field.text : Field → List Char
  | .one n => showNat n
  | .upto a b => showNat a ++ '~' :: showNat b

def Field.mean : Field → List Nat
  | .one n => [n]
  | .upto a b => upNat a (b + 1 - a)

/-- At most three digits. -/
def Field.Ok : Field → Prop
  | .one n => n ≤ 999
  | .upto a b => a ≤ 999 ∧ b ≤ 999

/-- Addresses, numbered hosts and names. -/
inductive Host where
  | ip (f1 f2 f3 f4 : Field)
  | run (base : List Char) (a b : Nat)
  | name (s : List Char)

def Host.text : Host → List Char
  | .ip f1 f2 f3 f4 => f1.text ++ '.' :: f2.text ++ '.' :: f3.text ++ '.' :: f4.text
  | .run base a b => base ++ showNat a ++ '~' :: showNat b
  | .name s => s

def Host.mean : Host → List (List Char)
  | .ip f1 f2 f3 f4 => f1.mean.flatMap (fun a => f2.mean.flatMap (fun b => f3.mean.flatMap (fun c => f4.mean.map (fun d =>
      showNat a ++ '.' :: showNat b ++ '.' :: showNat c ++ '.' :: showNat d))))
  | .run base a b => (upNat a (b + 1 - a)).map (fun i => base ++ showNat i)
  | .name s => [s]

def letter (c : Char) : Bool := c.isAlpha || c == '-'

def Host.Ok : Host → Prop
  | .ip f1 f2 f3 f4 => f1.Ok ∧ f2.Ok ∧ f3.Ok ∧ f4.Ok
  | .run base _ _ => ∀ c ∈ base, letter c = true
  | .name s => s ≠ [] ∧ ∀ c ∈ s, letter c = true ∨ c.isDigit = true

/-- The time of day of a number of milliseconds after midnight. -/
def ofMpm (n : Nat) : Nat × Nat × Nat × Nat := (n / 3600000, n / 60000 % 60, n / 1000 % 60, n % 1000 * 1000)

/-- A time of day. -/
def Valid (c : Nat × Nat × Nat × Nat) : Prop := c.1 < 24 ∧ c.2.1 < 60 ∧ c.2.2.1 < 60 ∧ c.2.2.2 < 1000000

end Verif.Parser.Spec
