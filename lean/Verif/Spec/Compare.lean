import Verif.Model.Compare
import Verif.Spec.Numeral
/-
What comparisons of floating-point numbers and of arrays come to, without the library.
-/
namespace S2S.Spec
open Compare

/-- The type an array is made of, at any depth of nesting. -/
def innermost : Decl.Ty → Decl.Ty
  | .array e _ => innermost e
  | t => t

/-- One number is less than another. No number is less or greater than a NaN. -/
inductive Less : Real → Real → Prop
  | finite {a b : Int} : a < b → Less (.fin a) (.fin b)
  | below {b : Int} : Less (.inf true) (.fin b)
  | above {a : Int} : Less (.fin a) (.inf false)
  | across : Less (.inf true) (.inf false)

/-- Two numbers are the same number. A NaN is not; both zeros are. -/
def Same (a b : Real) : Prop := a = b ∧ a ≠ .nan

/-- What `eq{b}` and its like say about `a`. -/
def ComparesReal : CmpOp → Real → Real → Prop
  | .eq, a, b => Same a b
  | .ne, a, b => ¬ Same a b
  | .lt, a, b => Less a b
  | .gt, a, b => Less b a
  | .le, a, b => Less a b ∨ Same a b
  | .ge, a, b => Less b a ∨ Same a b

/-- `z` is the number `r` without its fraction. -/
def Truncates (r : Real) (z : Int) : Prop :=
  ∃ v, r = .fin v ∧ (0 ≤ v → z * one ≤ v ∧ v < (z + 1) * one) ∧ (v < 0 → (z - 1) * one < v ∧ v ≤ z * one)

/-- The bits of the positive infinity of `float` and of `double`. -/
def infinityBits (bytes : Nat) : Nat := if bytes = 4 then 0x7f800000 else 0x7ff0000000000000

/-- The bits below the sign, as a number. -/
def unsignedBits (bytes : Nat) (x : Nat) : Nat := x % 2 ^ (8 * bytes - 1)

/-- The bits with the sign, as a number: both zeros are 0. -/
def signedBits (bytes : Nat) (x : Nat) : Int :=
  if x < 2 ^ (8 * bytes - 1) then (unsignedBits bytes x : Int) else -(unsignedBits bytes x : Int)

/-- Bits of a NaN. -/
def NaNBits (bytes : Nat) (x : Nat) : Prop := infinityBits bytes < unsignedBits bytes x

instance (n x : Nat) : Decidable (NaNBits n x) := inferInstanceAs (Decidable (_ < _))

/-- Values of a type made of arrays of numbers. -/
def IsOf : Decl.Ty → Val → Prop
  | .int _, .int _ => True
  | .float _, .int _ => True
  | .array e n, .seq vs => vs.length = n ∧ ∀ v ∈ vs, IsOf e v
  | _, _ => False

/-- Two values of such a type are equal, element by element. -/
def Alike : Decl.Ty → Val → Val → Prop
  | .int _, .int a, .int b => a = b
  | .float n, .int a, .int b => Same (real n a) (real n b)
  | .array e _, .seq as, .seq bs =>
      as.length = bs.length ∧ ∀ i (h1 : i < as.length) (h2 : i < bs.length), Alike e as[i] bs[i]
  | _, _, _ => False

/-- One value of such a type comes before another: at the first place at which they are
not equal. -/
def Before : Decl.Ty → Val → Val → Prop
  | .int _, .int a, .int b => a < b
  | .float n, .int a, .int b => Less (real n a) (real n b)
  | .array e _, .seq as, .seq bs =>
      ∃ i, ∃ (h1 : i < as.length) (h2 : i < bs.length), Before e as[i] bs[i] ∧
        ∀ j (h3 : j < as.length) (h4 : j < bs.length), j < i → Alike e as[j] bs[j]
  | _, _, _ => False

/-- What `eq{b}` and its like say about `a` then. -/
def Ordered (t : Decl.Ty) : CmpOp → Val → Val → Prop
  | .eq, a, b => Alike t a b
  | .ne, a, b => ¬ Alike t a b
  | .lt, a, b => Before t a b
  | .gt, a, b => Before t b a
  | .le, a, b => Before t a b ∨ Alike t a b
  | .ge, a, b => Before t b a ∨ Alike t a b

/-- An array of bytes. -/
def byteArray (bs : List Byte) : Val := .seq (bs.map fun b => .int b.toNat)

end S2S.Spec
