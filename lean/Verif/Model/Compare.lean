import Verif.Model.Decl
/-
The library's constraints over operands of any type: integers, floating-point numbers,
arrays of them, strings.
/repo/include/field_validation/field_value_constraints.hpp 23-125.

`Model/Schema` has the uses over integers, `eq`/`neq` over arrays of integers and over
strings as constraints of their own; here are all of them. The functors take
`const T&`, `T` being the type of the operand, so a value of another arithmetic type is
converted first.

Floating-point numbers are IEEE 754 binary32 and binary64, given by their bits, as in
`Decl.bitsOf`. Conversions that round (to a smaller floating-point type, or from an integer
type with more digits) do so to one of the two neighbours; which one is left to the
implementation, and so to a parameter (`Rounding`). The neighbours of a number beyond the
largest finite one are that and infinity. Simplified: operands of type `long double`,
pointers and user-defined types are left out.
-/
namespace S2S.Compare

/-! ### Floating-point numbers -/

/-- Bits of the exponent and of the significand. -/
structure Format where
  exp : Nat
  mant : Nat

def binary32 : Format := ⟨8, 23⟩
def binary64 : Format := ⟨11, 52⟩

/-- The format of the floating-point type with that many bytes. -/
def formatOf (bytes : Nat) : Format := if bytes = 4 then binary32 else binary64

/-- A number: finite ones are multiples of the least positive binary64 number,
2^-1074, and are given as that multiple. -/
inductive Real
  | nan
  | inf (neg : Bool)
  | fin (v : Int)
  deriving DecidableEq, Repr

/-- How many 2^-1074 make one. -/
def one : Int := 2 ^ 1074

namespace Format
def expField (F : Format) (x : Nat) : Nat := x / 2 ^ F.mant % 2 ^ F.exp
def mantField (F : Format) (x : Nat) : Nat := x % 2 ^ F.mant
def neg (F : Format) (x : Nat) : Bool := x / 2 ^ (F.exp + F.mant) % 2 == 1

/-- The magnitude of a finite number, as a multiple of the least positive one of the
format. -/
def magnitude (F : Format) (x : Nat) : Nat :=
  if F.expField x = 0 then F.mantField x
  else (2 ^ F.mant + F.mantField x) * 2 ^ (F.expField x - 1)

/-- The least positive number of the format is 2^(2 - 2^(exp-1) - mant); as a multiple of
2^-1074. -/
def unit (F : Format) : Nat := 2 ^ (1076 - 2 ^ (F.exp - 1) - F.mant)

/-- The number with those bits. -/
def real (F : Format) (x : Nat) : Real :=
  if F.expField x = 2 ^ F.exp - 1 then
    if F.mantField x = 0 then .inf (F.neg x) else .nan
  else .fin ((if F.neg x then -1 else 1) * (F.magnitude x * F.unit : Nat))
end Format

/-- The number a value of the floating-point type with that many bytes is. -/
def real (bytes : Nat) (x : Int) : Real := (formatOf bytes).real x.toNat

/-- `<=>` of floating-point numbers; `none` is `unordered`. -/
def Real.cmp : Real → Real → Option Ordering
  | .nan, _ => none
  | _, .nan => none
  | .fin a, .fin b => some (compare a b)
  | .inf true, .inf true => some .eq
  | .inf false, .inf false => some .eq
  | .inf true, _ => some .lt
  | .inf false, _ => some .gt
  | .fin _, .inf true => some .gt
  | .fin _, .inf false => some .lt

/-- The conversion of a floating-point number to an integer type: toward zero. Undefined
if the type does not have the result; `bool` has one for every number. -/
def Real.toInt (t : ScalarTy) : Real → Option Int
  | .fin v =>
      match t with
      | .bool => some (if v = 0 then 0 else 1)
      | .int b s =>
          if (ScalarTy.int b s).InRange (v.tdiv one) then some (v.tdiv one) else none
  | _ =>
      match t with
      | .bool => some 1
      | .int _ _ => none

/-- How an implementation rounds, as far as C++ says ([conv.double], [conv.fpint]): to a
number of the type, with no other number of the type in between. -/
structure Rounding where
  /-- The number of the floating-point type with that many bytes for a real number. -/
  to : Nat → Int → Real
  number : ∀ n v, to n v ≠ .nan ∧ ∃ x, real n x = to n v
  notBelow : ∀ n v x k, real n x = .fin k → k ≤ v → (to n v).cmp (.fin k) ≠ some .lt
  notAbove : ∀ n v x k, real n x = .fin k → v ≤ k → (to n v).cmp (.fin k) ≠ some .gt

/-- The conversion to a floating-point type. -/
def Rounding.conv (R : Rounding) (n : Nat) : Real → Real
  | .fin v => R.to n v
  | r => r

/-! ### Comparison of operands -/

/-- `std::lexicographical_compare_three_way`, by which `std::array` is ordered. -/
def lex (f : α → α → Option Ordering) : List α → List α → Option Ordering
  | [], [] => some .eq
  | [], _ :: _ => some .lt
  | _ :: _, [] => some .gt
  | a :: as, b :: bs =>
      match f a b with
      | some .eq => lex f as bs
      | r => r

/-- `std::equal`, by which `std::array` is compared. -/
def equalAll (f : α → α → Bool) : List α → List α → Bool
  | [], [] => true
  | a :: as, b :: bs => f a b && equalAll f as bs
  | _, _ => false

/-- `a <=> b` for two values of the same type. Strings are compared by `strCmp`. -/
def order : Decl.Ty → Val → Val → Option Ordering
  | .int _, .int a, .int b => some (compare a b)
  | .float n, .int a, .int b => (real n a).cmp (real n b)
  | .array e _, .seq as, .seq bs => lex (order e) as bs
  | _, _, _ => none

/-- `a == b` for two values of the same type. -/
def equal : Decl.Ty → Val → Val → Bool
  | .int _, .int a, .int b => a == b
  | .float n, .int a, .int b => (real n a).cmp (real n b) == some .eq
  | .array e _, .seq as, .seq bs => equalAll (equal e) as bs
  | _, _, _ => false

/-- A comparison of a value of type `src` with an operand of type `dst`: the value is
converted to the type of the operand. `none`: the conversion is undefined. -/
def versus (R : Rounding) (same : Decl.Ty → Val → Val → α) (numbers : Option Ordering → α) :
    Decl.Ty → Decl.Ty → Val → Val → Option α
  | .int _, .int t, .int x, .int k => some (numbers (some (compare (t.conv x) k)))
  | .int _, .float n, .int x, .int k => some (numbers ((R.conv n (.fin (x * one))).cmp (real n k)))
  | .float m, .int t, .int x, .int k =>
      ((real m x).toInt t).map fun z => numbers (some (compare z k))
  | .float m, .float n, .int x, .int k => some (numbers ((R.conv n (real m x)).cmp (real n k)))
  | _, dst, v, k => some (same dst v k)

def orderTo (R : Rounding) : Decl.Ty → Decl.Ty → Val → Val → Option (Option Ordering) :=
  versus R order id
def equalTo (R : Rounding) : Decl.Ty → Decl.Ty → Val → Val → Option Bool :=
  versus R equal (· == some .eq)

/-- `eq{k}(v)` and its like (43-104). -/
def call (R : Rounding) (op : CmpOp) (src dst : Decl.Ty) (k v : Val) : Option Bool :=
  match op with
  | .eq => equalTo R src dst v k
  | .ne => (equalTo R src dst v k).map (!·)
  | .lt => (orderTo R src dst v k).map (· == some .lt)
  | .gt => (orderTo R src dst v k).map (· == some .gt)
  | .le => (orderTo R src dst v k).map fun r => r == some .lt || r == some .eq
  | .ge => (orderTo R src dst v k).map fun r => r == some .gt || r == some .eq

/-- `any_of{ks...}(v)` (113-125): the argument is converted once and looked up with
`std::find`. -/
def callAnyOf (R : Rounding) (src dst : Decl.Ty) : List Val → Val → Option Bool
  | [], _ => some false
  | k :: ks, v =>
      (equalTo R src dst v k).bind fun b => if b then some true else callAnyOf R src dst ks v

/-- The constraint as a field has it. `u` is the operand converted to the type of the
field, which `eq` freezes the field to (field_traits.hpp 43-55). -/
def constraint (R : Rounding) (op : CmpOp) (src dst : Decl.Ty) (k u : Val) : Constraint :=
  .over (if op = .eq then some u else none) .badConversion (call R op src dst k)

def constraintAnyOf (R : Rounding) (src dst : Decl.Ty) (ks : List Val) : Constraint :=
  .over none .badConversion (callAnyOf R src dst ks)

/-- `any_of` over `fixed_string`s, compared as `eq` does (fixed_string.hpp 30-34). -/
def callAnyString : List (List Int) → Val → Option Bool
  | [], _ => some false
  | s :: ss, v =>
      ((Constraint.strCmp true s).check v).toOption.bind fun b =>
        if b then some true else callAnyString ss v

def constraintAnyString (ss : List (List Int)) : Constraint :=
  .over none .unterminated (callAnyString ss)

/-! ### Which functors there are -/

/-- `is_integral`. -/
def isIntegral : Decl.Ty → Bool
  | .int _ => true
  | _ => false

def isFloating : Decl.Ty → Bool
  | .float _ => true
  | _ => false

/-- The types C++ has `==` for. `fixed_string` has its own (fixed_string.hpp 30-39);
arrays compare their elements. A C array is none of its own: as an operand it is a
pointer. -/
def hasEq : Decl.Ty → Bool
  | .int _ => true
  | .float _ => true
  | .fixedString _ => true
  | .string => true
  | .array e _ => hasEq e
  | .vector e => hasEq e
  | _ => false

/-- The types C++ has `<`, `>`, `<=` and `>=` for. `fixed_string` does not have them. -/
def hasOrder : Decl.Ty → Bool
  | .int _ => true
  | .float _ => true
  | .string => true
  | .array e _ => hasOrder e
  | .vector e => hasOrder e
  | _ => false

/-- Structural types, of which constants can be template arguments (members of
`std::vector` and `std::string` are private). -/
def structural : Decl.Ty → Bool
  | .int _ => true
  | .float _ => true
  | .fixedString _ => true
  | .array e _ => structural e
  | _ => false

/-- `equality_comparable` (24-28). -/
def equalityComparable (t : Decl.Ty) : Bool := hasEq t && !isFloating t

/-- `comparable` (30-36). -/
def comparable (t : Decl.Ty) : Bool := hasOrder t

/-- `inequality_comparable` (38-40). -/
def inequalityComparable (t : Decl.Ty) : Bool := comparable t && (isIntegral t || t.isFixedString)

/-- The functors. -/
inductive Functor
  | cmp (op : CmpOp)
  | anyOf

/-- What is required of the type of the operand (43, 66, 74, 82, 90, 98, 113-114). -/
def required : Functor → Decl.Ty → Bool
  | .cmp .eq, t => equalityComparable t
  | .cmp .ne, t => equalityComparable t
  | .cmp .lt, t => comparable t
  | .cmp .gt, t => comparable t
  | .cmp .le, _ => true
  | .cmp .ge, t => inequalityComparable t
  | .anyOf, _ => true

/-- What the body of the call operator needs (48, 71, 79, 87, 95, 103, 121). -/
def needed : Functor → Decl.Ty → Bool
  | .cmp .eq, t => hasEq t
  | .cmp .ne, t => hasEq t
  | .anyOf, t => hasEq t
  | _, t => hasOrder t

/-- The functor can be formed over operands of that type, given to a field and called. -/
def usable (f : Functor) (t : Decl.Ty) : Bool := structural t && required f t && needed f t

end S2S.Compare
