import Verif.Model.Write
import Verif.Model.StreamType
import Verif.Spec.Either
/-
Arrays of arrays and the flat arrays of their scalars.
-/
namespace S2S.Spec

/-- How many scalars an element is made of. -/
def scalarCount : ElemTy → Nat
  | .scalar _ => 1
  | .arr e n => n * scalarCount e

/-- The scalars of an element, the last index running fastest. -/
def scalarsIn : ElemTy → Val → List Val
  | .scalar _, v => [v]
  | .arr e _, .seq vs => vs.flatMap (scalarsIn e)
  | _, _ => []

/-- `std::array<std::array<T, m>, n>`, however deep, as `std::array<T, n * m>`. -/
def flatKind : Kind → Kind
  | .fbuf e n => .fbuf (.scalar e.leaf) (n * scalarCount e)
  | k => k

def flatVal : Kind → Val → Val
  | .fbuf e _, .seq vs => .seq (vs.flatMap (scalarsIn e))
  | _, v => v

/-- The picked arrays, members and optional members, as flat ones. -/
def flatField (pick : String → Bool) : Field → Field
  | .plain id k c => .plain id (if pick id then flatKind k else k) c
  | .maybe id k p => .maybe id (if pick id then flatKind k else k) p
  | f => f

def flatMember (pick : String → Bool) : Field → Val → Val
  | .plain id k _, v => if pick id then flatVal k v else v
  | .maybe id k _, .present w => .present (if pick id then flatVal k w else w)
  | _, v => v

/-- A struct of the one schema as a struct of the other. -/
def flatStruct (pick : String → Bool) : List Field → List Val → List Val
  | f :: fs, v :: vs => flatMember pick f v :: flatStruct pick fs vs
  | _, vs => vs

/-- The picked members have no constraint. -/
def Unchecked (pick : String → Bool) (fs : List Field) : Prop :=
  ∀ id k c, .plain id k c ∈ fs → pick id = true → c = .none

/-- A value with the dimensions of the type. -/
def HasDims : ElemTy → Val → Prop
  | .scalar _, v => ∃ x, v = .int x
  | .arr e n, v => ∃ vs, v = .seq vs ∧ vs.length = n ∧ ∀ w ∈ vs, HasDims e w

def ArrayDims : Kind → Val → Prop
  | .fbuf e n, v => HasDims (.arr e n) v
  | _, _ => True

/-- The picked arrays have the dimensions of their types. -/
def Dims (pick : String → Bool) : List Field → List Val → Prop
  | .plain id k _ :: fs, v :: vs => (pick id = true → ArrayDims k v) ∧ Dims pick fs vs
  | .maybe id k _ :: fs, v :: vs => (pick id = true → ∀ w, v = .present w → ArrayDims k w) ∧ Dims pick fs vs
  | _ :: fs, _ :: vs => Dims pick fs vs
  | _, _ => True

end S2S.Spec
