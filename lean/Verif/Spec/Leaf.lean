import Verif.Spec.Flat
/-
Types of the same bytes.
-/
namespace S2S.Spec

/-- The integer type of the same size, signed or not; `bool` stays. -/
def withSign (s : Bool) : ScalarTy → ScalarTy
  | .int b _ => .int b s
  | .bool => .bool

/-- The number of that type with the same bytes (`static_cast`). -/
def signInt (s : Bool) : ScalarTy → Int → Int
  | .int b _, x => (ScalarTy.int b s).conv x
  | .bool, x => x

def elemSign (s : Bool) : ElemTy → ElemTy
  | .scalar t => .scalar (withSign s t)
  | .arr e n => .arr (elemSign s e) n

def signElem (s : Bool) : ElemTy → Val → Val
  | .scalar t, .int x => .int (signInt s t x)
  | .arr e _, .seq vs => .seq (vs.map (signElem s e))
  | _, v => v

/-- A number, an array or a vector, of integers signed or not. -/
def kindSign (s : Bool) : Kind → Kind
  | .num t w => .num (withSign s t) w
  | .fbuf e n => .fbuf (elemSign s e) n
  | .vec e len bound => .vec (elemSign s e) len bound
  | k => k

def signVal (s : Bool) : Kind → Val → Val
  | .num t _, .int x => .int (signInt s t x)
  | .fbuf e _, .seq vs => .seq (vs.map (signElem s e))
  | .vec e _ _, .seq vs => .seq (vs.map (signElem s e))
  | _, v => v

def IsInt (v : Val) : Prop := ∃ x, v = .int x

/-- The second kind has the bytes of the first. Integers signed or not; an array of arrays and the flat
array; a number and an array of this one number; where the order is the host's, a `fixed_string` and an
array of characters; where that order is little-endian, an unsigned number in so many bytes of a type and
in as many of another. -/
inductive LeafKind (cfg : Cfg) : Kind → Kind → (Val → Val) → (Val → Prop) → Prop
  | signs (s : Bool) (k : Kind) : LeafKind cfg k (kindSign s k) (signVal s k) fun _ => True
  | flat (k : Kind) : LeafKind cfg k (flatKind k) (flatVal k) (ArrayDims k)
  | one (t : ScalarTy) : LeafKind cfg (.num t t.size) (.fbuf (.scalar t) 1) (fun v => .seq [v]) IsInt
  | chars (n : Nat) : cfg.foreign = false →
      LeafKind cfg (.fstr n) (.fbuf (.scalar u8) (n + 1)) id fun _ => True
  | width (b b' w : Nat) : w ≤ b → w ≤ b' → cfg.host = .little → cfg.foreign = false →
      LeafKind cfg (.num (.int b false) w) (.num (.int b' false) w) id fun _ => True

end S2S.Spec
