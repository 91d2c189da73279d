import Verif.Model.Schema
/-
The wire format, independently of hosts, streams, reading and writing.

Nothing here uses the conversion or representation functions of the model:
bytes are taken positionally from a mathematical integer.
-/
namespace S2S.Spec

/-- The byte of weight `256^i` of an integer in two's complement. -/
def byteAt (x : Int) (i : Nat) : Byte := UInt8.ofNat ((x / (256 ^ i : Nat)) % 256).toNat

/-- `width` bytes for a value of a type of `size` bytes. Little endian: the
`width` low bytes, low byte first. Big endian: the `width` *high* bytes, high byte
first (this is what the library does with declared widths below the size of the
type; for full widths it is the usual big-endian representation). -/
def wireScalar (o : Endian) (size width : Nat) (x : Int) : List Byte :=
  match o with
  | .little => (List.range width).map (byteAt x)
  | .big => (List.range width).map fun i => byteAt x (size - 1 - i)

def wireElem (o : Endian) : ElemTy → Val → List Byte
  | .scalar t, .int x => wireScalar o t.size t.size x
  | .arr e _, .seq vs => vs.flatMap (wireElem o e)
  | _, _ => []

/-- The bytes of one record of a container of records. -/
def recordBytes (f : List Val → List Byte) : Val → List Byte
  | .seq ws => f ws
  | _ => []

mutual
/-- The encoding of a value of a kind. Values not of that kind have no encoding
(an arbitrary one, here empty). -/
def wireKind (o : Endian) : Kind → Val → List Byte
  | .num t w, .int x => wireScalar o t.size w x
  | .fbuf e _, .seq vs => vs.flatMap (wireElem o e)
  | .fstr _, .seq vs => vs.flatMap (wireElem o (.scalar u8))
  | .vec e _ _, .seq vs => vs.flatMap (wireElem o e)
  | .record fs, .seq vs => wireFields o fs vs
  | .arrRec fs _, .seq vs => vs.flatMap (recordBytes fun ws => wireFields o fs ws)
  | .vecRec fs _ _ _, .seq vs => vs.flatMap (recordBytes fun ws => wireFields o fs ws)
  | _, _ => []
def wireField (o : Endian) : Field → Val → List Byte
  | .plain _ k _, v => wireKind o k v
  | .maybe _ k _, .present v => wireKind o k v
  | .union _ _ alts _, .var i v => wireAlts o alts i v
  | _, _ => []
def wireAlts (o : Endian) : List Alt → Nat → Val → List Byte
  | .mk k _ :: _, 0, v => wireKind o k v
  | _ :: alts, i + 1, v => wireAlts o alts i v
  | [], _, _ => []
/-- A list of fields: one encoding after the other. -/
def wireFields (o : Endian) : List Field → List Val → List Byte
  | f :: fs, v :: vs => wireField o f v ++ wireFields o fs vs
  | _, _ => []
end

/-! ### Values that fit: types, declared widths, ceilings -/

/-- A value of the type whose `width` wire bytes determine it. -/
def ScalarFits (o : Endian) (t : ScalarTy) (width : Nat) (x : Int) : Prop :=
  t.InRange x ∧
  (width = t.size ∨
   width < t.size ∧
    match o with
    | .little => 0 ≤ x ∧ x < (256 ^ width : Nat)
    | .big => ((256 ^ (t.size - width) : Nat) : Int) ∣ x)

def ElemFits : ElemTy → Val → Prop
  | .scalar t, .int x => t.InRange x
  | .arr e n, .seq vs => vs.length = n ∧ ∀ v ∈ vs, ElemFits e v
  | _, _ => False

/-- The storage a container of `n` elements of `size` bytes takes is within the
ceiling and within what the platform can allocate. -/
def StorageFits (cfg : Cfg) (bound : Option Nat) (size n : Nat) : Prop :=
  n * size ≤ bound.getD cfg.defaultMax ∧ n * size ≤ cfg.ptrdiffMax

mutual
def FitsKind (cfg : Cfg) : Kind → Val → Prop
  | .num t w, .int x => ScalarFits cfg.wire t w x
  | .fbuf e n, .seq vs => vs.length = n ∧ ∀ v ∈ vs, ElemFits e v
  | .fstr n, .seq vs => vs.length = n + 1 ∧ ∀ v ∈ vs, ElemFits (.scalar u8) v
  | .vec e _ bound, .seq vs =>
      StorageFits cfg bound e.size vs.length ∧ ∀ v ∈ vs, ElemFits e v
  | .record fs, .seq vs => FitsFields cfg fs vs
  | .arrRec fs n, .seq vs => vs.length = n ∧ ∀ v ∈ vs, ∃ ws, v = .seq ws ∧ FitsFields cfg fs ws
  | .vecRec fs _ bound sz, .seq vs =>
      StorageFits cfg bound sz vs.length ∧ ∀ v ∈ vs, ∃ ws, v = .seq ws ∧ FitsFields cfg fs ws
  | _, _ => False
def FitsField (cfg : Cfg) : Field → Val → Prop
  | .plain _ k _, v => FitsKind cfg k v
  | .maybe _ _ _, .absent => True
  | .maybe _ k _, .present v => FitsKind cfg k v
  | .union _ _ alts _, .var i v => FitsAlts cfg alts i v
  | _, _ => False
def FitsAlts (cfg : Cfg) : List Alt → Nat → Val → Prop
  | .mk k _ :: _, 0, v => FitsKind cfg k v
  | _ :: alts, i + 1, v => FitsAlts cfg alts i v
  | [], _, _ => False
/-- A struct whose fields all have values of their types, representable in their
declared widths and within the ceilings. -/
def FitsFields (cfg : Cfg) : List Field → List Val → Prop
  | [], [] => True
  | f :: fs, v :: vs => FitsField cfg f v ∧ FitsFields cfg fs vs
  | _, _ => False
end

/-! ### Constraints hold -/

/-- The constraint accepts the value. -/
def Holds (c : Constraint) (v : Val) : Prop := c.check v = .ok true

mutual
def OkKind : Kind → Val → Prop
  | .record fs, .seq vs => OkFields fs vs
  | .arrRec fs _, .seq vs => ∀ v ∈ vs, ∃ ws, v = .seq ws ∧ OkFields fs ws
  | .vecRec fs _ _ _, .seq vs => ∀ v ∈ vs, ∃ ws, v = .seq ws ∧ OkFields fs ws
  | _, _ => True
def OkField : Field → Val → Prop
  | .plain _ k c, v => OkKind k v ∧ Holds c v
  | .maybe _ k _, .present v => OkKind k v
  | .union _ _ alts c, .var i v => OkAlts alts i v ∧ Holds c (.var i v)
  | _, _ => True
def OkAlts : List Alt → Nat → Val → Prop
  | .mk k c :: _, 0, v => OkKind k v ∧ Holds c v
  | _ :: alts, i + 1, v => OkAlts alts i v
  | [], _, _ => False
/-- Every constraint of the schema holds in the struct, at every nesting level. -/
def OkFields : List Field → List Val → Prop
  | f :: fs, v :: vs => OkField f v ∧ OkFields fs vs
  | _, _ => True
end

/-! ### Shape: lengths, presence and selection follow from the siblings -/

mutual
/-- `env`: the values of the fields of the enclosing list. -/
def ShapedKind (cfg : Cfg) (env : Env) : Kind → Val → Prop
  | .vec _ len _, .seq vs => len.eval cfg env = .ok vs.length
  | .record fs, .seq vs => ShapedFields cfg (envOf fs vs) fs vs
  | .arrRec fs _, .seq vs => ∀ v ∈ vs, ∃ ws, v = .seq ws ∧ ShapedFields cfg (envOf fs ws) fs ws
  | .vecRec fs len _ _, .seq vs =>
      len.eval cfg env = .ok vs.length ∧
      ∀ v ∈ vs, ∃ ws, v = .seq ws ∧ ShapedFields cfg (envOf fs ws) fs ws
  | _, _ => True
def ShapedField (cfg : Cfg) (env : Env) : Field → Val → Prop
  | .plain _ k _, v => ShapedKind cfg env k v
  | .maybe _ _ p, .absent => p.eval env = .ok false
  | .maybe _ k p, .present v => p.eval env = .ok true ∧ ShapedKind cfg env k v
  | .union _ d alts _, .var i v => d.eval env = .ok (some i) ∧ ShapedAlts cfg env alts i v
  | _, _ => True
def ShapedAlts (cfg : Cfg) (env : Env) : List Alt → Nat → Val → Prop
  | .mk k _ :: _, 0, v => ShapedKind cfg env k v
  | _ :: alts, i + 1, v => ShapedAlts cfg env alts i v
  | [], _, _ => True
/-- Every container has the length its length field or computation says, every
optional is engaged exactly when its predicate holds, every variant holds the
alternative its discriminant, computation or ladder selects; `env` gives the
values of the fields of the list. -/
def ShapedFields (cfg : Cfg) (env : Env) : List Field → List Val → Prop
  | f :: fs, v :: vs => ShapedField cfg env f v ∧ ShapedFields cfg env fs vs
  | _, _ => True
end

/-- A struct of the schema: fits, satisfies its constraints, shaped by its own
fields. -/
def Valid (cfg : Cfg) (fs : List Field) (vs : List Val) : Prop :=
  FitsFields cfg fs vs ∧ OkFields fs vs ∧ ShapedFields cfg (envOf fs vs) fs vs

/-- The encoding of a struct. -/
def wire (cfg : Cfg) (fs : List Field) (vs : List Val) : List Byte :=
  wireFields cfg.wire fs vs

end S2S.Spec
