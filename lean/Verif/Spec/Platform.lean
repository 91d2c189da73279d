import Verif.Spec.Format
import Verif.Spec.Schema
import Verif.Spec.Settle
/-
Two platforms: what of the wire format is the same on every one, and what is not.

Nothing in the first half uses `Cfg`: a struct is one of the schema, in a byte order,
whatever the size of `std::size_t`, the default ceiling and `sizeof` of the records are.
-/
namespace S2S.Spec

/-! ### The same on every platform -/

/-- The source of a length holds the number `n` itself, no conversion in between. -/
def SaysLen (env : Env) : LenSpec → Nat → Prop
  | .fromField id, n => env id = some (.int n)
  | .computed c, n => ∃ vs, env.getAll c.ids = some vs ∧ c.fn vs = n

mutual
def MeansKind (o : Endian) (env : Env) : Kind → Val → Prop
  | .num t w, .int x => ScalarFits o t w x
  | .fbuf e n, .seq vs => vs.length = n ∧ ∀ v ∈ vs, ElemFits e v
  | .fstr n, .seq vs => vs.length = n + 1 ∧ ∀ v ∈ vs, ElemFits (.scalar u8) v
  | .vec e len _, .seq vs => SaysLen env len vs.length ∧ ∀ v ∈ vs, ElemFits e v
  | .record fs, .seq vs => MeansFields o (envOf fs vs) fs vs
  | .arrRec fs n, .seq vs => vs.length = n ∧
      ∀ v ∈ vs, ∃ ws, v = .seq ws ∧ MeansFields o (envOf fs ws) fs ws
  | .vecRec fs len _ _, .seq vs => SaysLen env len vs.length ∧
      ∀ v ∈ vs, ∃ ws, v = .seq ws ∧ MeansFields o (envOf fs ws) fs ws
  | _, _ => False
def MeansField (o : Endian) (env : Env) : Field → Val → Prop
  | .plain _ k c, v => MeansKind o env k v ∧ Holds c v
  | .maybe _ _ p, .absent => p.eval env = .ok false
  | .maybe _ k p, .present v => p.eval env = .ok true ∧ MeansKind o env k v
  | .union _ d alts c, .var i v =>
      d.eval env = .ok (some i) ∧ MeansAlts o env alts i v ∧ Holds c (.var i v)
  | _, _ => False
def MeansAlts (o : Endian) (env : Env) : List Alt → Nat → Val → Prop
  | .mk k c :: _, 0, v => MeansKind o env k v ∧ Holds c v
  | _ :: alts, i + 1, v => MeansAlts o env alts i v
  | [], _, _ => False
/-- Types, widths, constraints, lengths, presence and selection; no ceilings. -/
def MeansFields (o : Endian) (env : Env) : List Field → List Val → Prop
  | [], [] => True
  | f :: fs, v :: vs => MeansField o env f v ∧ MeansFields o env fs vs
  | _, _ => False
end

/-- A struct of the schema in the byte order, whatever the platform. -/
def Means (o : Endian) (fs : List Field) (vs : List Val) : Prop := MeansFields o (envOf fs vs) fs vs

/-! ### Different from platform to platform -/

mutual
/-- The same kind where `sizeof` of the record with the fields `fs` is `s fs`. -/
def measuredKind (s : List Field → Nat) : Kind → Kind
  | .num t w => .num t w
  | .fbuf e n => .fbuf e n
  | .fstr n => .fstr n
  | .vec e len bound => .vec e len bound
  | .record fs => .record (measured s fs)
  | .arrRec fs n => .arrRec (measured s fs) n
  | .vecRec fs len bound _ => .vecRec (measured s fs) len bound (s fs)
def measuredField (s : List Field → Nat) : Field → Field
  | .plain id k c => .plain id (measuredKind s k) c
  | .maybe id k p => .maybe id (measuredKind s k) p
  | .union id d alts c => .union id d (measuredAlts s alts) c
def measuredAlts (s : List Field → Nat) : List Alt → List Alt
  | [] => []
  | .mk k c :: alts => .mk (measuredKind s k) c :: measuredAlts s alts
/-- The same schema on a platform with these sizes of records. -/
def measured (s : List Field → Nat) : List Field → List Field
  | [] => []
  | f :: fs => measuredField s f :: measured s fs
end

mutual
def StoredKind (cfg : Cfg) : Kind → Val → Prop
  | .vec e _ bound, .seq vs => StorageFits cfg bound e.size vs.length
  | .record fs, .seq vs => Stored cfg fs vs
  | .arrRec fs _, .seq vs => ∀ ws, .seq ws ∈ vs → Stored cfg fs ws
  | .vecRec fs _ bound sz, .seq vs => StorageFits cfg bound sz vs.length ∧
      ∀ ws, .seq ws ∈ vs → Stored cfg fs ws
  | _, _ => True
def StoredField (cfg : Cfg) : Field → Val → Prop
  | .plain _ k _, v => StoredKind cfg k v
  | .maybe _ k _, .present v => StoredKind cfg k v
  | .union _ _ alts _, .var i v => StoredAlts cfg alts i v
  | _, _ => True
def StoredAlts (cfg : Cfg) : List Alt → Nat → Val → Prop
  | .mk k _ :: _, 0, v => StoredKind cfg k v
  | _ :: alts, i + 1, v => StoredAlts cfg alts i v
  | [], _, _ => True
/-- Every container of the struct, at every level, is within its ceiling and within what
the platform can allocate. -/
def Stored (cfg : Cfg) : List Field → List Val → Prop
  | f :: fs, v :: vs => StoredField cfg f v ∧ Stored cfg fs vs
  | _, _ => True
end

/-! ### Lengths that cannot wrap -/

/-- The lengths in a field. -/
def fieldLens : Field → List LenSpec
  | .plain _ k _ => k.lenSpec?.toList
  | .maybe _ k _ => k.lenSpec?.toList
  | .union _ _ alts _ => alts.flatMap fun a => a.kind.lenSpec?.toList

/-- A value of some integer type of at most `b` bytes. -/
def OfBytes (b : Nat) (x : Int) : Prop := -((256 ^ b : Nat) : Int) ≤ 2 * x ∧ x < (256 ^ b : Nat)

/-- The lengths of a list of fields have types of at most `b` bytes: those of its fields
that are lengths are numbers of such types, and computations give such numbers. -/
def SmallLens (b : Nat) (fs : List Field) : Prop :=
  ∀ f ∈ fs, ∀ len ∈ fieldLens f,
    match len with
    | .fromField id => ∀ g ∈ fs, g.id = id →
        match g with
        | .plain _ (.num t _) _ => t.size ≤ b
        | _ => False
    | .computed c => ∀ vs, OfBytes b (c.fn vs)

end S2S.Spec
