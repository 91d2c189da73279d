import Verif.Model.Spelled
import Verif.Spec.Sent
import Verif.Spec.Format
/-
The bytes of lists with fields spelled by hand at any depth (Model/Spelled).
-/
namespace S2S.Spec

/-! ### Descriptors as fields spelled by hand -/

mutual
def spellKind : Kind → SpKind
  | .num t w => .fixed (.num t) w
  | .fbuf e n => .fixed (.buf e n) (n * e.size)
  | .fstr n => .fixed (.str n) (n + 1)
  | .vec e len bound => .vec e len bound
  | .record fs => .record (spell fs)
  | .arrRec fs n => .arrRec (spell fs) n
  | .vecRec fs len bound sz => .vecRec (spell fs) len bound sz
def spellField : Field → SpField
  | .plain id k c => .plain id (spellKind k) c
  | .maybe id k p => .maybe id (spellKind k) .none p
  | .union id d alts c => .union id d (spellAlts alts) c
def spellAlts : List Alt → List SpAlt
  | [] => []
  | .mk k c :: alts => .mk (spellKind k) c :: spellAlts alts
/-- The same list, spelled by hand with the sizes of the types and without constraints on what
optionals hold. -/
def spell : List Field → List SpField
  | [] => []
  | f :: fs => spellField f :: spell fs
end

/-! ### What is read -/

mutual
def readBytesKind (o : Endian) : SpKind → Val → List Byte
  | .fixed t k, v => (wireKind o (SpKind.fixed t k).usual v).take k
  | .hollowArr n size, v => wireKind o (SpKind.hollowArr n size).usual v
  | .vec e len bound, v => wireKind o (.vec e len bound) v
  | .hollowVec size len bound, v => wireKind o (SpKind.hollowVec size len bound).usual v
  | .record fs, .seq vs => readBytes o fs vs
  | .arrRec fs _, .seq vs => vs.flatMap (recordBytes fun ws => readBytes o fs ws)
  | .vecRec fs _ _ _, .seq vs => vs.flatMap (recordBytes fun ws => readBytes o fs ws)
  | _, _ => []
termination_by structural k => k
def readBytesField (o : Endian) : SpField → Val → List Byte
  | .plain _ k _, v => readBytesKind o k v
  | .maybe _ k _ _, .present v => readBytesKind o k v
  | .union _ _ alts _, .var i v => readBytesAlts o alts i v
  | _, _ => []
termination_by structural f => f
def readBytesAlts (o : Endian) : List SpAlt → Nat → Val → List Byte
  | .mk k _ :: _, 0, v => readBytesKind o k v
  | _ :: alts, i + 1, v => readBytesAlts o alts i v
  | [], _, _ => []
termination_by structural alts => alts
/-- The encoding as far as the byte counts go. -/
def readBytes (o : Endian) : List SpField → List Val → List Byte
  | f :: fs, v :: vs => readBytesField o f v ++ readBytes o fs vs
  | _, _ => []
termination_by structural fs => fs
end

mutual
def RestZeroKind (cfg : Cfg) : SpKind → Val → Prop
  | .fixed t k, v => k ≤ t.size ∧ ∀ b ∈ (wireKind cfg.wire (SpKind.fixed t k).usual v).drop k, b = 0
  | .hollowArr _ _, _ => cfg.constexprStream = false
  | .hollowVec _ _ _, v => cfg.constexprStream = false ∨ v = .seq []
  | .record fs, .seq vs => RestZero cfg fs vs
  | .arrRec fs _, .seq vs => ∀ v ∈ vs, ∃ ws, v = .seq ws ∧ RestZero cfg fs ws
  | .vecRec fs _ _ _, .seq vs => ∀ v ∈ vs, ∃ ws, v = .seq ws ∧ RestZero cfg fs ws
  | _, _ => True
termination_by structural k => k
def RestZeroField (cfg : Cfg) : SpField → Val → Prop
  | .plain _ k _, v => RestZeroKind cfg k v
  | .maybe _ k _ _, .present v => RestZeroKind cfg k v
  | .union _ _ alts _, .var i v => RestZeroAlts cfg alts i v
  | _, _ => True
termination_by structural f => f
def RestZeroAlts (cfg : Cfg) : List SpAlt → Nat → Val → Prop
  | .mk k _ :: _, 0, v => RestZeroKind cfg k v
  | _ :: alts, i + 1, v => RestZeroAlts cfg alts i v
  | [], _, _ => True
termination_by structural alts => alts
/-- Byte counts are within the types, and what they leave out is zero. Elements without elements are
not read from constexpr streams. -/
def RestZero (cfg : Cfg) : List SpField → List Val → Prop
  | f :: fs, v :: vs => RestZeroField cfg f v ∧ RestZero cfg fs vs
  | _, _ => True
termination_by structural fs => fs
end

/-! ### What is written -/

mutual
def sentBytesKind (cfg : Cfg) : SpKind → Val → List Byte
  | .fixed t k, v =>
      if cfg.foreign && t.isBuf then wireKind cfg.wire (SpKind.fixed t k).usual v
      else (wireKind cfg.wire (SpKind.fixed t k).usual v).take k
  | .hollowArr n size, v =>
      if cfg.foreign then [] else wireKind cfg.wire (SpKind.hollowArr n size).usual v
  | .vec e len bound, v => wireKind cfg.wire (.vec e len bound) v
  | .hollowVec size len bound, v =>
      if cfg.foreign then [] else wireKind cfg.wire (SpKind.hollowVec size len bound).usual v
  | .record fs, .seq vs => sentBytes cfg fs vs
  | .arrRec fs _, .seq vs => vs.flatMap (recordBytes fun ws => sentBytes cfg fs ws)
  | .vecRec fs _ _ _, .seq vs => vs.flatMap (recordBytes fun ws => sentBytes cfg fs ws)
  | _, _ => []
termination_by structural k => k
def sentBytesField (cfg : Cfg) : SpField → Val → List Byte
  | .plain _ k _, v => sentBytesKind cfg k v
  | .maybe _ k _ _, .present v => sentBytesKind cfg k v
  | .union _ _ alts _, .var i v => sentBytesAlts cfg alts i v
  | _, _ => []
termination_by structural f => f
def sentBytesAlts (cfg : Cfg) : List SpAlt → Nat → Val → List Byte
  | .mk k _ :: _, 0, v => sentBytesKind cfg k v
  | _ :: alts, i + 1, v => sentBytesAlts cfg alts i v
  | [], _, _ => []
termination_by structural alts => alts
/-- The encoding as far as the byte counts go, but all of arrays in the other byte order than the
host's, and in that order nothing of elements without elements. -/
def sentBytes (cfg : Cfg) : List SpField → List Val → List Byte
  | f :: fs, v :: vs => sentBytesField cfg f v ++ sentBytes cfg fs vs
  | _, _ => []
termination_by structural fs => fs
end

mutual
/-- `all`: the list the field belongs to; `id`, `c`: its name and constraint; then what the struct
holds and what is sent. -/
def AllowedKind (cfg : Cfg) (all : List Field) (id : String) (c : Constraint) : SpKind → Val → Val → Prop
  | .fixed t k, _, u => (k ≤ t.size ∨ (cfg.foreign && t.isBuf) = true) ∧ (isSlot all id = true → Holds c u)
  | .hollowArr _ _, _, _ => cfg.foreign = true ∨ cfg.constexprStream = false
  | .hollowVec _ _ _, v, _ => cfg.foreign = true ∨ cfg.constexprStream = false ∨ v = .seq []
  | .record fs, v, u => ∃ vs us, v = .seq vs ∧ u = .seq us ∧ AllowedFields cfg (usualFields fs) fs vs us
  | .arrRec fs _, v, u => ∃ vs us, v = .seq vs ∧ u = .seq us ∧
      OneByOne (fun ws xs => AllowedFields cfg (usualFields fs) fs ws xs) vs us
  | .vecRec fs _ _ _, v, u => ∃ vs us, v = .seq vs ∧ u = .seq us ∧
      OneByOne (fun ws xs => AllowedFields cfg (usualFields fs) fs ws xs) vs us
  | .vec _ _ _, _, _ => True
termination_by structural k => k
def AllowedField (cfg : Cfg) (all : List Field) : SpField → Val → Val → Prop
  | .plain id k c, v, u => AllowedKind cfg all id c k v u
  | .maybe id k c _, v, u => ∀ w x, v = .present w → u = .present x →
      Holds c w ∧ AllowedKind cfg all id c k w x
  | .union id _ alts _, v, u => ∀ i w x, v = .var i w → u = .var i x → AllowedAlts cfg all id alts i w x
termination_by structural f => f
def AllowedAlts (cfg : Cfg) (all : List Field) (id : String) : List SpAlt → Nat → Val → Val → Prop
  | .mk k c :: _, 0, v, u => AllowedKind cfg all id c k v u
  | _ :: alts, i + 1, v, u => AllowedAlts cfg all id alts i v u
  | [], _, _, _ => True
termination_by structural alts => alts
/-- Byte counts are within the types, except of arrays in the other byte order than the host's; what
optionals hold satisfies the constraints of their bases, and so does what is filled in; elements
without elements are not written to constexpr streams in host order. -/
def AllowedFields (cfg : Cfg) (all : List Field) : List SpField → List Val → List Val → Prop
  | f :: fs, v :: vs, u :: us => AllowedField cfg all f v u ∧ AllowedFields cfg all fs vs us
  | _, _, _ => True
termination_by structural fs => fs
end

/-- The list allows writing `vs` as `us`. -/
def Allowed (cfg : Cfg) (fs : List SpField) (vs us : List Val) : Prop :=
  AllowedFields cfg (usualFields fs) fs vs us

end S2S.Spec
