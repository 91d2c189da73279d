import Verif.Model.Inst
import Verif.Spec.Decl
/-
Sizes of any kind, at every nesting level.
-/
namespace S2S.Decl

/-- What a declaration consists of has the property: the field itself (`false`), or what is inside
the optional or the union (`true`). -/
def Decl.parts (P : Bool → Ty → Size → Bool) : Decl → Bool
  | .field _ t s _ _ => P false t s
  | .maybe _ t s _ _ _ => P true t s
  | .union _ _ ks _ => ks.all fun k => P true k.ty k.size
  | .other _ => true

def partsHere (P : Bool → List Decl → Ty → Size → Bool) (ctx : List Decl) : Bool :=
  ctx.all fun d => d.parts fun inside t s => P inside ctx t s

/-- Everything the fields, optionals and unions consist of, at any nesting level, has the property,
in its list. -/
def sizes (P : Bool → List Decl → Ty → Size → Bool) (ds : List Decl) : Bool := levels (partsHere P) ds

/-- A `std::vector` of records. -/
def Ty.recordVector : Ty → Bool
  | .vector (.fieldList _) => true
  | _ => false

/-- Every vector of records has a length. -/
def vectorsHaveLengths (ds : List Decl) : Bool :=
  sizes (fun _ _ t s => !t.recordVector || s.isVariable) ds

/-- No record and no array of records takes a length from a field. -/
def recordsHaveNone (ds : List Decl) : Bool :=
  sizes (fun _ _ t s => !t.ignoresSize || s.lenIs fun _ => false) ds

/-- What the descriptors give: a length to every vector of records, none to records and arrays of
records. -/
def tidy (ds : List Decl) : Bool := vectorsHaveLengths ds && recordsHaveNone ds

/-- A record or an array of records takes its length, if from a field, from one with which it can
be written. A record that is a field of its own: from none. One in an optional or a union: from
nothing of fixed size. An array of records that is a field of its own: from a number. One in an
optional or a union: from no `std::array`, C array or fixed string. -/
def recordLength (inside : Bool) (c : List Decl) (t : Ty) (s : Size) : Bool :=
  match t with
  | .fieldList _ => s.lenIs fun id => inside && noFixed c id
  | .array (.fieldList _) _ => s.lenIs fun id => if inside then notBuffer c id else isNumber c id
  | _ => true

end S2S.Decl
