import Verif.Model.Decl
/-
Conditions on declarations.
-/
namespace S2S.Decl

/-- Elements that exist: numbers have bytes, and an array used as an element is not
empty (an empty `std::array` has a size, but holds nothing). -/
def solidElem : Ty → Bool
  | .int t => decide (0 < t.size)
  | .float n => decide (0 < n)
  | .array e n => decide (0 < n) && solidElem e
  | .carray e n => decide (0 < n) && solidElem e
  | _ => true

mutual
def solidTy : Ty → Bool
  | .fieldList ds => solidDecls ds
  | .array (.fieldList ds) _ => solidDecls ds
  | .vector (.fieldList ds) => solidDecls ds
  | .array e _ => solidElem e
  | .carray e _ => solidElem e
  | .vector e => solidElem e
  | _ => true
def solidDecl : Decl → Bool
  | .field _ t _ _ _ => solidTy t
  | .maybe _ t _ _ _ _ => solidTy t
  | .union _ _ ks _ => solidCases ks
  | .other _ => true
def solidCases : List Case → Bool
  | [] => true
  | .mk _ t _ _ _ :: ks => solidTy t && solidCases ks
/-- The elements of all buffers in the declarations exist. -/
def solidDecls : List Decl → Bool
  | [] => true
  | d :: ds => solidDecl d && solidDecls ds
end

/-- C++: every type has a size. -/
structure Impl.Sound (I : Impl) : Prop where
  record : ∀ ds, 0 < I.recordSize ds

mutual
/-- The size of a fixed-sized buffer is that of its elements. -/
def OkTy (I : Impl) : Ty → Size → Prop
  | .fieldList ds, _ => OkDecls I ds
  | .array (.fieldList ds) _, _ => OkDecls I ds
  | .vector (.fieldList ds), _ => OkDecls I ds
  | .fixedString n, s => ∀ w, s = .bytes w → w = n + 1
  | .array e n, s => ∀ w, s = .bytes w → w = n * e.sizeof I
  | .carray e n, s => ∀ w, s = .bytes w → w = n * e.sizeof I
  | _, _ => True
def OkDecl (I : Impl) : Decl → Prop
  | .field _ t s _ _ => OkTy I t s
  | .maybe _ t s _ _ _ => OkTy I t s
  | .union _ g ks _ => typeDeductionLike g ks = true ∧ OkCases I ks
  | .other _ => True
def OkCases (I : Impl) : List Case → Prop
  | [] => True
  | .mk _ t s _ _ :: ks => OkTy I t s ∧ OkCases I ks
def OkDecls (I : Impl) : List Decl → Prop
  | [] => True
  | d :: ds => OkDecl I d ∧ OkDecls I ds
end

/-- The labels of the cases, in order. -/
def switchLabels (ks : List Case) : List Int :=
  ks.filterMap fun k =>
    match k.cond with
    | .label _ v => some v
    | .when _ => none

mutual
/-- A floating-point type occurs in the type. -/
def floatTy : Ty → Bool
  | .float _ => true
  | .array e _ => floatTy e
  | .carray e _ => floatTy e
  | .vector e => floatTy e
  | .fieldList ds => floatDecls ds
  | _ => false
def floatDecl : Decl → Bool
  | .field _ t _ _ _ => floatTy t
  | .maybe _ t _ _ _ _ => floatTy t
  | .union _ _ ks _ => floatCases ks
  | .other _ => false
def floatCases : List Case → Bool
  | [] => false
  | .mk _ t _ _ _ :: ks => floatTy t || floatCases ks
/-- A floating-point type occurs in the declarations. -/
def floatDecls : List Decl → Bool
  | [] => false
  | d :: ds => floatDecl d || floatDecls ds
end

/-! ### What can go wrong when an accepted list is instantiated -/

mutual
/-- Nothing in the type stands in the way of a cast: a `std::vector<bool>` only where it is
written one element at a time, in the foreign order or to a constant-evaluation stream; a
C array of C arrays not where it is read from such a stream; and in the foreign order
nothing that cannot be swapped. -/
def clearTy (use : Use) : Ty → Bool
  | .fieldList ds => clearDecls use ds
  | .array (.fieldList ds) _ => clearDecls use ds
  | .vector (.fieldList ds) => clearDecls use ds
  | .vector (.int .bool) => use.write && (use.foreign || use.constexprStream)
  | .carray e _ => (!use.foreign || e.swappable) && (use.write || !use.constexprStream || !e.isCArray)
  | t => !use.foreign || t.swappable
/-- ... and optionals are of something that could be a field itself, and not a C array. -/
def clearDecl (use : Use) : Decl → Bool
  | .field _ t _ _ _ => clearTy use t
  | .maybe id t s c b _ => (Decl.field id t s c b).fieldLike && t.isStorable && clearTy use t
  | .union _ _ ks _ => clearCases use ks
  | .other _ => false
def clearCases (use : Use) : List Case → Bool
  | [] => true
  | .mk _ t _ _ _ :: ks => clearTy use t && clearCases use ks
def clearDecls (use : Use) : List Decl → Bool
  | [] => true
  | d :: ds => clearDecl use d && clearDecls use ds
end

mutual
def leavesTy (P : Ty → Bool) : Ty → Bool
  | .fieldList ds => leaves P ds
  | .array (.fieldList ds) _ => leaves P ds
  | .vector (.fieldList ds) => leaves P ds
  | t => P t
def leavesDecl (P : Ty → Bool) : Decl → Bool
  | .field _ t _ _ _ => leavesTy P t
  | .maybe _ t _ _ _ _ => leavesTy P t
  | .union _ _ ks _ => leavesCases P ks
  | .other _ => true
def leavesCases (P : Ty → Bool) : List Case → Bool
  | [] => true
  | .mk _ t _ _ _ :: ks => leavesTy P t && leavesCases P ks
/-- Every type a field, an optional or a case of the declarations holds, at any nesting
level, is a list of fields, an array or a vector of them, or has the property. -/
def leaves (P : Ty → Bool) : List Decl → Bool
  | [] => true
  | d :: ds => leavesDecl P d && leaves P ds
end

/-- `std::vector<bool>`. -/
def Ty.boolVector : Ty → Bool
  | .vector (.int .bool) => true
  | _ => false
/-- `T x[n][m]`. -/
def Ty.nestedCArray : Ty → Bool
  | .carray (.carray _ _) _ => true
  | _ => false

/-- No `std::vector<bool>`, at any nesting level. -/
def noBoolVector (ds : List Decl) : Bool := leaves (fun t => !t.boolVector) ds
/-- No C array of C arrays, at any nesting level. -/
def noNestedCArray (ds : List Decl) : Bool := leaves (fun t => !t.nestedCArray) ds

mutual
def switchesTy (P : List Decl → String → Bool) : Ty → Bool
  | .fieldList ds => switches P ds ds
  | .array (.fieldList ds) _ => switches P ds ds
  | .vector (.fieldList ds) => switches P ds ds
  | _ => true
def switchesDecl (P : List Decl → String → Bool) (ctx : List Decl) : Decl → Bool
  | .field _ t _ _ _ => switchesTy P t
  | .maybe _ t _ _ _ _ => switchesTy P t
  | .union _ (.matchField id) ks _ => P ctx id && switchesCases P ks
  | .union _ _ ks _ => switchesCases P ks
  | .other _ => true
def switchesCases (P : List Decl → String → Bool) : List Case → Bool
  | [] => true
  | .mk _ t _ _ _ :: ks => switchesTy P t && switchesCases P ks
/-- Every union that switches on a field, at any nesting level, does so on one with the
property, in its list. -/
def switches (P : List Decl → String → Bool) (ctx : List Decl) : List Decl → Bool
  | [] => true
  | d :: ds => switchesDecl P ctx d && switches P ctx ds
end

mutual
def belowTy (N : List Decl → Bool) : Ty → Bool
  | .fieldList ds => N ds && below N ds
  | .array (.fieldList ds) _ => N ds && below N ds
  | .vector (.fieldList ds) => N ds && below N ds
  | _ => true
def belowDecl (N : List Decl → Bool) : Decl → Bool
  | .field _ t _ _ _ => belowTy N t
  | .maybe _ t _ _ _ _ => belowTy N t
  | .union _ _ ks _ => belowCases N ks
  | .other _ => true
def belowCases (N : List Decl → Bool) : List Case → Bool
  | [] => true
  | .mk _ t _ _ _ :: ks => belowTy N t && belowCases N ks
/-- Every list of fields inside one of the declarations, at any nesting level, has the
property. -/
def below (N : List Decl → Bool) : List Decl → Bool
  | [] => true
  | d :: ds => belowDecl N d && below N ds
end

/-- The list has the property, and so has every one inside it. -/
def levels (N : List Decl → Bool) (ds : List Decl) : Bool := N ds && below N ds

/-- The length of a container of that size, if it is taken from a field, is taken from one
with the property. -/
def Size.lenIs (P : String → Bool) : Size → Bool
  | .var (.fromField id) => P id
  | _ => true

/-- So are the lengths of the containers of the declaration: the field itself, or what is
inside the optional or the union. -/
def Decl.lenIs (P : Bool → String → Bool) : Decl → Bool
  | .field _ _ s _ _ => s.lenIs (P false)
  | .maybe _ _ s _ _ _ => s.lenIs (P true)
  | .union _ _ ks _ => ks.all fun k => k.size.lenIs (P true)
  | .other _ => true

/-- So are those of all containers of a list, from a field of the list. -/
def lensHere (P : Bool → List Decl → String → Bool) (ctx : List Decl) : Bool :=
  ctx.all fun d => d.lenIs fun inside id => P inside ctx id

/-- Every length that is taken from a field, at any nesting level, is taken from one with
the property, in its list; the property may be another one for containers inside an
optional or a union (`true`) than for others (`false`). -/
def lengths (P : Bool → List Decl → String → Bool) (ds : List Decl) : Bool :=
  levels (lensHere P) ds

/-- It names an integer field. -/
def isInt (ctx : List Decl) (id : String) : Bool := (intField? ctx id).isSome
/-- It names an integer field or an optional integer. -/
def isOptInt (ctx : List Decl) (id : String) : Bool := (matchable? ctx id).isSome
/-- It does not name an optional. -/
def notOptional (ctx : List Decl) (id : String) : Bool :=
  match ctx.find? fun d => d.id == id with
  | some (.maybe _ _ _ _ _ _) => false
  | _ => true
/-- No container that is a field of the list takes its length from it. -/
def notLength (ctx : List Decl) (id : String) : Bool :=
  ctx.all fun d => d.lenIs fun inside i => inside || !(i == id)
/-- It names no `std::array`, C array or `fixed_string` of fixed size, no optional one, and
no union that can be one. -/
def notBuffer (ctx : List Decl) (id : String) : Bool :=
  match ctx.find? fun d => d.id == id with
  | some (.field _ t s _ _) => !(t.fixedBufferLike && s.isFixed)
  | some (.maybe _ t s _ _ _) => !(t.fixedBufferLike && s.isFixed)
  | some (.union _ _ ks _) => ks.all fun k => !(k.ty.fixedBufferLike && k.size.isFixed)
  | some (.other _) => false
  | none => true
/-- Every length of a container inside an optional or a union is taken from an integer. -/
def insideInts (ds : List Decl) : Bool := lengths (fun inside c i => !inside || isInt c i) ds

end S2S.Decl
