import Verif.Model.Meta
/-
What a user writes: C++ types, field descriptors and type tags, the concepts that
classify them, and which of them the casts can be instantiated for.
/repo/include/lib/s2s_traits/type_traits.hpp, /repo/include/field/field_traits.hpp,
/repo/include/field/field.hpp, /repo/include/field/field_options.hpp,
/repo/include/api/field_descriptors.hpp, /repo/include/type_deduction/utils/type_tags.hpp,
/repo/include/type_deduction/type/type_deduction_traits.hpp,
/repo/include/type_deduction/type/type_deduction_metafunctions.hpp.

`Model/Schema` describes schemas by what the casts do with them. Here they are described
by the types the library sees; `elabList` takes the one to the other.

Not modelled: descriptors spelled as `field<...>` by hand; `match_case` labels and results
of computations that are not integers; containers and strings other than the standard
ones. `char` is `unsigned char`, as in the rest of the model.
-/
namespace S2S.Decl

/-- Sizes (/repo/include/field_size/field_size.hpp 22-85). -/
inductive Size
  /-- `byte_count` -/
  | bytes (n : Nat)
  /-- `field_accessor`, `size_from_fields_t` -/
  | var (len : LenSpec)
  | dontCare
  /-- `size_choices_t` -/
  | choices

/-- What a type deduction guide looks at (/repo/include/type_deduction/type/type.hpp). -/
inductive Guide
  | matchField (id : String)
  | matchCompute (c : Calc) (r : ScalarTy)
  | ladder

/-- The condition of a case: `match_case<v, _>` (match_case.hpp 10-14),
`branch<pred, _>` (clause.hpp 13-17). -/
inductive Cond
  | label (t : ScalarTy) (v : Int)
  | when (p : Pred)

mutual
/-- C++ types, as far as the library tells them apart. -/
inductive Ty
  | int (t : ScalarTy)
  /-- `float`, `double`, ... of that many bytes -/
  | float (bytes : Nat)
  /-- `fixed_string<n>` -/
  | fixedString (n : Nat)
  /-- `std::array<e, n>` -/
  | array (e : Ty) (n : Nat)
  /-- `e[n]` -/
  | carray (e : Ty) (n : Nat)
  /-- `std::vector<e>` -/
  | vector (e : Ty)
  /-- `std::string` -/
  | string
  /-- `struct_field_list<ds...>` -/
  | fieldList (ds : List Decl)
  | other (tag : Nat)
/-- A template argument of `struct_field_list`: `field` (field.hpp 15-30), `maybe_field`
with the parameters of its base (68-76), `union_field` with its guide (104-121), or
something else. A bound of `none` is `use_default_bound`. -/
inductive Decl
  | field (id : String) (t : Ty) (s : Size) (c : Constraint) (b : Option Nat)
  | maybe (id : String) (t : Ty) (s : Size) (c : Constraint) (b : Option Nat) (p : Pred)
  | union (id : String) (g : Guide) (cases : List Case) (c : Constraint)
  | other (tag : Nat)
/-- A case with what its tag exposes (type_tags.hpp 45-117). -/
inductive Case
  | mk (cond : Cond) (t : Ty) (s : Size) (c : Constraint) (b : Option Nat)
end

def Decl.id : Decl → String
  | .field i _ _ _ _ => i
  | .maybe i _ _ _ _ _ => i
  | .union i _ _ _ => i
  | .other _ => ""

/-- What the compiler knows and the library does not say. -/
structure Impl where
  /-- `sizeof(std::vector<T>)`, `sizeof(std::string)`, `sizeof(std::array<T, 0>)` -/
  vectorSize : Nat
  stringSize : Nat
  emptyArraySize : Nat
  /-- `sizeof(struct_field_list<ds...>)` -/
  recordSize : List Decl → Nat
  otherSize : Nat → Nat
  /-- can the functor be called on a value of that type, giving `bool`? -/
  callable : Constraint → Ty → Bool

/-- `sizeof`. -/
def Ty.sizeof (I : Impl) : Ty → Nat
  | .int t => t.size
  | .float n => n
  | .fixedString n => n + 1
  | .array e n => if n = 0 then I.emptyArraySize else n * e.sizeof I
  | .carray e n => n * e.sizeof I
  | .vector _ => I.vectorSize
  | .string => I.stringSize
  | .fieldList ds => I.recordSize ds
  | .other k => I.otherSize k

/-! ### type_traits.hpp -/

/-- `arithmetic` and `trivial` (type_traits.hpp 15-16, 24-25). -/
def Ty.isArithmetic : Ty → Bool
  | .int _ => true
  | .float _ => true
  | _ => false

/-- `is_fixed_string` (type_traits.hpp 30-47). -/
def Ty.isFixedString : Ty → Bool
  | .fixedString _ => true
  | _ => false

/-- `is_fixed_array` (type_traits.hpp 49-67). -/
def Ty.isFixedArray : Ty → Bool
  | .array e _ => e.isArithmetic || e.isFixedArray
  | _ => false

/-- `is_c_array` (type_traits.hpp 69-84). -/
def Ty.isCArray : Ty → Bool
  | .carray e _ => e.isArithmetic || e.isCArray
  | _ => false

/-- `fixed_buffer_like` (type_traits.hpp 88-92). -/
def Ty.fixedBufferLike (t : Ty) : Bool := t.isFixedArray || t.isCArray || t.isFixedString

/-- `is_vector_like` (type_traits.hpp 151-170). -/
def Ty.isVectorLike : Ty → Bool
  | .vector e => e.isArithmetic || e.isFixedArray
  | _ => false

/-- `is_string_like` (type_traits.hpp 172-189). -/
def Ty.isStringLike : Ty → Bool
  | .string => true
  | _ => false

/-- `field_containable` (type_traits.hpp 191-192). -/
def Ty.fieldContainable (t : Ty) : Bool := t.fixedBufferLike || t.isArithmetic

/-- `variable_sized_buffer_like` (type_traits.hpp 261-262). -/
def Ty.variableSizedBufferLike (t : Ty) : Bool := t.isVectorLike || t.isStringLike

/-- `field_list_like` (/repo/include/field_list/field_list_base.hpp). -/
def Ty.fieldListLike : Ty → Bool
  | .fieldList _ => true
  | _ => false

/-! ### field_size.hpp -/

/-- `fixed_size_like` (field_size.hpp 138-149, 187). -/
def Size.isFixed : Size → Bool
  | .bytes _ => true
  | _ => false

/-- `variable_size_like` (field_size.hpp 151-167, 190). -/
def Size.isVariable : Size → Bool
  | .var _ => true
  | _ => false

/-! ### field_traits.hpp -/

/-- `fixed_sized_field_like` (field_traits.hpp 11-29). -/
def Decl.fixedSized : Decl → Bool
  | .field _ t s _ _ => t.fieldContainable && s.isFixed
  | _ => false

/-- `variable_sized_field_like` (field_traits.hpp 82-101). -/
def Decl.variableSized : Decl → Bool
  | .field _ t s _ _ => t.variableSizedBufferLike && s.isVariable
  | _ => false

/-- `array_of_record_field_like` (field_traits.hpp 62-79). -/
def Decl.arrayOfRecord : Decl → Bool
  | .field _ (.array e _) _ _ _ => e.fieldListLike
  | _ => false

/-- `vector_of_record_field_like` (field_traits.hpp 103-120). -/
def Decl.vectorOfRecord : Decl → Bool
  | .field _ (.vector e) _ _ _ => e.fieldListLike
  | _ => false

/-- `struct_field_like` (field_traits.hpp 122-141). -/
def Decl.structLike : Decl → Bool
  | .field _ t _ _ _ => t.fieldListLike
  | _ => false

/-- `optional_field_like` (field_traits.hpp 144-171): whatever the base is. -/
def Decl.optionalLike : Decl → Bool
  | .maybe _ _ _ _ _ _ => true
  | _ => false

/-- `union_field_like` (field_traits.hpp 174-192). -/
def Decl.unionLike : Decl → Bool
  | .union _ _ _ _ => true
  | _ => false

/-- `field_like` (field_traits.hpp 194-201). -/
def Decl.fieldLike (d : Decl) : Bool :=
  d.fixedSized || d.variableSized || d.arrayOfRecord || d.vectorOfRecord || d.structLike ||
  d.optionalLike || d.unionLike

/-- The partial specializations of `read_field` (/repo/include/field_read/field_reader.hpp
21-316); `write_field` (/repo/include/field_write/field_writer.hpp) has the same ones. -/
inductive Handler
  | fixed | variable | arrayOfRecords | vectorOfRecords | struct | optional | union
  deriving DecidableEq, Repr

/-- The concept that constrains each. -/
def Handler.takes : Handler → Decl → Bool
  | .fixed, d => d.fixedSized
  | .variable, d => d.variableSized
  | .arrayOfRecords, d => d.arrayOfRecord
  | .vectorOfRecords, d => d.vectorOfRecord
  | .struct, d => d.structLike
  | .optional, d => d.optionalLike
  | .union, d => d.unionLike

/-! ### type_deduction -/

def Cond.isLabel : Cond → Bool
  | .label _ _ => true
  | _ => false

def Case.cond : Case → Cond
  | .mk k _ _ _ _ => k
def Case.ty : Case → Ty
  | .mk _ t _ _ _ => t
def Case.size : Case → Size
  | .mk _ _ s _ _ => s

/-- `type_deduction_like` (type_deduction_traits.hpp 33-67): at least one case
(switch.hpp 11-12, ladder.hpp 12-13), all of them `match_case`s, or all of them
`branch`es. -/
def typeDeductionLike : Guide → List Case → Bool
  | .ladder, ks => !ks.isEmpty && ks.all fun k => !k.cond.isLabel
  | _, ks => !ks.isEmpty && ks.all fun k => k.cond.isLabel

/-- `has_unique_field_choices(extract_field_choices<type_deducer>::value)`
(type_deduction_metafunctions.hpp 14-76), `tid`: `meta::type_id`. -/
def uniqueFieldChoices (tid : Ty → Nat) (ks : List Case) : Option Bool :=
  let ids := ks.map fun k => tid k.ty
  (Meta.setOf ids.length [] ids).bind (Meta.equalRanges ids)

/-- `extract_match_values` (type_deduction_metafunctions.hpp 84-123): labels converted to
`std::size_t`, for the two guides with a switch. -/
def matchValues (cfg : Cfg) : Guide → List Case → List Nat
  | .ladder, _ => []
  | _, ks => ks.filterMap fun k =>
      match k.cond with
      | .label _ v => some (cfg.toSz v)
      | .when _ => none

/-- The capacity of that vector (type_deduction_metafunctions.hpp 86, 104, 122). -/
def matchCapacity : Guide → List Case → Nat
  | .ladder, _ => 1
  | _, ks => ks.length

/-- `has_unique_match_values` (type_deduction_metafunctions.hpp 125-129). -/
def uniqueMatchValues (cfg : Cfg) (g : Guide) (ks : List Case) : Option Bool :=
  let vs := matchValues cfg g ks
  (Meta.setOf (matchCapacity g ks) [] vs).bind (Meta.equalRanges vs)

/-! ### field_descriptors.hpp and type_tags.hpp -/

/-- An entry of an option pack. -/
inductive Opt
  | size (s : Size)
  | constraint (c : Constraint)
  | bound (b : Option Nat)
  | other (tag : Nat)

/-- How an option classifies for a field of type `t` (field_options.hpp 35-56). -/
def kinds (I : Impl) (t : Ty) : Meta.OptKinds Opt where
  isSize | .size _ => true | _ => false
  isConstraint | .constraint c => I.callable c t | _ => false
  isBound | .bound _ => true | _ => false

/-- The options of a descriptor over `t`, each of which meets the placeholder constraint
(`admits`), resolved; `fine`: the `requires` clause on the size. -/
def resolve (I : Impl) (t : Ty) (admits : Meta.OptKinds Opt → Opt → Bool) (fine : Size → Bool)
    (opts : List Opt) : Option (Size × Constraint × Option Nat) :=
  (Meta.describe (kinds I t) ⟨.size (.bytes (t.sizeof I)), .constraint .none, .bound none⟩
    (admits (kinds I t)) (fun r => match r.size with | .size s => fine s | _ => false) opts).bind
  fun r => match r.size, r.constraint, r.bound with
    | .size s, .constraint c, .bound b => some (s, c, b)
    | _, _, _ => none

/-- `constraint_option_like`, `field_option_like`, `boundable_field_option_like`. -/
def onlyConstraint (K : Meta.OptKinds Opt) (o : Opt) : Bool := K.isConstraint o
def fieldOption (K : Meta.OptKinds Opt) (o : Opt) : Bool := K.isSize o || K.isConstraint o
def boundableOption (K : Meta.OptKinds Opt) (o : Opt) : Bool :=
  K.isSize o || K.isConstraint o || K.isBound o

/-- `field_fits_to_underlying_type` (field_options.hpp 25-26). -/
def fits (n : Nat) : Size → Bool
  | .bytes w => decide (w ≤ n)
  | _ => false

/-- What a tag exposes, and a descriptor has: type, size, constraint, bound. -/
structure Tag where
  t : Ty
  s : Size
  c : Constraint
  b : Option Nat

def Tag.field (id : String) (g : Tag) : Decl := .field id g.t g.s g.c g.b
def Tag.case (k : Cond) (g : Tag) : Case := .mk k g.t g.s g.c g.b

/-- `basic_field` (field_descriptors.hpp 27-29), `as_trivial` (type_tags.hpp 45-53). -/
def scalarTag (I : Impl) (t : Ty) (opts : List Opt) : Option Tag :=
  (resolve I t fieldOption (fits (t.sizeof I)) opts).map fun (s, c, _) => ⟨t, s, c, none⟩

/-- `fixed_array_field` (field_descriptors.hpp 31-34), `as_fixed_arr` (type_tags.hpp 64-71). -/
def fixedArrayTag (I : Impl) (e : Ty) (n : Nat) (opts : List Opt) : Option Tag :=
  (resolve I (.array e n) onlyConstraint (fun _ => true) opts).map fun (_, c, _) =>
    ⟨.array e n, .bytes (n * e.sizeof I), c, none⟩

/-- `array_of_records` (field_descriptors.hpp 36-39), `as_arr_of_records` (type_tags.hpp
101-108). -/
def arrayOfRecordsTag (I : Impl) (ds : List Decl) (n : Nat) (opts : List Opt) : Option Tag :=
  (resolve I (.array (.fieldList ds) n) onlyConstraint (fun _ => true) opts).map fun (_, c, _) =>
    ⟨.array (.fieldList ds) n, .dontCare, c, none⟩

/-- `fixed_string_field` (field_descriptors.hpp 41-43), `as_fixed_string` (type_tags.hpp
73-79). -/
def fixedStringTag (I : Impl) (n : Nat) (opts : List Opt) : Option Tag :=
  (resolve I (.fixedString n) onlyConstraint (fun _ => true) opts).map fun (_, c, _) =>
    ⟨.fixedString n, .bytes (n + 1), c, none⟩

/-- `c_arr_field` (field_descriptors.hpp 45-47). There are no C arrays of length 0. -/
def cArrTag (I : Impl) (e : Ty) (n : Nat) (opts : List Opt) : Option Tag :=
  if n = 0 then none
  else (resolve I (.carray e n) onlyConstraint (fun _ => true) opts).map fun (_, c, _) =>
    ⟨.carray e n, .bytes (n * e.sizeof I), c, none⟩

/-- `c_str_field` (field_descriptors.hpp 49-51). -/
def cStrTag (I : Impl) (n : Nat) (opts : List Opt) : Option Tag :=
  (resolve I (.carray (.int u8) (n + 1)) onlyConstraint (fun _ => true) opts).map fun (_, c, _) =>
    ⟨.carray (.int u8) (n + 1), .bytes (n * 1 + 1), c, none⟩

/-- `magic_byte_array` (field_descriptors.hpp 53-54). -/
def magicByteArrayTag (n : Nat) (expected : Val) : Tag :=
  ⟨.array (.int u8) n, .bytes n, .arrCmp true expected, none⟩

/-- `magic_string` (field_descriptors.hpp 56-57); `expected` without its terminator. -/
def magicStringTag (expected : List Int) : Tag :=
  ⟨.fixedString expected.length, .bytes (expected.length + 1), .strCmp true (expected ++ [0]), none⟩

/-- `magic_number` (field_descriptors.hpp 59-61). -/
def magicNumberTag (t : ScalarTy) (s : Size) (et : ScalarTy) (expected : Int) : Option Tag :=
  if s.isFixed then some ⟨.int t, s, .cmp .eq et expected, none⟩ else none

/-- `vec_field` (field_descriptors.hpp 64-69), `vector_of_records` (71-76), `str_field`
(79-84), and the tags `as_vec`, `as_vec_of_records`, `as_string` (type_tags.hpp 83-99,
110-117). -/
def containerTag (I : Impl) (t : Ty) (opts : List Opt) : Option Tag :=
  (resolve I t boundableOption Size.isVariable opts).map fun (s, c, b) => ⟨t, s, c, b⟩

/-- `struct_field` (field_descriptors.hpp 86-87), `as_struct` (type_tags.hpp 55-61). -/
def structTag (I : Impl) (ds : List Decl) (opts : List Opt) : Option Tag :=
  (resolve I (.fieldList ds) onlyConstraint (fun _ => true) opts).map fun (_, c, _) =>
    ⟨.fieldList ds, .dontCare, c, none⟩

/-- `no_variance_field_like` (field.hpp 43-63): the constraint is `no_constraint<T>`. -/
def Constraint.isNone : Constraint → Bool
  | .none => true
  | _ => false

/-- `maybe` (field_descriptors.hpp 89-91). -/
def maybeOf (base : Decl) (p : Pred) : Option Decl :=
  match base with
  | .field id t s c b => if Constraint.isNone c then some (.maybe id t s c b p) else none
  | _ => none

/-- `variance` (field_descriptors.hpp 97-103); `v`: the type of the variant. -/
def variance (I : Impl) (cfg : Cfg) (tid : Ty → Nat) (v : Ty) (id : String) (g : Guide)
    (ks : List Case) (opts : List Opt) : Option Decl :=
  if typeDeductionLike g ks && uniqueFieldChoices tid ks == some true &&
      uniqueMatchValues cfg g ks == some true then
    (resolve I v onlyConstraint (fun _ => true) opts).map fun (_, c, _) => .union id g ks c
  else none

mutual
/-- A field spelled with a descriptor. -/
inductive Spelled (I : Impl) (cfg : Cfg) (tid : Ty → Nat) : Decl → Prop
  | basicField {id t opts g} : scalarTag I (.int t) opts = some g → Spelled I cfg tid (g.field id)
  | fixedArrayField {id e n opts g} : e.fieldContainable = true → fixedArrayTag I e n opts = some g →
      Spelled I cfg tid (g.field id)
  | arrayOfRecords {id ds n opts g} : SpelledList I cfg tid ds → arrayOfRecordsTag I ds n opts = some g →
      Spelled I cfg tid (g.field id)
  | fixedStringField {id n opts g} : fixedStringTag I n opts = some g → Spelled I cfg tid (g.field id)
  | cArrField {id e n opts g} : e.fieldContainable = true → cArrTag I e n opts = some g →
      Spelled I cfg tid (g.field id)
  | cStrField {id n opts g} : cStrTag I n opts = some g → Spelled I cfg tid (g.field id)
  | magicByteArray {id n v} : Spelled I cfg tid ((magicByteArrayTag n v).field id)
  | magicString {id s} : Spelled I cfg tid ((magicStringTag s).field id)
  | magicNumber {id t s et v g} : magicNumberTag t s et v = some g → Spelled I cfg tid (g.field id)
  /-- `vec_field` says nothing about the type of the elements; if it is a list of
  fields, that has been accepted. -/
  | vecField {id e opts g} : (∀ ds, e = .fieldList ds → SpelledList I cfg tid ds) →
      containerTag I (.vector e) opts = some g → Spelled I cfg tid (g.field id)
  | strField {id opts g} : containerTag I .string opts = some g → Spelled I cfg tid (g.field id)
  | structField {id ds opts g} : SpelledList I cfg tid ds → structTag I ds opts = some g →
      Spelled I cfg tid (g.field id)
  | maybe {base p d} : Spelled I cfg tid base → maybeOf base p = some d → Spelled I cfg tid d
  | variance {v id g ks opts d} : (∀ k ∈ ks, SpelledCase I cfg tid k) →
      variance I cfg tid v id g ks opts = some d → Spelled I cfg tid d
/-- A case spelled with a tag. -/
inductive SpelledCase (I : Impl) (cfg : Cfg) (tid : Ty → Nat) : Case → Prop
  | asTrivial {k t opts g} : t.isArithmetic = true → scalarTag I t opts = some g →
      SpelledCase I cfg tid (g.case k)
  | asStruct {k ds opts g} : SpelledList I cfg tid ds → structTag I ds opts = some g →
      SpelledCase I cfg tid (g.case k)
  | asFixedArr {k e n opts g} : e.isArithmetic = true → fixedArrayTag I e n opts = some g →
      SpelledCase I cfg tid (g.case k)
  | asFixedString {k n opts g} : fixedStringTag I n opts = some g → SpelledCase I cfg tid (g.case k)
  | asVec {k e opts g} : e.isArithmetic = true → containerTag I (.vector e) opts = some g →
      SpelledCase I cfg tid (g.case k)
  | asString {k opts g} : containerTag I .string opts = some g → SpelledCase I cfg tid (g.case k)
  | asArrOfRecords {k ds n opts g} : SpelledList I cfg tid ds → arrayOfRecordsTag I ds n opts = some g →
      SpelledCase I cfg tid (g.case k)
  | asVecOfRecords {k ds opts g} : SpelledList I cfg tid ds →
      containerTag I (.vector (.fieldList ds)) opts = some g → SpelledCase I cfg tid (g.case k)
/-- A `struct_field_list` of such fields, all of them `field_like`
(/repo/include/api/struct_field_list.hpp 28-61; names and dependencies: `Meta.accepts`). -/
inductive SpelledList (I : Impl) (cfg : Cfg) (tid : Ty → Nat) : List Decl → Prop
  | mk {ds} : (∀ d ∈ ds, Spelled I cfg tid d) → ds.all Decl.fieldLike = true → SpelledList I cfg tid ds
end

/-! ### Which casts can be instantiated -/

/-- `std::byteswap` is for integers; it is used on every scalar of more than one byte in
the foreign order (/repo/include/field_read/read_impl.hpp 97-105,
/repo/include/stream/byte_order.hpp 14-25). -/
def Ty.swappable : Ty → Bool
  | .float _ => false
  | .array e _ => e.swappable
  | .carray e _ => e.swappable
  | .vector e => e.swappable
  | _ => true

/-- `std::optional<T>` and `std::variant<..., T, ...>` exist: not for C arrays. -/
def Ty.isStorable : Ty → Bool
  | .carray _ _ => false
  | _ => true

/-- A byte order, a direction, and the kind of stream: one that is used in constant
evaluation (`identified_as_constexpr_stream`) or one that is not. -/
structure Use where
  foreign : Bool
  write : Bool
  constexprStream : Bool

/-- The type of an integral field of that name. -/
def intField? (ctx : List Decl) (id : String) : Option ScalarTy :=
  match ctx.find? fun d => d.id == id with
  | some (.field _ (.int t) _ _ _) => some t
  | _ => none

/-- The same, or that of an optional one. -/
def matchable? (ctx : List Decl) (id : String) : Option ScalarTy :=
  match ctx.find? fun d => d.id == id with
  | some (.field _ (.int t) _ _ _) => some t
  | some (.maybe _ (.int t) _ _ _ _) => some t
  | _ => none

/-- Does it name a field that is a number, an integer or a floating-point one? -/
def isNumber (ctx : List Decl) (id : String) : Bool :=
  match ctx.find? fun d => d.id == id with
  | some (.field _ t _ _ _) => t.isArithmetic
  | _ => false

/-- The same, or an optional number. -/
def isComparable (ctx : List Decl) (id : String) : Bool :=
  match ctx.find? fun d => d.id == id with
  | some (.field _ t _ _ _) => t.isArithmetic
  | some (.maybe _ t _ _ _ _) => t.isArithmetic
  | _ => false

/-- Something that is written as a fixed-sized field but cannot be converted to
`std::size_t`, not even by a `static_cast`. -/
def fixedBuffer (t : Ty) (s : Size) : Bool := t.fieldContainable && s.isFixed && !t.isArithmetic

/-- Nothing of that name is one: no field, no optional, no alternative of a union (which has
the name of the union, field.hpp 83-100). -/
def noFixedBuffer (ctx : List Decl) (id : String) : Bool :=
  match ctx.find? fun d => d.id == id with
  | some (.field _ t s _ _) => !fixedBuffer t s
  | some (.maybe _ t s _ _ _) => !fixedBuffer t s
  | some (.union _ _ ks _) => ks.all fun k => !fixedBuffer k.ty k.size
  | some (.other _) => false
  | none => true

/-- The field a length is taken from.

Reading, `deduce_field_size` converts it to `std::size_t`, as C++ does on a `return`
(/repo/include/field_size/field_size_deduce.hpp 17-27): any number will do, a `float` too.

Writing, it is a slot if the container is a field of its own, and then a fixed-sized field
(/repo/include/field_write/derived_value.hpp 208-224) a length can be converted to
(290, 304). If the container is `inside` an optional or a union, the field is an ordinary
one; where a fixed-sized field, optional or alternative of that name is written, it is
converted to `std::size_t` and compared with the size (79-205, field_writer.hpp 62-72).
Anything else of that name is written without a look at the container. -/
def lenOk (use : Use) (inside : Bool) (ctx : List Decl) : Size → Bool
  | .var (.fromField id) => if use.write && inside then noFixedBuffer ctx id else isNumber ctx id
  | _ => true

/-- Is the name that of a length slot: does a container of the list, other than in an
optional or a union, take its length from it (field_list_metadata.hpp 234-249)? -/
def lengthTarget (ctx : List Decl) (id : String) : Bool :=
  ctx.any fun
    | .field _ _ (.var (.fromField i)) _ _ => i == id
    | _ => false

/-- The discriminant of a union. Reading, it is compared with the labels (switch_impl.hpp
17), after a lookup with `operator[]`, which has no overload for length slots
(type_impl.hpp 34, field_list.hpp 96-106). Writing, it must be a fixed-sized field (the
`static_assert` in derived_value.hpp 222-223) and an integer is converted to its type
and back (290, 304). All of it goes for any number. -/
def guideOk (use : Use) (ctx : List Decl) : Guide → Bool
  | .matchField id =>
      if use.write then isNumber ctx id
      else isComparable ctx id && !lengthTarget ctx id
  | _ => true

mutual
/-- Can `read_field<field<_, t, s, ...>, _>::read` (`write_field`, `write`) be
instantiated?

A `std::vector<bool>` has no `data()` (/repo/include/lib/memory/address_manip.hpp 27-30,
52-55) and its elements cannot be referred to (read_impl.hpp 37-40, 85). But they have
values, and it is by value that they are written in the foreign order
(/repo/include/field_write/write_impl.hpp 65-85) and to a constant-evaluation stream (33-47).

A C array is read from a constant-evaluation stream into a `std::array`, and assigned from
that element by element (read_impl.hpp 42-48); an element that is a C array cannot be
assigned to. -/
def castsTy (use : Use) : Ty → Size → Bool
  | .fieldList ds, _ => castsDecls use ds ds
  | .array (.fieldList ds) _, _ => castsDecls use ds ds
  | .vector (.fieldList ds), s => s.isVariable && castsDecls use ds ds
  | .vector (.int .bool), s => s.isVariable && (use.write && (use.foreign || use.constexprStream))
  | .vector e, s =>
      s.isVariable && (e.isArithmetic || e.isFixedArray) && (!use.foreign || e.swappable)
  | .string, s => s.isVariable
  | .int _, s => s.isFixed
  | .float _, s => s.isFixed && !use.foreign
  | .fixedString _, s => s.isFixed
  | .array e _, s =>
      s.isFixed && (e.isArithmetic || e.isFixedArray) && (!use.foreign || e.swappable)
  | .carray e _, s =>
      s.isFixed && (e.isArithmetic || e.isCArray) && (!use.foreign || e.swappable) &&
      (use.write || !use.constexprStream || !e.isCArray)
  | .other _, _ => false
/-- ... `read_field<d, _>::read`, in a list `ctx`? -/
def castsDecl (use : Use) (ctx : List Decl) : Decl → Bool
  | .field _ t s _ _ => castsTy use t s && lenOk use false ctx s
  | .maybe _ t s _ _ _ => castsTy use t s && lenOk use true ctx s && t.isStorable
  | .union _ g ks _ => guideOk use ctx g && castsCases use ctx ks
  | .other _ => false
def castsCases (use : Use) (ctx : List Decl) : List Case → Bool
  | [] => true
  | .mk _ t s _ _ :: ks =>
      castsTy use t s && lenOk use true ctx s && t.isStorable &&
      castsCases use ctx ks
def castsDecls (use : Use) (ctx : List Decl) : List Decl → Bool
  | [] => true
  | d :: ds => castsDecl use ctx d && castsDecls use ctx ds
end

/-- Can `struct_cast`/`stream_cast` be instantiated for the list? Simplified: exact if records and
arrays of records have no length from a field and vectors of records have a length, as the
descriptors give them; for other sizes see `inst` (Model/Inst). -/
def casts (use : Use) (ds : List Decl) : Bool := castsDecls use ds ds

/-! ### The schema a declaration stands for -/

/-- The integers of as many bytes as a floating-point type. In the host's byte order, the
only one a floating-point field compiles in, the casts copy the bytes of an object and
look at nothing else of it (/repo/include/field_read/read_impl.hpp 66-69, 98-104): a value
is the number its bytes are in that order. -/
def bitsOf (n : Nat) : ScalarTy := .int n false

/-- Elements of buffers. `none`: arrays of length 0, which have a size in C++ but no
elements. -/
def elabElem : Ty → Option ElemTy
  | .int t => some (.scalar t)
  | .float n => some (.scalar (bitsOf n))
  | .array e n => if n = 0 then none else (elabElem e).map (.arr · n)
  | .carray e n => if n = 0 then none else (elabElem e).map (.arr · n)
  | _ => none

/-- The labels of a switch. -/
def labelsOf : List Case → Option (List (ScalarTy × Int))
  | [] => some []
  | .mk (.label t v) _ _ _ _ :: ks => (labelsOf ks).map ((t, v) :: ·)
  | .mk (.when _) _ _ _ _ :: _ => none

/-- The predicates of a ladder. -/
def predsOf : List Case → Option (List Pred)
  | [] => some []
  | .mk (.when p) _ _ _ _ :: ks => (predsOf ks).map (p :: ·)
  | .mk (.label _ _) _ _ _ _ :: _ => none

def elabGuide (ctx : List Decl) (ks : List Case) : Guide → Option Deducer
  | .matchField id => (matchable? ctx id).bind fun t => (labelsOf ks).map (.matchField id t)
  | .matchCompute c r => (labelsOf ks).map (.matchCompute c r)
  | .ladder => (predsOf ks).map .ladder

mutual
def elabKind (I : Impl) : Ty → Size → Option Nat → Option Kind
  | .fieldList ds, _, _ => (elabDecls I ds ds).map .record
  | .array (.fieldList ds) n, _, _ => (elabDecls I ds ds).map (.arrRec · n)
  | .vector (.fieldList ds), .var l, b =>
      (elabDecls I ds ds).map fun fs => .vecRec fs l b (I.recordSize ds)
  | .vector e, .var l, b => (elabElem e).map (.vec · l b)
  | .string, .var l, b => some (.vec (.scalar u8) l b)
  | .int t, .bytes w, _ => some (.num t w)
  | .float n, .bytes w, _ => some (.num (bitsOf n) w)
  | .fixedString n, .bytes w, _ => if w = n + 1 then some (.fstr n) else none
  | .array e n, .bytes w, _ => if w = n * e.sizeof I then (elabElem e).map (.fbuf · n) else none
  | .carray e n, .bytes w, _ => if w = n * e.sizeof I then (elabElem e).map (.fbuf · n) else none
  | _, _, _ => none
def elabDecl (I : Impl) (ctx : List Decl) : Decl → Option Field
  | .field id t s c b => (elabKind I t s b).map fun k => .plain id k c
  | .maybe id t s _ b p => (elabKind I t s b).map fun k => .maybe id k p
  | .union id g ks c =>
      (elabGuide ctx ks g).bind fun d => (elabCases I ks).map fun alts => .union id d alts c
  | .other _ => none
def elabCases (I : Impl) : List Case → Option (List Alt)
  | [] => some []
  | .mk _ t s c b :: ks =>
      (elabKind I t s b).bind fun k => (elabCases I ks).map (Alt.mk k c :: ·)
def elabDecls (I : Impl) (ctx : List Decl) : List Decl → Option (List Field)
  | [] => some []
  | d :: ds => (elabDecl I ctx d).bind fun f => (elabDecls I ctx ds).map (f :: ·)
end

/-- The length is not taken from a floating-point field. -/
def wholeLen (ctx : List Decl) : Size → Bool
  | .var (.fromField id) => (intField? ctx id).isSome
  | _ => true

/-- The discriminant is not one. -/
def wholeGuide (ctx : List Decl) : Guide → Bool
  | .matchField id => (matchable? ctx id).isSome
  | _ => true

mutual
def wholeTy : Ty → Bool
  | .fieldList ds => wholeDecls ds ds
  | .array (.fieldList ds) _ => wholeDecls ds ds
  | .vector (.fieldList ds) => wholeDecls ds ds
  | _ => true
def wholeDecl (ctx : List Decl) : Decl → Bool
  | .field _ t s _ _ => wholeTy t && wholeLen ctx s
  | .maybe _ t s _ _ _ => wholeTy t && wholeLen ctx s
  | .union _ g ks _ => wholeGuide ctx g && wholeCases ctx ks
  | .other _ => true
def wholeCases (ctx : List Decl) : List Case → Bool
  | [] => true
  | .mk _ t s _ _ :: ks => wholeTy t && wholeLen ctx s && wholeCases ctx ks
/-- All lengths and discriminants, at every level, are integers. -/
def wholeDecls (ctx : List Decl) : List Decl → Bool
  | [] => true
  | d :: ds => wholeDecl ctx d && wholeDecls ctx ds
end

/-- The schema a list of declarations stands for. `none` also for floating-point lengths
and discriminants: a field of a schema holds the bits of a number, not its value. -/
def elabList (I : Impl) (ds : List Decl) : Option (List Field) :=
  if wholeDecls ds ds then elabDecls I ds ds else none

end S2S.Decl
