import Verif.Conformance.Base
import Verif.Props.Decl
import Verif.Props.StreamTypes
/- /repo/test/internals/traits_ct.cpp, union_choice_pipeline_ct.cpp and harness_ct.cpp;
/repo/test/must_not_compile/derived_field_assignment.cpp, cases 2, 5 and 6, and
hidden_length_target.cpp. The names `nonzero_first`, ... of the functors are those of the tests.

Not here: `fixed_string_list`, the type lists, `extract_type_from_field` and `meta::invoke`
(traits_ct.cpp 70-91, 97-125, 143-151), which the model does not have. -/
namespace S2S.Conformance.Traits
open Decl Props Demo Spec

/-! traits_ct.cpp -/

-- "field ids are checked for uniqueness"
example : Meta.fieldIdsUnique ["hello", "world", "hello"] = some false := by decide
example : Meta.fieldIdsUnique ["hello", "world", "nexus"] = some true := by decide

-- "the size axis forms are told apart"
example : (Size.var (.fromField "hello")).isVariable = true := rfl
example : (Size.bytes 4).isFixed = true := rfl
example : (Size.bytes 4).isVariable = false := rfl
example : (Size.var (.fromField "hello")).isFixed = false := rfl

-- "an optional field is distinguishable from a plain one"
def plainA : Option Decl := (scalarTag impl64 (.int u32) [.size (.bytes 4)]).map (Tag.field "a")
def isEq1 : Pred := ⟨["a"], fun vs => vs == [.int 1]⟩
example : plainA.map Decl.optionalLike = some false := by rfl
example : (plainA.bind (maybeOf · isEq1)).map Decl.optionalLike = some true := by rfl

-- "the stream concepts classify the standard streams". `std::ifstream::read` gives a
-- `std::istream&`, which is not an `std::ifstream&`; `write` likewise.
def noWay : Way := ⟨none, none, fun _ => none⟩
def stdWay : Way := ⟨some ⟨false, true, .bool⟩, some ⟨false, true, .bool⟩, fun _ => none⟩
def ifstream : StreamTy := ⟨false, true, .bool, stdWay, noWay⟩
def ofstream : StreamTy := ⟨false, true, .bool, noWay, stdWay⟩
def stringstream : StreamTy := ⟨false, true, .bool, stdWay, stdWay⟩
example : ifstream.reading.usable = true := rfl
example : ifstream.convertibleToBool = true := rfl
example : ifstream.like ifstream.reading = true := rfl
example : ifstream.like ifstream.writing = false := rfl
example : ofstream.like ofstream.writing = true := rfl
example : stringstream.like stringstream.reading = true := rfl
example : stringstream.like stringstream.writing = true := rfl
/-- `int` -/
def int : StreamTy := ⟨false, false, .bool, noWay, noWay⟩
example : int.reading.usable = false := rfl

-- "a byte count that would overflow is rejected"
def sizeMax : Nat := 2 ^ 64 - 1
example : checkedByteCount (cfg .little true mib16) 8 sizeMax (sizeMax / 8) = .ok (sizeMax / 8 * 8) := by rfl
example : checkedByteCount (cfg .little true mib16) 8 sizeMax (sizeMax / 8 + 1) = .error .excessiveLength := by rfl
example : checkedByteCount (cfg .little true mib16) 1 sizeMax sizeMax = .ok sizeMax := by rfl
-- "the same gate rejects on a lowered ceiling"
example : checkedByteCount (cfg .little true mib16) 4 8 2 = .ok 8 := by rfl
example : checkedByteCount (cfg .little true mib16) 4 8 3 = .error .excessiveLength := by rfl
example : checkedByteCount (cfg .little true mib16) 4 10 2 = .ok 8 := by rfl
example : checkedByteCount (cfg .little true mib16) 4 10 3 = .error .excessiveLength := by rfl

-- "the option pack is order-independent"
def eq5 : Opt := .constraint (.cmp .eq u16 5)
def eq5Tag : Option Tag := some ⟨.int u16, .bytes 2, .cmp .eq u16 5, none⟩
def u16Tag : Option Tag := some ⟨.int u16, .bytes 2, .none, none⟩
example : scalarTag impl64 (.int u16) [.size (.bytes 2), eq5] = eq5Tag := by rfl
example : scalarTag impl64 (.int u16) [eq5, .size (.bytes 2)] = eq5Tag := by rfl
example : scalarTag impl64 (.int u16) [eq5] = eq5Tag := by rfl
example : scalarTag impl64 (.int u16) [.size (.bytes 2)] = u16Tag := by rfl
example : scalarTag impl64 (.int u16) [] = u16Tag := by rfl

/-! union_choice_pipeline_ct.cpp -/

def innerDs : List Decl :=
  [.field "x" (.int u32) (.bytes 4) .none none, .field "y" (.int u32) (.bytes 4) .none none]

/-- Type ids that tell the alternatives of these unions apart. -/
def tid : Ty → Nat
  | .int t => 8 * t.size + 1
  | .fieldList _ => 2
  | .vector (.int t) => 8 * t.size + 3
  | .array (.int _) _ => 4
  | .fixedString _ => 5
  | .array (.fieldList _) _ => 6
  | _ => 0

/-- `variance<"body", type<match_field<"tag">, type_switch<match_case<0x01, _>, ...>>>`. -/
def body (alts : List (Option Tag)) (opts : List Opt) : Option Decl :=
  (alts.zipIdx.mapM fun ((g, i) : Option Tag × Nat) => g.map (Tag.case (.label i32 (i + 1)))).bind fun ks =>
    variance impl64 be64 tid (.other 0) "body" (.matchField "tag") ks opts

/-- The fields a union is made of, all under its own name (field.hpp 83-100), and its own constraint. -/
def choices : Decl → Option (List Decl × Constraint)
  | .union id _ ks c => some (ks.map fun | .mk _ t s c b => .field id t s c b, c)
  | _ => none

def lte99 : Constraint := .cmp .le u32 99

-- "the pipeline builds one field per alternative", "every alternative carries the union's id"
def expectedChoices : List Decl :=
  [.field "body" (.int u32) (.bytes 4) lte99 none,
   .field "body" (.fieldList innerDs) .dontCare .none none,
   .field "body" (.vector (.int u8)) (.var (.fromField "n")) .none none]
example : (body [scalarTag impl64 (.int u32) [.size (.bytes 4), .constraint lte99], structTag impl64 innerDs [],
    containerTag impl64 (.vector (.int u8)) [.size (.var (.fromField "n"))]] []).bind choices =
    some (expectedChoices, .none) := by rfl
-- "the entries of one pack are order-independent"
example : (body [scalarTag impl64 (.int u32) [.constraint lte99, .size (.bytes 4)], structTag impl64 innerDs [],
    containerTag impl64 (.vector (.int u8)) [.size (.var (.fromField "n"))]] []).bind choices =
    some (expectedChoices, .none) := by rfl
-- "a trivial tag with no size entry defaults to sizeof"
example : (body [scalarTag impl64 (.int u32) []] []).bind choices =
    some ([.field "body" (.int u32) (.bytes 4) .none none], .none) := by rfl
-- "a declared constraint arrives callable"
example : lte99.check (.int 50) = .ok true := by rfl
example : lte99.check (.int 200) = .ok false := by rfl

-- "the tags with no size entry carry a constraint too"
def nonzeroFirst : Constraint := .user fun v => match v with | .seq (.int x :: _) => x != 0 | _ => false
def nonzeroX : Constraint := .user fun v => match v with | .seq (.int x :: _) => x != 0 | _ => false
def nonempty : Constraint := .user fun v => match v with | .seq (.int x :: _) => x != 0 | _ => false
def firstRecordNonzero : Constraint :=
  .user fun v => match v with | .seq (.seq (.int x :: _) :: _) => x != 0 | _ => false
example : (body [fixedArrayTag impl64 (.int u8) 2 [.constraint nonzeroFirst],
    structTag impl64 innerDs [.constraint nonzeroX], fixedStringTag impl64 3 [.constraint nonempty],
    arrayOfRecordsTag impl64 innerDs 2 [.constraint firstRecordNonzero]] []).bind choices =
    some ([.field "body" (.array (.int u8) 2) (.bytes 2) nonzeroFirst none,
      .field "body" (.fieldList innerDs) .dontCare nonzeroX none,
      .field "body" (.fixedString 3) (.bytes 4) nonempty none,
      .field "body" (.array (.fieldList innerDs) 2) .dontCare firstRecordNonzero none], .none) := by rfl

-- "a declared bound reaches the field, and an undeclared one defaults"
example : (body [containerTag impl64 (.vector (.int u8)) [.size (.var (.fromField "n")), .bound (some 4096)],
    containerTag impl64 (.vector (.int u32)) [.size (.var (.fromField "n"))]] []).bind choices =
    some ([.field "body" (.vector (.int u8)) (.var (.fromField "n")) .none (some 4096),
      .field "body" (.vector (.int u32)) (.var (.fromField "n")) .none none], .none) := by rfl

-- "the union's constraint and its alternatives' stay apart"
def evenBody : Constraint := .user fun v => match v with | .var 0 (.int x) => x % 2 == 0 | _ => false
example : (body [scalarTag impl64 (.int u32) [.size (.bytes 4)]] [.constraint evenBody]).bind choices =
    some ([.field "body" (.int u32) (.bytes 4) .none none], evenBody) := by rfl
example : evenBody.check (.var 0 (.int 42)) = .ok true := by rfl
example : evenBody.check (.var 0 (.int 43)) = .ok false := by rfl

/-! harness_ct.cpp -/

def twoTrivials : List Field := [.plain "a" (.num u32 4) .none, .plain "b" (.num u32 4) .none]
-- "a little endian trivial pair round trips"
example : Reads .little twoTrivials [0xef, 0xbe, 0xad, 0xde, 0x0d, 0xd0, 0xfe, 0xca]
    [.int 0xdeadbeef, .int 0xcafed00d] := by rfl
-- "a truncated buffer fails on the field that ran out"
example : Refuses .little twoTrivials [0xef, 0xbe, 0xad, 0xde, 0x0d, 0xd0, 0xfe] .bufferExhaustion "b" := by rfl

/-! must_not_compile -/

/-- What `operator[]` gives, worked out from the lists it consults. The tables themselves are 256
entries long; C67 says what comes of them. -/
theorem subscript_at (fs : List Field) (f : Field) (a : Meta.Access) (hf : f ∈ fs)
    (h : fs.length ≤ 256 ∧ Distinct fs ∧ (lenDerivedIds fs).length ≤ 64 ∧ (discDerivedIds fs).length ≤ 64 ∧
      f.id ≠ "" ∧ f.id ∉ lenDerivedIds fs ∧
      (a = .readOnly ↔ f.id ∈ discDerivedIds fs ∨ f.isFrozen = true)) :
    Meta.subscript nameLt (tidOf fs) fs f.id = some (f, a) := by
  obtain ⟨h1, h2, h3, h4, h5, h6, h7⟩ := h
  rw [C67_access nameLt _ fs h1 h2 (tidOf_inj h2) h3 h4 f.id h5]
  rw [Meta.mem_lenDerived] at h6
  rw [Meta.mem_discDerived, Meta.isFrozen_iff] at h7
  exact ⟨hf, rfl, h6, h7⟩

def alt1 : List Field := [.plain "x" (.num u32 4) .none]
def alt2 : List Field := [.plain "y" (.num u32 4) .none]
def tagField : Field := .plain "tag" (.num u32 4) .none
def unionStruct : List Field :=
  [tagField, .union "body" (.matchField "tag" u32 [(u32, 0xcafed00d), (u32, 0xdeadbeef)])
    [.mk (.record alt1) .none, .mk (.record alt2) .none] .none]
-- derived_field_assignment.cpp, CASE 2: `u["tag"_f] = 5`
example : Meta.subscript nameLt (tidOf unionStruct) unionStruct "tag" = some (tagField, .readOnly) :=
  subscript_at unionStruct tagField _ (by simp [unionStruct]) (by decide)

def magic : Field := .plain "magic" (.num u32 4) (.cmp .eq u32 0xdeadbeef)
def payload : Field := .plain "payload" (.num u32 4) .none
-- CASE 5: `f["magic"_f] = 0xdeadbeef`; the other field of the list can be assigned
example : Meta.subscript nameLt (tidOf [magic, payload]) [magic, payload] "magic" = some (magic, .readOnly) :=
  subscript_at [magic, payload] magic _ (by simp) (by decide)
example : Meta.subscript nameLt (tidOf [magic, payload]) [magic, payload] "payload" = some (payload, .mutable) :=
  subscript_at [magic, payload] payload _ (by simp) (by decide)

-- CASE 6: `t["tag"_f] = 7u`, with an `eq` that is written out
def tag7 : Field := .plain "tag" (.num u32 4) (.cmp .eq u32 7)
example : Meta.subscript nameLt (tidOf [tag7]) [tag7] "tag" = some (tag7, .readOnly) :=
  subscript_at [tag7] tag7 _ (by simp) (by decide)

-- hidden_length_target.cpp, CASE 1: `auto len = obj["len"_f]`; the string can be assigned
def strField : Field := .plain "str" (.vec (.scalar u8) (.fromField "len") none) .none
def ourStruct : List Field := [.plain "len" (.num u32 4) .none, strField]
example : Meta.subscript nameLt (tidOf ourStruct) ourStruct "len" = none :=
  (C67_hidden nameLt _ ourStruct (by decide) (by decide) (tidOf_inj (by decide)) (by decide) (by decide) "len"
    (by decide)).2 (.inr ((Meta.mem_lenDerived _ _).1 (by decide)))
example : Meta.subscript nameLt (tidOf ourStruct) ourStruct "str" = some (strField, .mutable) :=
  subscript_at ourStruct strField _ (by simp [ourStruct]) (by decide)

end S2S.Conformance.Traits
