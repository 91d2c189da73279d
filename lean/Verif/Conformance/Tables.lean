import Verif.Conformance.Base
import Verif.Model.Meta
/- /repo/test/internals/containers_ct.cpp, field_list_metadata_ct.cpp,
/repo/test/must_not_compile/*.cpp. The tables are 256 entries long, and sorting them by
definition is slow in the kernel, so what is looked up is the unsorted table; a sort
does not change what is found (`Verif/Lemmas/Tables.lean`). -/
namespace S2S.Conformance.Tables
open Meta

/-! containers_ct.cpp -/

-- "a static_vector holds what it was constructed with"
example : pushAll 5 [] [1, 9, 5, 3, 0] = some [1, 9, 5, 3, 0] := by rfl
-- "push_back appends in order"
example : pushAll 3 [] [7, 8] = some [7, 8] := by rfl
-- one element too many is no constant expression
example : pushAll 3 [] [7, 8, 9, 10] = none := by rfl
-- "sort_ranges orders a static_vector of integers"
example : sortRanges (fun a b : Nat => decide (a < b)) [1, 9, 5, 3, 0] = some [0, 1, 3, 5, 9] := by rfl
-- "sort_ranges orders a static_vector of string views"
example : sortRanges (fun a b : String => decide (a < b)) ["hello", "pope", "chocolate", "iota", "maracuja"] =
    some ["chocolate", "hello", "iota", "maracuja", "pope"] := by decide
-- "a static_map looks up the values it was built from"
def map5 : Option (List (String × String)) :=
  mapOf (fun a b => decide (a < b)) 5 ""
    [("hello", "world"), ("foo", "bar"), ("world", "nothing"), ("arc", "not-arc"), ("algebra", "math")]
example : map5.map (fun m => ["hello", "world", "algebra"].map (mapGet m)) =
    some [some "world", some "nothing", some "math"] := by decide
-- "a static_map reports a missing key rather than a value"
example : (mapOf (fun a b => decide (a < b)) 2 "" [("hello", "world"), ("foo", "bar")]).map
    (fun m => ["hello", "nothing"].map (mapGet m)) = some [some "world", none] := by decide

/-! field_list_metadata_ct.cpp -/

/-- `a == 0xdeadbeef` -/
def isA : Pred := ⟨["a"], fun vs => vs == [.int 0xdeadbeef]⟩
def onAB : Pred := ⟨["a", "b"], fun _ => true⟩
def inner (x y : String) : Kind := .record [basic x u32 4, basic y u32 4]
/-- `float`; its values play no role here. -/
abbrev float : ScalarTy := u32
def listMetadata : List Field :=
  [basic "a" int 4, basic "b" int 4, basic "len" u64 8, strOf "str" "len", basic "row" u64 8,
   basic "col" u64 8,
   .plain "flat_vec" (.vec (.scalar u32) (.computed ⟨["row", "col"], fun _ => 0⟩) none) .none,
   .maybe "c" (.num u32 4) isA,
   .maybe "vec" (.vec (.scalar u32) (.fromField "len") none) isA,
   .plain "d" (inner "p" "q") .none,
   .union "v" (.matchField "a" int [(u32, 0xcafed00d), (u32, 0xdeadbeef)])
     [.mk (inner "x" "y") .none, .mk (inner "p" "q") .none] .none,
   .union "vec_union" (.matchField "a" int [(u32, 0xcafed00d), (u32, 0xdeadbeef), (u32, 0xbeefbeef)])
     [.mk (.num float 4) .none, .mk (.vec (.scalar u32) (.fromField "len") none) .none,
      .mk (.num int 4) .none] .none,
   .union "complex_v" (.matchCompute ⟨["a", "b"], fun _ => 0⟩ u32 [(int, 100), (int, 200), (int, 300)])
     [.mk (.num float 4) .none, .mk (.num u32 4) .none, .mk (.num int 4) .none] .none,
   .union "laddered" (.ladder [onAB, onAB, onAB])
     [.mk (.num float 4) .none, .mk (.num u32 4) .none, .mk (.num int 4) .none] .none]

/-- The entries of a table, before the padding and the sort. -/
def occurs (id : String) : Option Nat :=
  ((listMetadata.map Field.id).zipIdx.find? fun e => e.1 == id).map Prod.snd
def depsOf (deps : Field → Option (List String)) (id : String) : Option (List String) :=
  (depEntries deps listMetadata).bind fun es => mapGet es id

-- "the field table places every field at its declaration index"
example : ["unknown", "a", "b", "len", "str", "row", "col", "flat_vec", "c", "vec", "d", "v", "vec_union"].map
    occurs = [none, some 0, some 1, some 2, some 3, some 4, some 5, some 6, some 7, some 8, some 9, some 10,
    some 11] := by decide
-- "the length dependency table names each field's size sources"
example : ["a", "b", "len", "row", "col", "c", "d", "v"].map (depsOf lengthDeps) =
    List.replicate 8 (some []) := by decide
example : ["str", "flat_vec", "vec", "vec_union"].map (depsOf lengthDeps) =
    [some ["len"], some ["row", "col"], some ["len"], some ["len"]] := by decide
-- "the parse dependency table names the predicate's sources"
example : ["vec", "a"].map (depsOf parseDeps) = [some ["a"], some []] := by decide
-- "the type deduction table names each union's sources"
example : ["v", "complex_v", "laddered"].map (depsOf typeDeps) =
    [some ["a"], some ["a", "b"], some ["a", "b"]] := by decide
-- "only invertible obligations make a field derived"
example : lengthDerivedIds listMetadata = some ["len"] := by decide
example : discriminantDerivedIds listMetadata = some ["a"] := by decide

/-! option_pack_misuse.cpp -/

-- CASE 2: two sizes
example : basicField 2 [.bytes 2, .bytes 2] = none := by rfl
-- CASE 3: a bound on a fixed-size field
example : basicField 2 [.bytes 2, .maxBytes 4096] = none := by rfl
-- CASE 4: two bounds
example : vecField 24 [.variableSize "n", .maxBytes 4096, .maxBytes 8192] = none := by rfl
-- CASE 7: a size larger than the underlying type
example : basicField 2 [.bytes 4] = none := by rfl
-- CASE 8: two constraints
example : basicField 4 [.bytes 4, .constraint 0, .constraint 1] = none := by rfl
-- CASE 6: a container without a size
example : vecField 32 [] = none := by rfl
-- the control: the same descriptors without the offending entry
example : basicField 2 [.bytes 2] = some ⟨.bytes 2, .noConstraint, .useDefaultBound⟩ := by rfl
example : vecField 24 [.variableSize "n", .maxBytes 4096] =
    some ⟨.variableSize "n", .noConstraint, .maxBytes 4096⟩ := by rfl

end S2S.Conformance.Tables
