import Verif.Conformance.Base
/- /repo/test/schema/union_{read,write}_ct.cpp, union_alternative_options_{read,write}_ct.cpp,
union_alternative_bound_default_override_ct.cpp, union_constraint_{read,write}_ct.cpp -/
namespace S2S.Conformance.Unions

def inner1 : List Field := [basic "x" u32 4, basic "y" u32 4]
def inner2 : List Field := [basic "p" u32 4, basic "q" u32 4]
/-- A literal above `INT_MAX` is an `unsigned int`. -/
def cafe : ScalarTy × Int := (u32, 0xcafed00d)
def dead : ScalarTy × Int := (u32, 0xdeadbeef)
def beefXY : List Byte := [0xef, 0xbe, 0xef, 0xbe, 0x0d, 0xd0, 0xfe, 0xca]

def switched : List Field :=
  [basic "a" u32 4, basic "b" u32 4,
   .union "c" (.matchField "a" u32 [cafe, dead]) [.mk (.record inner1) .none, .mk (.record inner2) .none]
     .none]

-- "a discriminant switch selects its matching alternative"
example : Reads .little switched
    [0xef, 0xbe, 0xad, 0xde, 0x0d, 0xd0, 0xfe, 0xca, 0xef, 0xbe, 0xad, 0xde, 0x0d, 0xd0, 0xfe, 0xca]
    [.int 0xdeadbeef, .int 0xcafed00d, .var 1 (ints [0xdeadbeef, 0xcafed00d])] := by rfl
-- "a different discriminant selects the other alternative"
example : Reads .little switched
    ([0x0d, 0xd0, 0xfe, 0xca, 0xef, 0xbe, 0xad, 0xde] ++ beefXY)
    [.int 0xcafed00d, .int 0xdeadbeef, .var 0 (ints [0xbeefbeef, 0xcafed00d])] := by rfl
-- "a discriminant no case matches fails type deduction"
example : Refuses .little switched
    [0x11, 0x22, 0x33, 0x44, 0x0d, 0xd0, 0xfe, 0xca, 0xef, 0xbe, 0xad, 0xde, 0x0d, 0xd0, 0xfe, 0xca]
    .typeDeductionFailure "c" := by rfl
-- "a selected alternative takes the declared byte order"
example : Reads .big switched
    [0xde, 0xad, 0xbe, 0xef, 0xca, 0xfe, 0xd0, 0x0d, 0xbe, 0xef, 0xbe, 0xef, 0xca, 0xfe, 0xd0, 0x0d]
    [.int 0xdeadbeef, .int 0xcafed00d, .var 1 (ints [0xbeefbeef, 0xcafed00d])] := by rfl

/-- `a + b` of two `u32` -/
def sum : List Val → Int
  | [.int a, .int b] => (a + b) % 2 ^ 32
  | _ => 0
def laddered : List Field :=
  [basic "a" u32 4, basic "b" u32 4,
   .union "c" (.ladder [⟨["a", "b"], fun vs => 20000 ≤ sum vs && sum vs < 40000⟩,
                        ⟨["a", "b"], fun vs => 40000 ≤ sum vs && sum vs < 60000⟩])
     [.mk (.num u32 4) .none, .mk (.record inner1) .none] .none]
-- "a predicate ladder selects the first branch that holds"
example : Reads .little laddered [0xe0, 0x2e, 0, 0, 0xe0, 0x2e, 0, 0, 0x0d, 0xd0, 0xfe, 0xca]
    [.int 0x2ee0, .int 0x2ee0, .var 0 (.int 0xcafed00d)] := by rfl
-- "a later ladder branch is selected when the earlier one fails"
example : Reads .little laddered ([0xa8, 0x61, 0, 0, 0xa8, 0x61, 0, 0] ++ beefXY)
    [.int 0x61a8, .int 0x61a8, .var 1 (ints [0xbeefbeef, 0xcafed00d])] := by rfl
-- "a ladder where no branch holds fails type deduction"
example : Refuses .little laddered [0x64, 0, 0, 0, 0x64, 0, 0, 0, 0x0d, 0xd0, 0xfe, 0xca]
    .typeDeductionFailure "c" := by rfl

def computed : List Field :=
  [basic "a" u32 4, basic "b" u32 4,
   .union "c" (.matchCompute ⟨["a", "b"], sum⟩ u32 [(int, 200), (int, 300)])
     [.mk (.num u32 4) .none, .mk (.record inner1) .none] .none]
-- "a computed switch matches on the computed value"
example : Reads .little computed [0x64, 0, 0, 0, 0x64, 0, 0, 0, 0xef, 0xbe, 0xef, 0xbe]
    [.int 100, .int 100, .var 0 (.int 0xbeefbeef)] := by rfl
-- "a computed switch with no matching case fails type deduction"
example : Refuses .little computed [0x64, 0, 0, 0, 1, 0, 0, 0, 0xef, 0xbe, 0xef, 0xbe]
    .typeDeductionFailure "c" := by rfl

/-- Two records `11..11 22..22`, `33..33 44..44`. -/
def twoRecords : List Byte :=
  [0x11, 0x11, 0x11, 0x11, 0x22, 0x22, 0x22, 0x22, 0x33, 0x33, 0x33, 0x33, 0x44, 0x44, 0x44, 0x44]
def twoRecordsVal : Val := .seq [ints [0x11111111, 0x22222222], ints [0x33333333, 0x44444444]]
-- "an array-of-records alternative reads"
example : Reads .little
    [basic "a" u32 4, .union "c" (.matchField "a" u32 [cafe]) [.mk (.arrRec inner1 2) .none] .none]
    ([0x0d, 0xd0, 0xfe, 0xca] ++ twoRecords) [.int 0xcafed00d, .var 0 twoRecordsVal] := by rfl
-- "a vector-of-records alternative reads"
example : Reads .little
    [basic "a" u32 4, basic "n" u32 4,
     .union "c" (.matchField "a" u32 [cafe]) [.mk (.vecRec inner1 (.fromField "n") none 8) .none] .none]
    ([0x0d, 0xd0, 0xfe, 0xca, 2, 0, 0, 0] ++ twoRecords)
    [.int 0xcafed00d, .int 2, .var 0 twoRecordsVal] := by rfl

def unionStruct : List Field :=
  [basic "tag" u32 4,
   .union "body" (.matchField "tag" u32 [cafe, dead])
     [.mk (.record [basic "x" u16 2]) .none, .mk (.record [basic "y" u16 2]) .none] .none]
def heldAlt2 : List Val := [.int 0, .var 1 (ints [0x1122])]
-- "little endian unions round trip", "big endian unions round trip"
example : RoundTrips .little unionStruct heldAlt2 6 [.int 0xdeadbeef, .var 1 (ints [0x1122])] :=
  ⟨by rfl, by rfl⟩
example : RoundTrips .big unionStruct heldAlt2 6 [.int 0xdeadbeef, .var 1 (ints [0x1122])] :=
  ⟨by rfl, by rfl⟩
-- "the discriminant is derived from the held alternative"
example : Writes .big unionStruct heldAlt2 [0xde, 0xad, 0xbe, 0xef, 0x11, 0x22] := ⟨by rfl, by rfl⟩
-- "an array-of-records alternative round trips"
example : RoundTrips .little
    [basic "tag" u32 4,
     .union "body" (.matchField "tag" u32 [cafe]) [.mk (.arrRec [basic "x" u16 2] 2) .none] .none]
    [.int 0, .var 0 (.seq [ints [0x1111], ints [0x2222]])] 8
    [.int 0xcafed00d, .var 0 (.seq [ints [0x1111], ints [0x2222]])] := ⟨by rfl, by rfl⟩

/-! options on alternatives -/

/-- Labels `0x01, 0x02, ...` are `int`s. -/
def label (n : Int) : ScalarTy × Int := (int, n)
/-- `tag`, `n`, and a union over `tag`. -/
def tagged (alts : List Alt) : List Field :=
  [basic "tag" u32 4, basic "n" u32 4,
   .union "body" (.matchField "tag" u32 ((List.range alts.length).map fun i => label (Int.ofNat (i + 1)))) alts .none]
/-- `as_vec<T, len_from_field<"n">, max_bytes<b>>` -/
abbrev asVec (t : ScalarTy) (b : Option Nat) (c : Constraint := .none) : Alt :=
  .mk (.vec (.scalar t) (.fromField "n") b) c
def evenLength : Constraint := .user fun | .seq vs => vs.length % 2 == 0 | _ => false
/-- `s2s::lte{99u}` -/
def lte99 : Constraint := .cmp .le u32 99

def plain : List Field := tagged [.mk (.num u32 4) .none, asVec u8 none]
def constrained : List Field :=
  tagged [.mk (.num u32 4) lte99, asVec u8 none evenLength, .mk (.num u16 2) .none]
def bounded : List Field :=
  tagged [asVec u16 (some 8), asVec u8 (some 4),
    .mk (.vecRec [basic "x" u16 2] (.fromField "n") (some 64) 2) .none, asVec u8 none]
def ragged : List Field := tagged [asVec u32 (some 10)]
def both : List Field := tagged [asVec u8 (some 8) evenLength]

-- "an alternative with no options reads"
example : Reads .little plain [1, 0, 0, 0, 0, 0, 0, 0, 0x2a, 0, 0, 0] [.int 1, .int 0, .var 0 (.int 42)] := by
  rfl
-- "a container alternative with no options reads"
example : Reads .little plain [2, 0, 0, 0, 3, 0, 0, 0, 0xaa, 0xbb, 0xcc]
    [.int 2, .int 3, .var 1 (ints [0xaa, 0xbb, 0xcc])] := by rfl
-- "a satisfied alternative constraint reads normally"
example : Reads .little constrained [1, 0, 0, 0, 0, 0, 0, 0, 0x2a, 0, 0, 0]
    [.int 1, .int 0, .var 0 (.int 42)] := by rfl
-- "a violated alternative constraint is rejected", "pack entries are order-independent"
example : Refuses .little constrained [1, 0, 0, 0, 0, 0, 0, 0, 0xc8, 0, 0, 0] .validationFailure "body" := by
  rfl
-- "an alternative that declared no constraint is unaffected"
example : Reads .little constrained [3, 0, 0, 0, 0, 0, 0, 0, 0xc8, 0]
    [.int 3, .int 0, .var 2 (.int 200)] := by rfl
-- "a container alternative's constraint sees the whole container"
example : Refuses .little constrained [2, 0, 0, 0, 3, 0, 0, 0, 0xaa, 0xbb, 0xcc]
    .validationFailure "body" := by rfl
-- "a vector alternative under its declared bound is read"
example : Reads .little bounded [1, 0, 0, 0, 2, 0, 0, 0, 0x22, 0x11, 0x44, 0x33]
    [.int 1, .int 2, .var 0 (ints [0x1122, 0x3344])] := by rfl
-- "a vector alternative exactly at its declared bound is read"
example : Reads .little bounded [1, 0, 0, 0, 4, 0, 0, 0, 0x22, 0x11, 0x44, 0x33, 0x66, 0x55, 0x88, 0x77]
    [.int 1, .int 4, .var 0 (ints [0x1122, 0x3344, 0x5566, 0x7788])] := by rfl
-- "a vector alternative over its declared bound is rejected"
example : Refuses .little bounded
    [1, 0, 0, 0, 5, 0, 0, 0, 0x22, 0x11, 0x44, 0x33, 0x66, 0x55, 0x88, 0x77, 0, 0]
    .excessiveLength "body" := by rfl
-- "a string alternative is bounded by the same ceiling"
example : Reads .little bounded [2, 0, 0, 0, 4, 0, 0, 0, 104, 101, 108, 108]
    [.int 2, .int 4, .var 1 (ints [104, 101, 108, 108])] := by rfl
example : Refuses .little bounded [2, 0, 0, 0, 5, 0, 0, 0, 104, 101, 108, 108, 111]
    .excessiveLength "body" := by rfl
-- "a record vector alternative is bounded by its footprint"
example : Reads .little bounded [3, 0, 0, 0, 1, 0, 0, 0, 0x22, 0x11]
    [.int 3, .int 1, .var 2 (.seq [ints [0x1122]])] := by rfl
example : Refuses .little bounded [3, 0, 0, 0, 0xff, 0xff, 0, 0, 0, 0] .excessiveLength "body" := by rfl
-- "an alternative declaring no bound still gets the default"
example : Refuses .little bounded [4, 0, 0, 0, 1, 0, 0, 1] .excessiveLength "body" := by rfl
-- "a bound that is not a multiple of the element size truncates down"
example : Reads .little ragged
    [1, 0, 0, 0, 2, 0, 0, 0, 0xef, 0xbe, 0xad, 0xde, 0x0d, 0xd0, 0xfe, 0xca]
    [.int 1, .int 2, .var 0 (ints [0xdeadbeef, 0xcafed00d])] := by rfl
example : Refuses .little ragged
    [1, 0, 0, 0, 3, 0, 0, 0, 0xef, 0xbe, 0xad, 0xde, 0x0d, 0xd0, 0xfe, 0xca, 0, 0, 0, 0]
    .excessiveLength "body" := by rfl
-- "a bound composes with a size and a constraint in any order"
example : Reads .little both [1, 0, 0, 0, 4, 0, 0, 0, 0xaa, 0xbb, 0xcc, 0xdd]
    [.int 1, .int 4, .var 0 (ints [0xaa, 0xbb, 0xcc, 0xdd])] := by rfl
example : Refuses .little both [1, 0, 0, 0, 3, 0, 0, 0, 0xaa, 0xbb, 0xcc] .validationFailure "body" := by
  rfl
example : Refuses .little both
    [1, 0, 0, 0, 10, 0, 0, 0, 0xaa, 0xbb, 0xcc, 0xdd, 0xee, 0xff, 0, 0x11, 0x22, 0x33]
    .excessiveLength "body" := by rfl

-- union_alternative_bound_default_override_ct.cpp: S2S_DEFAULT_MAX_BYTES is 64
def alternatives : List Field := tagged [asVec u8 none, asVec u8 (some 128), asVec u32 (some 16)]
-- "the macro sets the ceiling for an alternative declaring no bound"
example : Refuses .little alternatives [1, 0, 0, 0, 0x64, 0, 0, 0] .excessiveLength "body" 64 := by rfl
-- "a bound declared on an alternative is not clamped by the macro"
set_option maxRecDepth 4000 in
example : Reads .little alternatives ([2, 0, 0, 0, 0x64, 0, 0, 0] ++ List.replicate 100 0)
    [.int 2, .int 100, .var 1 (.seq (List.replicate 100 (.int 0)))] 64 := by rfl
-- "a declared bound below the macro is honoured"
example : Refuses .little alternatives ([3, 0, 0, 0, 5, 0, 0, 0] ++ List.replicate 20 0)
    .excessiveLength "body" 64 := by rfl

/-! constraints on the union itself -/

def evenBody : Constraint := .user fun | .var _ (.int x) => x % 2 == 0 | _ => false
def choice (c0 : Constraint) (c : Constraint) : List Field :=
  [basic "tag" u32 4,
   .union "body" (.matchField "tag" u32 [label 1, label 2]) [.mk (.num u32 4) c0, .mk (.num u16 2) .none] c]

-- "both constraints hold and the read succeeds"
example : Reads .little (choice lte99 evenBody) [1, 0, 0, 0, 0x2a, 0, 0, 0] [.int 1, .var 0 (.int 42)] := by
  rfl
-- "the union constraint rejects a value its alternative accepts"
example : Refuses .little (choice lte99 evenBody) [1, 0, 0, 0, 0x2b, 0, 0, 0] .validationFailure "body" := by
  rfl
-- "the alternative constraint rejects a value the union accepts"
example : Refuses .little (choice lte99 evenBody) [1, 0, 0, 0, 0xc8, 0, 0, 0] .validationFailure "body" := by
  rfl
-- "a variance declaring no constraint reads as before"
example : Reads .little (choice .none .none) [1, 0, 0, 0, 0x2b, 0, 0, 0] [.int 1, .var 0 (.int 43)] := by rfl
-- "a resolved variant satisfying the union constraint reads"
example : Reads .little (choice .none evenBody) [1, 0, 0, 0, 0x2a, 0, 0, 0] [.int 1, .var 0 (.int 42)] := by
  rfl
-- "a resolved variant violating the union constraint is rejected"
example : Refuses .little (choice .none evenBody) [1, 0, 0, 0, 0x2b, 0, 0, 0] .validationFailure "body" := by
  rfl
-- "the union constraint applies to every alternative"
example : Reads .little (choice .none evenBody) [2, 0, 0, 0, 0xc8, 0] [.int 2, .var 1 (.int 200)] := by rfl
example : Refuses .little (choice .none evenBody) [2, 0, 0, 0, 0xc9, 0] .validationFailure "body" := by rfl

/-! writing -/

-- "an alternative with no options writes"
example : Writes .little plain [.int 0, .int 0, .var 0 (.int 42)] [1, 0, 0, 0, 0, 0, 0, 0, 0x2a, 0, 0, 0] :=
  ⟨by rfl, by rfl⟩
-- "a satisfied alternative constraint writes normally"
example : Writes .little (choice lte99 .none) [.int 0, .var 0 (.int 42)] [1, 0, 0, 0, 0x2a, 0, 0, 0] :=
  ⟨by rfl, by rfl⟩
-- "a violated alternative constraint is rejected before any payload is written"
example : Rejects .little (choice lte99 .none) [.int 0, .var 0 (.int 200)] .validationFailure "body"
    [1, 0, 0, 0, 0, 0, 0, 0] := ⟨by rfl, by rfl⟩
-- "an alternative that declared no constraint is unaffected"
example : Writes .little (choice lte99 .none) [.int 0, .var 1 (.int 200)] [2, 0, 0, 0, 0xc8, 0] :=
  ⟨by rfl, by rfl⟩
-- "both constraints hold and the write succeeds"
example : Writes .little (choice lte99 evenBody) [.int 0, .var 0 (.int 42)] [1, 0, 0, 0, 0x2a, 0, 0, 0] :=
  ⟨by rfl, by rfl⟩
-- "the union constraint rejects a value its alternative accepts"
example : Rejects .little (choice lte99 evenBody) [.int 0, .var 0 (.int 43)] .validationFailure "body"
    [1, 0, 0, 0, 0, 0, 0, 0] := ⟨by rfl, by rfl⟩
-- "the alternative constraint rejects a value the union accepts"
example : Rejects .little (choice lte99 evenBody) [.int 0, .var 0 (.int 200)] .validationFailure "body"
    [1, 0, 0, 0, 0, 0, 0, 0] := ⟨by rfl, by rfl⟩
-- "a variance declaring no constraint writes as before"
example : Writes .little (choice .none .none) [.int 0, .var 0 (.int 43)] [1, 0, 0, 0, 0x2b, 0, 0, 0] :=
  ⟨by rfl, by rfl⟩
-- "a resolved variant satisfying the union constraint writes"
example : Writes .little (choice .none evenBody) [.int 0, .var 0 (.int 42)] [1, 0, 0, 0, 0x2a, 0, 0, 0] :=
  ⟨by rfl, by rfl⟩
-- "a resolved variant violating the union constraint contributes no bytes"
example : Rejects .little (choice .none evenBody) [.int 0, .var 0 (.int 43)] .validationFailure "body"
    [1, 0, 0, 0, 0, 0, 0, 0] := ⟨by rfl, by rfl⟩
-- "the union constraint applies to every alternative"
example : Writes .little (choice .none evenBody) [.int 0, .var 1 (.int 200)] [2, 0, 0, 0, 0xc8, 0] :=
  ⟨by rfl, by rfl⟩
example : Rejects .little (choice .none evenBody) [.int 0, .var 1 (.int 201)] .validationFailure "body"
    [2, 0, 0, 0, 0, 0] := ⟨by rfl, by rfl⟩

/-! The usual arithmetic conversions, by the examples of the C++ standard's rules: at the same
width the unsigned type wins, a wider signed type wins, narrow types become `int`. -/
example : ScalarTy.common u32 i32 = u32 ∧ ScalarTy.common i32 u32 = u32 ∧
    ScalarTy.common (.int 8 true) u32 = .int 8 true ∧ ScalarTy.common u32 (.int 8 true) = .int 8 true ∧
    ScalarTy.common u8 u16 = i32 ∧ ScalarTy.common .bool i8 = i32 := by decide

end S2S.Conformance.Unions
