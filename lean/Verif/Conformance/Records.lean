import Verif.Conformance.Base
/- /repo/test/schema/record_{read,write}_ct.cpp, optional_{read,write}_ct.cpp,
allocation_bound_{read,default_override,disabled}_ct.cpp -/
namespace S2S.Conformance.Records

/-! records -/

def point32 : List Field := [basic "x" u32 4, basic "y" u32 4]
/-- `de ad be ef ca fe d0 0d` swapped -/
def xy : List Byte := [0xef, 0xbe, 0xad, 0xde, 0x0d, 0xd0, 0xfe, 0xca]
def xyVal : Val := ints [0xdeadbeef, 0xcafed00d]

-- "a nested schema reads its own leaves"
example : Reads .little [basic "a" u32 4, basic "b" u32 4, .plain "c" (.record point32) .none]
    (xy ++ [0xef, 0xbe, 0xef, 0xbe, 0x0d, 0xd0, 0xfe, 0xca])
    [.int 0xdeadbeef, .int 0xcafed00d, ints [0xbeefbeef, 0xcafed00d]] := by rfl
-- "a nested schema takes the declared byte order at every leaf"
example : Reads .big [basic "a" u32 4, .plain "c" (.record point32) .none]
    [0xde, 0xad, 0xbe, 0xef, 0xbe, 0xef, 0xbe, 0xef, 0xca, 0xfe, 0xd0, 0x0d]
    [.int 0xdeadbeef, ints [0xbeefbeef, 0xcafed00d]] := by rfl
-- "an array of records reads every element"
example : Reads .little [basic "len" u64 8, .plain "records" (.arrRec point32 3) .none]
    ([3, 0, 0, 0, 0, 0, 0, 0] ++ xy ++ xy ++ xy) [.int 3, .seq [xyVal, xyVal, xyVal]] := by rfl
-- "an array of records takes the declared byte order at every leaf"
example : Reads .big [.plain "records" (.arrRec point32 2) .none]
    [0xde, 0xad, 0xbe, 0xef, 0xca, 0xfe, 0xd0, 0x0d, 0xbe, 0xef, 0xbe, 0xef, 0x11, 0x22, 0x33, 0x44]
    [.seq [xyVal, ints [0xbeefbeef, 0x11223344]]] := by rfl
-- "a vector of records takes its element count from the length field"
example : Reads .little
    [basic "len" u64 8, .plain "records" (.vecRec point32 (.fromField "len") none 8) .none]
    ([3, 0, 0, 0, 0, 0, 0, 0] ++ xy ++ xy ++ xy) [.int 3, .seq [xyVal, xyVal, xyVal]] := by rfl
-- "a buffer that ends inside a record element fails the read"
example : Refuses .little [.plain "records" (.arrRec point32 2) .none] ((xy ++ xy).take 12)
    .bufferExhaustion "records" := by rfl

def point16 : List Field := [basic "x" u16 2, basic "y" u16 2]
def records : List Field :=
  [.plain "origin" (.record point16) .none, .plain "corners" (.arrRec point16 2) .none,
   basic "count" u16 2, .plain "path" (.vecRec point16 (.fromField "count") none 4) .none]
def recordsVal (count : Int) : List Val :=
  [ints [0x1111, 0x2222], .seq [ints [0x3333, 0x4444], ints [0x5555, 0x6666]], .int count,
   .seq [ints [0x7777, 0x8888]]]
-- "little endian records round trip", "big endian records round trip"
example : RoundTrips .little records (recordsVal 0) 18 (recordsVal 1) := ⟨by rfl, by rfl⟩
example : RoundTrips .big records (recordsVal 0) 18 (recordsVal 1) := ⟨by rfl, by rfl⟩
-- "nested bytes come out in declaration order"
example : Writes .big records (recordsVal 0)
    [0x11, 0x11, 0x22, 0x22, 0x33, 0x33, 0x44, 0x44, 0x55, 0x55, 0x66, 0x66, 0x00, 0x01,
     0x77, 0x77, 0x88, 0x88] := ⟨by rfl, by rfl⟩

/-! optionals -/

/-- `[](auto flag) { return flag == 0xdeadbeef; }` -/
def isSet (id : String) : Pred := ⟨[id], fun vs => vs == [.int 0xdeadbeef]⟩
/-- `always_present` -/
def always : Pred := ⟨[], fun _ => true⟩
def optionalTrivial : List Field :=
  [basic "flag" u32 4, .maybe "payload" (.num u32 4) (isSet "flag")]

-- "a satisfied predicate makes the payload present"
example : Reads .little optionalTrivial xy [.int 0xdeadbeef, .present (.int 0xcafed00d)] := by rfl
-- "an unsatisfied predicate leaves the payload absent and unconsumed"
example : Reads .little (optionalTrivial ++ [basic "tail" u32 4])
    [0x44, 0x33, 0x22, 0x11, 0x0d, 0xd0, 0xfe, 0xca] [.int 0x11223344, .absent, .int 0xcafed00d] := by
  rfl
-- "an optional fixed array is read whole when present"
example : Reads .little
    [basic "a" u32 4, basic "b" u32 4, .maybe "c" (.fbuf (.scalar u32) 3) (isSet "a")]
    (xy ++ xy ++ [0xef, 0xbe, 0xef, 0xbe])
    [.int 0xdeadbeef, .int 0xcafed00d, .present (ints [0xdeadbeef, 0xcafed00d, 0xbeefbeef])] := by rfl
-- "an optional record is read when present"
example : Reads .little [basic "flag" u32 4, .maybe "inner" (.record point32) (isSet "flag")]
    [0xef, 0xbe, 0xad, 0xde, 0xef, 0xbe, 0xef, 0xbe, 0x0d, 0xd0, 0xfe, 0xca]
    [.int 0xdeadbeef, .present (ints [0xbeefbeef, 0xcafed00d])] := by rfl
-- "the payload takes the declared byte order when present"
example : Reads .big optionalTrivial [0xde, 0xad, 0xbe, 0xef, 0xca, 0xfe, 0xd0, 0x0d]
    [.int 0xdeadbeef, .present (.int 0xcafed00d)] := by rfl
-- "always_present makes the payload present regardless of siblings"
example : Reads .little [basic "flag" u32 4, .maybe "payload" (.num u32 4) always]
    [0x44, 0x33, 0x22, 0x11, 0x0d, 0xd0, 0xfe, 0xca]
    [.int 0x11223344, .present (.int 0xcafed00d)] := by rfl
-- "a present payload with no bytes left fails the read"
example : Refuses .little optionalTrivial (xy.take 6) .bufferExhaustion "payload" := by rfl

-- "little endian optionals round trip when present", "big endian ..."
example : RoundTrips .little optionalTrivial [.int 0xdeadbeef, .present (.int 0xcafed00d)] 8
    [.int 0xdeadbeef, .present (.int 0xcafed00d)] := ⟨by rfl, by rfl⟩
example : RoundTrips .big optionalTrivial [.int 0xdeadbeef, .present (.int 0xcafed00d)] 8
    [.int 0xdeadbeef, .present (.int 0xcafed00d)] := ⟨by rfl, by rfl⟩
-- "an absent optional emits nothing"
example : Writes .big optionalTrivial [.int 0x11223344, .absent] [0x11, 0x22, 0x33, 0x44, 0, 0, 0, 0] :=
  ⟨by rfl, by rfl⟩
example : RoundTrips .big optionalTrivial [.int 0x11223344, .absent] 8 [.int 0x11223344, .absent] :=
  ⟨by rfl, by rfl⟩
-- "a satisfied predicate with an empty optional is rejected"
example : Rejects .little optionalTrivial [.int 0xdeadbeef, .absent] .validationFailure "payload"
    [0xef, 0xbe, 0xad, 0xde, 0, 0, 0, 0] := ⟨by rfl, by rfl⟩
-- "an unsatisfied predicate with an engaged optional is rejected"
example : Rejects .little optionalTrivial [.int 0x11223344, .present (.int 0xcafed00d)]
    .validationFailure "payload" [0x44, 0x33, 0x22, 0x11, 0, 0, 0, 0] := ⟨by rfl, by rfl⟩

def conditionalLen : List Field :=
  [basic "flag" u32 4, basic "len" u32 4,
   .maybe "data" (.vec (.scalar u8) (.fromField "len") none) (isSet "flag")]
-- "a conditional length round trips when the optional is present"
example : RoundTrips .big conditionalLen
    [.int 0xdeadbeef, .int 3, .present (ints [0xaa, 0xbb, 0xcc])] 11
    [.int 0xdeadbeef, .int 3, .present (ints [0xaa, 0xbb, 0xcc])] := ⟨by rfl, by rfl⟩
-- "a conditional length that disagrees when present is rejected"
example : Rejects .big conditionalLen [.int 0xdeadbeef, .int 5, .present (ints [0xaa, 0xbb, 0xcc])]
    .foundContradictingLength "len" [0xde, 0xad, 0xbe, 0xef, 0, 0, 0, 0, 0, 0, 0] := ⟨by rfl, by rfl⟩
-- "a conditional length is left alone when the optional is absent"
example : Writes .big conditionalLen [.int 0x11223344, .int 99, .absent]
    [0x11, 0x22, 0x33, 0x44, 0, 0, 0, 99, 0, 0, 0] := ⟨by rfl, by rfl⟩

/-! allocation bounds -/

def bounded (t : ScalarTy) (b : Option Nat) : List Field := [basic "n" u32 4, vecOf "v" t "n" b]

-- "a length under its declared bound is read"
example : Reads .little (bounded u16 (some 8)) [2, 0, 0, 0, 0x22, 0x11, 0x44, 0x33]
    [.int 2, ints [0x1122, 0x3344]] := by rfl
-- "a length exactly at its declared bound is read"
example : Reads .little (bounded u16 (some 8))
    [4, 0, 0, 0, 0x22, 0x11, 0x44, 0x33, 0x66, 0x55, 0x88, 0x77]
    [.int 4, ints [0x1122, 0x3344, 0x5566, 0x7788]] := by rfl
-- "a length over its declared bound is rejected"
example : Refuses .little (bounded u16 (some 8))
    [5, 0, 0, 0, 0x22, 0x11, 0x44, 0x33, 0x66, 0x55, 0x88, 0x77, 0, 0] .excessiveLength "v" := by rfl
-- "a string is bounded by the same ceiling"
example : Refuses .little [basic "n" u32 4, strOf "s" "n" (some 4)]
    [5, 0, 0, 0, 104, 101, 108, 108, 111] .excessiveLength "s" := by rfl
-- "a bound that is not a multiple of the element size truncates down"
example : Reads .little (bounded u32 (some 10)) ([2, 0, 0, 0] ++ xy)
    [.int 2, ints [0xdeadbeef, 0xcafed00d]] := by rfl
example : Refuses .little (bounded u32 (some 10)) ([3, 0, 0, 0] ++ xy ++ [0, 0, 0, 0])
    .excessiveLength "v" := by rfl
-- "a record vector is bounded by its footprint, not its wire size"
def boundedRecords : List Field :=
  [basic "n" u32 4, .plain "r" (.vecRec [basic "x" u16 2] (.fromField "n") (some 64) 2) .none]
example : Reads .little boundedRecords [1, 0, 0, 0, 0x22, 0x11] [.int 1, .seq [ints [0x1122]]] := by rfl
example : Refuses .little boundedRecords [0xff, 0xff, 0, 0, 0, 0] .excessiveLength "r" := by rfl
-- "a field declaring no bound still rejects an absurd length"
example : Refuses .little (bounded u16 none) [0, 0, 0, 1] .excessiveLength "v" := by rfl

-- allocation_bound_default_override_ct.cpp: S2S_DEFAULT_MAX_BYTES is 64
-- "the macro sets the ceiling for a field declaring no bound"
example : Refuses .little (bounded u8 none) [0x64, 0, 0, 0] .excessiveLength "v" 64 := by rfl
-- "a declared bound is not clamped by the macro"
set_option maxRecDepth 4000 in
example : Reads .little (bounded u8 (some 128)) ([0x64, 0, 0, 0] ++ List.replicate 100 0)
    [.int 100, .seq (List.replicate 100 (.int 0))] 64 := by rfl
-- "a declared bound below the macro is honoured"
example : Refuses .little (bounded u8 (some 16)) ([0x14, 0, 0, 0] ++ List.replicate 20 0)
    .excessiveLength "v" 64 := by rfl

-- allocation_bound_disabled_ct.cpp: S2S_DEFAULT_MAX_BYTES is SIZE_MAX
-- "with defaults off a length is not rejected before the read"
example : Refuses .little (bounded u8 none) [0x64, 0, 0, 0] .bufferExhaustion "v" (2 ^ 64 - 1) := by rfl
-- "a declared bound still applies with the defaults off"
example : Refuses .little (bounded u8 (some 16)) [0x64, 0, 0, 0] .excessiveLength "v" (2 ^ 64 - 1) := by
  rfl

end S2S.Conformance.Records
