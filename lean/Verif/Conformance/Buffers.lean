import Verif.Conformance.Base
/- /repo/test/schema/fixed_buffer_{read,write}_ct.cpp, magic_{read,write}_ct.cpp,
variable_buffer_{read,write}_ct.cpp, size_axis_{read,write}_ct.cpp -/
namespace S2S.Conformance.Buffers

/-- `fixed_array_field`, `c_arr_field` -/
abbrev arr (id : String) (t : ScalarTy) (n : Nat) : Field := .plain id (.fbuf (.scalar t) n) .none
/-- `c_str_field<id, n>` -/
abbrev cStr (id : String) (n : Nat) : Field := .plain id (.fbuf (.scalar u8) (n + 1)) .none
/-- `fixed_string_field<id, n>` -/
abbrev fstr (id : String) (n : Nat) : Field := .plain id (.fstr n) .none

/-! fixed buffers -/

-- "all four const sized descriptors read back"
example : Reads .little [arr "arr" u16 3, arr "carr" u16 2, fstr "name" 4, cStr "cstr" 3]
    [0x22, 0x11, 0x44, 0x33, 0x66, 0x55, 0xbb, 0xaa, 0xdd, 0xcc, 97, 98, 99, 100, 0, 120, 121, 122, 0]
    [ints [0x1122, 0x3344, 0x5566], ints [0xaabb, 0xccdd], ints [97, 98, 99, 100, 0],
     ints [120, 121, 122, 0]] := by rfl
-- "a foreign endian buffer is swapped per element"
def aggregate : List Field := [arr "arr" u16 3, fstr "name" 4]
def aggregateVal : List Val := [ints [0x1122, 0x3344, 0x5566], ints [97, 98, 99, 100, 0]]
def aggregateBe : List Byte := [0x11, 0x22, 0x33, 0x44, 0x55, 0x66, 97, 98, 99, 100, 0]
example : Reads .big aggregate aggregateBe aggregateVal := by rfl
-- "the swap descends into a nested aggregate"
example : Reads .big [.plain "arr" (.fbuf (.arr (.scalar u16) 2) 4) .none]
    [0x11, 0x22, 0x33, 0x44, 0x55, 0x66, 0x77, 0x88, 0x99, 0xaa, 0xbb, 0xcc, 0xdd, 0xee, 0xff, 0]
    [.seq [ints [0x1122, 0x3344], ints [0x5566, 0x7788], ints [0x99aa, 0xbbcc], ints [0xddee, 0xff00]]] := by
  rfl
-- "a fixed string consumes its terminator"
example : Reads .little [fstr "name" 4, basic "tail" u16 2] [97, 98, 99, 100, 0, 0x22, 0x11]
    [ints [97, 98, 99, 100, 0], .int 0x1122] := by rfl
-- "a c string consumes its terminator"
example : Reads .little [cStr "cstr" 3, basic "tail" u16 2] [120, 121, 122, 0, 0x22, 0x11]
    [ints [120, 121, 122, 0], .int 0x1122] := by rfl
-- "a buffer too short for the terminator fails on the string"
example : Refuses .little [fstr "name" 4] [97, 98, 99, 100] .bufferExhaustion "name" := by rfl
-- "a c array field reads its declared byte order"
example : Reads .little [arr "carr" u32 2] [0xef, 0xbe, 0xad, 0xde, 0x0d, 0xd0, 0xfe, 0xca]
    [ints [0xdeadbeef, 0xcafed00d]] := by rfl
example : Reads .big [arr "carr" u32 2] [0xef, 0xbe, 0xad, 0xde, 0x0d, 0xd0, 0xfe, 0xca]
    [ints [0xefbeadde, 0x0dd0feca]] := by rfl
-- "little endian aggregates round trip", "big endian aggregates round trip"
example : RoundTrips .little aggregate aggregateVal 11 aggregateVal := ⟨by rfl, by rfl⟩
example : RoundTrips .big aggregate aggregateVal 11 aggregateVal := ⟨by rfl, by rfl⟩
-- "the foreign endian path swaps each element"
example : Writes .big aggregate aggregateVal aggregateBe := ⟨by rfl, by rfl⟩

/-! magic fields -/

def magicNum (n : Int) : Field := basic "magic_num" u32 4 (.cmp .eq u32 n)
/-- `"GIF"` with its terminator -/
def gif : List Int := [71, 73, 70, 0]
def magicStr : Field := .plain "magic_str" (.fstr 3) (.strCmp true gif)
def magicArr (xs : List Int) : Field :=
  .plain "magic_arr" (.fbuf (.scalar u8) xs.length) (.arrCmp true (ints xs))
def payload : Field := basic "payload" u32 4

-- "a matching magic number is accepted and kept"
example : Reads .little [magicNum 0xdeadbeef, payload] [0xef, 0xbe, 0xad, 0xde, 0x0d, 0xd0, 0xfe, 0xca]
    [.int 0xdeadbeef, .int 0xcafed00d] := by rfl
-- "a non matching magic number names its field"
example : Refuses .little [magicNum 0xdeadbeef, payload] [0xef, 0xbe, 0xef, 0xbe, 0x0d, 0xd0, 0xfe, 0xca]
    .validationFailure "magic_num" := by rfl
-- "a magic number is matched in whichever byte order is declared"
example : Reads .big [magicNum 0xdeadbeef, payload] [0xde, 0xad, 0xbe, 0xef, 0xca, 0xfe, 0xd0, 0x0d]
    [.int 0xdeadbeef, .int 0xcafed00d] := by rfl
-- "a matching magic string is accepted and kept"
example : Reads .little [magicStr, payload] [71, 73, 70, 0, 0x0d, 0xd0, 0xfe, 0xca]
    [ints gif, .int 0xcafed00d] := by rfl
-- "a non matching magic string names its field"
example : Refuses .little [magicStr, payload] [78, 65, 72, 0, 0x0d, 0xd0, 0xfe, 0xca]
    .validationFailure "magic_str" := by rfl
-- "a matching magic byte array is accepted and kept"
example : Reads .little [magicArr [0xde, 0xad, 0xbe, 0xef], payload]
    [0xde, 0xad, 0xbe, 0xef, 0x0d, 0xd0, 0xfe, 0xca]
    [ints [0xde, 0xad, 0xbe, 0xef], .int 0xcafed00d] := by rfl
-- "a non matching magic byte array names its field"
example : Refuses .little [magicArr [0xde, 0xad, 0xbe, 0xef], payload]
    [0xde, 0xad, 0xbe, 0x00, 0x0d, 0xd0, 0xfe, 0xca] .validationFailure "magic_arr" := by rfl
-- "little endian magic fields round trip", "big endian magic fields round trip"
def magicSchema : List Field := [magicStr, magicNum 0xdeadbeef, magicArr [0xbe, 0xef]]
def magicRead : List Val := [ints gif, .int 0xdeadbeef, ints [0xbe, 0xef]]
example : RoundTrips .little magicSchema (Field.dflts magicSchema) 10 magicRead := ⟨by rfl, by rfl⟩
example : RoundTrips .big magicSchema (Field.dflts magicSchema) 10 magicRead := ⟨by rfl, by rfl⟩
-- "an untouched struct writes the declared magic bytes"
example : Writes .big magicSchema (Field.dflts magicSchema)
    [71, 73, 70, 0, 0xde, 0xad, 0xbe, 0xef, 0xbe, 0xef] := ⟨by rfl, by rfl⟩

/-! variable buffers -/

def prefixedVec : List Field := [basic "len" u32 4, vecOf "vec" u16 "len"]
def prefixedStr : List Field := [basic "len" u32 4, strOf "str" "len"]

-- "a vector takes its element count from the sibling length field"
example : Reads .little prefixedVec [3, 0, 0, 0, 0x22, 0x11, 0x44, 0x33, 0x66, 0x55]
    [.int 3, ints [0x1122, 0x3344, 0x5566]] := by rfl
-- "a string takes its byte count from the sibling length field"
example : Reads .little prefixedStr [3, 0, 0, 0, 97, 98, 99] [.int 3, ints [97, 98, 99]] := by rfl
-- "a foreign endian prefixed vector swaps its length and its elements"
example : Reads .big prefixedVec [0, 0, 0, 3, 0x11, 0x22, 0x33, 0x44, 0x55, 0x66]
    [.int 3, ints [0x1122, 0x3344, 0x5566]] := by rfl
-- "a foreign endian prefixed string is not reversed"
example : Reads .big prefixedStr [0, 0, 0, 3, 97, 98, 99] [.int 3, ints [97, 98, 99]] := by rfl
-- "a zero length yields an empty container and consumes nothing more"
example : Reads .little prefixedVec [0, 0, 0, 0] [.int 0, .seq []] := by rfl
-- "a length longer than the remaining bytes fails on the container"
example : Refuses .little prefixedVec [3, 0, 0, 0, 0x22, 0x11, 0x44, 0x33] .bufferExhaustion "vec" := by
  rfl
-- "a length whose byte count would overflow is rejected before allocating"
example : Refuses .little [basic "n" u64 8, vecOf "v" u64 "n"] [0, 0, 0, 0, 0, 0, 0, 0x20]
    .excessiveLength "v" := by rfl
-- "little endian length prefixed fields round trip", "big endian ..."
def prefixedVal : List Val := [.int 0, ints [0x1122, 0x3344, 0x5566]]
example : RoundTrips .little prefixedVec prefixedVal 10 [.int 3, ints [0x1122, 0x3344, 0x5566]] :=
  ⟨by rfl, by rfl⟩
example : RoundTrips .big prefixedVec prefixedVal 10 [.int 3, ints [0x1122, 0x3344, 0x5566]] :=
  ⟨by rfl, by rfl⟩
-- "the emitted length comes from the container"
example : Writes .big prefixedVec prefixedVal [0, 0, 0, 3, 0x11, 0x22, 0x33, 0x44, 0x55, 0x66] :=
  ⟨by rfl, by rfl⟩
-- "a length too wide for its slot is rejected"
set_option maxRecDepth 4000 in
example : Rejects .little [basic "len" u32 1, vecOf "vec" u8 "len"]
    [.int 0, .seq (List.replicate 300 (.int 0x5a))] .validationFailure "len"
    (List.replicate 400 0) := ⟨by rfl, by rfl⟩

/-! the size axis -/

/-- `[](auto rows, auto cols) { return rows * cols; }` over two `u32` -/
def area : Calc := ⟨["rows", "cols"], fun | [.int r, .int c] => r * c % 2 ^ 32 | _ => 0⟩
def computed : List Field :=
  [basic "rows" u32 4, basic "cols" u32 4, .plain "cells" (.vec (.scalar u16) (.computed area) none) .none]
def fanout : List Field := [basic "len" u32 4, vecOf "a" u16 "len", vecOf "b" u32 "len"]

-- "a length computed from two fields sizes the container"
example : Reads .little computed [2, 0, 0, 0, 2, 0, 0, 0, 0x22, 0x11, 0x44, 0x33, 0x66, 0x55, 0x88, 0x77]
    [.int 2, .int 2, ints [0x1122, 0x3344, 0x5566, 0x7788]] := by rfl
-- "changing a source changes the computed length"
example : Reads .little computed [3, 0, 0, 0, 1, 0, 0, 0, 0x22, 0x11, 0x44, 0x33, 0x66, 0x55]
    [.int 3, .int 1, ints [0x1122, 0x3344, 0x5566]] := by rfl
-- "a computed length longer than the buffer fails on the container"
example : Refuses .little computed [2, 0, 0, 0, 2, 0, 0, 0, 0x22, 0x11, 0x44, 0x33]
    .bufferExhaustion "cells" := by rfl
-- "one length field sizes several dependents"
example : Reads .little fanout
    [2, 0, 0, 0, 0x22, 0x11, 0x44, 0x33, 0xef, 0xbe, 0xad, 0xde, 0x0d, 0xd0, 0xfe, 0xca]
    [.int 2, ints [0x1122, 0x3344], ints [0xdeadbeef, 0xcafed00d]] := by rfl
-- "a length target sizes its container without being nameable": prefixedStr above
-- "a size_dont_care field occupies exactly its nested schema"
example : Reads .little
    [.plain "inner" (.record [basic "x" u16 2, basic "y" u16 2]) .none, basic "tail" u16 2]
    [0x22, 0x11, 0x44, 0x33, 0x66, 0x55] [ints [0x1122, 0x3344], .int 0x5566] := by rfl
-- "a basic_field with no size occupies sizeof(T)"
example : Reads .little [basic "a" u16 u16.size, basic "b" u16 u16.size] [0x22, 0x11, 0x44, 0x33]
    [.int 0x1122, .int 0x3344] := by rfl
-- "an odd byte count is not rounded up to the type's width"
example : Reads .little [basic "v" u32 3, basic "tail" u8 1] [0x33, 0x22, 0x11, 0x7f]
    [.int 0x112233, .int 0x7f] := by rfl
-- "a byte-count literal narrower than the type is honoured"
example : Reads .little [basic "a" u32 2, basic "b" u16 2] [0x22, 0x11, 0x44, 0x33]
    [.int 0x1122, .int 0x3344] := by rfl
-- "a computed length round trips when the sources agree"
example : RoundTrips .little computed [.int 2, .int 2, .seq (List.replicate 4 (.int 0x1122))] 16
    [.int 2, .int 2, .seq (List.replicate 4 (.int 0x1122))] := ⟨by rfl, by rfl⟩
-- "a container disagreeing with its computed length is rejected"
example : Rejects .little computed [.int 2, .int 2, .seq (List.replicate 3 (.int 0x1122))]
    .foundContradictingLength "cells" ([2, 0, 0, 0, 2, 0, 0, 0] ++ List.replicate 8 0) :=
  ⟨by rfl, by rfl⟩
-- "a shared length round trips when every dependent agrees"
example : RoundTrips .little fanout
    [.int 0, .seq (List.replicate 2 (.int 0x1122)), .seq (List.replicate 2 (.int 0xdeadbeef))] 16
    [.int 2, .seq (List.replicate 2 (.int 0x1122)), .seq (List.replicate 2 (.int 0xdeadbeef))] :=
  ⟨by rfl, by rfl⟩
-- "a shared length its dependents contradict is rejected"
example : Rejects .little fanout
    [.int 0, .seq (List.replicate 2 (.int 0x1122)), .seq (List.replicate 1 (.int 0xdeadbeef))]
    .foundContradictingLength "len" (List.replicate 16 0) := ⟨by rfl, by rfl⟩
-- "an odd byte count writes exactly what it declares"
example : Writes .little [basic "v" u32 3, basic "tail" u8 1] [.int 0x112233, .int 0x7f]
    [0x33, 0x22, 0x11, 0x7f] := ⟨by rfl, by rfl⟩
-- "a basic_field with no size writes sizeof(T)"
example : Writes .little [basic "a" u16 u16.size] [.int 0x1122] [0x22, 0x11] := ⟨by rfl, by rfl⟩
-- "a length target is derived without being nameable"
example : Writes .little [basic "len" u32 4, vecOf "vec" u8 "len"] [.int 0, ints [0x11, 0x22, 0x33]]
    [3, 0, 0, 0, 0x11, 0x22, 0x33] := ⟨by rfl, by rfl⟩

end S2S.Conformance.Buffers
