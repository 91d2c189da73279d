import Verif.Conformance.Base
/- The documentation examples of /repo/test/doc_examples and the cases of the run-time
tests in /repo/test/schema that have no counterpart among the constant-evaluation tests. -/
namespace S2S.Conformance.Docs

/-- `magic_byte_array<id, n, value>` -/
abbrev magicBytes (id : String) (v : List Int) : Field :=
  .plain id (.fbuf (.scalar u8) v.length) (.arrCmp true (ints v))

/-! writing.md: a length-prefixed log record -/

def logRecord : List Field :=
  [magicBytes "marker" [0x4c, 0x47], basic "message_length" u16 2, strOf "message" "message_length"]
/-- "disk nearly full" -/
def message : List Int :=
  [100, 105, 115, 107, 32, 110, 101, 97, 114, 108, 121, 32, 102, 117, 108, 108]
example : RoundTrips .big logRecord [ints [0, 0], .int 0, ints message] 20
    [ints [0x4c, 0x47], .int 16, ints message] := ⟨by rfl, by rfl⟩

/-! schema/computed-values.md: an image tile -/

def imageTile : List Field :=
  [basic "width" u16 2, basic "height" u16 2,
   .plain "pixels" (.vec (.scalar u16)
     (.computed ⟨["width", "height"], fun | [.int w, .int h] => w * h | _ => 0⟩) none) .none]
def tile (h : Int) : List Val := [.int 4, .int h, ints (List.replicate 8 0x7fff)]
example : RoundTrips .big imageTile (tile 2) 20 (tile 2) := ⟨by rfl, by rfl⟩
example : Rejects .big imageTile (tile 3) .foundContradictingLength "pixels" [0, 4, 0, 3] :=
  ⟨by rfl, by rfl⟩

/-! schema/optional-and-variant.md: a gzip member header -/

def gzipHeader : List Field :=
  [magicBytes "magic" [0x1f, 0x8b], basic "method" u8 1, basic "flags" u8 1, basic "mtime" u32 4,
   .maybe "name_length" (.num u16 2)
     ⟨["flags"], fun | [.int f] => f / 8 % 2 == 1 | _ => false⟩]
def gzip (flags : Int) (name : Val) : List Val :=
  [ints [0, 0], .int 8, .int flags, .int 0x5f000000, name]
def gzipRead (flags : Int) (name : Val) : List Val :=
  [ints [0x1f, 0x8b], .int 8, .int flags, .int 0x5f000000, name]
example : RoundTrips .big gzipHeader (gzip 8 (.present (.int 12))) 10 (gzipRead 8 (.present (.int 12))) :=
  ⟨by rfl, by rfl⟩
example : RoundTrips .big gzipHeader (gzip 0 .absent) 8 (gzipRead 0 .absent) := ⟨by rfl, by rfl⟩
example : Rejects .big gzipHeader (gzip 8 .absent) .validationFailure "name_length"
    [0x1f, 0x8b, 8, 8, 0x5f, 0, 0, 0] := ⟨by rfl, by rfl⟩

/-! constraints.md: the fmt chunk of a WAV file -/

def fmtId : List Int := [0x66, 0x6d, 0x74, 0x20]
def wavFormat : List Field :=
  [magicBytes "chunk_id" fmtId, basic "chunk_size" u32 4 (.cmp .eq u32 16),
   basic "audio_format" u16 2 (.cmp .eq u16 1), basic "channels" u16 2 (.anyOf u16 [1, 2]),
   basic "sample_rate" u32 4 (.cmp .ge u32 8000), basic "bits_per_sample" u16 2 (.anyOf u16 [8, 16, 24])]
def wavUnchecked : List Field :=
  [magicBytes "chunk_id" fmtId, basic "chunk_size" u32 4, basic "audio_format" u16 2,
   basic "channels" u16 2, basic "sample_rate" u32 4, basic "bits_per_sample" u16 2]
def wav (size format channels : Int) : List Val :=
  [ints [0, 0, 0, 0], .int size, .int format, .int channels, .int 44100, .int 16]
example : RoundTrips .big wavFormat (wav 0 0 2) 18
    [ints fmtId, .int 16, .int 1, .int 2, .int 44100, .int 16] := ⟨by rfl, by rfl⟩
-- "Writing: the constraint is checked before the field's first byte is out."
example : Rejects .big wavFormat (wav 0 0 6) .validationFailure "channels"
    [0x66, 0x6d, 0x74, 0x20, 0, 0, 0, 16, 0, 1] := ⟨by rfl, by rfl⟩
-- "Reading: the same constraint rejects the same value coming off the wire."
example : Refuses .big wavFormat (writing .big wavUnchecked (wav 16 1 6) 18 true).2
    .validationFailure "channels" := by rfl

/-! schema/optional-and-variant.md: tag-length-value and extents -/

def tlvRecord : List Field :=
  [basic "tag" u8 1,
   .union "value" (.matchField "tag" u8 [(int, 1), (int, 2)])
     [.mk (.num u32 4) .none, .mk (.num int 4) .none] .none]
example : RoundTrips .big tlvRecord [.int 0, .var 1 (.int (-40))] 5 [.int 2, .var 1 (.int (-40))] :=
  ⟨by rfl, by rfl⟩

def extentRecord : List Field :=
  [basic "length" u32 4,
   .union "payload" (.ladder [⟨["length"], fun | [.int l] => l ≤ 4 | _ => false⟩,
                              ⟨["length"], fun | [.int l] => l > 4 | _ => false⟩])
     [.mk (.num u32 4) .none, .mk (.num int 4) .none] .none]
example : RoundTrips .big extentRecord [.int 4, .var 0 (.int 0xfeedface)] 8
    [.int 4, .var 0 (.int 0xfeedface)] := ⟨by rfl, by rfl⟩
example : Rejects .big extentRecord [.int 64, .var 0 (.int 1)] .validationFailure "payload"
    [0, 0, 0, 64] := ⟨by rfl, by rfl⟩

/-! schema/index.md: a telemetry frame -/

def telemetryFrame : List Field :=
  [magicBytes "marker" [0xab, 0xcd], basic "device_id" u16 2, basic "revision" u8 1 (.anyOf u8 [1, 2]),
   basic "sample_count" u32 4, vecOf "samples" u16 "sample_count"]
example : RoundTrips .big telemetryFrame
    [ints [0, 0], .int 0x2a, .int 2, .int 0, ints [300, 301, 299, 302]] 17
    [ints [0xab, 0xcd], .int 0x2a, .int 2, .int 4, ints [300, 301, 299, 302]] := ⟨by rfl, by rfl⟩

/-! reading.md: a BMP header -/

def bmpHeader : List Field :=
  [magicBytes "signature" [0x42, 0x4d], basic "file_size" u32 4, basic "reserved" u32 4,
   basic "pixel_offset" u32 4]
def bmpBytes : List Byte := [0x42, 0x4d, 0x36, 0, 0x0c, 0, 0, 0, 0, 0, 0x36, 0, 0, 0]
example : Reads .little bmpHeader bmpBytes [ints [0x42, 0x4d], .int 0x000c0036, .int 0, .int 54] := by rfl
-- "A file that stops short reports which field ran out, not merely that one did."
example : Refuses .little bmpHeader (bmpBytes.take 8) .bufferExhaustion "reserved" := by rfl

/-! streams.md: a heartbeat, and an empty stream -/

def heartbeat : List Field := [magicBytes "marker" [0x48, 0x42], basic "sequence" u32 4]
example : RoundTrips .big heartbeat [ints [0, 0], .int 0xdeadbeef] 6 [ints [0x48, 0x42], .int 0xdeadbeef] :=
  ⟨by rfl, by rfl⟩
example : Refuses .big heartbeat [] .bufferExhaustion "marker" := by rfl

/-! README.md: a firmware image -/

def firmwareImage : List Field :=
  [magicBytes "marker" [0x46, 0x57], basic "version" u16 2, basic "payload_length" u32 4,
   vecOf "payload" u8 "payload_length"]
example : Reads .big firmwareImage [0x46, 0x57, 0, 1, 0, 0, 0, 4, 0xde, 0xad, 0xbe, 0xef]
    [ints [0x46, 0x57], .int 1, .int 4, ints [0xde, 0xad, 0xbe, 0xef]] := by rfl
example : Writes .big firmwareImage [ints [0, 0], .int 1, .int 0, ints [0xde, 0xad, 0xbe, 0xef]]
    [0x46, 0x57, 0, 1, 0, 0, 0, 4, 0xde, 0xad, 0xbe, 0xef] := ⟨by rfl, by rfl⟩

/-! /repo/test/schema: run-time tests -/

def point32 : List Field := [basic "x" u32 4, basic "y" u32 4]
def isDead (id : String) : Pred := ⟨[id], fun vs => vs == [.int 0xdeadbeef]⟩
def ab : List Byte := [0xef, 0xbe, 0xad, 0xde, 0x0d, 0xd0, 0xfe, 0xca]
def xyBytes : List Byte := [0xef, 0xbe, 0xad, 0xde, 0xef, 0xbe, 0xef, 0xbe]
def fooInBar : List Int := [102, 111, 111, 32, 105, 110, 32, 98, 97, 114]

-- OptionalRead.ReadsAnOptionalFixedString
example : Reads .little [basic "a" u32 4, basic "b" u32 4, .maybe "c" (.fstr 10) (isDead "a")]
    (ab ++ fooInBar.map (fun c => UInt8.ofNat c.toNat) ++ [0])
    [.int 0xdeadbeef, .int 0xcafed00d, .present (ints (fooInBar ++ [0]))] := by rfl
-- OptionalRead.ReadsAnOptionalArrayOfRecords
example : Reads .little
    [basic "a" u32 4, basic "b" u32 4, .maybe "records" (.arrRec point32 3) (isDead "a")]
    (ab ++ xyBytes ++ xyBytes ++ xyBytes)
    [.int 0xdeadbeef, .int 0xcafed00d,
     .present (.seq (List.replicate 3 (ints [0xdeadbeef, 0xbeefbeef])))] := by rfl
-- OptionalRead.ReadsAnOptionalVectorOfRecords
example : Reads .little
    [basic "a" u32 4, basic "b" u32 4, basic "len" u64 8,
     .maybe "records" (.vecRec point32 (.fromField "len") none 8) (isDead "a")]
    (ab ++ [3, 0, 0, 0, 0, 0, 0, 0] ++ xyBytes ++ xyBytes ++ xyBytes)
    [.int 0xdeadbeef, .int 0xcafed00d, .int 3,
     .present (.seq (List.replicate 3 (ints [0xdeadbeef, 0xbeefbeef])))] := by rfl

def conditionalLen : List Field :=
  [basic "flag" u32 4, basic "len" u32 4,
   .maybe "data" (.vec (.scalar u16) (.fromField "len") none) (isDead "flag")]
-- OptionalWrite.RejectsAConditionalLengthThatDisagreesWhenPresent
example : Rejects .little conditionalLen
    [.int 0xdeadbeef, .int 7, .present (ints [0x1122, 0x3344, 0x5566])]
    .foundContradictingLength "len" [0xef, 0xbe, 0xad, 0xde] := ⟨by rfl, by rfl⟩
-- OptionalWrite.LeavesAConditionalLengthAloneWhenAbsent
example : Writes .big conditionalLen [.int 0x11223344, .int 7, .absent]
    [0x11, 0x22, 0x33, 0x44, 0, 0, 0, 7] := ⟨by rfl, by rfl⟩

def mixedLen : List Field :=
  [basic "flag" u32 4, basic "len" u32 4, vecOf "always" u8 "len",
   .maybe "sometimes" (.vec (.scalar u8) (.fromField "len") none) (isDead "flag")]
-- OptionalWrite.DerivesFromTheUnconditionalProducerAndVerifiesTheConditionalOne
example : RoundTrips .big mixedLen
    [.int 0xdeadbeef, .int 0, ints [1, 2, 3], .present (ints [4, 5, 6])] 14
    [.int 0xdeadbeef, .int 3, ints [1, 2, 3], .present (ints [4, 5, 6])] := ⟨by rfl, by rfl⟩
-- OptionalWrite.RejectsAConditionalProducerThatDisagreesWithTheDerivedValue
example : Rejects .little mixedLen
    [.int 0xdeadbeef, .int 0, ints [1, 2, 3], .present (ints [4, 5])]
    .foundContradictingLength "len" [0xef, 0xbe, 0xad, 0xde] := ⟨by rfl, by rfl⟩
-- OptionalWrite.IgnoresAnAbsentConditionalProducerWhenDeriving
example : RoundTrips .big mixedLen [.int 0x11223344, .int 0, ints [1, 2, 3], .absent] 11
    [.int 0x11223344, .int 3, ints [1, 2, 3], .absent] := ⟨by rfl, by rfl⟩

def unionLen : List Field :=
  [basic "tag" u32 4, basic "len" u32 4,
   .union "body" (.matchField "tag" u32 [(u32, 0xcafed00d), (u32, 0xdeadbeef)])
     [.mk (.vec (.scalar u8) (.fromField "len") none) .none, .mk (.num u32 4) .none] .none]
-- UnionWrite.VerifiesALengthObligatedByAUnionAlternative
example : RoundTrips .big unionLen [.int 0, .int 3, .var 0 (ints [1, 2, 3])] 11
    [.int 0xcafed00d, .int 3, .var 0 (ints [1, 2, 3])] := ⟨by rfl, by rfl⟩
example : Rejects .little unionLen [.int 0, .int 9, .var 0 (ints [1, 2, 3])]
    .foundContradictingLength "len" [0x0d, 0xd0, 0xfe, 0xca] := ⟨by rfl, by rfl⟩
example : Writes .big unionLen [.int 0, .int 9, .var 1 (.int 0x11223344)]
    [0xde, 0xad, 0xbe, 0xef, 0, 0, 0, 9, 0x11, 0x22, 0x33, 0x44] := ⟨by rfl, by rfl⟩

-- VariableBufferRead.RejectsALengthWhoseByteCountWouldOverflow
example : Refuses .little [basic "n" u64 8, vecOf "v" u64 "n"] [0, 0, 0, 0, 0, 0, 0, 0x20]
    .excessiveLength "v" := by rfl

end S2S.Conformance.Docs
