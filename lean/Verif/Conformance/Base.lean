import Verif.Spec.Streams
import Verif.Model.Write
/-
Tests of the model, not proofs about it.

The modules under `Verif/Conformance` take the test cases of /repo/test, schema by
schema and buffer by buffer, and check that the model gives the result the test
expects of the library. They say nothing beyond the buffers they contain; what they are
for is to catch a model that differs from the code. The quoted sentences are the names
of the tests.

Each case is checked twice: as the test runs it, in constant evaluation over the
`memstream` of /repo/test/utils/constexpr_memstream.hpp, and at run time over a
`std::stringstream` (reading) or an unbounded stream (writing, when the test's buffer
suffices).
-/
namespace S2S.Conformance

/-- The platform of the tests: 64 bit, little endian. -/
def cfg (wire : Endian) (ct : Bool) (dm : Nat) : Cfg := ⟨.little, wire, ct, 8, dm⟩

/-- The default of `S2S_DEFAULT_MAX_BYTES`. -/
abbrev mib16 : Nat := 16 * 1024 * 1024

def reading (wire : Endian) (fs : List Field) (buf : List Byte) (dm : Nat) :
    Outcome (Except CastError (List Val)) × Outcome (Except CastError (List Val)) :=
  (((structCast (cfg wire true dm) fs).runOn Spec.memstreamIn (buf, false)).1,
   ((structCast (cfg wire false dm) fs).runOn Spec.stdIn (buf, true)).1)

/-- `struct_cast` over the buffer gives these values. -/
abbrev Reads (wire : Endian) (fs : List Field) (buf : List Byte) (vs : List Val)
    (dm : Nat := mib16) : Prop :=
  reading wire fs buf dm = (.done (.ok vs), .done (.ok vs))

/-- `struct_cast` over the buffer fails this way. -/
abbrev Refuses (wire : Endian) (fs : List Field) (buf : List Byte) (r : Reason) (at' : String)
    (dm : Nat := mib16) : Prop :=
  reading wire fs buf dm = (.done (.error ⟨r, at'⟩), .done (.error ⟨r, at'⟩))

/-- `stream_cast` into a zeroed `memstream` of `cap` bytes: result and buffer. -/
def writing (wire : Endian) (fs : List Field) (vs : List Val) (cap : Nat) (ct : Bool) :
    Outcome (Except CastError Unit) × List Byte :=
  let r := (streamCast (cfg wire ct mib16) fs vs).runOn Spec.memstreamOut (cap, [], false)
  (r.1, r.2.2.1 ++ List.replicate (cap - r.2.2.1.length) 0)

/-- `stream_cast` succeeds and leaves this in the buffer. -/
abbrev Writes (wire : Endian) (fs : List Field) (vs : List Val) (buf : List Byte) : Prop :=
  writing wire fs vs buf.length true = (.done (.ok ()), buf) ∧
  writing wire fs vs buf.length false = (.done (.ok ()), buf)

/-- `stream_cast` into a buffer of the size of `buf` fails this way and leaves that in it. -/
abbrev Rejects (wire : Endian) (fs : List Field) (vs : List Val) (r : Reason) (at' : String)
    (buf : List Byte) : Prop :=
  writing wire fs vs buf.length true = (.done (.error ⟨r, at'⟩), buf) ∧
  writing wire fs vs buf.length false = (.done (.error ⟨r, at'⟩), buf)

/-- Written, rewound and read back. -/
abbrev RoundTrips (wire : Endian) (fs : List Field) (vs : List Val) (cap : Nat) (got : List Val) :
    Prop :=
  Reads wire fs (writing wire fs vs cap true).2 got ∧
  (writing wire fs vs cap true).1 = .done (.ok ())

/-! Shorthand for schemas. -/

abbrev u8 : ScalarTy := .int 1 false
abbrev u16 : ScalarTy := .int 2 false
abbrev u32 : ScalarTy := .int 4 false
abbrev u64 : ScalarTy := .int 8 false
abbrev int : ScalarTy := .int 4 true
abbrev char : ScalarTy := .int 1 true

/-- `basic_field<id, T, w_B, c>` -/
abbrev basic (id : String) (t : ScalarTy) (w : Nat) (c : Constraint := .none) : Field :=
  .plain id (.num t w) c
/-- `vec_field<id, T, len_from_field<l>, max_bytes<b>>` -/
abbrev vecOf (id : String) (t : ScalarTy) (l : String) (b : Option Nat := none) : Field :=
  .plain id (.vec (.scalar t) (.fromField l) b) .none
/-- `str_field<id, len_from_field<l>, max_bytes<b>>` -/
abbrev strOf (id : String) (l : String) (b : Option Nat := none) : Field :=
  .plain id (.vec (.scalar u8) (.fromField l) b) .none

/-- A list of integers as the value of a container. -/
abbrev ints (xs : List Int) : Val := .seq (xs.map Val.int)

end S2S.Conformance
