import Verif.Spec.Format
import Verif.Spec.Schema
import Verif.Model.Write
/-
Concrete schemas and values used by the examples beside the theorems.
-/
namespace S2S.Demo

/-- A little-endian 64-bit host reading and writing big endian at run time. -/
def be64 : Cfg := ⟨.little, .big, false, 8, 16 * 1024 * 1024⟩
/-- The same host, little endian. -/
def le64 : Cfg := ⟨.little, .little, false, 8, 16 * 1024 * 1024⟩

/-- `a`: i8; `b`: optional u16, present if `a == -1`. -/
def inner : List Field :=
  [.plain "a" (.num i8 1) .none,
   .maybe "b" (.num u16 2) ⟨["a"], fun vs => vs == [.int (-1)]⟩]

/-- A packet: magic number, derived length, derived discriminant, bounded vector,
union of a number and a record, vector of records. -/
def packet : List Field :=
  [.plain "magic" (.num u32 4) (.cmp .eq i32 0x1234),
   .plain "len" (.num u16 2) .none,
   .plain "tag" (.num u8 1) .none,
   .plain "data" (.vec (.scalar u16) (.fromField "len") (some 64)) .none,
   .union "body" (.matchField "tag" u8 [(i32, 1), (i32, 7)])
     [.mk (.num u32 4) (.cmp .lt u32 1000), .mk (.record inner) .none] .none,
   .plain "crc" (.num u16 2) (.user fun v => v != .int 0)]

/-- A struct of that schema as a user leaves it: slots the library fills are zero. -/
def packetVal : List Val :=
  [.int 0, .int 0, .int 0, .seq [.int 1, .int 2, .int 0xabcd],
   .var 1 (.seq [.int (-1), .present (.int 0x0102)]), .int 0xbeef]

/-- The same with the slots filled. -/
def packetParsed : List Val :=
  [.int 0x1234, .int 3, .int 7, .seq [.int 1, .int 2, .int 0xabcd],
   .var 1 (.seq [.int (-1), .present (.int 0x0102)]), .int 0xbeef]

/-- Its big-endian encoding. -/
def packetBytes : List Byte :=
  [0, 0, 0x12, 0x34, 0, 3, 7, 0, 1, 0, 2, 0xab, 0xcd, 0xff, 1, 2, 0xbe, 0xef]

example : (streamCast be64 packet packetVal).run = (.done (.ok ()), packetBytes) := by rfl
example : (structCast be64 packet).run packetBytes = (.done (.ok packetParsed), []) := by rfl
example : Spec.WellFormed packet := by decide
example : Spec.wire be64 packet packetParsed = packetBytes := by rfl

end S2S.Demo
