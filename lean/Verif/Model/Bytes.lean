/-
Bytes, integer types, integer conversions and object representations.

Everything the library does to a number goes through three operations:
reinterpreting its object representation as bytes
(/repo/include/lib/memory/address_manip.hpp 14-17, 39-42, 65-68), integral
conversion (`static_cast`, implicit conversions) and `std::byteswap`
(/repo/include/field_read/read_impl.hpp 101, /repo/include/field_write/write_impl.hpp 57,
/repo/include/stream/byte_order.hpp 22).
-/
namespace S2S

/-- A C++ `char`/`unsigned char` seen as a byte of memory or of a stream. -/
abbrev Byte := UInt8

/-- The `n` low bytes of `v`, least significant first. -/
def leBytes : Nat → Nat → List Byte
  | 0, _ => []
  | n + 1, v => UInt8.ofNat v :: leBytes n (v / 256)

/-- The number whose bytes are given least significant first. -/
def leNat : List Byte → Nat
  | [] => 0
  | b :: bs => b.toNat + 256 * leNat bs

/-- `std::endian`. -/
inductive Endian
  | little
  | big
  deriving DecidableEq, Repr

/-- Put a least-significant-first byte string into the given order. The same
function takes it back. -/
def Endian.order : Endian → List Byte → List Byte
  | .little, bs => bs
  | .big, bs => bs.reverse

/-- The integral types the library admits as field types (`integral` in
/repo/include/lib/s2s_traits/type_traits.hpp 18-19): an integer of some number of
bytes, signed or not, or `bool` (one byte). `char` types are one-byte integers. -/
inductive ScalarTy
  | int (bytes : Nat) (signed : Bool)
  | bool
  deriving DecidableEq, Repr

/-- `sizeof`. -/
def ScalarTy.size : ScalarTy → Nat
  | .int b _ => b
  | .bool => 1

abbrev u8 : ScalarTy := .int 1 false
abbrev u16 : ScalarTy := .int 2 false
abbrev u32 : ScalarTy := .int 4 false
abbrev u64 : ScalarTy := .int 8 false
abbrev i8 : ScalarTy := .int 1 true
abbrev i16 : ScalarTy := .int 2 true
abbrev i32 : ScalarTy := .int 4 true
abbrev i64 : ScalarTy := .int 8 true

/-- The unsigned residue of an integer modulo `256^n`: what its `n` byte object
representation holds (two's complement). -/
def residue (n : Nat) (x : Int) : Nat := (x % (256 ^ n : Nat)).toNat

/-- C++ integral conversion of a mathematical integer to the type
(`static_cast<T>`, [conv.integral], and [conv.bool] for `bool`). -/
def ScalarTy.conv : ScalarTy → Int → Int
  | .int b false, x => (residue b x : Int)
  | .int b true, x =>
      let r := residue b x
      if 2 * r < 256 ^ b then (r : Int) else (r : Int) - (256 ^ b : Nat)
  | .bool, x => if x = 0 then 0 else 1

/-- The values a type has. -/
def ScalarTy.InRange : ScalarTy → Int → Prop
  | .int b false, x => 0 ≤ x ∧ x < (256 ^ b : Nat)
  | .int b true, x => -(256 ^ b : Nat) ≤ 2 * x ∧ 2 * x < (256 ^ b : Nat)
  | .bool, x => x = 0 ∨ x = 1

instance (t : ScalarTy) (x : Int) : Decidable (t.InRange x) := by
  cases t with
  | int b s => cases s <;> (simp only [ScalarTy.InRange]; infer_instance)
  | bool => simp only [ScalarTy.InRange]; infer_instance

/-- Object representation of a value on a host of the given byte order: the
bytes seen through `reinterpret_cast<const char*>(&obj)` or `std::bit_cast`
(/repo/include/lib/memory/address_manip.hpp 39-42, 67-68). -/
def ScalarTy.toMem (host : Endian) (t : ScalarTy) (x : Int) : List Byte :=
  host.order (leBytes t.size (residue t.size x))

/-- The value whose object representation is `mem`. `none`: the bytes are not a
value of the type, which only `bool` can run into (reading such an object is
undefined). -/
def ScalarTy.ofMem (host : Endian) (t : ScalarTy) (mem : List Byte) : Option Int :=
  match t with
  | .int b s => some ((ScalarTy.int b s).conv (leNat (host.order mem)))
  | .bool =>
      match mem with
      | [b] => if b = 0 then some 0 else if b = 1 then some 1 else none
      | _ => none

/-- `std::byteswap`: the value whose object representation is reversed. It does
not depend on the host. -/
def ScalarTy.byteswap (t : ScalarTy) (x : Int) : Int :=
  match t with
  | .int b s => (ScalarTy.int b s).conv (leNat (leBytes b (residue b x)).reverse)
  | .bool => x

/-- How the library is built and used: byte order of the host, byte order asked
of the cast (`stream_cast_le`/`stream_cast_be`, `struct_cast_le`/`_be`), whether
the stream is a `constexpr_stream`, `sizeof(std::size_t)`, and
`S2S_DEFAULT_MAX_BYTES` (/repo/include/field_size/field_size.hpp 35-39). -/
structure Cfg where
  host : Endian
  wire : Endian
  constexprStream : Bool
  szBytes : Nat
  defaultMax : Nat
  deriving DecidableEq, Repr

/-- Number of values of `std::size_t`. -/
def Cfg.szMod (cfg : Cfg) : Nat := 256 ^ cfg.szBytes

/-- `static_cast<std::size_t>(x)`. -/
def Cfg.toSz (cfg : Cfg) (x : Int) : Nat := residue cfg.szBytes x

/-- `PTRDIFF_MAX`: the largest number of bytes a container can be resized to. -/
def Cfg.ptrdiffMax (cfg : Cfg) : Nat := cfg.szMod / 2 - 1

/-- `deduce_byte_order` (/repo/include/stream/byte_order.hpp 34-40): is the wire
order not the host order? -/
def Cfg.foreign (cfg : Cfg) : Bool := cfg.host ≠ cfg.wire

end S2S
