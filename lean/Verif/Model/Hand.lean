import Verif.Model.Write
/-
Fields of fixed size spelled as `field<id, T, byte_count{k}, c>` by hand, so that the byte count
need not be the size of the type (/repo/include/field/field.hpp 15-30). The descriptors pass the
size of the type, except `basic_field`, `magic_number` and `as_trivial`, which take it from the
schema (`Kind.num`).
-/
namespace S2S

/-- The types `field_containable` admits (/repo/include/lib/s2s_traits/type_traits.hpp 177-178). -/
inductive FixedTy
  | num (t : ScalarTy)
  | buf (e : ElemTy) (n : Nat)
  | str (n : Nat)

/-- `sizeof(T)`. -/
def FixedTy.size : FixedTy → Nat
  | .num t => t.size
  | .buf e n => n * e.size
  | .str n => n + 1

/-- Is the type an array? -/
def FixedTy.isBuf : FixedTy → Bool
  | .buf _ _ => true
  | _ => false

/-- The field a descriptor makes of the type. -/
def FixedTy.kind : FixedTy → Kind
  | .num t => .num t t.size
  | .buf e n => .fbuf e n
  | .str n => .fstr n

/-- `read_field` of a fixed-size field (/repo/include/field_read/field_reader.hpp 21-35): `k`
bytes over the start of the object, then the swap of `read_foreign_scalar` or
`read_foreign_buffer` over all of it (/repo/include/field_read/read_impl.hpp 36-66, 96-141). -/
def readCount (cfg : Cfg) (k : Nat) : FixedTy → RdE Reason Val
  | .num t => readNum cfg t k
  | .buf e n =>
      (readNativeImpl (n * e.size) k).andThen fun mem =>
      (RdE.value (decodeN (e.ofMem cfg.host) e.size n mem)).andThen fun vs =>
      RdE.ok (.seq (swapIfForeign cfg e vs))
  | .str n =>
      (readNativeImpl (n + 1) k).andThen fun mem =>
      RdE.ok (.seq (mem.map fun b => .int b.toNat))

/-- `write_field` of a fixed-size field that nothing is derived for
(/repo/include/field_write/field_writer.hpp 23-75): the first `k` bytes of the object
(/repo/include/field_write/write_impl.hpp 15-35, 53-59). But `write_foreign_buffer` (65-85) does
not look at the byte count of an array: it writes all elements. -/
def writeCount (cfg : Cfg) (k : Nat) : FixedTy → Val → WrE Reason Unit
  | .num t, .int x => writeNum cfg t k x
  | .buf e n, .seq vs =>
      if vs.length ≠ n then Wr.stuck .illTyped
      else if cfg.foreign then WrE.all (vs.map (writeForeignElem cfg e))
      else writeNative (encodeN (e.toMem cfg.host) vs) k
  | .str n, .seq vs =>
      if vs.length ≠ n + 1 then Wr.stuck .illTyped
      else writeNative (encodeN ((ElemTy.scalar u8).toMem .little) vs) k
  | _, _ => Wr.stuck .illTyped

end S2S
