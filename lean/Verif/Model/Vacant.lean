import Verif.Model.Write
/-
Arrays and vectors whose elements have no elements: `std::array<T, n>` and `std::vector<T>` where
`T` is `std::array<S, 0>`, or an array of such. `field_size` and the writers count such an
element with its `sizeof`, which is not zero (no complete C++ type has size zero;
`sizeof(std::array<S, 0>)` is 1 or more, by the library).

Modelled are lists of plain fields of the usual kinds with such fields between them. A field of
them is given by the storage of its elements, `sizeof` bytes each: `.seq [.seq bytes, ...]`. The
program cannot tell those bytes; the casts move them. Simplified: such a field has no constraint,
and no callable reads it.
-/
namespace S2S

/-- A field of the usual kinds, an array of `n` or a vector of elements of `size` bytes without
elements. -/
inductive VField
  | std (f : Field)
  | array (id : String) (n size : Nat)
  | vector (id : String) (size : Nat) (len : LenSpec) (bound : Option Nat)

/-- A field of the usual kinds with bytes in the place of the storage. The scans of
derived_value.hpp see of a field its name, its length and how many elements it has. -/
def VField.asBytes : VField → Field
  | .std f => f
  | .array id n size => .plain id (.fbuf (.arr (.scalar u8) size) n) .none
  | .vector id size len bound => .plain id (.vec (.arr (.scalar u8) size) len bound) .none

/-- The storage of `n` elements of `size` bytes in an object with this memory. -/
def storage (size : Nat) : Nat → List Byte → List Val
  | 0, _ => []
  | n + 1, mem =>
      .seq ((List.range size).map fun i => .int (mem.getD i (0 : Byte)).toNat) ::
        storage size n (mem.drop size)

/-- The bytes of the storage of elements. `none`: not such a value. -/
def storageBytes (size : Nat) : List Val → Option (List Byte)
  | [] => some []
  | .seq ws :: vs =>
      if ws.length = size then
        match encodeN ((ElemTy.scalar u8).toMem .little) ws, storageBytes size vs with
        | some b, some bs => some (b ++ bs)
        | _, _ => none
      else none
  | _ => none

/-- `read_field` of such an array (`read_native`, /repo/include/field_read/read_impl.hpp 63-66) or
vector (68-94). `read_foreign_buffer` (107-120) reads the same and has no scalars to swap. On a
constexpr stream `as_byte_buffer` is a `bit_cast` from an object with padding to `char`s
(read_impl.hpp 38), which has no value. -/
def readVacant (cfg : Cfg) (env : Env) : VField → RdE Reason Val
  | .std f => readField cfg env f
  | .array _ n size =>
      if cfg.constexprStream then Rd.stuck .invalidValue
      else (readNativeImpl (n * size) (n * size)).andThen fun mem => RdE.ok (.seq (storage size n mem))
  | .vector _ size len bound =>
      (RdE.lift (len.eval cfg env)).andThen fun n =>
      match checkedByteCount cfg size (ceilingOf cfg bound) n with
      | .error r => RdE.err r
      | .ok byteCount =>
        resize cfg (n * size)
          (if cfg.constexprStream then (if n = 0 then RdE.ok (.seq []) else Rd.stuck .invalidValue)
          else (readNativeImpl (n * size) byteCount).andThen fun mem =>
            RdE.ok (.seq (storage size n mem)))

/-- The fold of `struct_cast_impl` (/repo/include/cast/struct_cast_impl.hpp 21-50). -/
def readVacants (cfg : Cfg) (env : Env) : List VField → RdE CastError (List Val)
  | [] => RdE.ok []
  | h :: hs =>
      (((readVacant cfg env h).andThen fun v => RdE.checked h.asBytes.constraint v).tag
        h.asBytes.id).andThen fun v =>
      (readVacants cfg (env.set h.asBytes.id v) hs).andThen fun vs => RdE.ok (v :: vs)

/-- `struct_cast_le`/`struct_cast_be` of such a list. -/
def structCastVacant (cfg : Cfg) (hs : List VField) : RdE CastError (List Val) :=
  readVacants cfg (dfltEnv (hs.map VField.asBytes)) hs

/-- `write_impl` (/repo/include/field_write/write_impl.hpp 87-99) of elements without elements: in
host order their storage, `bytes` of it (32-51); in foreign order `write_foreign_buffer` (65-85)
descends into each element, and finds no scalar there to write. -/
def writeStorage (cfg : Cfg) (size bytes : Nat) (vs : List Val) : WrE Reason Unit :=
  if cfg.foreign then WrE.all (vs.map fun _ => WrE.all [])
  else if cfg.constexprStream then Wr.stuck .invalidValue
  else writeNative (storageBytes size vs) bytes

/-- `write_field` of such a field (/repo/include/field_write/field_writer.hpp 31-72, 75-97). An
array that a length is to be put into, or compared with, does not compile. -/
def writeVacant (cfg : Cfg) (ctx : WCtx) : VField → Val → WrE Reason Unit
  | .std f, v => writeField cfg ctx f v
  | .array id n size, .seq vs =>
      if isDerived ctx.fs id || hasConditional ctx.fs id || vs.length ≠ n then Wr.stuck .illTyped
      else writeStorage cfg size (n * size) vs
  | .vector _ size len _, .seq vs =>
      verifyComputed cfg ctx.env len vs.length
        (writeStorage cfg size (vs.length * size % cfg.szMod) vs)
  | _, _ => Wr.stuck .illTyped

/-- The fold of `stream_cast_impl` (/repo/include/cast/stream_cast_impl.hpp 20-49). -/
def writeVacants (cfg : Cfg) (ctx : WCtx) : List VField → List Val → WrE CastError Unit
  | [], [] => WrE.ok ()
  | h :: hs, v :: vs =>
      ((if isDerived ctx.fs h.asBytes.id || h.asBytes.isFrozen then writeVacant cfg ctx h v
        else WrE.checked h.asBytes.constraint v (writeVacant cfg ctx h v)).tag
          h.asBytes.id).andThen fun _ =>
      writeVacants cfg ctx hs vs
  | _, _ => Wr.stuck .illTyped

/-- `stream_cast_le`/`stream_cast_be` of such a list. -/
def streamCastVacant (cfg : Cfg) (hs : List VField) (us : List Val) : WrE CastError Unit :=
  writeVacants cfg ⟨hs.map VField.asBytes, us⟩ hs us

end S2S
