import Verif.Model.Schema
/-
The read direction: /repo/include/field_read/read_impl.hpp,
/repo/include/field_read/field_reader.hpp, /repo/include/cast/struct_cast_impl.hpp.
-/
namespace S2S

/-- Evaluation that may leave defined behaviour, inside a read. -/
def RdE.lift : Except Stuck α → RdE ε α
  | .ok a => RdE.ok a
  | .error w => Rd.stuck w

/-- Reinterpreting bytes that may be no value of the type, inside a read. -/
def RdE.value : Option α → RdE ε α
  | some a => RdE.ok a
  | none => Rd.stuck .invalidValue

/-- `checked_byte_count<element, ceiling>` (read_impl.hpp 29-34). The product is
computed in `std::size_t`, i.e. modulo its range. -/
def checkedByteCount (cfg : Cfg) (elemSize ceiling len : Nat) : Except Reason Nat :=
  if len > ceiling / elemSize then .error .excessiveLength
  else .ok (len * elemSize % cfg.szMod)

/-- `read_native_impl` (read_impl.hpp 36-61): read `n` bytes over the start of a
zero-initialised object of `size` bytes; the result is the object's memory. Both
overloads do this, the constexpr one through a byte array and `bit_cast`.
Simplified: asking for more bytes than the object has is `outOfBounds` whether or
not the stream would deliver them. -/
def readNativeImpl (size n : Nat) : RdE Reason (List Byte) :=
  if size < n then Rd.stuck .outOfBounds
  else Rd.read n fun
    | none => RdE.err .bufferExhaustion
    | some bs => RdE.ok (bs ++ List.replicate (size - n) 0)

/-- `read_impl` on a scalar: `read_native` or `read_foreign_scalar`
(read_impl.hpp 63-66, 96-105, 125-141). -/
def readNum (cfg : Cfg) (t : ScalarTy) (width : Nat) : RdE Reason Val :=
  (readNativeImpl t.size width).andThen fun mem =>
  (RdE.value (t.ofMem cfg.host mem)).andThen fun x =>
  RdE.ok (.int (if cfg.foreign then t.byteswap x else x))

/-- Cut memory into `n` objects of `size` bytes and reinterpret each. -/
def decodeN (f : List Byte → Option Val) (size : Nat) : Nat → List Byte → Option (List Val)
  | 0, _ => some []
  | n + 1, mem =>
      match f (mem.take size), decodeN f size n (mem.drop size) with
      | some v, some vs => some (v :: vs)
      | _, _ => none

/-- An element from its object representation (contiguous layout). -/
def ElemTy.ofMem (host : Endian) : ElemTy → List Byte → Option Val
  | .scalar t, mem => (t.ofMem host mem).map .int
  | .arr e n, mem => (decodeN (e.ofMem host) e.size n mem).map .seq

/-- `byteswap_elements` (/repo/include/stream/byte_order.hpp 14-25) on one element. -/
def ElemTy.swap : ElemTy → Val → Val
  | .scalar t, .int x => .int (if t.size > 1 then t.byteswap x else x)
  | .arr e _, .seq vs => .seq (vs.map e.swap)
  | _, v => v

/-- Swap the elements of a buffer if the wire order is foreign
(`read_foreign_buffer`, read_impl.hpp 107-120). -/
def swapIfForeign (cfg : Cfg) (e : ElemTy) (vs : List Val) : List Val :=
  if cfg.foreign then vs.map e.swap else vs

/-- `read_impl` on a `std::array` or C array (read_impl.hpp 63-66, 107-120). -/
def readFixedBuf (cfg : Cfg) (e : ElemTy) (n : Nat) : RdE Reason Val :=
  (readNativeImpl (n * e.size) (n * e.size)).andThen fun mem =>
  (RdE.value (decodeN (e.ofMem cfg.host) e.size n mem)).andThen fun vs =>
  RdE.ok (.seq (swapIfForeign cfg e vs))

/-- `read_impl` on a `fixed_string<n>`: `n + 1` characters, never swapped
(byte_order.hpp 16). -/
def readFixedStr (n : Nat) : RdE Reason Val :=
  (readNativeImpl (n + 1) (n + 1)).andThen fun mem =>
  RdE.ok (.seq (mem.map fun b => .int b.toNat))

/-- `obj.resize(len)`: allocates `bytes` bytes, or throws `std::length_error`.
Simplified: the implementation's `max_size()` is taken to be `PTRDIFF_MAX` bytes. -/
def resize (cfg : Cfg) (bytes : Nat) (k : RdE ε α) : RdE ε α :=
  if bytes > cfg.ptrdiffMax then Rd.stuck .lengthError else Rd.alloc bytes k

/-- `n` times the same read, collecting the results; stops at the first error
(the loops at read_impl.hpp 85-89 and field_reader.hpp 104-111). -/
def repeatE (r : RdE ε Val) : Nat → RdE ε (List Val)
  | 0 => RdE.ok []
  | n + 1 => r.andThen fun v => (repeatE r n).andThen fun vs => RdE.ok (v :: vs)

/-- The constexpr loop body: one element (read_impl.hpp 85-89). -/
def readElem (cfg : Cfg) (e : ElemTy) : RdE Reason Val :=
  (readNativeImpl e.size e.size).andThen fun mem => RdE.value (e.ofMem cfg.host mem)

/-- `read_native` for `std::vector`/`std::string` (read_impl.hpp 68-94) followed by
the swap of `read_foreign_buffer`, given the ceiling and the length. -/
def readVec (cfg : Cfg) (e : ElemTy) (ceiling len : Nat) : RdE Reason Val :=
  match checkedByteCount cfg e.size ceiling len with
  | .error r => RdE.err r
  | .ok byteCount =>
    resize cfg (len * e.size)
      (if cfg.constexprStream then
        (repeatE (readElem cfg e) len).andThen fun vs =>
        RdE.ok (.seq (swapIfForeign cfg e vs))
      else
        (readNativeImpl (len * e.size) byteCount).andThen fun mem =>
        (RdE.value (decodeN (e.ofMem cfg.host) e.size len mem)).andThen fun vs =>
        RdE.ok (.seq (swapIfForeign cfg e vs)))

/-- Attach a field's name to an error (struct_cast_impl.hpp 32-37). -/
def RdE.tag (id : String) (r : RdE Reason α) : RdE CastError α :=
  r.mapErr fun e => ⟨e, id⟩

/-- Drop the name again when a nested list failed (field_reader.hpp 184-187). -/
def RdE.untag (r : RdE CastError α) : RdE Reason α := r.mapErr CastError.reason

/-- `if(!constraint_checker(value)) return unexpected(validation_failure)`. -/
def RdE.checked (c : Constraint) (v : Val) : RdE Reason Val :=
  (RdE.lift (c.check v)).andThen fun b =>
  if b then RdE.ok v else RdE.err .validationFailure

mutual
/-- `read_field` of a `field` by kind: fixed (field_reader.hpp 21-35), variable
(38-52), array of records (116-135), vector of records (138-166), record
(172-191). `env` is the list being read. -/
def readKind (cfg : Cfg) (env : Env) : Kind → RdE Reason Val
  | .num t w => readNum cfg t w
  | .fbuf e n => readFixedBuf cfg e n
  | .fstr n => readFixedStr n
  | .vec e len bound =>
      (RdE.lift (len.eval cfg env)).andThen fun n =>
      readVec cfg e (ceilingOf cfg bound) n
  | .record fs =>
      ((readFields cfg (dfltEnv fs) fs).untag).mapOk .seq
  | .arrRec fs n =>
      (repeatE (((readFields cfg (dfltEnv fs) fs).untag).mapOk .seq) n).mapOk .seq
  | .vecRec fs len bound sz =>
      (RdE.lift (len.eval cfg env)).andThen fun n =>
      match checkedByteCount cfg sz (ceilingOf cfg bound) n with
      | .error r => RdE.err r
      | .ok _ =>
        resize cfg (n * sz)
          ((repeatE (((readFields cfg (dfltEnv fs) fs).untag).mapOk .seq) n).mapOk .seq)
/-- `read_field` of a field of a list: `maybe_field` (field_reader.hpp 195-218),
`union_field` (283-316). The result of a union where no reader of an alternative
runs would be its untouched default. -/
def readField (cfg : Cfg) (env : Env) : Field → RdE Reason Val
  | .plain _ k _ => readKind cfg env k
  | .maybe _ k p =>
      (RdE.lift (p.eval env)).andThen fun b =>
      if b then (readKind cfg env k).mapOk .present else RdE.ok .absent
  | .union _ d alts _ =>
      (RdE.lift (d.eval env)).andThen fun
      | none => RdE.err .typeDeductionFailure
      | some i =>
        (readAlts cfg env alts i).mapOk fun
        | none => .var 0 (Alt.dfltFirst alts)
        | some v => .var i v
/-- The fold over the alternatives (field_reader.hpp 255-280): the reader whose
index is the deduced one runs (223-253), checking the alternative's own
constraint; the others do nothing. The variant's converting assignment (251)
selects the same alternative because alternative types are distinct
(`has_unique_field_choices`). -/
def readAlts (cfg : Cfg) (env : Env) : List Alt → Nat → RdE Reason (Option Val)
  | [], _ => RdE.ok none
  | .mk k c :: _, 0 =>
      (readKind cfg env k).andThen fun v => (RdE.checked c v).mapOk some
  | _ :: alts, i + 1 => readAlts cfg env alts i
/-- `struct_cast_impl` (struct_cast_impl.hpp 21-50): the fold over the fields. Each
field is read with the list as it stands (fields not yet read hold their
defaults), then checked against its constraint. -/
def readFields (cfg : Cfg) (env : Env) : List Field → RdE CastError (List Val)
  | [] => RdE.ok []
  | f :: fs =>
      (((readField cfg env f).andThen fun v => RdE.checked f.constraint v).tag f.id).andThen fun v =>
      (readFields cfg (env.set f.id v) fs).andThen fun vs => RdE.ok (v :: vs)
end

/-- `struct_cast_le`/`struct_cast_be` of a list
(/repo/include/api/struct_cast.hpp, struct_cast_impl.hpp 21-50). -/
def structCast (cfg : Cfg) (fs : List Field) : RdE CastError (List Val) :=
  readFields cfg (dfltEnv fs) fs

end S2S
