import Verif.Model.Compare
import Verif.Model.Write
/-
Lengths that are floating-point numbers.

With fields spelled `field<...>` by hand, a list cast in the host's byte order may take a length
from a `float` or a `double` (C98): `len_source` is any field, and what is read from it is only
converted to `std::size_t` (/repo/include/field_size/field_size_deduce.hpp 17-27). Fields of
`Model/Schema` that lengths are taken from are integers; here is what the casts do if they are not.
As everywhere, a floating-point number is given by its bits, as the unsigned integer of as many
bytes (`Decl.bitsOf`).
-/
namespace S2S

/-- `static_cast<std::size_t>` of the floating-point number of so many bytes with these bits
(field_size_deduce.hpp 22-26, /repo/include/field_write/derived_value.hpp 304,
/repo/include/field_write/field_writer.hpp 67): undefined if it has no such number
([conv.fpint]). -/
def asLength (cfg : Cfg) (bytes : Nat) (bits : Int) : Except Stuck Nat :=
  match (Compare.real bytes bits).toInt (.int cfg.szBytes false) with
  | some z => .ok z.toNat
  | none => .error .badConversion

/-- The conversion of a `std::size_t` to a floating-point type (derived_value.hpp 290, 304), as
bits. It rounds as the implementation does. -/
structure FloatOf (R : Compare.Rounding) where
  bits : Nat → Nat → Int
  is : ∀ n v, n = 4 ∨ n = 8 → Compare.real n (bits n v) = R.to n (v * Compare.one)
  inRange : ∀ n v, n = 4 ∨ n = 8 → (ScalarTy.int n false).InRange (bits n v)

/-- A container without its length: of numbers or of records. -/
inductive Body
  | vec (e : ElemTy) (bound : Option Nat)
  | recs (fs : List Field) (bound : Option Nat) (sz : Nat)

def Body.kind : Body → LenSpec → Kind
  | .vec e b, l => .vec e l b
  | .recs fs b sz, l => .vecRec fs l b sz

/-- A field of such a list: any of `Model/Schema`; a floating-point number, of `bytes` bytes and
declared with `w`; a container whose length is the number of `bytes` bytes called `src`. -/
inductive LField
  | std (f : Field)
  | slot (id : String) (bytes w : Nat) (c : Constraint)
  | sized (id src : String) (bytes : Nat) (b : Body) (c : Constraint)

/-- The field it would be if the number were the integer with its bits. The scans for the
fields that have to agree (derived_value.hpp 20-151) look at names only. -/
def LField.usual : LField → Field
  | .std f => f
  | .slot id bytes w c => .plain id (.num (.int bytes false) w) c
  | .sized id src _ b c => .plain id (b.kind (.fromField src)) c

/-! ### Reading -/

/-- The length as `deduce_field_size` has it (field_size_deduce.hpp 17-27). -/
def lengthIn (cfg : Cfg) (env : Env) (src : String) (bytes : Nat) : Except Stuck Nat :=
  match env src with
  | some (.int x) => asLength cfg bytes x
  | _ => .error .illTyped

/-- `read_field` of the container (/repo/include/field_read/field_reader.hpp 38-52, 138-166): the
length comes first, what is done with it does not depend on where it comes from. -/
def readSized (cfg : Cfg) (env : Env) (src : String) (bytes : Nat) (b : Body) : RdE Reason Val :=
  (RdE.lift (lengthIn cfg env src bytes)).andThen fun n =>
  readKind cfg env (b.kind (.computed ⟨[], fun _ => n⟩))

/-- The fold of `struct_cast_impl` (/repo/include/cast/struct_cast_impl.hpp 21-50). -/
def readLens (cfg : Cfg) (env : Env) : List LField → RdE CastError (List Val)
  | [] => RdE.ok []
  | .sized id src bytes b c :: gs =>
      (((readSized cfg env src bytes b).andThen fun v => RdE.checked c v).tag id).andThen fun v =>
      (readLens cfg (env.set id v) gs).andThen fun vs => RdE.ok (v :: vs)
  | g :: gs =>
      (((readField cfg env g.usual).andThen fun v => RdE.checked g.usual.constraint v).tag
        g.usual.id).andThen fun v =>
      (readLens cfg (env.set g.usual.id v) gs).andThen fun vs => RdE.ok (v :: vs)

def structCastLens (cfg : Cfg) (gs : List LField) : RdE CastError (List Val) :=
  readLens cfg (dfltEnv (gs.map LField.usual)) gs

/-! ### Writing -/

section
variable {R : Compare.Rounding} (C : FloatOf R)

/-- `fits_declared_width` (derived_value.hpp 299-305). -/
def floatFits (cfg : Cfg) (bytes w v : Nat) : Except Stuck Bool :=
  if w < cfg.szBytes ∧ v >>> (w * 8) ≠ 0 then .ok false
  else (asLength cfg bytes (C.bits bytes v)).map (· == v)

/-- `derive_value` (derived_value.hpp 251-306). -/
def deriveFloat (cfg : Cfg) (fs : List Field) (vs : List Val) (target : String) (bytes w : Nat) :
    Except Stuck (Except Reason Int) :=
  match deriveScan cfg target fs vs {} with
  | .error s => .error s
  | .ok d =>
      if !d.agreed then .ok (.error .foundContradictingLength)
      else
        match floatFits C cfg bytes w d.derived with
        | .error s => .error s
        | .ok false => .ok (.error .validationFailure)
        | .ok true => .ok (.ok (C.bits bytes d.derived))

/-- `verify_then_write` (field_writer.hpp 62-72). -/
def verifyThenWriteFloat (cfg : Cfg) (ctx : WCtx) (id : String) (bytes w : Nat) (x : Int) :
    WrE Reason Unit :=
  if hasConditional ctx.fs id then
    (WrE.lift (asLength cfg bytes x)).andThen fun n =>
    (WrE.lift (verifyScan ctx.env id n ctx.fs ctx.vs)).andThen fun agreed =>
    if agreed then writeNum cfg (.int bytes false) w x else WrE.err .foundContradictingLength
  else writeNum cfg (.int bytes false) w x

/-- `write_field<fixed_sized_field_like>::write` (field_writer.hpp 31-56). -/
def writeSlot (cfg : Cfg) (ctx : WCtx) (id : String) (bytes w : Nat) (c : Constraint) (v : Val) :
    WrE Reason Unit :=
  if isDerived ctx.fs id then
    (WrE.lift (deriveFloat C cfg ctx.fs ctx.vs id bytes w)).andThen fun
    | .error r => WrE.err r
    | .ok x =>
        (WrE.lift (c.check (.int x))).andThen fun b =>
        if b then verifyThenWriteFloat cfg ctx id bytes w x else WrE.err .validationFailure
  else
    match (frozenVal (.num (.int bytes false) w) c).getD v with
    | .int x => verifyThenWriteFloat cfg ctx id bytes w x
    | _ => Wr.stuck .illTyped

/-- `write_field` of a member of the list. A container whose length is a field's is written
without a look at that (field_writer.hpp 93-95, 167-176). -/
def writeLens1 (cfg : Cfg) (ctx : WCtx) : LField → Val → WrE Reason Unit
  | .std f, v => writeField cfg ctx f v
  | .slot id bytes w c, v => writeSlot C cfg ctx id bytes w c v
  | .sized id src _ b c, v => writeKind cfg ctx true id c (b.kind (.fromField src)) v

/-- The fold of `stream_cast_impl` (/repo/include/cast/stream_cast_impl.hpp 20-49). -/
def writeLens (cfg : Cfg) (ctx : WCtx) : List LField → List Val → WrE CastError Unit
  | [], [] => WrE.ok ()
  | g :: gs, v :: vs =>
      ((if isDerived ctx.fs g.usual.id || g.usual.isFrozen then writeLens1 C cfg ctx g v
        else WrE.checked g.usual.constraint v (writeLens1 C cfg ctx g v)).tag g.usual.id).andThen
      fun _ => writeLens cfg ctx gs vs
  | _, _ => Wr.stuck .illTyped

def streamCastLens (cfg : Cfg) (gs : List LField) (vs : List Val) : WrE CastError Unit :=
  writeLens C cfg ⟨gs.map LField.usual, vs⟩ gs vs
end

end S2S
