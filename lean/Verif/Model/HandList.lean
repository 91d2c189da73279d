import Verif.Model.Hand
/-
Lists in which fields of fixed size are spelled by hand as `field<id, T, byte_count{k}, c>`
(Model/Hand) beside fields of the descriptors.
-/
namespace S2S

/-- A field of the descriptors, or one spelled by hand. -/
inductive HField
  | std (f : Field)
  | hand (id : String) (t : FixedTy) (k : Nat) (c : Constraint)

/-- The field of the descriptors with the same name, type and constraint. Of a number it is the
same field: `basic_field` takes the byte count. -/
def HField.usual : HField → Field
  | .std f => f
  | .hand id (.num s) k c => .plain id (.num s k) c
  | .hand id t _ c => .plain id t.kind c

/-- The fold of `struct_cast_impl` (/repo/include/cast/struct_cast_impl.hpp 21-50) over such a
list. -/
def readHands (cfg : Cfg) (env : Env) : List HField → RdE CastError (List Val)
  | [] => RdE.ok []
  | .std f :: hs =>
      (((readField cfg env f).andThen fun v => RdE.checked f.constraint v).tag f.id).andThen fun v =>
      (readHands cfg (env.set f.id v) hs).andThen fun vs => RdE.ok (v :: vs)
  | .hand id t k c :: hs =>
      (((readCount cfg k t).andThen fun v => RdE.checked c v).tag id).andThen fun v =>
      (readHands cfg (env.set id v) hs).andThen fun vs => RdE.ok (v :: vs)

/-- `struct_cast_le`/`struct_cast_be` of such a list. -/
def structCastHand (cfg : Cfg) (hs : List HField) : RdE CastError (List Val) :=
  readHands cfg (dfltEnv (hs.map HField.usual)) hs

/-- `write_field<fixed_sized_field_like>::write` (/repo/include/field_write/field_writer.hpp
31-72) of a field spelled by hand. An array or string that a length is to be put into, or
compared with, does not compile (`static_cast` of a `std::size_t` to it, or of it to one). -/
def writeHand (cfg : Cfg) (ctx : WCtx) (id : String) (t : FixedTy) (k : Nat) (c : Constraint)
    (v : Val) : WrE Reason Unit :=
  match t with
  | .num s => writeFixed cfg ctx true id (.num s k) c v
  | t =>
      if isDerived ctx.fs id || hasConditional ctx.fs id then Wr.stuck .illTyped
      else writeCount cfg k t ((frozenVal t.kind c).getD v)

/-- The fold of `stream_cast_impl` (/repo/include/cast/stream_cast_impl.hpp 20-49). The scans of
derived_value.hpp do not look at byte counts: `ctx` is of the usual fields. -/
def writeHands (cfg : Cfg) (ctx : WCtx) : List HField → List Val → WrE CastError Unit
  | [], [] => WrE.ok ()
  | .std f :: hs, v :: vs =>
      ((if isDerived ctx.fs f.id || f.isFrozen then writeField cfg ctx f v
        else WrE.checked f.constraint v (writeField cfg ctx f v)).tag f.id).andThen fun _ =>
      writeHands cfg ctx hs vs
  | .hand id t k c :: hs, v :: vs =>
      ((if isDerived ctx.fs id || (frozenVal t.kind c).isSome then writeHand cfg ctx id t k c v
        else WrE.checked c v (writeHand cfg ctx id t k c v)).tag id).andThen fun _ =>
      writeHands cfg ctx hs vs
  | _, _ => Wr.stuck .illTyped

/-- `stream_cast_le`/`stream_cast_be` of such a list. -/
def streamCastHand (cfg : Cfg) (hs : List HField) (vs : List Val) : WrE CastError Unit :=
  writeHands cfg ⟨hs.map HField.usual, vs⟩ hs vs

end S2S
