import Verif.Model.Write
/-
Lists in which optionals are spelled by hand as
`maybe_field<field<id, T, size, constraint, bound>, present_only_if>` (/repo/include/field/field.hpp
68-76), so that what they hold may have a constraint. The alias `maybe` admits no such base
(/repo/include/api/field_descriptors.hpp 89-91); the list, the metadata and the casts match every
`maybe_field` (/repo/include/field/field_traits.hpp 143-168).
-/
namespace S2S

/-- A field of the descriptors, or an optional spelled by hand. -/
inductive GField
  | std (f : Field)
  | guarded (id : String) (k : Kind) (c : Constraint) (p : Pred)

/-- The field of the descriptors without the constraint. -/
def GField.usual : GField → Field
  | .std f => f
  | .guarded id k _ p => .maybe id k p

/-- The fold of `struct_cast_impl` (/repo/include/cast/struct_cast_impl.hpp 21-50) over such a list.
`read_field<optional_field_like>` (/repo/include/field_read/field_reader.hpp 195-217) does not look
at the constraint of the base, and that of the `maybe_field` itself is `no_constraint`
(/repo/include/field/field.hpp 35-38). -/
def readGuards (cfg : Cfg) (env : Env) : List GField → RdE CastError (List Val)
  | [] => RdE.ok []
  | .std f :: gs =>
      (((readField cfg env f).andThen fun v => RdE.checked f.constraint v).tag f.id).andThen fun v =>
      (readGuards cfg (env.set f.id v) gs).andThen fun vs => RdE.ok (v :: vs)
  | .guarded id k _ p :: gs =>
      ((((RdE.lift (p.eval env)).andThen fun b =>
          if b then (readKind cfg env k).mapOk .present else RdE.ok .absent).andThen fun v =>
        RdE.checked .none v).tag id).andThen fun v =>
      (readGuards cfg (env.set id v) gs).andThen fun vs => RdE.ok (v :: vs)

/-- `struct_cast_le`/`struct_cast_be` of such a list. -/
def structCastGuard (cfg : Cfg) (gs : List GField) : RdE CastError (List Val) :=
  readGuards cfg (dfltEnv (gs.map GField.usual)) gs

/-- `write_field<optional_field_like>::write` (/repo/include/field_write/field_writer.hpp 180-208):
presence, then the constraint on what it holds (204), then the base, which is no member of the list
(`is_frozen_target`, /repo/include/field_write/derived_value.hpp 237-248). -/
def writeGuard (cfg : Cfg) (ctx : WCtx) (id : String) (k : Kind) (c : Constraint) (p : Pred) (v : Val) :
    WrE Reason Unit :=
  (WrE.lift (p.eval ctx.env)).andThen fun b =>
  match v with
  | .present w =>
      if b then WrE.checked c w (writeKind cfg ctx false id c k w) else WrE.err .validationFailure
  | .absent => if b then WrE.err .validationFailure else WrE.ok ()
  | _ => Wr.stuck .illTyped

/-- The fold of `stream_cast_impl` (/repo/include/cast/stream_cast_impl.hpp 20-49). The scans of
derived_value.hpp do not look at the constraint of the base (87-101): `ctx` is of the usual fields. -/
def writeGuards (cfg : Cfg) (ctx : WCtx) : List GField → List Val → WrE CastError Unit
  | [], [] => WrE.ok ()
  | .std f :: gs, v :: vs =>
      ((if isDerived ctx.fs f.id || f.isFrozen then writeField cfg ctx f v
        else WrE.checked f.constraint v (writeField cfg ctx f v)).tag f.id).andThen fun _ =>
      writeGuards cfg ctx gs vs
  | .guarded id k c p :: gs, v :: vs =>
      ((if isDerived ctx.fs id then writeGuard cfg ctx id k c p v
        else WrE.checked .none v (writeGuard cfg ctx id k c p v)).tag id).andThen fun _ =>
      writeGuards cfg ctx gs vs
  | _, _ => Wr.stuck .illTyped

/-- `stream_cast_le`/`stream_cast_be` of such a list. -/
def streamCastGuard (cfg : Cfg) (gs : List GField) (vs : List Val) : WrE CastError Unit :=
  writeGuards cfg ⟨gs.map GField.usual, vs⟩ gs vs

end S2S
