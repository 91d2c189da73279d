import Verif.Model.FloatLen
/-
Optional containers whose lengths are floating-point numbers.

A `maybe_field` (/repo/include/field/field.hpp) of a container is read and written as the
container is once its predicate holds, so its length may be a floating-point number as well
(`Model/FloatLen`). Such a container is no producer of its length (`conditionally_obligates`,
/repo/include/field_write/derived_value.hpp 103-109): the number is written as the struct has it,
after it was converted and compared (`verify_then_write`,
/repo/include/field_write/field_writer.hpp 62-72).
-/
namespace S2S

/-- A field of such a list: any of `Model/Schema`; a floating-point number, of `bytes` bytes and
declared with `w`; an optional container whose length is the number of `bytes` bytes called
`src`. -/
inductive QField
  | std (f : Field)
  | slot (id : String) (bytes w : Nat) (c : Constraint)
  | opt (id src : String) (bytes : Nat) (b : Body) (p : Pred)

/-- As the writer has it (field_writer.hpp 180-208): the optional is written without a look at
what kind of number its length is. -/
def QField.written : QField → LField
  | .std f => .std f
  | .slot id bytes w c => .slot id bytes w c
  | .opt id src _ b p => .std (.maybe id (b.kind (.fromField src)) p)

/-- The field it would be if the number were the integer with its bits. -/
def QField.usual (g : QField) : Field := g.written.usual

/-! ### Reading -/

/-- `read_field` of the optional (/repo/include/field_read/field_reader.hpp 195-218): if the
predicate holds, the container is read. -/
def readOpt (cfg : Cfg) (env : Env) (src : String) (bytes : Nat) (b : Body) (p : Pred) : RdE Reason Val :=
  (RdE.lift (p.eval env)).andThen fun held =>
  if held then (readSized cfg env src bytes b).mapOk .present else RdE.ok .absent

/-- `read_field` of a member of the list. -/
def readOpts1 (cfg : Cfg) (env : Env) : QField → RdE Reason Val
  | .opt _ src bytes b p => readOpt cfg env src bytes b p
  | g => readField cfg env g.usual

/-- The fold of `struct_cast_impl` (/repo/include/cast/struct_cast_impl.hpp 21-50). -/
def readOpts (cfg : Cfg) (env : Env) : List QField → RdE CastError (List Val)
  | [] => RdE.ok []
  | g :: gs =>
      (((readOpts1 cfg env g).andThen fun v => RdE.checked g.usual.constraint v).tag g.usual.id).andThen fun v =>
      (readOpts cfg (env.set g.usual.id v) gs).andThen fun vs => RdE.ok (v :: vs)

def structCastOpts (cfg : Cfg) (gs : List QField) : RdE CastError (List Val) :=
  readOpts cfg (dfltEnv (gs.map QField.usual)) gs

/-! ### Writing -/

/-- The fold of `stream_cast_impl` (/repo/include/cast/stream_cast_impl.hpp 20-49), for the fields
as the writer has them. -/
def streamCastOpts {R : Compare.Rounding} (C : FloatOf R) (cfg : Cfg) (gs : List QField) (vs : List Val) :
    WrE CastError Unit :=
  streamCastLens C cfg (gs.map QField.written) vs

end S2S
