import Verif.Model.FloatLen
/-
Discriminants that are floating-point numbers.

With fields spelled `field<...>` by hand, a list cast in the host's byte order may choose a
union's alternative by a `float` or a `double` (C98): `match_field` names any field, and what is
read from it is only compared with the labels
(/repo/include/type_deduction/switch/switch_impl.hpp 13-20). Fields of `Model/Schema` that
discriminate are integers; here is what the casts do if they are not. The labels are integers, as
there. Simplified: labels that are floating-point numbers themselves, and optionals of them, are
left out.
-/
namespace S2S

/-- A field of such a list: any of `Model/Schema`; a floating-point number, of `bytes` bytes and
declared with `w`; a union that switches on the number of `bytes` bytes called `src`. -/
inductive TField
  | std (f : Field)
  | slot (id : String) (bytes w : Nat) (c : Constraint)
  | switched (id src : String) (bytes : Nat) (labels : List (ScalarTy × Int)) (alts : List Alt) (c : Constraint)

/-- The field it would be if the number were the integer with its bits. The scans for the
fields that have to agree (/repo/include/field_write/derived_value.hpp 20-151) look at names and
labels only. -/
def TField.usual : TField → Field
  | .std f => f
  | .slot id bytes w c => .plain id (.num (.int bytes false) w) c
  | .switched id src bytes labels alts c => .union id (.matchField src (.int bytes false) labels) alts c

/-! ### Reading -/

/-- `v == match_case::value` (switch_impl.hpp 17): the label is converted to the type of the
floating-point number, rounding as the implementation does. Values of other types do not occur. -/
def tagIs (R : Compare.Rounding) (bytes : Nat) (l : ScalarTy × Int) : Val → Bool
  | .int x => (Compare.real bytes x).cmp (R.to bytes (l.2 * Compare.one)) == some .eq
  | _ => false

/-- `evaluate_switch` (switch_impl.hpp 22-53): the first case that matches. -/
def tagIn (R : Compare.Rounding) (env : Env) (src : String) (bytes : Nat) :
    List (ScalarTy × Int) → Except Stuck (Option Nat)
  | [] => .ok none
  | l :: ls =>
      match env src with
      | none => .error .illTyped
      | some v =>
          if tagIs R bytes l v then .ok (some 0)
          else (tagIn R env src bytes ls).map (Option.map (· + 1))

/-- `read_field` of the union (/repo/include/field_read/field_reader.hpp 283-316): the alternative
is found first, what is done with it does not depend on how. -/
def readTagged (R : Compare.Rounding) (cfg : Cfg) (env : Env) (src : String) (bytes : Nat)
    (labels : List (ScalarTy × Int)) (alts : List Alt) : RdE Reason Val :=
  (RdE.lift (tagIn R env src bytes labels)).andThen fun
  | none => RdE.err .typeDeductionFailure
  | some i =>
    (readAlts cfg env alts i).mapOk fun
    | none => .var 0 (Alt.dfltFirst alts)
    | some v => .var i v

/-- The fold of `struct_cast_impl` (/repo/include/cast/struct_cast_impl.hpp 21-50). -/
def readTags (R : Compare.Rounding) (cfg : Cfg) (env : Env) : List TField → RdE CastError (List Val)
  | [] => RdE.ok []
  | .switched id src bytes labels alts c :: gs =>
      (((readTagged R cfg env src bytes labels alts).andThen fun v => RdE.checked c v).tag id).andThen fun v =>
      (readTags R cfg (env.set id v) gs).andThen fun vs => RdE.ok (v :: vs)
  | g :: gs =>
      (((readField cfg env g.usual).andThen fun v => RdE.checked g.usual.constraint v).tag
        g.usual.id).andThen fun v =>
      (readTags R cfg (env.set g.usual.id v) gs).andThen fun vs => RdE.ok (v :: vs)

def structCastTags (R : Compare.Rounding) (cfg : Cfg) (gs : List TField) : RdE CastError (List Val) :=
  readTags R cfg (dfltEnv (gs.map TField.usual)) gs

/-! ### Writing -/

section
variable {R : Compare.Rounding} (C : FloatOf R)

/-- `write_field` of a member of the list. A union that switches on a field is written without a
look at that (/repo/include/field_write/field_writer.hpp 253-285). -/
def writeTags1 (cfg : Cfg) (ctx : WCtx) : TField → Val → WrE Reason Unit
  | .slot id bytes w c, v => writeSlot C cfg ctx id bytes w c v
  | g, v => writeField cfg ctx g.usual v

/-- The fold of `stream_cast_impl` (/repo/include/cast/stream_cast_impl.hpp 20-49). -/
def writeTags (cfg : Cfg) (ctx : WCtx) : List TField → List Val → WrE CastError Unit
  | [], [] => WrE.ok ()
  | g :: gs, v :: vs =>
      ((if isDerived ctx.fs g.usual.id || g.usual.isFrozen then writeTags1 C cfg ctx g v
        else WrE.checked g.usual.constraint v (writeTags1 C cfg ctx g v)).tag g.usual.id).andThen
      fun _ => writeTags cfg ctx gs vs
  | _, _ => Wr.stuck .illTyped

def streamCastTags (cfg : Cfg) (gs : List TField) (vs : List Val) : WrE CastError Unit :=
  writeTags C cfg ⟨gs.map TField.usual, vs⟩ gs vs
end

end S2S
