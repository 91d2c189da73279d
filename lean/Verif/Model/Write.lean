import Verif.Model.Read
/-
The write direction: /repo/include/field_write/write_impl.hpp,
/repo/include/field_write/field_writer.hpp, /repo/include/field_write/derived_value.hpp,
/repo/include/cast/stream_cast_impl.hpp.
-/
namespace S2S

/-- Evaluation that may leave defined behaviour, inside a write. -/
def WrE.lift : Except Stuck α → WrE ε α
  | .ok a => WrE.ok a
  | .error w => Wr.stuck w

/-! ### write_impl.hpp -/

/-- `write_native_impl` (write_impl.hpp 15-30): write the first `n` bytes of an
object whose memory is `mem`. -/
def writeNativeImpl (mem : List Byte) (n : Nat) : WrE Reason Unit :=
  if mem.length < n then Wr.stuck .outOfBounds
  else Wr.write (mem.take n) fun
    | true => WrE.ok ()
    | false => WrE.err .bufferExhaustion

/-- One write after the other, stopping at the first failure. -/
def WrE.all : List (WrE ε Unit) → WrE ε Unit
  | [] => WrE.ok ()
  | w :: ws => w.andThen fun _ => WrE.all ws

/-- `write_impl` on a scalar: `write_native` or `write_foreign_scalar`
(write_impl.hpp 32-35, 53-59, 87-99). -/
def writeNum (cfg : Cfg) (t : ScalarTy) (width : Nat) (x : Int) : WrE Reason Unit :=
  writeNativeImpl (t.toMem cfg.host (if cfg.foreign then t.byteswap x else x)) width

/-- Object representations laid out one after the other. -/
def encodeN (f : Val → Option (List Byte)) : List Val → Option (List Byte)
  | [] => some []
  | v :: vs =>
      match f v, encodeN f vs with
      | some b, some bs => some (b ++ bs)
      | _, _ => none

/-- Object representation of an element. `none`: the value does not have that type. -/
def ElemTy.toMem (host : Endian) : ElemTy → Val → Option (List Byte)
  | .scalar t, .int x => some (t.toMem host x)
  | .arr e n, .seq vs => if vs.length = n then encodeN (e.toMem host) vs else none
  | _, _ => none

/-- One element in foreign order: descend to the scalars, swap each of more than
one byte and write it (`write_foreign_buffer`, write_impl.hpp 65-85). -/
def writeForeignElem (cfg : Cfg) : ElemTy → Val → WrE Reason Unit
  | .scalar t, .int x =>
      writeNativeImpl (t.toMem cfg.host (if t.size > 1 then t.byteswap x else x)) t.size
  | .arr e n, .seq vs =>
      if vs.length = n then WrE.all (vs.map (writeForeignElem cfg e)) else Wr.stuck .illTyped
  | _, _ => Wr.stuck .illTyped

/-- Write an object natively, `n` bytes of it. -/
def writeNative (mem : Option (List Byte)) (n : Nat) : WrE Reason Unit :=
  match mem with
  | some m => writeNativeImpl m n
  | none => Wr.stuck .illTyped

/-- `write_impl` on a `std::array` or C array of `n` elements
(write_impl.hpp 32-35, 65-85, 87-99). -/
def writeFixedBuf (cfg : Cfg) (e : ElemTy) (n : Nat) (vs : List Val) : WrE Reason Unit :=
  if vs.length ≠ n then Wr.stuck .illTyped
  else if cfg.foreign then WrE.all (vs.map (writeForeignElem cfg e))
  else writeNative (encodeN (e.toMem cfg.host) vs) (n * e.size)

/-- `write_impl` on a `fixed_string<n>`: one native write in both orders
(write_impl.hpp 67-68). -/
def writeFixedStr (n : Nat) (vs : List Val) : WrE Reason Unit :=
  if vs.length ≠ n + 1 then Wr.stuck .illTyped
  else writeNative (encodeN ((ElemTy.scalar u8).toMem .little) vs) (n + 1)

/-- `write_impl` on a `std::vector`/`std::string`: bulk, or element by element for
constexpr streams (`write_native`, write_impl.hpp 37-51) or foreign order
(65-85). The byte count of the bulk write is a product in `std::size_t`. -/
def writeVec (cfg : Cfg) (e : ElemTy) (vs : List Val) : WrE Reason Unit :=
  if cfg.foreign then WrE.all (vs.map (writeForeignElem cfg e))
  else if cfg.constexprStream then
    WrE.all (vs.map fun v => writeNative (e.toMem cfg.host v) e.size)
  else writeNative (encodeN (e.toMem cfg.host) vs) (vs.length * e.size % cfg.szMod)

/-! ### derived_value.hpp -/

/-- The ids named by top-level `len_from_field` containers
(`length_derived_field_ids`, /repo/include/field_list/field_list_metadata.hpp 234-249, 310-313). -/
def lenDerivedIds (fs : List Field) : List String :=
  fs.filterMap fun
    | .plain _ k _ => k.lenTarget?
    | _ => none

/-- The ids `type_switch` unions match on
(`discriminant_derived_field_ids`, field_list_metadata.hpp 255-270, 315-318). -/
def discDerivedIds (fs : List Field) : List String :=
  fs.filterMap fun
    | .union _ (.matchField id _ _) _ _ => some id
    | _ => none

/-- `is_derived_field` (field_list_metadata.hpp 355-359). -/
def isDerived (fs : List Field) (id : String) : Bool :=
  (lenDerivedIds fs).contains id || (discDerivedIds fs).contains id

/-- What one field of the list implies for the slot `target`: a container its
size (`obligates`, derived_value.hpp 32-38), a switch union the label of the held
alternative (`discriminant_obligation::value_at`, 44-77). -/
def Field.implies (cfg : Cfg) (target : String) : Field → Val → Except Stuck (Option Nat)
  | .plain _ k _, v =>
      if k.lenTarget? = some target then
        match v.size? with
        | some n => .ok (some n)
        | none => .error .illTyped
      else .ok none
  | .union _ (.matchField id _ labels) _ _, .var i _ =>
      if id = target then
        match labels[i]? with
        | some l => .ok (some (cfg.toSz l.2))
        | none => .error .outOfBounds
      else .ok none
  | .union _ (.matchField id _ _) _ _, _ =>
      if id = target then .error .illTyped else .ok none
  | _, _ => .ok none

/-- The state of the scan in `derive_value::operator()` (derived_value.hpp 265-267). -/
structure Derivation where
  derived : Nat := 0
  seen : Bool := false
  agreed : Bool := true

/-- The lambda `record` (derived_value.hpp 269-274). -/
def Derivation.record (d : Derivation) (implied : Nat) : Derivation :=
  { derived := implied
    seen := true
    agreed := if d.seen && implied ≠ d.derived then false else d.agreed }

/-- The scan over all fields of the list (derived_value.hpp 276-282). -/
def deriveScan (cfg : Cfg) (target : String) :
    List Field → List Val → Derivation → Except Stuck Derivation
  | f :: fs, v :: vs, d =>
      match f.implies cfg target v with
      | .error w => .error w
      | .ok none => deriveScan cfg target fs vs d
      | .ok (some n) => deriveScan cfg target fs vs (d.record n)
  | _, _, d => .ok d

/-- `fits_declared_width` (derived_value.hpp 299-305). -/
def fitsDeclaredWidth (cfg : Cfg) (t : ScalarTy) (width v : Nat) : Bool :=
  (if width < cfg.szBytes then v >>> (width * 8) == 0 else true) &&
  cfg.toSz (t.conv v) == v

/-- `derive_value` (derived_value.hpp 251-306). -/
def deriveValue (cfg : Cfg) (fs : List Field) (vs : List Val) (target : String)
    (t : ScalarTy) (width : Nat) : Except Stuck (Except Reason Int) :=
  match deriveScan cfg target fs vs {} with
  | .error w => .error w
  | .ok d =>
      if !d.agreed then .ok (.error .foundContradictingLength)
      else if !fitsDeclaredWidth cfg t width d.derived then .ok (.error .validationFailure)
      else .ok (.ok (t.conv d.derived))

/-- `obligates<choice, target>` for some alternative
(`union_len_obligation::present`, derived_value.hpp 121). -/
def anyAltTargets (target : String) (alts : List Alt) : Bool :=
  alts.any fun a => decide (a.kind.lenTarget? = some target)

/-- `conditionally_obligates` or `union_len_obligation_of::present` for one field
(derived_value.hpp 103-109, 136-150). -/
def Field.condTargets (target : String) : Field → Bool
  | .maybe _ k _ => k.lenTarget? = some target
  | .union _ _ alts _ => anyAltTargets target alts
  | .plain _ _ _ => false

/-- `has_conditional_len_obligation` (derived_value.hpp 153-167). -/
def hasConditional (fs : List Field) (target : String) : Bool :=
  fs.any fun f => f.condTargets target

/-- Does one field agree with the value about to be written
(derived_value.hpp 186-199)? An optional counts when it is engaged and its
predicate holds; a union when the held alternative is a container sized by the
target (`union_len_obligation::agrees`, 123-133). -/
def Field.condAgrees (env : Env) (target : String) (onWire : Nat) : Field → Val → Except Stuck Bool
  | .maybe _ k p, v =>
      if k.lenTarget? = some target then
        match v with
        | .present w =>
            match p.eval env with
            | .error s => .error s
            | .ok false => .ok true
            | .ok true =>
                match w.size? with
                | some n => .ok (n == onWire)
                | none => .error .illTyped
        | .absent => .ok true
        | _ => .error .illTyped
      else .ok true
  | .union _ _ alts _, v =>
      if anyAltTargets target alts then
        match v with
        | .var i w =>
            match alts[i]? with
            | some a =>
                if a.kind.lenTarget? = some target then
                  match w.size? with
                  | some n => .ok (n == onWire)
                  | none => .error .illTyped
                else .ok true
            | none => .ok true
        | _ => .error .illTyped
      else .ok true
  | .plain _ _ _, _ => .ok true

/-- `verify_conditional_len` (derived_value.hpp 170-205): all fields are consulted. -/
def verifyScan (env : Env) (target : String) (onWire : Nat) :
    List Field → List Val → Except Stuck Bool
  | f :: fs, v :: vs =>
      match f.condAgrees env target onWire v, verifyScan env target onWire fs vs with
      | .ok a, .ok b => .ok (a && b)
      | .error w, _ => .error w
      | _, .error w => .error w
  | _, _ => .ok true

/-- `frozen_field_like` and `frozen_value_of` (/repo/include/field/field_traits.hpp
43-55): a fixed-size field constrained with `eq`, and its value converted to the
field's type. -/
def frozenVal (k : Kind) (c : Constraint) : Option Val :=
  match k, c with
  | .num t _, .cmp .eq _ v => some (.int (t.conv v))
  | .fbuf _ _, .arrCmp true v => some v
  | .fstr _, .strCmp true s => some (.seq (s.map .int))
  | .num _ _, .over u _ _ => u
  | .fbuf _ _, .over u _ _ => u
  | _, _ => none

/-! ### field_writer.hpp -/

/-- The list being written. -/
structure WCtx where
  fs : List Field
  vs : List Val

def WCtx.env (ctx : WCtx) : Env := envOf ctx.fs ctx.vs

/-- `write_impl` on a fixed-size value. -/
def emitFixed (cfg : Cfg) : Kind → Val → WrE Reason Unit
  | .num t w, .int x => writeNum cfg t w x
  | .fbuf e n, .seq vs => writeFixedBuf cfg e n vs
  | .fstr n, .seq vs => writeFixedStr n vs
  | _, _ => Wr.stuck .illTyped

/-- `verify_then_write` (field_writer.hpp 62-72). -/
def verifyThenWrite (cfg : Cfg) (ctx : WCtx) (id : String) (k : Kind) (v : Val) :
    WrE Reason Unit :=
  if hasConditional ctx.fs id then
    match v with
    | .int x =>
        (WrE.lift (verifyScan ctx.env id (cfg.toSz x) ctx.fs ctx.vs)).andThen fun agreed =>
        if agreed then emitFixed cfg k v else WrE.err .foundContradictingLength
    | _ => Wr.stuck .illTyped
  else emitFixed cfg k v

/-- `write_field<fixed_sized_field_like>::write` (field_writer.hpp 31-56). `member`:
is the field itself a member of the list (`is_frozen_target`,
derived_value.hpp 237-248), as opposed to the base of an optional or an
alternative of a union, which carry the same id. -/
def writeFixed (cfg : Cfg) (ctx : WCtx) (member : Bool) (id : String) (k : Kind)
    (c : Constraint) (v : Val) : WrE Reason Unit :=
  if isDerived ctx.fs id then
    match k with
    | .num t w =>
        (WrE.lift (deriveValue cfg ctx.fs ctx.vs id t w)).andThen fun
        | .error r => WrE.err r
        | .ok x =>
            (WrE.lift (c.check (.int x))).andThen fun b =>
            if b then verifyThenWrite cfg ctx id k (.int x)
            else WrE.err .validationFailure
    | _ => Wr.stuck .illTyped
  else
    match (if member then frozenVal k c else none) with
    | some fv => verifyThenWrite cfg ctx id k fv
    | none => verifyThenWrite cfg ctx id k v

/-- The check of a computed length against the container
(field_writer.hpp 86-92, 167-170). -/
def verifyComputed (cfg : Cfg) (env : Env) (len : LenSpec) (size : Nat) (k : WrE Reason Unit) :
    WrE Reason Unit :=
  match len with
  | .fromField _ => k
  | .computed _ =>
      (WrE.lift (len.eval cfg env)).andThen fun n =>
      if n ≠ size then WrE.err .foundContradictingLength else k

/-- Attach a field's name to an error (stream_cast_impl.hpp 42-45). -/
def WrE.tag (id : String) (r : WrE Reason α) : WrE CastError α :=
  r.mapErr fun e => ⟨e, id⟩

/-- `write_nested` (field_writer.hpp 107-113) drops the name again. -/
def WrE.untag (r : WrE CastError α) : WrE Reason α := r.mapErr CastError.reason

/-- `if(!constraint_checker(value)) return unexpected(validation_failure)`. -/
def WrE.checked (c : Constraint) (v : Val) (k : WrE Reason Unit) : WrE Reason Unit :=
  (WrE.lift (c.check v)).andThen fun b =>
  if b then k else WrE.err .validationFailure

/-- `is_frozen_target` for a field of the list itself (derived_value.hpp 237-248). -/
def Field.isFrozen : Field → Bool
  | .plain _ k c => (frozenVal k c).isSome
  | _ => false

/-- The loops over records (field_writer.hpp 144-149, 171-175), given
`stream_cast_impl` for the element type. -/
def writeRecs (one : List Val → WrE CastError Unit) : List Val → WrE Reason Unit
  | [] => WrE.ok ()
  | .seq ws :: vs => (one ws).untag.andThen fun _ => writeRecs one vs
  | _ :: _ => Wr.stuck .illTyped

mutual
/-- `write_field` of a `field` by kind: fixed (field_writer.hpp 23-73), variable
(75-97), record (115-128), array of records (130-151), vector of records
(153-178). -/
def writeKind (cfg : Cfg) (ctx : WCtx) (member : Bool) (id : String) (c : Constraint) :
    Kind → Val → WrE Reason Unit
  | .num t w, v => writeFixed cfg ctx member id (.num t w) c v
  | .fbuf e n, v => writeFixed cfg ctx member id (.fbuf e n) c v
  | .fstr n, v => writeFixed cfg ctx member id (.fstr n) c v
  | .vec e len _, .seq vs =>
      verifyComputed cfg ctx.env len vs.length (writeVec cfg e vs)
  | .record fs, .seq vs => (writeFields cfg ⟨fs, vs⟩ fs vs).untag
  | .arrRec fs n, .seq vs =>
      if vs.length ≠ n then Wr.stuck .illTyped
      else writeRecs (fun ws => writeFields cfg ⟨fs, ws⟩ fs ws) vs
  | .vecRec fs len _ _, .seq vs =>
      verifyComputed cfg ctx.env len vs.length
        (writeRecs (fun ws => writeFields cfg ⟨fs, ws⟩ fs ws) vs)
  | _, _ => Wr.stuck .illTyped
/-- `write_field` of a field of a list: `maybe_field` (field_writer.hpp 180-208),
`union_field` (253-285). -/
def writeField (cfg : Cfg) (ctx : WCtx) : Field → Val → WrE Reason Unit
  | .plain id k c, v => writeKind cfg ctx true id c k v
  | .maybe id k p, v =>
      (WrE.lift (p.eval ctx.env)).andThen fun b =>
      match v with
      | .present w =>
          if b then writeKind cfg ctx false id .none k w else WrE.err .validationFailure
      | .absent => if b then WrE.err .validationFailure else WrE.ok ()
      | _ => Wr.stuck .illTyped
  | .union id d alts _, v =>
      match v with
      | .var i w =>
          match d with
          | .matchField _ _ _ => writeAlts cfg ctx id alts i w
          | d =>
              (WrE.lift (d.eval ctx.env)).andThen fun
              | none => WrE.err .typeDeductionFailure
              | some j =>
                  if j ≠ i then WrE.err .validationFailure
                  else writeAlts cfg ctx id alts i w
      | _ => Wr.stuck .illTyped
/-- The fold over the alternatives (field_writer.hpp 211-251): only the held one
acts, checking its constraint before writing. A variant without a value (`variant_npos`,
no alternative) writes nothing there; the writer does not come to that, as the slot of its
label comes first and has none to find (C122). -/
def writeAlts (cfg : Cfg) (ctx : WCtx) (id : String) : List Alt → Nat → Val → WrE Reason Unit
  | [], _, _ => Wr.stuck .illTyped
  | .mk k c :: _, 0, w => WrE.checked c w (writeKind cfg ctx false id c k w)
  | _ :: alts, i + 1, w => writeAlts cfg ctx id alts i w
/-- `stream_cast_impl` (stream_cast_impl.hpp 20-49), the fold over the fields: the
constraint is checked first unless the writer ignores the stored value (34-39). -/
def writeFields (cfg : Cfg) (ctx : WCtx) : List Field → List Val → WrE CastError Unit
  | [], [] => WrE.ok ()
  | f :: fs, v :: vs =>
      ((if isDerived ctx.fs f.id || f.isFrozen then writeField cfg ctx f v
        else WrE.checked f.constraint v (writeField cfg ctx f v)).tag f.id).andThen fun _ =>
      writeFields cfg ctx fs vs
  | _, _ => Wr.stuck .illTyped
end

/-- `stream_cast_le`/`stream_cast_be` (/repo/include/api/stream_cast.hpp,
stream_cast_impl.hpp 20-49). -/
def streamCast (cfg : Cfg) (fs : List Field) (vs : List Val) : WrE CastError Unit :=
  writeFields cfg ⟨fs, vs⟩ fs vs

end S2S
