import Verif.Model.Hand
import Verif.Model.Vacant
/-
Lists with fields spelled by hand at any depth: fields of fixed size whose byte count need not be
the size of the type (Model/Hand), optionals whose base has a constraint (Model/Guarded), and arrays
and vectors whose elements have no elements (Model/Vacant), among the members of records, in
optionals and among the alternatives of unions.
-/
namespace S2S

mutual
/-- The type of a `field` or of a type tag, with its size.
* `fixed t k`: `field<id, T, byte_count{k}, c>`; the descriptors have `k = sizeof(T)`;
* `hollowArr n size`, `hollowVec size len bound`: elements of `size` bytes without elements;
* the others as in `Kind`. -/
inductive SpKind
  | fixed (t : FixedTy) (k : Nat)
  | hollowArr (n size : Nat)
  | vec (e : ElemTy) (len : LenSpec) (bound : Option Nat)
  | hollowVec (size : Nat) (len : LenSpec) (bound : Option Nat)
  | record (fs : List SpField)
  | arrRec (fs : List SpField) (n : Nat)
  | vecRec (fs : List SpField) (len : LenSpec) (bound : Option Nat) (sz : Nat)
/-- A field of a list. The base of an optional may have a constraint. -/
inductive SpField
  | plain (id : String) (k : SpKind) (c : Constraint)
  | maybe (id : String) (k : SpKind) (c : Constraint) (p : Pred)
  | union (id : String) (d : Deducer) (alts : List SpAlt) (c : Constraint)
inductive SpAlt
  | mk (k : SpKind) (c : Constraint)
end

mutual
/-- The field of the descriptors with the same name, type and constraint; of elements without
elements, with bytes in the place of their storage. -/
def SpKind.usual : SpKind → Kind
  | .fixed (.num s) k => .num s k
  | .fixed t _ => t.kind
  | .hollowArr n size => .fbuf (.arr (.scalar u8) size) n
  | .vec e len bound => .vec e len bound
  | .hollowVec size len bound => .vec (.arr (.scalar u8) size) len bound
  | .record fs => .record (usualFields fs)
  | .arrRec fs n => .arrRec (usualFields fs) n
  | .vecRec fs len bound sz => .vecRec (usualFields fs) len bound sz
def SpField.usual : SpField → Field
  | .plain id k c => .plain id k.usual c
  | .maybe id k _ p => .maybe id k.usual p
  | .union id d alts c => .union id d (usualAlts alts) c
def usualAlts : List SpAlt → List Alt
  | [] => []
  | .mk k c :: alts => .mk k.usual c :: usualAlts alts
def usualFields : List SpField → List Field
  | [] => []
  | f :: fs => f.usual :: usualFields fs
end

/-! ### Reading -/

mutual
/-- `read_field` by kind (/repo/include/field_read/field_reader.hpp 21-52, 116-191). -/
def readSpKind (cfg : Cfg) (env : Env) : SpKind → RdE Reason Val
  | .fixed t k => readCount cfg k t
  | .hollowArr n size => readVacant cfg env (.array "" n size)
  | .vec e len bound =>
      (RdE.lift (len.eval cfg env)).andThen fun n =>
      readVec cfg e (ceilingOf cfg bound) n
  | .hollowVec size len bound => readVacant cfg env (.vector "" size len bound)
  | .record fs =>
      ((readSpFields cfg (dfltEnv (usualFields fs)) fs).untag).mapOk .seq
  | .arrRec fs n =>
      (repeatE (((readSpFields cfg (dfltEnv (usualFields fs)) fs).untag).mapOk .seq) n).mapOk .seq
  | .vecRec fs len bound sz =>
      (RdE.lift (len.eval cfg env)).andThen fun n =>
      match checkedByteCount cfg sz (ceilingOf cfg bound) n with
      | .error r => RdE.err r
      | .ok _ =>
        resize cfg (n * sz)
          ((repeatE (((readSpFields cfg (dfltEnv (usualFields fs)) fs).untag).mapOk .seq) n).mapOk .seq)
/-- `read_field` of an optional (field_reader.hpp 195-218), which does not look at the constraint of
the base, and of a union (283-316). -/
def readSpField (cfg : Cfg) (env : Env) : SpField → RdE Reason Val
  | .plain _ k _ => readSpKind cfg env k
  | .maybe _ k _ p =>
      (RdE.lift (p.eval env)).andThen fun b =>
      if b then (readSpKind cfg env k).mapOk .present else RdE.ok .absent
  | .union _ d alts _ =>
      (RdE.lift (d.eval env)).andThen fun
      | none => RdE.err .typeDeductionFailure
      | some i =>
        (readSpAlts cfg env alts i).mapOk fun
        | none => .var 0 (Alt.dfltFirst (usualAlts alts))
        | some v => .var i v
/-- The fold over the alternatives (field_reader.hpp 223-280). -/
def readSpAlts (cfg : Cfg) (env : Env) : List SpAlt → Nat → RdE Reason (Option Val)
  | [], _ => RdE.ok none
  | .mk k c :: _, 0 =>
      (readSpKind cfg env k).andThen fun v => (RdE.checked c v).mapOk some
  | _ :: alts, i + 1 => readSpAlts cfg env alts i
/-- The fold of `struct_cast_impl` (/repo/include/cast/struct_cast_impl.hpp 21-50). -/
def readSpFields (cfg : Cfg) (env : Env) : List SpField → RdE CastError (List Val)
  | [] => RdE.ok []
  | f :: fs =>
      (((readSpField cfg env f).andThen fun v =>
        RdE.checked f.usual.constraint v).tag f.usual.id).andThen fun v =>
      (readSpFields cfg (env.set f.usual.id v) fs).andThen fun vs => RdE.ok (v :: vs)
end

/-- `struct_cast_le`/`struct_cast_be` of such a list. -/
def structCastSp (cfg : Cfg) (fs : List SpField) : RdE CastError (List Val) :=
  readSpFields cfg (dfltEnv (usualFields fs)) fs

/-! ### Writing -/

/-- `verify_then_write` (/repo/include/field_write/field_writer.hpp 62-72), given how the value is
written. -/
def verifyThenEmit (cfg : Cfg) (ctx : WCtx) (id : String) (emit : Val → WrE Reason Unit) (v : Val) :
    WrE Reason Unit :=
  if hasConditional ctx.fs id then
    match v with
    | .int x =>
        (WrE.lift (verifyScan ctx.env id (cfg.toSz x) ctx.fs ctx.vs)).andThen fun agreed =>
        if agreed then emit v else WrE.err .foundContradictingLength
    | _ => Wr.stuck .illTyped
  else emit v

/-- `write_field<fixed_sized_field_like>::write` (field_writer.hpp 31-56), given how the value is
written; `k` is the usual kind. -/
def writeSpFixed (cfg : Cfg) (ctx : WCtx) (member : Bool) (id : String) (k : Kind)
    (c : Constraint) (emit : Val → WrE Reason Unit) (v : Val) : WrE Reason Unit :=
  if isDerived ctx.fs id then
    match k with
    | .num t w =>
        (WrE.lift (deriveValue cfg ctx.fs ctx.vs id t w)).andThen fun
        | .error r => WrE.err r
        | .ok x =>
            (WrE.lift (c.check (.int x))).andThen fun b =>
            if b then verifyThenEmit cfg ctx id emit (.int x)
            else WrE.err .validationFailure
    | _ => Wr.stuck .illTyped
  else
    match (if member then frozenVal k c else none) with
    | some fv => verifyThenEmit cfg ctx id emit fv
    | none => verifyThenEmit cfg ctx id emit v

/-- `write_impl` of an array of elements without elements (Model/Vacant). -/
def emitHollow (cfg : Cfg) (n size : Nat) : Val → WrE Reason Unit
  | .seq vs => if vs.length ≠ n then Wr.stuck .illTyped else writeStorage cfg size (n * size) vs
  | _ => Wr.stuck .illTyped

/-- `write_impl` of a vector of them. On a constexpr stream in host order it goes through the
elements (/repo/include/field_write/write_impl.hpp 37-51). -/
def writeHollowVec (cfg : Cfg) (size : Nat) (vs : List Val) : WrE Reason Unit :=
  if cfg.foreign then WrE.all (vs.map fun _ => WrE.all [])
  else if cfg.constexprStream then WrE.all (vs.map fun _ => Wr.stuck .invalidValue)
  else writeNative (storageBytes size vs) (vs.length * size % cfg.szMod)

mutual
/-- `write_field` by kind (field_writer.hpp 23-178). -/
def writeSpKind (cfg : Cfg) (ctx : WCtx) (member : Bool) (id : String) (c : Constraint) :
    SpKind → Val → WrE Reason Unit
  | .fixed t k, v => writeSpFixed cfg ctx member id (SpKind.fixed t k).usual c (writeCount cfg k t) v
  | .hollowArr n size, v =>
      writeSpFixed cfg ctx member id (SpKind.hollowArr n size).usual c (emitHollow cfg n size) v
  | .vec e len _, .seq vs =>
      verifyComputed cfg ctx.env len vs.length (writeVec cfg e vs)
  | .hollowVec size len _, .seq vs =>
      verifyComputed cfg ctx.env len vs.length (writeHollowVec cfg size vs)
  | .record fs, .seq vs => (writeSpFields cfg ⟨usualFields fs, vs⟩ fs vs).untag
  | .arrRec fs n, .seq vs =>
      if vs.length ≠ n then Wr.stuck .illTyped
      else writeRecs (fun ws => writeSpFields cfg ⟨usualFields fs, ws⟩ fs ws) vs
  | .vecRec fs len _ _, .seq vs =>
      verifyComputed cfg ctx.env len vs.length
        (writeRecs (fun ws => writeSpFields cfg ⟨usualFields fs, ws⟩ fs ws) vs)
  | _, _ => Wr.stuck .illTyped
/-- `write_field` of an optional (field_writer.hpp 180-208): presence, then the constraint of the
base on what it holds (204); of a union (253-285). -/
def writeSpField (cfg : Cfg) (ctx : WCtx) : SpField → Val → WrE Reason Unit
  | .plain id k c, v => writeSpKind cfg ctx true id c k v
  | .maybe id k c p, v =>
      (WrE.lift (p.eval ctx.env)).andThen fun b =>
      match v with
      | .present w =>
          if b then WrE.checked c w (writeSpKind cfg ctx false id c k w) else WrE.err .validationFailure
      | .absent => if b then WrE.err .validationFailure else WrE.ok ()
      | _ => Wr.stuck .illTyped
  | .union id d alts _, v =>
      match v with
      | .var i w =>
          match d with
          | .matchField _ _ _ => writeSpAlts cfg ctx id alts i w
          | d =>
              (WrE.lift (d.eval ctx.env)).andThen fun
              | none => WrE.err .typeDeductionFailure
              | some j =>
                  if j ≠ i then WrE.err .validationFailure
                  else writeSpAlts cfg ctx id alts i w
      | _ => Wr.stuck .illTyped
/-- The fold over the alternatives (field_writer.hpp 211-251). -/
def writeSpAlts (cfg : Cfg) (ctx : WCtx) (id : String) : List SpAlt → Nat → Val → WrE Reason Unit
  | [], _, _ => Wr.stuck .illTyped
  | .mk k c :: _, 0, w => WrE.checked c w (writeSpKind cfg ctx false id c k w)
  | _ :: alts, i + 1, w => writeSpAlts cfg ctx id alts i w
/-- The fold of `stream_cast_impl` (/repo/include/cast/stream_cast_impl.hpp 20-49). The scans of
derived_value.hpp see of a field its name, its kind of length and how many elements it has: `ctx` is
of the usual fields. -/
def writeSpFields (cfg : Cfg) (ctx : WCtx) : List SpField → List Val → WrE CastError Unit
  | [], [] => WrE.ok ()
  | f :: fs, v :: vs =>
      ((if isDerived ctx.fs f.usual.id || f.usual.isFrozen then writeSpField cfg ctx f v
        else WrE.checked f.usual.constraint v (writeSpField cfg ctx f v)).tag f.usual.id).andThen fun _ =>
      writeSpFields cfg ctx fs vs
  | _, _ => Wr.stuck .illTyped
end

/-- `stream_cast_le`/`stream_cast_be` of such a list. -/
def streamCastSp (cfg : Cfg) (fs : List SpField) (vs : List Val) : WrE CastError Unit :=
  writeSpFields cfg ⟨usualFields fs, vs⟩ fs vs

end S2S
