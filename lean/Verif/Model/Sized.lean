import Verif.Model.Counted
/-
Records that are given a size, and vectors of records that are given no length. What a record is, an
array or a vector of records is told by the type of a field and not by its size
(/repo/include/field/field_traits.hpp 57-74, 100-133), so `field<id, struct_field_list<...>, len_from_field<"n">, c>`
and `field<id, std::vector<struct_field_list<...>>, field_size<fixed<4>>, c>`, spelled by hand, are
fields. Which casts compile for them: Model/Inst.
-/
namespace S2S

mutual
/-- The type of a `field` or of a type tag, with its size.
* `record fs len`: a record; `some len`: with that length; `none`: any other size;
* `bare fs`: a vector of records of a size that is no length;
* `arrRec`: an array of records, of any size, as in Model/Counted;
* `vecRec`: a vector of records with a length, as the descriptors have it;
* `leaf k`: anything else that is not, or does not contain, one of these. -/
inductive SzKind
  | leaf (k : Kind)
  | record (fs : List SzField) (len : Option LenSpec)
  | arrRec (fs : List SzField) (n : Nat) (len : Option LenSpec)
  | vecRec (fs : List SzField) (len : LenSpec) (bound : Option Nat) (sz : Nat)
  | bare (fs : List SzField)
inductive SzField
  | plain (id : String) (k : SzKind) (c : Constraint)
  | maybe (id : String) (k : SzKind) (p : Pred)
  | union (id : String) (d : Deducer) (alts : List SzAlt) (c : Constraint)
inductive SzAlt
  | mk (k : SzKind) (c : Constraint)
end

def SzField.id : SzField → String
  | .plain id _ _ => id
  | .maybe id _ _ => id
  | .union id _ _ _ => id

/-- The fields of a record, if it is one. -/
def Val.members : Val → List Val
  | .seq vs => vs
  | _ => []

/-- What an optional holds, if anything. -/
def Val.held : Val → Val
  | .present v => v
  | v => v

mutual
/-- The fields without these sizes, for a struct: records without a size, and in the place of
a vector without a length the array of as many records as the struct has there. -/
def SzKind.as : SzKind → Val → CtKind
  | .leaf k, _ => .leaf k
  | .record fs _, v => .record (asFields fs v.members)
  | .arrRec fs n len, _ => .arrRec (asFields fs []) n len
  | .vecRec fs len bound sz, _ => .vecRec (asFields fs []) len bound sz
  | .bare fs, v => .arrRec (asFields fs []) v.members.length none
def SzField.as : SzField → Val → CtField
  | .plain id k c, v => .plain id (k.as v) c
  | .maybe id k p, v => .maybe id (k.as v.held) p
  | .union id d alts c, v =>
      match v with
      | .var i w => .union id d (asAlts alts i w) c
      | _ => .union id d (asAlts alts alts.length .absent) c
/-- Alternative `i` for `w`, the others for nothing. -/
def asAlts : List SzAlt → Nat → Val → List CtAlt
  | [], _, _ => []
  | .mk k c :: alts, 0, w => .mk (k.as w) c :: asAlts alts alts.length .absent
  | .mk k c :: alts, i + 1, w => .mk (k.as .absent) c :: asAlts alts i w
def asFields : List SzField → List Val → List CtField
  | [], _ => []
  | f :: fs, vs => f.as (vs.headD .absent) :: asFields fs vs.tail
end

/-! ### Reading -/

mutual
/-- `read_field` by kind. A record (/repo/include/field_read/field_reader.hpp 173-192): its fields;
the size is not looked at. A vector without a length is not read: `deduce_field_size` (147) does not
compile. -/
def readSzKind (cfg : Cfg) (env : Env) : SzKind → RdE Reason Val
  | .leaf k => readKind cfg env k
  | .record fs _ =>
      ((readSzFields cfg (dfltEnv (asArrays (asFields fs []))) fs).untag).mapOk .seq
  | .arrRec fs n _ =>
      (repeatE (((readSzFields cfg (dfltEnv (asArrays (asFields fs []))) fs).untag).mapOk .seq) n).mapOk .seq
  | .vecRec fs len bound sz =>
      (RdE.lift (len.eval cfg env)).andThen fun n =>
      match checkedByteCount cfg sz (ceilingOf cfg bound) n with
      | .error r => RdE.err r
      | .ok _ =>
        resize cfg (n * sz)
          ((repeatE (((readSzFields cfg (dfltEnv (asArrays (asFields fs []))) fs).untag).mapOk .seq) n).mapOk .seq)
  | .bare _ => Rd.stuck .illTyped
/-- `read_field` of an optional (field_reader.hpp 195-218) and of a union (283-316). -/
def readSzField (cfg : Cfg) (env : Env) : SzField → RdE Reason Val
  | .plain _ k _ => readSzKind cfg env k
  | .maybe _ k p =>
      (RdE.lift (p.eval env)).andThen fun b =>
      if b then (readSzKind cfg env k).mapOk .present else RdE.ok .absent
  | .union _ d alts _ =>
      (RdE.lift (d.eval env)).andThen fun
      | none => RdE.err .typeDeductionFailure
      | some i =>
        (readSzAlts cfg env alts i).mapOk fun
        | none => .var 0 (Alt.dfltFirst (seenAlts plainArr (asAlts alts alts.length .absent)))
        | some v => .var i v
/-- The fold over the alternatives (field_reader.hpp 223-280). -/
def readSzAlts (cfg : Cfg) (env : Env) : List SzAlt → Nat → RdE Reason (Option Val)
  | [], _ => RdE.ok none
  | .mk k c :: _, 0 =>
      (readSzKind cfg env k).andThen fun v => (RdE.checked c v).mapOk some
  | _ :: alts, i + 1 => readSzAlts cfg env alts i
/-- The fold of `struct_cast_impl` (/repo/include/cast/struct_cast_impl.hpp 21-50). -/
def readSzFields (cfg : Cfg) (env : Env) : List SzField → RdE CastError (List Val)
  | [] => RdE.ok []
  | f :: fs =>
      (((readSzField cfg env f).andThen fun v =>
        RdE.checked ((f.as .absent).seen plainArr).constraint v).tag f.id).andThen fun v =>
      (readSzFields cfg (env.set f.id v) fs).andThen fun vs => RdE.ok (v :: vs)
end

/-- `struct_cast_le`/`struct_cast_be` of such a list. -/
def structCastSz (cfg : Cfg) (cs : List SzField) : RdE CastError (List Val) :=
  readSzFields cfg (dfltEnv (asArrays (asFields cs []))) cs

/-! ### Writing -/

def SzKind.lenOfRecord : SzKind → Option String
  | .record _ (some (.fromField s)) => some s
  | _ => none

/-- What the fields take the lengths of records in optionals and alternatives from. -/
def recordLens : List SzField → List String
  | [] => []
  | .plain _ _ _ :: fs => recordLens fs
  | .maybe _ k _ :: fs => k.lenOfRecord.toList ++ recordLens fs
  | .union _ _ alts _ :: fs =>
      alts.filterMap (fun | .mk k _ => k.lenOfRecord) ++ recordLens fs

/-- The list that is written: the fields as spelled, as the scans for lengths see them (`asVectors`), and the
struct. -/
structure SzCtx where
  cs : List SzField
  base : WCtx

def Kind.isFixedSized : Kind → Bool
  | .num _ _ => true
  | .fbuf _ _ => true
  | .fstr _ => true
  | _ => false

mutual
/-- `write_field` by kind. A record (/repo/include/field_write/field_writer.hpp 115-128): its fields;
the size is not looked at. A vector of records (153-178): its records; the size is not looked at
unless it is computed. What does not compile is `illTyped`: a record with a length from a field that
is a `member` of its own, since the field is to be derived from the `size()` of the record
(/repo/include/field_write/derived_value.hpp 276-282); and something of fixed size from which the
length of a record in an optional or an alternative is taken, for the same reason (170-205,
118-136). -/
def writeSzKind (cfg : Cfg) (ctx : SzCtx) (member : Bool) (id : String) (c : Constraint) :
    SzKind → Val → WrE Reason Unit
  | .leaf k, v =>
      if k.isFixedSized && (recordLens ctx.cs).contains id then Wr.stuck .illTyped
      else writeKind cfg ctx.base member id c k v
  | .record fs len, .seq vs =>
      match len with
      | some (.fromField _) =>
          if member then Wr.stuck .illTyped
          else (writeSzFields cfg ⟨fs, asVectors (asFields fs vs), vs⟩ fs vs).untag
      | _ => (writeSzFields cfg ⟨fs, asVectors (asFields fs vs), vs⟩ fs vs).untag
  | .arrRec fs n _, .seq vs =>
      if vs.length ≠ n then Wr.stuck .illTyped
      else writeRecs (fun ws => writeSzFields cfg ⟨fs, asVectors (asFields fs ws), ws⟩ fs ws) vs
  | .vecRec fs len _ _, .seq vs =>
      verifyComputed cfg ctx.base.env len vs.length
        (writeRecs (fun ws => writeSzFields cfg ⟨fs, asVectors (asFields fs ws), ws⟩ fs ws) vs)
  | .bare fs, .seq vs => writeRecs (fun ws => writeSzFields cfg ⟨fs, asVectors (asFields fs ws), ws⟩ fs ws) vs
  | _, _ => Wr.stuck .illTyped
/-- `write_field` of an optional (field_writer.hpp 180-208) and of a union (253-285). -/
def writeSzField (cfg : Cfg) (ctx : SzCtx) : SzField → Val → WrE Reason Unit
  | .plain id k c, v => writeSzKind cfg ctx true id c k v
  | .maybe id k p, v =>
      (WrE.lift (p.eval ctx.base.env)).andThen fun b =>
      match v with
      | .present w =>
          if b then writeSzKind cfg ctx false id .none k w else WrE.err .validationFailure
      | .absent => if b then WrE.err .validationFailure else WrE.ok ()
      | _ => Wr.stuck .illTyped
  | .union id d alts _, v =>
      match v with
      | .var i w =>
          match d with
          | .matchField _ _ _ => writeSzAlts cfg ctx id alts i w
          | d =>
              (WrE.lift (d.eval ctx.base.env)).andThen fun
              | none => WrE.err .typeDeductionFailure
              | some j =>
                  if j ≠ i then WrE.err .validationFailure
                  else writeSzAlts cfg ctx id alts i w
      | _ => Wr.stuck .illTyped
/-- The fold over the alternatives (field_writer.hpp 211-251). -/
def writeSzAlts (cfg : Cfg) (ctx : SzCtx) (id : String) : List SzAlt → Nat → Val → WrE Reason Unit
  | [], _, _ => Wr.stuck .illTyped
  | .mk k c :: _, 0, w => WrE.checked c w (writeSzKind cfg ctx false id c k w)
  | _ :: alts, i + 1, w => writeSzAlts cfg ctx id alts i w
/-- The fold of `stream_cast_impl` (/repo/include/cast/stream_cast_impl.hpp 20-49). -/
def writeSzFields (cfg : Cfg) (ctx : SzCtx) : List SzField → List Val → WrE CastError Unit
  | [], [] => WrE.ok ()
  | f :: fs, v :: vs =>
      ((if isDerived ctx.base.fs f.id || ((f.as v).seen countedArr).isFrozen then writeSzField cfg ctx f v
        else WrE.checked ((f.as v).seen countedArr).constraint v (writeSzField cfg ctx f v)).tag f.id).andThen fun _ =>
      writeSzFields cfg ctx fs vs
  | _, _ => Wr.stuck .illTyped
end

/-- `stream_cast_le`/`stream_cast_be` of such a list. -/
def streamCastSz (cfg : Cfg) (cs : List SzField) (vs : List Val) : WrE CastError Unit :=
  writeSzFields cfg ⟨cs, asVectors (asFields cs vs), vs⟩ cs vs

end S2S
