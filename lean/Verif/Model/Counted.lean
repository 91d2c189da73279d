import Verif.Model.Read
import Verif.Model.Write
/-
Arrays of records that are given a length. `is_array_of_record_field`
(/repo/include/field/field_traits.hpp 60-63) looks at the type of a field and not at its size, so
`field<id, std::array<L, N>, len_from_field<"n">, c>`, spelled by hand, is a field, with `N` records
and a length to take from `n`. (An array of anything else with such a size is no field: 16-31, 79-83.)
-/
namespace S2S

mutual
/-- The type of a `field` or of a type tag, with its size.
* `arrRec fs n len`: `std::array<L, n>`, of the size `len`; `none`: the size of the descriptors;
* `leaf k`: anything else that is not, or does not contain, such an array; the others as in `Kind`. -/
inductive CtKind
  | leaf (k : Kind)
  | record (fs : List CtField)
  | arrRec (fs : List CtField) (n : Nat) (len : Option LenSpec)
  | vecRec (fs : List CtField) (len : LenSpec) (bound : Option Nat) (sz : Nat)
inductive CtField
  | plain (id : String) (k : CtKind) (c : Constraint)
  | maybe (id : String) (k : CtKind) (p : Pred)
  | union (id : String) (d : Deducer) (alts : List CtAlt) (c : Constraint)
inductive CtAlt
  | mk (k : CtKind) (c : Constraint)
end

mutual
/-- The fields with every array of records as `arr` has it. -/
def CtKind.seen (arr : List Field → Nat → Option LenSpec → Kind) : CtKind → Kind
  | .leaf k => k
  | .record fs => .record (seenFields arr fs)
  | .arrRec fs n len => arr (seenFields arr fs) n len
  | .vecRec fs len bound sz => .vecRec (seenFields arr fs) len bound sz
def CtField.seen (arr : List Field → Nat → Option LenSpec → Kind) : CtField → Field
  | .plain id k c => .plain id (k.seen arr) c
  | .maybe id k p => .maybe id (k.seen arr) p
  | .union id d alts c => .union id d (seenAlts arr alts) c
def seenAlts (arr : List Field → Nat → Option LenSpec → Kind) : List CtAlt → List Alt
  | [] => []
  | .mk k c :: alts => .mk (k.seen arr) c :: seenAlts arr alts
def seenFields (arr : List Field → Nat → Option LenSpec → Kind) : List CtField → List Field
  | [] => []
  | f :: fs => f.seen arr :: seenFields arr fs
end

/-- Without the lengths: the arrays of the descriptors. -/
def plainArr (fs : List Field) (n : Nat) (_ : Option LenSpec) : Kind := .arrRec fs n

/-- As the scans for lengths see it (/repo/include/field_write/derived_value.hpp 20-30, 83-101,
113-150; /repo/include/field_list/field_list_metadata.hpp 234-247): they match a field by its size
and ask its value for `size()`, whatever its type. An array with `len_from_field` is to them what a
vector is; one with `len_from_fields` is nothing. The ceiling of that vector is for `n` records. -/
def countedArr (fs : List Field) (n : Nat) : Option LenSpec → Kind
  | some (.fromField s) => .vecRec fs (.fromField s) (some n) 1
  | _ => .arrRec fs n

abbrev asArrays (cs : List CtField) : List Field := seenFields plainArr cs
abbrev asVectors (cs : List CtField) : List Field := seenFields countedArr cs

/-! ### Reading -/

mutual
/-- `read_field` by kind. An array of records (/repo/include/field_read/field_reader.hpp 116-135):
`extract_size_from_array_v` records; `field_size` is not looked at. -/
def readCtKind (cfg : Cfg) (env : Env) : CtKind → RdE Reason Val
  | .leaf k => readKind cfg env k
  | .record fs =>
      ((readCtFields cfg (dfltEnv (asArrays fs)) fs).untag).mapOk .seq
  | .arrRec fs n _ =>
      (repeatE (((readCtFields cfg (dfltEnv (asArrays fs)) fs).untag).mapOk .seq) n).mapOk .seq
  | .vecRec fs len bound sz =>
      (RdE.lift (len.eval cfg env)).andThen fun n =>
      match checkedByteCount cfg sz (ceilingOf cfg bound) n with
      | .error r => RdE.err r
      | .ok _ =>
        resize cfg (n * sz)
          ((repeatE (((readCtFields cfg (dfltEnv (asArrays fs)) fs).untag).mapOk .seq) n).mapOk .seq)
/-- `read_field` of an optional (field_reader.hpp 195-218) and of a union (283-316). -/
def readCtField (cfg : Cfg) (env : Env) : CtField → RdE Reason Val
  | .plain _ k _ => readCtKind cfg env k
  | .maybe _ k p =>
      (RdE.lift (p.eval env)).andThen fun b =>
      if b then (readCtKind cfg env k).mapOk .present else RdE.ok .absent
  | .union _ d alts _ =>
      (RdE.lift (d.eval env)).andThen fun
      | none => RdE.err .typeDeductionFailure
      | some i =>
        (readCtAlts cfg env alts i).mapOk fun
        | none => .var 0 (Alt.dfltFirst (seenAlts plainArr alts))
        | some v => .var i v
/-- The fold over the alternatives (field_reader.hpp 223-280). -/
def readCtAlts (cfg : Cfg) (env : Env) : List CtAlt → Nat → RdE Reason (Option Val)
  | [], _ => RdE.ok none
  | .mk k c :: _, 0 =>
      (readCtKind cfg env k).andThen fun v => (RdE.checked c v).mapOk some
  | _ :: alts, i + 1 => readCtAlts cfg env alts i
/-- The fold of `struct_cast_impl` (/repo/include/cast/struct_cast_impl.hpp 21-50). -/
def readCtFields (cfg : Cfg) (env : Env) : List CtField → RdE CastError (List Val)
  | [] => RdE.ok []
  | f :: fs =>
      (((readCtField cfg env f).andThen fun v =>
        RdE.checked (f.seen plainArr).constraint v).tag (f.seen plainArr).id).andThen fun v =>
      (readCtFields cfg (env.set (f.seen plainArr).id v) fs).andThen fun vs => RdE.ok (v :: vs)
end

/-- `struct_cast_le`/`struct_cast_be` of such a list. -/
def structCastCt (cfg : Cfg) (cs : List CtField) : RdE CastError (List Val) :=
  readCtFields cfg (dfltEnv (asArrays cs)) cs

/-! ### Writing -/

mutual
/-- `write_field` by kind. An array of records (/repo/include/field_write/field_writer.hpp 130-151):
its records; `field_size` is not looked at, computed or not. -/
def writeCtKind (cfg : Cfg) (ctx : WCtx) (member : Bool) (id : String) (c : Constraint) :
    CtKind → Val → WrE Reason Unit
  | .leaf k, v => writeKind cfg ctx member id c k v
  | .record fs, .seq vs => (writeCtFields cfg ⟨asVectors fs, vs⟩ fs vs).untag
  | .arrRec fs n _, .seq vs =>
      if vs.length ≠ n then Wr.stuck .illTyped
      else writeRecs (fun ws => writeCtFields cfg ⟨asVectors fs, ws⟩ fs ws) vs
  | .vecRec fs len _ _, .seq vs =>
      verifyComputed cfg ctx.env len vs.length
        (writeRecs (fun ws => writeCtFields cfg ⟨asVectors fs, ws⟩ fs ws) vs)
  | _, _ => Wr.stuck .illTyped
/-- `write_field` of an optional (field_writer.hpp 180-208) and of a union (253-285). -/
def writeCtField (cfg : Cfg) (ctx : WCtx) : CtField → Val → WrE Reason Unit
  | .plain id k c, v => writeCtKind cfg ctx true id c k v
  | .maybe id k p, v =>
      (WrE.lift (p.eval ctx.env)).andThen fun b =>
      match v with
      | .present w =>
          if b then writeCtKind cfg ctx false id .none k w else WrE.err .validationFailure
      | .absent => if b then WrE.err .validationFailure else WrE.ok ()
      | _ => Wr.stuck .illTyped
  | .union id d alts _, v =>
      match v with
      | .var i w =>
          match d with
          | .matchField _ _ _ => writeCtAlts cfg ctx id alts i w
          | d =>
              (WrE.lift (d.eval ctx.env)).andThen fun
              | none => WrE.err .typeDeductionFailure
              | some j =>
                  if j ≠ i then WrE.err .validationFailure
                  else writeCtAlts cfg ctx id alts i w
      | _ => Wr.stuck .illTyped
/-- The fold over the alternatives (field_writer.hpp 211-251). -/
def writeCtAlts (cfg : Cfg) (ctx : WCtx) (id : String) : List CtAlt → Nat → Val → WrE Reason Unit
  | [], _, _ => Wr.stuck .illTyped
  | .mk k c :: _, 0, w => WrE.checked c w (writeCtKind cfg ctx false id c k w)
  | _ :: alts, i + 1, w => writeCtAlts cfg ctx id alts i w
/-- The fold of `stream_cast_impl` (/repo/include/cast/stream_cast_impl.hpp 20-49). -/
def writeCtFields (cfg : Cfg) (ctx : WCtx) : List CtField → List Val → WrE CastError Unit
  | [], [] => WrE.ok ()
  | f :: fs, v :: vs =>
      ((if isDerived ctx.fs (f.seen countedArr).id || (f.seen countedArr).isFrozen then
          writeCtField cfg ctx f v
        else WrE.checked (f.seen countedArr).constraint v (writeCtField cfg ctx f v)).tag
          (f.seen countedArr).id).andThen fun _ =>
      writeCtFields cfg ctx fs vs
  | _, _ => Wr.stuck .illTyped
end

/-- `stream_cast_le`/`stream_cast_be` of such a list. -/
def streamCastCt (cfg : Cfg) (cs : List CtField) (vs : List Val) : WrE CastError Unit :=
  writeCtFields cfg ⟨asVectors cs, vs⟩ cs vs

end S2S
