import Verif.Model.Write
/-
The casts with the user's code as a party of its own.

In Model/Read and Model/Write a callable is a function. Here every call of user code is
an event: a predicate or a computation
(/repo/include/field_compute/computation_from_fields_impl.hpp 61) or a functor given as a
constraint (`fields::constraint_checker`, /repo/include/cast/struct_cast_impl.hpp 38,
/repo/include/cast/stream_cast_impl.hpp 35, /repo/include/field_read/field_reader.hpp 249,
/repo/include/field_write/field_writer.hpp 41, 228). The answer comes from outside. It may
be another one when the same question is asked again, it may depend on and change
anything, the stream included, and there may be none: the call throws, or never returns.
Streams may throw as well. The functions in the schema serve as names of the callables.

Not events: the constraints of the library, which are given with their values.
Simplified: an answer is an integer; where a `bool` is asked for, everything but 0 counts
as true, as in the conversion to `R` (computation_from_fields_impl.hpp 60).
-/
namespace S2S

/-- A call of user code. -/
inductive Call where
  /-- the predicate of an optional or of a branch, with the values of the fields it names -/
  | pred (p : Pred) (args : List Val)
  /-- a computation -/
  | calc (c : Calc) (args : List Val)
  /-- a functor as constraint -/
  | check (f : Val → Bool) (v : Val)

/-- A computation that reads, writes and calls user code. -/
inductive Act (α : Type) where
  | ret (a : α)
  | stuck (w : Stuck)
  | read (n : Nat) (k : Option (List Byte) → Act α)
  | write (bs : List Byte) (k : Bool → Act α)
  | alloc (bytes : Nat) (k : Act α)
  | call (c : Call) (k : Int → Act α)

namespace Act

def bind : Act α → (α → Act β) → Act β
  | ret a, f => f a
  | stuck w, _ => stuck w
  | read n k, f => read n fun o => (k o).bind f
  | write bs k, f => write bs fun b => (k b).bind f
  | alloc b k, f => alloc b (k.bind f)
  | call c k, f => call c fun a => (k a).bind f

/-- A computation that only reads. -/
def ofRd : Rd α → Act α
  | .ret a => ret a
  | .stuck w => stuck w
  | .read n k => read n fun o => ofRd (k o)
  | .alloc b k => alloc b (ofRd k)

/-- A computation that only writes. -/
def ofWr : Wr α → Act α
  | .ret a => ret a
  | .stuck w => stuck w
  | .write bs k => write bs fun b => ofWr (k b)

end Act

abbrev ActE (ε α : Type) := Act (Except ε α)

namespace ActE

def ok (a : α) : ActE ε α := Act.ret (.ok a)
def err (e : ε) : ActE ε α := Act.ret (.error e)

def andThen (r : ActE ε α) (f : α → ActE ε β) : ActE ε β :=
  Act.bind r fun
    | .ok a => f a
    | .error e => .ret (.error e)

def mapErr (g : ε → ε') (r : ActE ε α) : ActE ε' α :=
  Act.bind r fun
    | .ok a => .ret (.ok a)
    | .error e => .ret (.error (g e))

def mapOk (g : α → β) (r : ActE ε α) : ActE ε β := r.andThen fun a => ok (g a)

def lift : Except Stuck α → ActE ε α
  | .ok a => ok a
  | .error w => Act.stuck w

def tag (id : String) (r : ActE Reason α) : ActE CastError α := r.mapErr fun e => ⟨e, id⟩
def untag (r : ActE CastError α) : ActE Reason α := r.mapErr CastError.reason

def ofRd (r : RdE ε α) : ActE ε α := Act.ofRd r
def ofWr (r : WrE ε α) : ActE ε α := Act.ofWr r

end ActE

/-! ### Asking -/

/-- `compute_impl` for a predicate (computation_from_fields_impl.hpp 52-63). -/
def askPred (env : Env) (p : Pred) : ActE ε Bool :=
  match env.getAll p.ids with
  | some vs => .call (.pred p vs) fun a => ActE.ok (a != 0)
  | none => .stuck .illTyped

/-- `compute_impl` for a computation. -/
def askCalc (env : Env) (c : Calc) : ActE ε Int :=
  match env.getAll c.ids with
  | some vs => .call (.calc c vs) fun a => ActE.ok a
  | none => .stuck .illTyped

/-- `deduce_field_size` (/repo/include/field_size/field_size_deduce.hpp 17-38). -/
def askLen (cfg : Cfg) (env : Env) : LenSpec → ActE ε Nat
  | .fromField id => ActE.lift ((LenSpec.fromField id).eval cfg env)
  | .computed c => (askCalc env c).andThen fun x => ActE.ok (cfg.toSz x)

/-- `evaluate_ladder` (/repo/include/type_deduction/if_else_ladder/ladder_impl.hpp 31-63):
branches after the first that holds are not asked. -/
def askLadder (env : Env) : List Pred → ActE ε (Option Nat)
  | [] => ActE.ok none
  | p :: ps =>
      (askPred env p).andThen fun b =>
      if b then ActE.ok (some 0) else (askLadder env ps).mapOk fun o => o.map (· + 1)

/-- `deduce_type` (/repo/include/type_deduction/type/type_impl.hpp 19-46). -/
def askDeducer (env : Env) : Deducer → ActE ε (Option Nat)
  | .matchField id t labels => ActE.lift ((Deducer.matchField id t labels).eval env)
  | .matchCompute comp t labels =>
      (askCalc env comp).andThen fun x => ActE.ok (switchIdx t (t.conv x) labels)
  | .ladder preds => askLadder env preds

/-- `constraint_checker(value)`. -/
def askCheck : Constraint → Val → ActE ε Bool
  | .user f, v => .call (.check f v) fun a => ActE.ok (a != 0)
  | c, v => ActE.lift (c.check v)

/-! ### Reading -/

/-- `if(!constraint_checker(value)) return unexpected(validation_failure)`. -/
def actChecked (c : Constraint) (v : Val) : ActE Reason Val :=
  (askCheck c v).andThen fun b => if b then ActE.ok v else ActE.err .validationFailure

/-- `n` times the same (/repo/include/field_read/field_reader.hpp 104-111). -/
def actRepeat (r : ActE ε Val) : Nat → ActE ε (List Val)
  | 0 => ActE.ok []
  | n + 1 => r.andThen fun v => (actRepeat r n).andThen fun vs => ActE.ok (v :: vs)

/-- `resize`. -/
def actResize (cfg : Cfg) (bytes : Nat) (k : ActE ε α) : ActE ε α :=
  if bytes > cfg.ptrdiffMax then .stuck .lengthError else .alloc bytes k

mutual
/-- `readKind`, user code called (field_reader.hpp 21-191). -/
def actKind (cfg : Cfg) (env : Env) : Kind → ActE Reason Val
  | .num t w => ActE.ofRd (readNum cfg t w)
  | .fbuf e n => ActE.ofRd (readFixedBuf cfg e n)
  | .fstr n => ActE.ofRd (readFixedStr n)
  | .vec e len bound =>
      (askLen cfg env len).andThen fun n => ActE.ofRd (readVec cfg e (ceilingOf cfg bound) n)
  | .record fs => ((actFields cfg (dfltEnv fs) fs).untag).mapOk .seq
  | .arrRec fs n =>
      (actRepeat (((actFields cfg (dfltEnv fs) fs).untag).mapOk .seq) n).mapOk .seq
  | .vecRec fs len bound sz =>
      (askLen cfg env len).andThen fun n =>
      match checkedByteCount cfg sz (ceilingOf cfg bound) n with
      | .error r => ActE.err r
      | .ok _ =>
        actResize cfg (n * sz)
          ((actRepeat (((actFields cfg (dfltEnv fs) fs).untag).mapOk .seq) n).mapOk .seq)
/-- `readField`, user code called (field_reader.hpp 195-218, 283-316). -/
def actField (cfg : Cfg) (env : Env) : Field → ActE Reason Val
  | .plain _ k _ => actKind cfg env k
  | .maybe _ k p =>
      (askPred env p).andThen fun b =>
      if b then (actKind cfg env k).mapOk .present else ActE.ok .absent
  | .union _ d alts _ =>
      (askDeducer env d).andThen fun
      | none => ActE.err .typeDeductionFailure
      | some i =>
        (actAlts cfg env alts i).mapOk fun
        | none => .var 0 (Alt.dfltFirst alts)
        | some v => .var i v
/-- `readAlts`, user code called (field_reader.hpp 223-280). -/
def actAlts (cfg : Cfg) (env : Env) : List Alt → Nat → ActE Reason (Option Val)
  | [], _ => ActE.ok none
  | .mk k c :: _, 0 => (actKind cfg env k).andThen fun v => (actChecked c v).mapOk some
  | _ :: alts, i + 1 => actAlts cfg env alts i
/-- `struct_cast_impl` (/repo/include/cast/struct_cast_impl.hpp 21-50), user code called. -/
def actFields (cfg : Cfg) (env : Env) : List Field → ActE CastError (List Val)
  | [] => ActE.ok []
  | f :: fs =>
      (((actField cfg env f).andThen fun v => actChecked f.constraint v).tag f.id).andThen fun v =>
      (actFields cfg (env.set f.id v) fs).andThen fun vs => ActE.ok (v :: vs)
end

/-- One field of the list with its check (struct_cast_impl.hpp 29-41). -/
abbrev actStep (cfg : Cfg) (env : Env) (f : Field) : ActE CastError Val :=
  ((actField cfg env f).andThen fun v => actChecked f.constraint v).tag f.id

/-- `struct_cast_le`/`struct_cast_be` with the user's code. -/
def actCast (cfg : Cfg) (fs : List Field) : ActE CastError (List Val) :=
  actFields cfg (dfltEnv fs) fs

/-! ### Writing -/

/-- One producer of `verify_conditional_len`
(/repo/include/field_write/derived_value.hpp 186-199): the predicate of an optional is
asked if the optional is engaged (`has_value() && compute_impl...`). -/
def actAgrees (env : Env) (target : String) (onWire : Nat) (f : Field) (v : Val) : ActE Reason Bool :=
  match f with
  | .maybe _ k p =>
      if k.lenTarget? = some target then
        match v with
        | .present w =>
            (askPred env p).andThen fun b =>
            if b then
              match w.size? with
              | some n => ActE.ok (n == onWire)
              | none => .stuck .illTyped
            else ActE.ok true
        | .absent => ActE.ok true
        | _ => .stuck .illTyped
      else ActE.ok true
  | f => ActE.lift (f.condAgrees env target onWire v)

/-- `verify_conditional_len` (derived_value.hpp 170-205): all producers, in order; a
contradiction does not stop the scan. -/
def actVerify (env : Env) (target : String) (onWire : Nat) : List Field → List Val → ActE Reason Bool
  | f :: fs, v :: vs =>
      (actAgrees env target onWire f v).andThen fun a =>
      (actVerify env target onWire fs vs).mapOk fun b => a && b
  | _, _ => ActE.ok true

/-- `verify_then_write` (/repo/include/field_write/field_writer.hpp 62-72). -/
def actVerifyThenWrite (cfg : Cfg) (ctx : WCtx) (id : String) (k : Kind) (v : Val) : ActE Reason Unit :=
  if hasConditional ctx.fs id then
    match v with
    | .int x =>
        (actVerify ctx.env id (cfg.toSz x) ctx.fs ctx.vs).andThen fun agreed =>
        if agreed then ActE.ofWr (emitFixed cfg k v) else ActE.err .foundContradictingLength
    | _ => .stuck .illTyped
  else ActE.ofWr (emitFixed cfg k v)

/-- `write_field<fixed_sized_field_like>::write` (field_writer.hpp 31-56). -/
def actFixed (cfg : Cfg) (ctx : WCtx) (member : Bool) (id : String) (k : Kind) (c : Constraint) (v : Val) :
    ActE Reason Unit :=
  if isDerived ctx.fs id then
    match k with
    | .num t w =>
        (ActE.lift (deriveValue cfg ctx.fs ctx.vs id t w)).andThen fun
        | .error r => ActE.err r
        | .ok x =>
            (askCheck c (.int x)).andThen fun b =>
            if b then actVerifyThenWrite cfg ctx id k (.int x) else ActE.err .validationFailure
    | _ => .stuck .illTyped
  else
    match (if member then frozenVal k c else none) with
    | some fv => actVerifyThenWrite cfg ctx id k fv
    | none => actVerifyThenWrite cfg ctx id k v

/-- The check of a computed length (field_writer.hpp 86-92, 167-170). -/
def actComputed (cfg : Cfg) (env : Env) (len : LenSpec) (size : Nat) (k : ActE Reason Unit) : ActE Reason Unit :=
  match len with
  | .fromField _ => k
  | .computed c =>
      (askLen cfg env (.computed c)).andThen fun n =>
      if n ≠ size then ActE.err .foundContradictingLength else k

/-- A constraint checked before writing. -/
def actGuard (c : Constraint) (v : Val) (k : ActE Reason Unit) : ActE Reason Unit :=
  (askCheck c v).andThen fun b => if b then k else ActE.err .validationFailure

/-- The loops over records (field_writer.hpp 144-149, 171-175). -/
def actRecs (one : List Val → ActE CastError Unit) : List Val → ActE Reason Unit
  | [] => ActE.ok ()
  | .seq ws :: vs => (one ws).untag.andThen fun _ => actRecs one vs
  | _ :: _ => .stuck .illTyped

mutual
/-- `writeKind`, user code called (field_writer.hpp 23-178). -/
def actWKind (cfg : Cfg) (ctx : WCtx) (member : Bool) (id : String) (c : Constraint) :
    Kind → Val → ActE Reason Unit
  | .num t w, v => actFixed cfg ctx member id (.num t w) c v
  | .fbuf e n, v => actFixed cfg ctx member id (.fbuf e n) c v
  | .fstr n, v => actFixed cfg ctx member id (.fstr n) c v
  | .vec e len _, .seq vs => actComputed cfg ctx.env len vs.length (ActE.ofWr (writeVec cfg e vs))
  | .record fs, .seq vs => (actWFields cfg ⟨fs, vs⟩ fs vs).untag
  | .arrRec fs n, .seq vs =>
      if vs.length ≠ n then .stuck .illTyped
      else actRecs (fun ws => actWFields cfg ⟨fs, ws⟩ fs ws) vs
  | .vecRec fs len _ _, .seq vs =>
      actComputed cfg ctx.env len vs.length (actRecs (fun ws => actWFields cfg ⟨fs, ws⟩ fs ws) vs)
  | _, _ => .stuck .illTyped
/-- `writeField`, user code called (field_writer.hpp 180-208, 253-285). -/
def actWField (cfg : Cfg) (ctx : WCtx) : Field → Val → ActE Reason Unit
  | .plain id k c, v => actWKind cfg ctx true id c k v
  | .maybe id k p, v =>
      (askPred ctx.env p).andThen fun b =>
      match v with
      | .present w => if b then actWKind cfg ctx false id .none k w else ActE.err .validationFailure
      | .absent => if b then ActE.err .validationFailure else ActE.ok ()
      | _ => .stuck .illTyped
  | .union id d alts _, v =>
      match v with
      | .var i w =>
          match d with
          | .matchField _ _ _ => actWAlts cfg ctx id alts i w
          | d =>
              (askDeducer ctx.env d).andThen fun
              | none => ActE.err .typeDeductionFailure
              | some j => if j ≠ i then ActE.err .validationFailure else actWAlts cfg ctx id alts i w
      | _ => .stuck .illTyped
/-- `writeAlts`, user code called (field_writer.hpp 211-251). -/
def actWAlts (cfg : Cfg) (ctx : WCtx) (id : String) : List Alt → Nat → Val → ActE Reason Unit
  | [], _, _ => .stuck .illTyped
  | .mk k c :: _, 0, w => actGuard c w (actWKind cfg ctx false id c k w)
  | _ :: alts, i + 1, w => actWAlts cfg ctx id alts i w
/-- `stream_cast_impl` (/repo/include/cast/stream_cast_impl.hpp 20-49), user code called. -/
def actWFields (cfg : Cfg) (ctx : WCtx) : List Field → List Val → ActE CastError Unit
  | [], [] => ActE.ok ()
  | f :: fs, v :: vs =>
      ((if isDerived ctx.fs f.id || f.isFrozen then actWField cfg ctx f v
        else actGuard f.constraint v (actWField cfg ctx f v)).tag f.id).andThen fun _ =>
      actWFields cfg ctx fs vs
  | _, _ => .stuck .illTyped
end

/-- `stream_cast_le`/`stream_cast_be` with the user's code. -/
def actStream (cfg : Cfg) (fs : List Field) (vs : List Val) : ActE CastError Unit :=
  actWFields cfg ⟨fs, vs⟩ fs vs

/-! ### Running -/

/-- What becomes of a call out of the library. -/
inductive Reply (α : Type) where
  | value (a : α)
  /-- it throws (or does not return: nothing follows either way) -/
  | thrown

/-- Everything outside the library: the stream and the user's code, over one state. -/
structure World where
  State : Type
  read : State → Nat → Reply (Option (List Byte)) × State
  write : State → List Byte → Reply Bool × State
  call : State → Call → Reply Int × State
  len : ∀ s n bs s', read s n = (.value (some bs), s') → bs.length = n

/-- How a cast ends. -/
inductive Ending (α : Type) where
  | done (a : α)
  | stuck (w : Stuck)
  /-- an exception leaves the cast -/
  | thrown
  deriving DecidableEq

/-- An ending without an exception. -/
def Outcome.ending : Outcome α → Ending α
  | .done a => .done a
  | .stuck w => .stuck w

/-- Run in a world. Exceptions are caught nowhere in the library. -/
def Act.runOn (W : World) : Act α → W.State → Ending α × W.State
  | .ret a, s => (.done a, s)
  | .stuck w, s => (.stuck w, s)
  | .read n k, s =>
      match W.read s n with
      | (.value o, s') => Act.runOn W (k o) s'
      | (.thrown, s') => (.thrown, s')
  | .write bs k, s =>
      match W.write s bs with
      | (.value b, s') => Act.runOn W (k b) s'
      | (.thrown, s') => (.thrown, s')
  | .alloc _ k, s => Act.runOn W k s
  | .call c k, s =>
      match W.call s c with
      | (.value a, s') => Act.runOn W (k a) s'
      | (.thrown, s') => (.thrown, s')

/-- One thing that happened: a byte came or went, or a question was answered. -/
inductive Ev where
  | byte (b : Byte)
  | answer (c : Call) (a : Int)

/-- What happened on the way, in order; calls that throw and accesses to the stream that
fail leave no trace. -/
def Act.logOn (W : World) : Act α → W.State → List Ev
  | .ret _, _ => []
  | .stuck _, _ => []
  | .read n k, s =>
      match W.read s n with
      | (.value (some bs), s') => bs.map .byte ++ Act.logOn W (k (some bs)) s'
      | (.value none, s') => Act.logOn W (k none) s'
      | (.thrown, _) => []
  | .write bs k, s =>
      match W.write s bs with
      | (.value true, s') => bs.map .byte ++ Act.logOn W (k true) s'
      | (.value false, s') => Act.logOn W (k false) s'
      | (.thrown, _) => []
  | .alloc _ k, s => Act.logOn W k s
  | .call c k, s =>
      match W.call s c with
      | (.value a, s') => .answer c a :: Act.logOn W (k a) s'
      | (.thrown, _) => []

end S2S
