import Verif.Lemmas.Calls
import Verif.Lemmas.Wr
/-
User code that is a function: answering the questions with it gives the cast of the schema
with that function in it.
-/
namespace S2S
open Spec

namespace Act

/-- The computation with the questions answered. -/
def ask (A : Answers) : Act α → Act α
  | ret a => ret a
  | stuck w => stuck w
  | read n k => read n fun o => (k o).ask A
  | write bs k => write bs fun b => (k b).ask A
  | alloc b k => alloc b (k.ask A)
  | call c k => (k (A c)).ask A

theorem ask_bind (A : Answers) (r : Act α) (f : α → Act β) :
    (r.bind f).ask A = (r.ask A).bind fun a => (f a).ask A := by
  induction r with
  | ret a => rfl
  | stuck w => rfl
  | read n k ih => simp only [bind, ask, ih]
  | write bs k ih => simp only [bind, ask, ih]
  | alloc b k ih => simp only [bind, ask, ih]
  | call c k ih => simp only [bind, ask, ih]

theorem ask_ofRd (A : Answers) (r : Rd α) : (ofRd r).ask A = ofRd r := by
  induction r with
  | ret a => rfl
  | stuck w => rfl
  | read n k ih => simp only [ofRd, ask, ih]
  | alloc b k ih => simp only [ofRd, ask, ih]

theorem ask_ofWr (A : Answers) (r : Wr α) : (ofWr r).ask A = ofWr r := by
  induction r with
  | ret a => rfl
  | stuck w => rfl
  | write bs k ih => simp only [ofWr, ask, ih]

theorem ofRd_bind (r : Rd α) (f : α → Rd β) : ofRd (r.bind f) = (ofRd r).bind fun a => ofRd (f a) := by
  induction r with
  | ret a => rfl
  | stuck w => rfl
  | read n k ih => simp only [ofRd, bind, Rd.bind, ih]
  | alloc b k ih => simp only [ofRd, bind, Rd.bind, ih]

theorem ofWr_bind (r : Wr α) (f : α → Wr β) : ofWr (r.bind f) = (ofWr r).bind fun a => ofWr (f a) := by
  induction r with
  | ret a => rfl
  | stuck w => rfl
  | write bs k ih => simp only [ofWr, bind, Wr.bind, ih]

end Act

namespace ActE

variable {ε ε' α β : Type}

theorem ask_andThen (A : Answers) (r : ActE ε α) (f : α → ActE ε β) :
    Act.ask A (r.andThen f) = ActE.andThen (Act.ask A r) fun a => Act.ask A (f a) := by
  rw [andThen, Act.ask_bind, andThen]
  congr 1; funext x
  cases x <;> rfl

theorem ask_mapErr (A : Answers) (g : ε → ε') (r : ActE ε α) :
    Act.ask A (r.mapErr g) = ActE.mapErr g (Act.ask A r) := by
  rw [mapErr, Act.ask_bind, mapErr]
  congr 1; funext x
  cases x <;> rfl

theorem ask_mapOk (A : Answers) (g : α → β) (r : ActE ε α) :
    Act.ask A (r.mapOk g) = ActE.mapOk g (Act.ask A r) := by
  rw [mapOk, ask_andThen, mapOk]; rfl

theorem ask_lift (A : Answers) (o : Except Stuck α) : Act.ask A (ActE.lift o : ActE ε α) = ActE.lift o := by
  cases o <;> rfl

theorem ofRd_andThen (r : RdE ε α) (f : α → RdE ε β) :
    ActE.ofRd (r.andThen f) = (ActE.ofRd r).andThen fun a => ActE.ofRd (f a) := by
  rw [ofRd, RdE.andThen, Act.ofRd_bind, andThen]
  show Act.bind (Act.ofRd r) _ = Act.bind (Act.ofRd r) _
  congr 1; funext x
  cases x <;> rfl

theorem ofRd_mapErr (g : ε → ε') (r : RdE ε α) : ActE.ofRd (r.mapErr g) = (ActE.ofRd r).mapErr g := by
  rw [ofRd, RdE.mapErr, Rd.map, Act.ofRd_bind, mapErr]
  show Act.bind (Act.ofRd r) _ = Act.bind (Act.ofRd r) _
  congr 1; funext x
  cases x <;> rfl

theorem ofRd_mapOk (g : α → β) (r : RdE ε α) : ActE.ofRd (r.mapOk g) = (ActE.ofRd r).mapOk g := by
  rw [RdE.mapOk, ofRd_andThen, mapOk]; rfl

theorem ofRd_lift (o : Except Stuck α) : ActE.ofRd (RdE.lift o : RdE ε α) = ActE.lift o := by
  cases o <;> rfl

theorem ofWr_andThen (r : WrE ε α) (f : α → WrE ε β) :
    ActE.ofWr (r.andThen f) = (ActE.ofWr r).andThen fun a => ActE.ofWr (f a) := by
  rw [ofWr, WrE.andThen, Act.ofWr_bind, andThen]
  show Act.bind (Act.ofWr r) _ = Act.bind (Act.ofWr r) _
  congr 1; funext x
  cases x <;> rfl

theorem ofWr_mapErr (g : ε → ε') (r : WrE ε α) : ActE.ofWr (r.mapErr g) = (ActE.ofWr r).mapErr g := by
  rw [ofWr, WrE.mapErr, Wr.map, Act.ofWr_bind, mapErr]
  show Act.bind (Act.ofWr r) _ = Act.bind (Act.ofWr r) _
  congr 1; funext x
  cases x <;> rfl

theorem ofWr_lift (o : Except Stuck α) : ActE.ofWr (WrE.lift o : WrE ε α) = ActE.lift o := by
  cases o <;> rfl

theorem ask_ofRd (A : Answers) (r : RdE ε α) : Act.ask A (ActE.ofRd r) = ActE.ofRd r := Act.ask_ofRd A r
theorem ask_ofWr (A : Answers) (r : WrE ε α) : Act.ask A (ActE.ofWr r) = ActE.ofWr r := Act.ask_ofWr A r

theorem lift_andThen_ok (o : Except Stuck α) (g : α → β) :
    (ActE.lift o : ActE ε α).andThen (fun x => ActE.ok (g x)) = ActE.lift (o.map g) := by
  cases o <;> rfl

end ActE

/-! ### Asking -/

section
variable {ε : Type} (A : Answers)

theorem ask_askPred (env : Env) (p : Pred) :
    Act.ask A (askPred env p : ActE ε Bool) = ActE.lift ((predUnder A p).eval env) := by
  unfold askPred Pred.eval predUnder
  cases env.getAll p.ids <;> rfl

theorem ask_askCalc (env : Env) (c : Calc) :
    Act.ask A (askCalc env c : ActE ε Int) = ActE.lift ((calcUnder A c).eval env) := by
  unfold askCalc Calc.eval calcUnder
  cases env.getAll c.ids <;> rfl

theorem ask_askLen (cfg : Cfg) (env : Env) (len : LenSpec) :
    Act.ask A (askLen cfg env len : ActE ε Nat) = ActE.lift ((lenUnder A len).eval cfg env) := by
  cases len with
  | fromField id => exact ActE.ask_lift A _
  | computed c =>
    simp only [askLen, ActE.ask_andThen, ask_askCalc, lenUnder, LenSpec.eval]
    cases (calcUnder A c).eval env <;> rfl

theorem ask_askLadder (env : Env) : ∀ ps : List Pred,
    Act.ask A (askLadder env ps : ActE ε (Option Nat)) = ActE.lift (ladderIdx env (ps.map (predUnder A)))
  | [] => rfl
  | p :: ps => by
    simp only [askLadder, ActE.ask_andThen, ask_askPred, List.map_cons, ladderIdx]
    cases (predUnder A p).eval env with
    | error w => rfl
    | ok b =>
      cases b with
      | true => rfl
      | false =>
        have ih := ask_askLadder env ps
        show Act.ask A (ActE.mapOk _ (askLadder env ps)) = _
        rw [ActE.ask_mapOk, ih]
        cases ladderIdx env (ps.map (predUnder A)) <;> rfl

theorem ask_askDeducer (env : Env) (d : Deducer) :
    Act.ask A (askDeducer env d : ActE ε (Option Nat)) = ActE.lift ((deducerUnder A d).eval env) := by
  cases d with
  | matchField id t ls => exact ActE.ask_lift A _
  | matchCompute c t ls =>
    simp only [askDeducer, ActE.ask_andThen, ask_askCalc, deducerUnder, Deducer.eval]
    cases (calcUnder A c).eval env <;> rfl
  | ladder ps => exact ask_askLadder A env ps

theorem ask_askCheck (c : Constraint) (v : Val) :
    Act.ask A (askCheck c v : ActE ε Bool) = ActE.lift ((constraintUnder A c).check v) := by
  cases c with
  | user f => rfl
  | none => exact ActE.ask_lift A (Constraint.none.check v)
  | arrCmp eq w => exact ActE.ask_lift A ((Constraint.arrCmp eq w).check v)
  | _ => exact ActE.ask_lift A _

end

/-! ### What the schema is apart from its callables -/

theorem fieldUnder_id (A : Answers) (f : Field) : (fieldUnder A f).id = f.id := by
  cases f <;> rw [fieldUnder] <;> rfl

theorem fieldUnder_constraint (A : Answers) (f : Field) :
    (fieldUnder A f).constraint = constraintUnder A f.constraint := by
  cases f <;> rw [fieldUnder] <;> rfl

mutual
theorem under_dfltKind (A : Answers) : ∀ k, (kindUnder A k).dflt = k.dflt
  | .num _ _ => by rw [kindUnder]
  | .fbuf _ _ => by rw [kindUnder]
  | .fstr _ => by rw [kindUnder]
  | .vec _ _ _ => by rw [kindUnder, Kind.dflt, Kind.dflt]
  | .record fs => by rw [kindUnder, Kind.dflt, Kind.dflt, under_dflts A fs]
  | .arrRec fs n => by rw [kindUnder, Kind.dflt, Kind.dflt, under_dflts A fs]
  | .vecRec _ _ _ _ => by rw [kindUnder, Kind.dflt, Kind.dflt]
theorem under_dflt (A : Answers) : ∀ f, (fieldUnder A f).dflt = f.dflt
  | .plain _ k _ => by rw [fieldUnder, Field.dflt, Field.dflt, under_dfltKind A k]
  | .maybe _ _ _ => by rw [fieldUnder, Field.dflt, Field.dflt]
  | .union _ _ alts _ => by rw [fieldUnder, Field.dflt, Field.dflt, under_dfltFirst A alts]
theorem under_dflts (A : Answers) : ∀ fs, Field.dflts (fieldsUnder A fs) = Field.dflts fs
  | [] => by rw [fieldsUnder]
  | f :: fs => by rw [fieldsUnder, Field.dflts, Field.dflts, under_dflt A f, under_dflts A fs]
theorem under_dfltFirst (A : Answers) : ∀ alts, Alt.dfltFirst (altsUnder A alts) = Alt.dfltFirst alts
  | [] => by rw [altsUnder]
  | .mk k _ :: _ => by rw [altsUnder, Alt.dfltFirst, Alt.dfltFirst, under_dfltKind A k]
end

theorem under_envOf (A : Answers) : ∀ fs vs, envOf (fieldsUnder A fs) vs = envOf fs vs
  | [], _ => by rw [fieldsUnder]
  | f :: fs, [] => by rw [fieldsUnder, envOf.eq_def, envOf.eq_def]
  | f :: fs, v :: vs => by rw [fieldsUnder, envOf, envOf, fieldUnder_id, under_envOf A fs vs]

theorem under_dfltEnv (A : Answers) (fs : List Field) : dfltEnv (fieldsUnder A fs) = dfltEnv fs := by
  rw [dfltEnv, dfltEnv, under_dflts, under_envOf]

/-! ### Reading -/

theorem ask_actChecked (A : Answers) (c : Constraint) (v : Val) :
    Act.ask A (actChecked c v) = ActE.ofRd (RdE.checked (constraintUnder A c) v) := by
  rw [actChecked, ActE.ask_andThen, ask_askCheck, RdE.checked, ActE.ofRd_andThen, ActE.ofRd_lift]
  congr 1; funext b
  cases b <;> rfl

theorem ask_actRepeat (A : Answers) {r : ActE ε Val} {r' : RdE ε Val} (h : Act.ask A r = ActE.ofRd r') (n : Nat) :
    Act.ask A (actRepeat r n) = ActE.ofRd (repeatE r' n) := by
  induction n with
  | zero => rfl
  | succ n ih =>
    rw [actRepeat, ActE.ask_andThen, h, repeatE, ActE.ofRd_andThen]
    congr 1; funext v
    rw [ActE.ask_andThen, ih, ActE.ofRd_andThen]; rfl

theorem ask_actResize (A : Answers) (cfg : Cfg) (n : Nat) {k : ActE ε α} {k' : RdE ε α}
    (h : Act.ask A k = ActE.ofRd k') : Act.ask A (actResize cfg n k) = ActE.ofRd (resize cfg n k') := by
  unfold actResize resize
  split
  · rfl
  · show Act.alloc n (Act.ask A k) = _
    rw [h]; rfl

mutual
theorem ask_actKind (A : Answers) (cfg : Cfg) : ∀ k env,
    Act.ask A (actKind cfg env k) = ActE.ofRd (readKind cfg env (kindUnder A k))
  | .num t w, env => by rw [actKind, kindUnder, readKind, ActE.ask_ofRd]
  | .fbuf e n, env => by rw [actKind, kindUnder, readKind, ActE.ask_ofRd]
  | .fstr n, env => by rw [actKind, kindUnder, readKind, ActE.ask_ofRd]
  | .vec e len b, env => by
      rw [actKind, kindUnder, readKind, ActE.ask_andThen, ask_askLen, ActE.ofRd_andThen, ActE.ofRd_lift]
      simp only [ActE.ask_ofRd]
  | .record fs, env => by
      rw [actKind, kindUnder, readKind, ActE.ask_mapOk, ActE.untag, ActE.ask_mapErr, ask_actFields A cfg fs,
        under_dfltEnv, RdE.untag, ActE.ofRd_mapOk, ActE.ofRd_mapErr]
  | .arrRec fs n, env => by
      have h : Act.ask A (((actFields cfg (dfltEnv fs) fs).untag).mapOk Val.seq) =
          ActE.ofRd (((readFields cfg (dfltEnv fs) (fieldsUnder A fs)).untag).mapOk Val.seq) := by
        rw [ActE.ask_mapOk, ActE.untag, ActE.ask_mapErr, ask_actFields A cfg fs, RdE.untag, ActE.ofRd_mapOk,
          ActE.ofRd_mapErr]
      rw [actKind, kindUnder, readKind, ActE.ask_mapOk, ask_actRepeat A h, under_dfltEnv, ActE.ofRd_mapOk]
  | .vecRec fs len b sz, env => by
      have h : Act.ask A (((actFields cfg (dfltEnv fs) fs).untag).mapOk Val.seq) =
          ActE.ofRd (((readFields cfg (dfltEnv fs) (fieldsUnder A fs)).untag).mapOk Val.seq) := by
        rw [ActE.ask_mapOk, ActE.untag, ActE.ask_mapErr, ask_actFields A cfg fs, RdE.untag, ActE.ofRd_mapOk,
          ActE.ofRd_mapErr]
      rw [actKind, kindUnder, readKind, ActE.ask_andThen, ask_askLen, ActE.ofRd_andThen, ActE.ofRd_lift, under_dfltEnv]
      congr 1; funext n
      cases checkedByteCount cfg sz (ceilingOf cfg b) n with
      | error r => rfl
      | ok m => exact ask_actResize A cfg _ (by rw [ActE.ask_mapOk, ask_actRepeat A h, ActE.ofRd_mapOk])
theorem ask_actField (A : Answers) (cfg : Cfg) : ∀ f env,
    Act.ask A (actField cfg env f) = ActE.ofRd (readField cfg env (fieldUnder A f))
  | .plain id k c, env => by rw [actField, fieldUnder, readField, ask_actKind A cfg k]
  | .maybe id k p, env => by
      rw [actField, fieldUnder, readField, ActE.ask_andThen, ask_askPred, ActE.ofRd_andThen, ActE.ofRd_lift]
      congr 1; funext b
      cases b
      · rfl
      · simp only [if_true, ActE.ask_mapOk, ask_actKind A cfg k, ActE.ofRd_mapOk]
  | .union id d alts c, env => by
      rw [actField, fieldUnder, readField, ActE.ask_andThen, ask_askDeducer, ActE.ofRd_andThen, ActE.ofRd_lift,
        under_dfltFirst]
      congr 1; funext o
      cases o with
      | none => rfl
      | some i =>
        simp only [ActE.ask_mapOk, ask_actAlts A cfg alts, ActE.ofRd_mapOk]
        congr 1
theorem ask_actAlts (A : Answers) (cfg : Cfg) : ∀ alts env i,
    Act.ask A (actAlts cfg env alts i) = ActE.ofRd (readAlts cfg env (altsUnder A alts) i)
  | [], env, i => by rw [actAlts, altsUnder, readAlts]; rfl
  | .mk k c :: alts, env, 0 => by
      rw [actAlts, altsUnder, readAlts, ActE.ask_andThen, ask_actKind A cfg k, ActE.ofRd_andThen]
      congr 1; funext v
      rw [ActE.ask_mapOk, ask_actChecked, ActE.ofRd_mapOk]
  | .mk k c :: alts, env, i + 1 => by rw [actAlts, altsUnder, readAlts, ask_actAlts A cfg alts env i]
theorem ask_actFields (A : Answers) (cfg : Cfg) : ∀ fs env,
    Act.ask A (actFields cfg env fs) = ActE.ofRd (readFields cfg env (fieldsUnder A fs))
  | [], env => by rw [actFields, fieldsUnder, readFields]; rfl
  | f :: fs, env => by
      rw [actFields, fieldsUnder, readFields, ActE.ask_andThen, ActE.tag, ActE.ask_mapErr, ActE.ask_andThen,
        ask_actField A cfg f, ActE.ofRd_andThen, RdE.tag, ActE.ofRd_mapErr, ActE.ofRd_andThen, fieldUnder_id,
        fieldUnder_constraint]
      simp only [ask_actChecked]
      congr 1; funext v
      rw [ActE.ask_andThen, ask_actFields A cfg fs, ActE.ofRd_andThen]; rfl
end

theorem ask_actCast (A : Answers) (cfg : Cfg) (fs : List Field) :
    Act.ask A (actCast cfg fs) = ActE.ofRd (structCast cfg (fieldsUnder A fs)) := by
  rw [actCast, structCast, under_dfltEnv, ask_actFields]

/-! ### Writing -/

theorem under_lenTarget (A : Answers) (k : Kind) : (kindUnder A k).lenTarget? = k.lenTarget? := by
  cases k with
  | vec e len b => rw [kindUnder]; cases len <;> rfl
  | vecRec fs len b sz => rw [kindUnder]; cases len <;> rfl
  | _ => rw [kindUnder] <;> rfl

theorem under_lenDerived (A : Answers) : ∀ fs, lenDerivedIds (fieldsUnder A fs) = lenDerivedIds fs
  | [] => by rw [fieldsUnder]
  | f :: fs => by
    have ih := under_lenDerived A fs
    rw [fieldsUnder]
    rw [lenDerivedIds, lenDerivedIds] at ih ⊢
    cases f with
    | plain id k c =>
      rw [fieldUnder]
      simp only [List.filterMap_cons, under_lenTarget, ih]
    | maybe id k p => rw [fieldUnder]; simpa using ih
    | union id d alts c => rw [fieldUnder]; simpa using ih

theorem under_discDerived (A : Answers) : ∀ fs, discDerivedIds (fieldsUnder A fs) = discDerivedIds fs
  | [] => by rw [fieldsUnder]
  | f :: fs => by
    have ih := under_discDerived A fs
    rw [fieldsUnder]
    rw [discDerivedIds, discDerivedIds] at ih ⊢
    cases f with
    | plain id k c => rw [fieldUnder]; simpa using ih
    | maybe id k p => rw [fieldUnder]; simpa using ih
    | union id d alts c => rw [fieldUnder]; cases d <;> simpa [deducerUnder] using ih

theorem under_isDerived (A : Answers) (fs : List Field) (id : String) :
    isDerived (fieldsUnder A fs) id = isDerived fs id := by
  rw [isDerived, isDerived, under_lenDerived, under_discDerived]

theorem under_implies (A : Answers) (f : Field) (cfg : Cfg) (t : String) (v : Val) :
    (fieldUnder A f).implies cfg t v = f.implies cfg t v := by
  cases f with
  | plain id k c => simp only [fieldUnder, Field.implies, under_lenTarget]
  | maybe id k p => cases v <;> simp only [fieldUnder, Field.implies]
  | union id d alts c => cases d <;> cases v <;> simp only [fieldUnder, deducerUnder, Field.implies]

theorem under_deriveScan (A : Answers) (cfg : Cfg) (t : String) : ∀ fs vs d,
    deriveScan cfg t (fieldsUnder A fs) vs d = deriveScan cfg t fs vs d
  | [], _, _ => by rw [fieldsUnder]
  | f :: fs, [], _ => by rw [fieldsUnder, deriveScan.eq_def, deriveScan.eq_def]
  | f :: fs, v :: vs, d => by
    rw [fieldsUnder, deriveScan, deriveScan, under_implies]
    rcases Field.implies cfg t _ v with w | (_ | n)
    · rfl
    · exact under_deriveScan A cfg t fs vs d
    · exact under_deriveScan A cfg t fs vs (d.record n)

theorem under_deriveValue (A : Answers) (cfg : Cfg) (fs : List Field) (vs : List Val) (id : String) (t : ScalarTy)
    (w : Nat) : deriveValue cfg (fieldsUnder A fs) vs id t w = deriveValue cfg fs vs id t w := by
  rw [deriveValue, deriveValue, under_deriveScan]

theorem under_anyAlt (A : Answers) (t : String) : ∀ alts, anyAltTargets t (altsUnder A alts) = anyAltTargets t alts
  | [] => by rw [altsUnder]
  | .mk k c :: alts => by
    have ih := under_anyAlt A t alts
    rw [altsUnder]
    rw [anyAltTargets, anyAltTargets] at ih ⊢
    rw [List.any_cons, List.any_cons, ih]
    simp only [Alt.kind, under_lenTarget]

theorem under_condTargets (A : Answers) (t : String) (f : Field) :
    (fieldUnder A f).condTargets t = f.condTargets t := by
  cases f with
  | plain id k c => rw [fieldUnder]; rfl
  | maybe id k p => simp only [fieldUnder, Field.condTargets, under_lenTarget]
  | union id d alts c => simp only [fieldUnder, Field.condTargets, under_anyAlt]

theorem under_hasConditional (A : Answers) (t : String) : ∀ fs,
    hasConditional (fieldsUnder A fs) t = hasConditional fs t
  | [] => by rw [fieldsUnder]
  | f :: fs => by
    have ih := under_hasConditional A t fs
    rw [fieldsUnder]
    rw [hasConditional, hasConditional] at ih ⊢
    rw [List.any_cons, List.any_cons, ih, under_condTargets]

theorem under_altAt (A : Answers) : ∀ (alts : List Alt) (i : Nat),
    ((altsUnder A alts)[i]?).map (fun a => a.kind.lenTarget?) = (alts[i]?).map fun a => a.kind.lenTarget?
  | [], i => by rw [altsUnder]
  | .mk k c :: alts, 0 => by
    rw [altsUnder]
    simp only [List.getElem?_cons_zero, Option.map_some, Alt.kind, under_lenTarget]
  | .mk k c :: alts, i + 1 => by
    rw [altsUnder, List.getElem?_cons_succ, List.getElem?_cons_succ]
    exact under_altAt A alts i

theorem under_frozenVal (A : Answers) (k : Kind) (c : Constraint) :
    frozenVal (kindUnder A k) (constraintUnder A c) = frozenVal k c := by
  cases k <;> cases c <;> simp only [kindUnder, constraintUnder, frozenVal]

theorem ask_actAgrees (A : Answers) (env : Env) (t : String) (n : Nat) (f : Field) (v : Val) :
    Act.ask A (actAgrees env t n f v) = ActE.lift ((fieldUnder A f).condAgrees env t n v) := by
  cases f with
  | plain id k c => simp only [actAgrees, fieldUnder, Field.condAgrees]; rfl
  | maybe id k p =>
    simp only [actAgrees, fieldUnder, Field.condAgrees, under_lenTarget]
    split
    · cases v with
      | present w =>
        simp only [ActE.ask_andThen, ask_askPred]
        cases (predUnder A p).eval env with
        | error s => rfl
        | ok b =>
          cases b
          · rfl
          · show Act.ask A (match w.size? with | some m => ActE.ok (m == n) | none => .stuck .illTyped) = _
            cases w.size? <;> rfl
      | _ => rfl
    · rfl
  | union id d alts c =>
    simp only [actAgrees, ActE.ask_lift]
    congr 1
    cases v with
    | var i w =>
      simp only [fieldUnder, Field.condAgrees, under_anyAlt]
      have h := under_altAt A alts i
      cases h1 : alts[i]? with
      | none => rw [h1] at h; simp only [Option.map_none, Option.map_eq_none_iff] at h; simp only [h]
      | some a =>
        rw [h1] at h
        cases h2 : (altsUnder A alts)[i]? with
        | none => rw [h2] at h; cases h
        | some a' =>
          rw [h2] at h
          simp only [Option.map_some, Option.some.injEq] at h
          simp only [h]
    | _ => simp only [fieldUnder, Field.condAgrees, under_anyAlt]

theorem ask_actVerify (A : Answers) (env : Env) (t : String) (n : Nat) : ∀ fs vs,
    Act.ask A (actVerify env t n fs vs) = ActE.lift (verifyScan env t n (fieldsUnder A fs) vs)
  | [], _ => by rw [fieldsUnder, actVerify.eq_def, verifyScan.eq_def]; rfl
  | f :: fs, [] => by rw [fieldsUnder, actVerify.eq_def, verifyScan.eq_def]; rfl
  | f :: fs, v :: vs => by
    rw [fieldsUnder, actVerify, verifyScan, ActE.ask_andThen, ask_actAgrees]
    simp only [ActE.ask_mapOk, ask_actVerify A env t n fs vs]
    cases (fieldUnder A f).condAgrees env t n v <;> cases verifyScan env t n (fieldsUnder A fs) vs <;> rfl

theorem under_emitFixed (A : Answers) (cfg : Cfg) (k : Kind) (v : Val) :
    emitFixed cfg (kindUnder A k) v = emitFixed cfg k v := by
  cases k <;> cases v <;> simp only [kindUnder, emitFixed]

theorem ask_actVerifyThenWrite (A : Answers) (cfg : Cfg) (fs : List Field) (vs : List Val) (id : String) (k : Kind)
    (v : Val) : Act.ask A (actVerifyThenWrite cfg ⟨fs, vs⟩ id k v) =
      ActE.ofWr (verifyThenWrite cfg ⟨fieldsUnder A fs, vs⟩ id (kindUnder A k) v) := by
  simp only [actVerifyThenWrite, verifyThenWrite, under_hasConditional, WCtx.env, under_envOf, under_emitFixed]
  split
  · cases v with
    | int x =>
      simp only [ActE.ask_andThen, ask_actVerify, ActE.ofWr_andThen, ActE.ofWr_lift]
      congr 1; funext b
      cases b
      · rfl
      · exact ActE.ask_ofWr A _
    | _ => rfl
  · exact ActE.ask_ofWr A _

theorem ask_actFixed (A : Answers) (cfg : Cfg) (fs : List Field) (vs : List Val) (m : Bool) (id : String) (k : Kind)
    (c : Constraint) (v : Val) : Act.ask A (actFixed cfg ⟨fs, vs⟩ m id k c v) =
      ActE.ofWr (writeFixed cfg ⟨fieldsUnder A fs, vs⟩ m id (kindUnder A k) (constraintUnder A c) v) := by
  have hv := ask_actVerifyThenWrite A cfg fs vs id k
  simp only [actFixed, writeFixed, under_isDerived, under_frozenVal, under_deriveValue]
  split
  · cases k with
    | num t w =>
      simp only [kindUnder] at hv ⊢
      simp only [ActE.ask_andThen, ActE.ask_lift, ActE.ofWr_andThen, ActE.ofWr_lift]
      congr 1; funext o
      cases o with
      | error r => rfl
      | ok x =>
        simp only [ActE.ask_andThen, ask_askCheck, ActE.ofWr_andThen, ActE.ofWr_lift]
        congr 1; funext b
        cases b
        · rfl
        · exact hv _
    | _ => simp only [kindUnder] <;> rfl
  · cases (if m then frozenVal k c else none) with
    | none => exact hv v
    | some fv => exact hv fv

theorem ask_actComputed (A : Answers) (cfg : Cfg) (env : Env) (len : LenSpec) (n : Nat) {k : ActE Reason Unit}
    {k' : WrE Reason Unit} (h : Act.ask A k = ActE.ofWr k') :
    Act.ask A (actComputed cfg env len n k) = ActE.ofWr (verifyComputed cfg env (lenUnder A len) n k') := by
  cases len with
  | fromField id => exact h
  | computed c =>
    have := ask_askLen (ε := Reason) A cfg env (.computed c)
    simp only [lenUnder] at this
    simp only [actComputed, lenUnder, verifyComputed, ActE.ask_andThen, this, ActE.ofWr_andThen, ActE.ofWr_lift]
    congr 1; funext m
    split
    · rfl
    · exact h

theorem ask_actGuard (A : Answers) (c : Constraint) (v : Val) {k : ActE Reason Unit} {k' : WrE Reason Unit}
    (h : Act.ask A k = ActE.ofWr k') :
    Act.ask A (actGuard c v k) = ActE.ofWr (WrE.checked (constraintUnder A c) v k') := by
  simp only [actGuard, WrE.checked, ActE.ask_andThen, ask_askCheck, ActE.ofWr_andThen, ActE.ofWr_lift]
  congr 1; funext b
  cases b
  · rfl
  · exact h

theorem ask_actRecs (A : Answers) {one : List Val → ActE CastError Unit} {one' : List Val → WrE CastError Unit}
    (h : ∀ ws, Act.ask A (one ws) = ActE.ofWr (one' ws)) : ∀ vs,
    Act.ask A (actRecs one vs) = ActE.ofWr (writeRecs one' vs)
  | [] => rfl
  | v :: vs => by
    cases v with
    | seq ws =>
      simp only [actRecs, writeRecs, ActE.ask_andThen, ActE.untag, ActE.ask_mapErr, h ws, ask_actRecs A h vs,
        ActE.ofWr_andThen, WrE.untag, ActE.ofWr_mapErr]
    | _ => rfl

mutual
theorem ask_actWKind (A : Answers) (cfg : Cfg) : ∀ k fs vs m id c v,
    Act.ask A (actWKind cfg ⟨fs, vs⟩ m id c k v) =
      ActE.ofWr (writeKind cfg ⟨fieldsUnder A fs, vs⟩ m id (constraintUnder A c) (kindUnder A k) v)
  | .num t w, fs, vs, m, id, c, v => by
      have := ask_actFixed A cfg fs vs m id (.num t w) c v
      simp only [kindUnder] at this
      rw [actWKind, kindUnder, writeKind, this]
  | .fbuf e n, fs, vs, m, id, c, v => by
      have := ask_actFixed A cfg fs vs m id (.fbuf e n) c v
      simp only [kindUnder] at this
      rw [actWKind, kindUnder, writeKind, this]
  | .fstr n, fs, vs, m, id, c, v => by
      have := ask_actFixed A cfg fs vs m id (.fstr n) c v
      simp only [kindUnder] at this
      rw [actWKind, kindUnder, writeKind, this]
  | .vec e len b, fs, vs, m, id, c, v => by
      cases v with
      | seq us =>
        rw [actWKind, kindUnder, writeKind, ask_actComputed A cfg _ len _ (ActE.ask_ofWr A _)]
        simp only [WCtx.env, under_envOf]
      | _ => simp only [actWKind, kindUnder, writeKind] <;> rfl
  | .record gs, fs, vs, m, id, c, v => by
      cases v with
      | seq us =>
        rw [actWKind, kindUnder, writeKind, ActE.untag, ActE.ask_mapErr, ask_actWFields A cfg gs gs us us, WrE.untag,
          ActE.ofWr_mapErr]
      | _ => simp only [actWKind, kindUnder, writeKind] <;> rfl
  | .arrRec gs n, fs, vs, m, id, c, v => by
      cases v with
      | seq us =>
        rw [actWKind, kindUnder, writeKind]
        split
        · rfl
        · exact ask_actRecs A (fun ws => ask_actWFields A cfg gs gs ws ws) us
      | _ => simp only [actWKind, kindUnder, writeKind] <;> rfl
  | .vecRec gs len b sz, fs, vs, m, id, c, v => by
      cases v with
      | seq us =>
        rw [actWKind, kindUnder, writeKind, ask_actComputed A cfg _ len _
          (ask_actRecs A (fun ws => ask_actWFields A cfg gs gs ws ws) us)]
        simp only [WCtx.env, under_envOf]
      | _ => simp only [actWKind, kindUnder, writeKind] <;> rfl
theorem ask_actWField (A : Answers) (cfg : Cfg) : ∀ f fs vs v,
    Act.ask A (actWField cfg ⟨fs, vs⟩ f v) = ActE.ofWr (writeField cfg ⟨fieldsUnder A fs, vs⟩ (fieldUnder A f) v)
  | .plain id k c, fs, vs, v => by rw [actWField, fieldUnder, writeField, ask_actWKind A cfg k]
  | .maybe id k p, fs, vs, v => by
      rw [actWField, fieldUnder, writeField, ActE.ask_andThen, ask_askPred, ActE.ofWr_andThen, ActE.ofWr_lift]
      simp only [WCtx.env, under_envOf]
      congr 1; funext b
      cases v with
      | present w =>
        cases b
        · rfl
        · exact ask_actWKind A cfg k fs vs false id .none w
      | absent => cases b <;> rfl
      | _ => rfl
  | .union id d alts c, fs, vs, v => by
      cases v with
      | var i w =>
        have ha := ask_actWAlts A cfg alts fs vs id i w
        cases d with
        | matchField j t ls => simp only [actWField, fieldUnder, deducerUnder, writeField, ha]
        | matchCompute q t ls =>
          have hd := ask_askDeducer (ε := Reason) A (envOf fs vs) (.matchCompute q t ls)
          simp only [deducerUnder] at hd
          simp only [actWField, fieldUnder, deducerUnder, writeField, ActE.ask_andThen, ActE.ofWr_andThen,
            ActE.ofWr_lift, WCtx.env, under_envOf, hd]
          congr 1; funext o
          cases o with
          | none => rfl
          | some j =>
            simp only
            split
            · rfl
            · exact ha
        | ladder ps =>
          have hd := ask_askDeducer (ε := Reason) A (envOf fs vs) (.ladder ps)
          simp only [deducerUnder] at hd
          simp only [actWField, fieldUnder, deducerUnder, writeField, ActE.ask_andThen, ActE.ofWr_andThen,
            ActE.ofWr_lift, WCtx.env, under_envOf, hd]
          congr 1; funext o
          cases o with
          | none => rfl
          | some j =>
            simp only
            split
            · rfl
            · exact ha
      | _ => simp only [actWField, fieldUnder, writeField] <;> rfl
theorem ask_actWAlts (A : Answers) (cfg : Cfg) : ∀ alts fs vs id i w,
    Act.ask A (actWAlts cfg ⟨fs, vs⟩ id alts i w) =
      ActE.ofWr (writeAlts cfg ⟨fieldsUnder A fs, vs⟩ id (altsUnder A alts) i w)
  | [], fs, vs, id, i, w => by rw [actWAlts, altsUnder, writeAlts]; rfl
  | .mk k c :: alts, fs, vs, id, 0, w => by
      rw [actWAlts, altsUnder, writeAlts, ask_actGuard A c w (ask_actWKind A cfg k fs vs false id c w)]
  | .mk k c :: alts, fs, vs, id, i + 1, w => by
      rw [actWAlts, altsUnder, writeAlts, ask_actWAlts A cfg alts fs vs id i w]
theorem ask_actWFields (A : Answers) (cfg : Cfg) : ∀ gs fs vs us,
    Act.ask A (actWFields cfg ⟨fs, vs⟩ gs us) =
      ActE.ofWr (writeFields cfg ⟨fieldsUnder A fs, vs⟩ (fieldsUnder A gs) us)
  | [], fs, vs, [] => by rw [fieldsUnder, actWFields, writeFields]; rfl
  | [], fs, vs, _ :: _ => by rw [fieldsUnder]; simp only [actWFields, writeFields]; rfl
  | g :: gs, fs, vs, [] => by rw [fieldsUnder]; simp only [actWFields, writeFields]; rfl
  | g :: gs, fs, vs, u :: us => by
    have hz : (fieldUnder A g).isFrozen = g.isFrozen := by
      cases g with
      | plain id k c => simp only [fieldUnder, Field.isFrozen, under_frozenVal]
      | maybe id k p => rw [fieldUnder]; rfl
      | union id d alts c => rw [fieldUnder]; rfl
    have hf := ask_actWField A cfg g fs vs u
    rw [fieldsUnder, actWFields, writeFields, ActE.ask_andThen, ActE.tag, ActE.ask_mapErr, ActE.ofWr_andThen, WrE.tag,
      ActE.ofWr_mapErr, hz, fieldUnder_id, fieldUnder_constraint]
    simp only [under_isDerived, ask_actWFields A cfg gs fs vs us]
    congr 2
    split
    · exact hf
    · exact ask_actGuard A _ _ hf
end

theorem ask_actStream (A : Answers) (cfg : Cfg) (fs : List Field) (vs : List Val) :
    Act.ask A (actStream cfg fs vs) = ActE.ofWr (streamCast cfg (fieldsUnder A fs) vs) :=
  ask_actWFields A cfg fs fs vs vs

/-! ### The schema's own functions -/

theorem predUnder_own (p : Pred) : predUnder own p = p := by
  obtain ⟨ids, fn⟩ := p
  unfold predUnder
  congr 1; funext vs
  simp only [own]
  by_cases h : fn vs = true <;> simp [h]

theorem calcUnder_own (c : Calc) : calcUnder own c = c := rfl

theorem lenUnder_own (len : LenSpec) : lenUnder own len = len := by cases len <;> rfl

theorem map_predUnder_own : ∀ ps : List Pred, ps.map (predUnder own) = ps
  | [] => rfl
  | p :: ps => by rw [List.map_cons, predUnder_own, map_predUnder_own ps]

theorem deducerUnder_own (d : Deducer) : deducerUnder own d = d := by
  cases d with
  | ladder ps => rw [deducerUnder, map_predUnder_own]
  | _ => rfl

theorem constraintUnder_own (c : Constraint) : constraintUnder own c = c := by
  cases c with
  | user f =>
    simp only [constraintUnder]
    congr 1; funext v
    simp only [own]
    by_cases h : f v = true <;> simp [h]
  | _ => rfl

mutual
theorem kindUnder_own : ∀ k, kindUnder own k = k
  | .num _ _ => by rw [kindUnder]
  | .fbuf _ _ => by rw [kindUnder]
  | .fstr _ => by rw [kindUnder]
  | .vec _ len _ => by rw [kindUnder, lenUnder_own]
  | .record fs => by rw [kindUnder, fieldsUnder_own fs]
  | .arrRec fs n => by rw [kindUnder, fieldsUnder_own fs]
  | .vecRec fs len _ _ => by rw [kindUnder, fieldsUnder_own fs, lenUnder_own]
theorem fieldUnder_own : ∀ f, fieldUnder own f = f
  | .plain _ k c => by rw [fieldUnder, kindUnder_own k, constraintUnder_own]
  | .maybe _ k p => by rw [fieldUnder, kindUnder_own k, predUnder_own]
  | .union _ d alts c => by rw [fieldUnder, altsUnder_own alts, deducerUnder_own, constraintUnder_own]
theorem altsUnder_own : ∀ alts, altsUnder own alts = alts
  | [] => by rw [altsUnder]
  | .mk k c :: alts => by rw [altsUnder, kindUnder_own k, constraintUnder_own, altsUnder_own alts]
theorem fieldsUnder_own : ∀ fs, fieldsUnder own fs = fs
  | [] => by rw [fieldsUnder]
  | f :: fs => by rw [fieldsUnder, fieldUnder_own f, fieldsUnder_own fs]
end

end S2S
