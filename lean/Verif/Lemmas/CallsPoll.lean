import Verif.Lemmas.CallsRun
import Verif.Lemmas.WriteMain
import Verif.Lemmas.WriteFields
/-
What a write asks.
-/
namespace S2S
open Spec

variable {ε ε' α β : Type}

/-- If it succeeds, the result and the questions asked are in `R`. -/
def ActE.Polls (r : ActE ε α) (R : α → List Call → Prop) : Prop :=
  ∀ (W : World) (s s' : W.State) (a : α), Act.runOn W r s = (.done (.ok a), s') →
    R a (questionsOf (Act.logOn W r s))

namespace ActE

theorem Polls.mono {r : ActE ε α} {R R' : α → List Call → Prop} (h : Polls r R) (hR : ∀ a q, R a q → R' a q) :
    Polls r R' := fun W s s' a hr => hR _ _ (h W s s' a hr)

theorem polls_ok {a : α} {R : α → List Call → Prop} (h : R a []) : Polls (ok a : ActE ε α) R := by
  intro W s s' b hr
  cases hr
  exact h

theorem polls_err (e : ε) (R : α → List Call → Prop) : Polls (err e : ActE ε α) R := by
  intro W s s' b hr
  cases hr

theorem polls_stuck (w : Stuck) (R : α → List Call → Prop) : Polls (Act.stuck w : ActE ε α) R := by
  intro W s s' b hr
  cases hr

theorem polls_lift {o : Except Stuck α} {R : α → List Call → Prop} (h : ∀ a, o = .ok a → R a []) :
    Polls (ActE.lift o : ActE ε α) R := by
  cases o with
  | ok a => exact polls_ok (h a rfl)
  | error w => exact polls_stuck w R

theorem polls_call {c : Call} {k : Int → ActE ε α} {R : α → List Call → Prop}
    (h : ∀ x, Polls (k x) fun a q => R a (c :: q)) : Polls (Act.call c k : ActE ε α) R := by
  intro W s s' a hr
  simp only [Act.runOn] at hr
  simp only [Act.logOn]
  cases hw : W.call s c with
  | mk o s1 =>
    rw [hw] at hr
    cases o with
    | thrown => cases hr
    | value x => exact h x W s1 s' a hr

theorem polls_andThen {r : ActE ε α} {f : α → ActE ε β} {R1 : α → List Call → Prop} {R : β → List Call → Prop}
    (h1 : Polls r R1) (h2 : ∀ a q1, R1 a q1 → Polls (f a) fun b q2 => R b (q1 ++ q2)) : Polls (r.andThen f) R := by
  intro W s s' b hr
  obtain ⟨e1, e2⟩ := runOn_andThen W r f s
  rw [e1] at hr
  rw [e2]
  rcases hx : Act.runOn W r s with ⟨(_ | a) | _ | _, s1⟩ <;> rw [hx] at hr
  · cases hr
  · rw [questionsOf_append]
    exact h2 a _ (h1 W s s1 a hx) W s1 s' b hr
  · cases hr
  · cases hr

theorem polls_mapOk {r : ActE ε α} {g : α → β} {R : β → List Call → Prop} (h : Polls r fun a q => R (g a) q) :
    Polls (r.mapOk g) R :=
  polls_andThen h fun a q hq => polls_ok (by simpa using hq)

theorem polls_mapErr {r : ActE ε α} {g : ε → ε'} {R : α → List Call → Prop} (h : Polls r R) :
    Polls (r.mapErr g) R := by
  intro W s s' b hr
  rw [mapErr, (Act.runOn_bind W r _ s).1] at hr
  rw [mapErr, (Act.runOn_bind W r _ s).2]
  rcases hx : Act.runOn W r s with ⟨(_ | a) | _ | _, s1⟩ <;> rw [hx] at hr
  · cases hr
  · cases hr
    simpa only [Act.logOn, List.append_nil] using h W s s' b hx
  · cases hr
  · cases hr

theorem polls_ofWr {r : WrE ε α} {R : α → List Call → Prop} (h : ∀ a, R a []) : Polls (ActE.ofWr r) R := by
  intro W s s' a hr
  have : ∀ (r : WrE ε α) (s : W.State), questionsOf (Act.logOn W (Act.ofWr r) s) = [] := by
    intro r
    induction r with
    | ret a => intro s; rfl
    | stuck w => intro s; rfl
    | write bs k ih =>
      intro s
      simp only [Act.ofWr, Act.logOn]
      rcases W.write s bs with ⟨(_ | _) | _, s1⟩
      · exact ih false s1
      · rw [questionsOf_append, questionsOf_bytes]; exact ih true s1
      · rfl
  have h2 := this r s
  rw [show ActE.ofWr r = Act.ofWr r from rfl, h2]
  exact h a

end ActE

theorem polls_askPred {ε : Type} (env : Env) (p : Pred) :
    ActE.Polls (askPred env p : ActE ε Bool) fun _ q => q = [.pred p (argsIn env p.ids)] := by
  unfold askPred
  split
  · exact ActE.polls_call fun _ => ActE.polls_ok (by simp [argsIn, *])
  · exact ActE.polls_stuck _ _

theorem polls_askCalc {ε : Type} (env : Env) (c : Calc) :
    ActE.Polls (askCalc env c : ActE ε Int) fun _ q => q = [.calc c (argsIn env c.ids)] := by
  unfold askCalc
  split
  · exact ActE.polls_call fun _ => ActE.polls_ok (by simp [argsIn, *])
  · exact ActE.polls_stuck _ _

theorem polls_askLen {ε : Type} (cfg : Cfg) (env : Env) (len : LenSpec) :
    ActE.Polls (askLen cfg env len : ActE ε Nat) fun _ q => q = askedLen env len := by
  cases len with
  | fromField id => exact ActE.polls_lift fun _ _ => rfl
  | computed c => exact ActE.polls_andThen (polls_askCalc env c) fun _ q hq => ActE.polls_ok (by simp [hq, askedLen])

theorem polls_askLadder {ε : Type} (env : Env) : ∀ ps : List Pred,
    ActE.Polls (askLadder env ps : ActE ε (Option Nat)) fun o q => ∀ i, o = some i →
      q = (ps.take (i + 1)).map fun p => .pred p (argsIn env p.ids)
  | [] => ActE.polls_ok (by simp)
  | p :: ps => by
    refine ActE.polls_andThen (polls_askPred env p) ?_
    rintro b q rfl
    cases b
    · refine ActE.polls_mapOk ((polls_askLadder env ps).mono ?_)
      intro o q h i hi
      cases o with
      | none => cases hi
      | some j => cases hi; simp [h j rfl]
    · refine ActE.polls_ok ?_
      rintro i ⟨⟩
      simp

theorem polls_askDeducer {ε : Type} (env : Env) (d : Deducer) :
    ActE.Polls (askDeducer env d : ActE ε (Option Nat)) fun o q => ∀ i, o = some i → q = askedDeducer env i d := by
  cases d with
  | matchField id s ls => exact ActE.polls_lift fun _ _ _ _ => rfl
  | matchCompute c s ls =>
    exact ActE.polls_andThen (polls_askCalc env c) fun _ q hq => ActE.polls_ok (by simp [hq, askedDeducer])
  | ladder ps => exact polls_askLadder env ps

theorem polls_askCheck {ε : Type} (c : Constraint) (v : Val) :
    ActE.Polls (askCheck c v : ActE ε Bool) fun _ q => q = askedCheck v c := by
  cases c with
  | user f => exact ActE.polls_call fun _ => ActE.polls_ok rfl
  | none => exact ActE.polls_lift (o := Constraint.none.check v) fun _ _ => rfl
  | arrCmp eq w => exact ActE.polls_lift (o := (Constraint.arrCmp eq w).check v) fun _ _ => rfl
  | _ => exact ActE.polls_lift fun _ _ => rfl

/-- The question about one producer. -/
theorem polls_actAgrees (env : Env) (id : String) (n : Nat) (f : Field) (v : Val) (fs : List Field) (vs : List Val) :
    ActE.Polls (actAgrees env id n f v) fun _ q =>
      askedAgree env id (f :: fs) (v :: vs) = q ++ askedAgree env id fs vs := by
  cases f with
  | plain i k c =>
    exact ActE.polls_lift (o := (Field.plain i k c).condAgrees env id n v) fun _ _ => by
      cases v <;> simp [askedAgree]
  | union i d alts c =>
    exact ActE.polls_lift (o := (Field.union i d alts c).condAgrees env id n v) fun _ _ => by
      cases v <;> simp [askedAgree]
  | maybe i k p =>
    simp only [actAgrees]
    split
    · rename_i hk
      split
      · refine ActE.polls_andThen (polls_askPred env p) ?_
        rintro b q rfl
        split
        · split
          · exact ActE.polls_ok (by simp [askedAgree, hk])
          · exact ActE.polls_stuck _ _
        · exact ActE.polls_ok (by simp [askedAgree, hk])
      · exact ActE.polls_ok (by simp [askedAgree])
      · exact ActE.polls_stuck _ _
    · rename_i hk
      refine ActE.polls_ok ?_
      cases v <;> simp [askedAgree, hk]

theorem polls_actVerify (env : Env) (id : String) (n : Nat) : ∀ fs vs,
    ActE.Polls (actVerify env id n fs vs) fun _ q => q = askedAgree env id fs vs
  | [], _ => by simp only [actVerify]; exact ActE.polls_ok (by simp [askedAgree])
  | _ :: _, [] => by simp only [actVerify]; exact ActE.polls_ok (by simp [askedAgree])
  | f :: fs, v :: vs => by
    rw [actVerify]
    refine ActE.polls_andThen (polls_actAgrees env id n f v fs vs) fun _ q hq => ActE.polls_mapOk ?_
    exact (polls_actVerify env id n fs vs).mono fun _ q2 h2 => by rw [h2, hq]

theorem askedAgree_nil (env : Env) (id : String) : ∀ (fs : List Field) (vs : List Val),
    hasConditional fs id = false → askedAgree env id fs vs = []
  | [], _, _ => by simp [askedAgree]
  | _ :: _, [], _ => by simp [askedAgree]
  | f :: fs, v :: vs, h => by
    simp only [hasConditional, List.any_cons, Bool.or_eq_false_iff] at h
    have ih := askedAgree_nil env id fs vs h.2
    cases f with
    | maybe i k p =>
      have hk := h.1
      simp only [Field.condTargets, decide_eq_false_iff_not] at hk
      cases v <;> simp [askedAgree, ih, hk]
    | _ => simp [askedAgree, ih]

theorem polls_actVerifyThenWrite (cfg : Cfg) (ctx : WCtx) (id : String) (k : Kind) (v : Val) :
    ActE.Polls (actVerifyThenWrite cfg ctx id k v) fun _ q => q = askedAgree ctx.env id ctx.fs ctx.vs := by
  unfold actVerifyThenWrite
  split
  · split
    · refine ActE.polls_andThen (polls_actVerify _ _ _ _ _) ?_
      rintro b q rfl
      split
      · exact ActE.polls_ofWr fun _ => by simp
      · exact ActE.polls_err _ _
    · exact ActE.polls_stuck _ _
  · rename_i h
    exact ActE.polls_ofWr fun _ => (askedAgree_nil _ _ _ _ (by simpa using h)).symm

theorem polls_actFixed (cfg : Cfg) (ctx : WCtx) (hc : Counted cfg ctx.fs ctx.vs) (member : Bool) (id : String)
    (k : Kind) (hk : k.isFixed = true) (c : Constraint) (v : Val) :
    ActE.Polls (actFixed cfg ctx member id k c v) fun _ q => q = askedWKind cfg ctx.fs ctx.vs id c k v := by
  have hd : isDerived ctx.fs id = isSlot ctx.fs id := isDerived_eq _ _
  unfold actFixed
  split
  · rename_i hs
    rw [hd] at hs
    split
    · rename_i t w
      refine ActE.polls_andThen (R1 := fun o q => q = [] ∧ ∀ x, o = .ok x → x = t.conv (cfg.toSz (slotValue ctx.fs ctx.vs id)))
        (ActE.polls_lift ?_) ?_
      · rintro o ho
        refine ⟨rfl, ?_⟩
        rintro x rfl
        exact ((deriveValue_ok_iff hc hs).1 ho).2.2
      · rintro o q ⟨rfl, ho⟩
        cases o with
        | error r => exact ActE.polls_err _ _
        | ok x =>
          have hx := ho x rfl
          subst hx
          refine ActE.polls_andThen (polls_askCheck c _) ?_
          rintro b q rfl
          split
          · refine (polls_actVerifyThenWrite cfg ctx id _ _).mono ?_
            rintro _ q rfl
            simp only [askedWKind, hs, if_true, slotPut, List.nil_append]
            rfl
          · exact ActE.polls_err _ _
    · exact ActE.polls_stuck _ _
  · rename_i hs
    rw [hd, Bool.not_eq_true] at hs
    have : ∀ v', ActE.Polls (actVerifyThenWrite cfg ctx id k v') fun _ q => q = askedWKind cfg ctx.fs ctx.vs id c k v := by
      intro v'
      refine (polls_actVerifyThenWrite cfg ctx id k v').mono ?_
      rintro _ q rfl
      cases k <;> first | (simp [Kind.isFixed] at hk; done) | (simp only [askedWKind, hs]; rfl)
    split <;> exact this _

theorem polls_actComputed (cfg : Cfg) (env : Env) (len : LenSpec) (n : Nat) {k : ActE Reason Unit} {Q : List Call}
    (h : ActE.Polls k fun _ q => q = Q) :
    ActE.Polls (actComputed cfg env len n k) fun _ q => q = askedLen env len ++ Q := by
  unfold actComputed
  split
  · exact h.mono fun _ q hq => by simp [hq, askedLen]
  · refine ActE.polls_andThen (polls_askLen _ _ _) ?_
    rintro m q rfl
    split
    · exact ActE.polls_err _ _
    · exact h.mono fun _ q hq => by rw [hq]

theorem polls_actGuard (c : Constraint) (v : Val) {k : ActE Reason Unit} {Q : List Call}
    (h : ActE.Polls k fun _ q => q = Q) : ActE.Polls (actGuard c v k) fun _ q => q = askedCheck v c ++ Q := by
  refine ActE.polls_andThen (polls_askCheck c v) ?_
  rintro b q rfl
  split
  · exact h.mono fun _ q hq => by rw [hq]
  · exact ActE.polls_err _ _

theorem polls_actRecs {one : List Val → ActE CastError Unit} {Q : List Val → List Call} : ∀ (vs : List Val),
    (∀ v ∈ vs, ∃ ws, v = .seq ws ∧ ActE.Polls (one ws) fun _ q => q = Q ws) →
    ActE.Polls (actRecs one vs) fun _ q => q = vs.flatMap (recordCalls Q)
  | [], _ => ActE.polls_ok rfl
  | v :: vs, h => by
    obtain ⟨ws, rfl, h1⟩ := h v (by simp)
    have ih := polls_actRecs vs fun v hv => h v (by simp [hv])
    refine ActE.polls_andThen (ActE.polls_mapErr h1) ?_
    rintro _ q rfl
    exact ih.mono fun _ q hq => by simp [hq, recordCalls]

mutual
theorem polls_actWKind (cfg : Cfg) : ∀ k, saneKind k = true → ∀ ctx, Counted cfg ctx.fs ctx.vs → ∀ member id c v,
    (k.isFixed = true ∨ TypedKind cfg k v) →
    ActE.Polls (actWKind cfg ctx member id c k v) fun _ q => q = askedWKind cfg ctx.fs ctx.vs id c k v
  | .num t w, _, ctx, hc, member, id, c, v, _ => by rw [actWKind]; exact polls_actFixed cfg ctx hc member id _ rfl c v
  | .fbuf e n, _, ctx, hc, member, id, c, v, _ => by rw [actWKind]; exact polls_actFixed cfg ctx hc member id _ rfl c v
  | .fstr n, _, ctx, hc, member, id, c, v, _ => by rw [actWKind]; exact polls_actFixed cfg ctx hc member id _ rfl c v
  | .vec e len b, hs, ctx, hc, member, id, c, v, ht => by
      cases v with
      | seq vs =>
        rw [actWKind]
        simp only [askedWKind]
        exact (polls_actComputed cfg _ len _ (Q := []) (ActE.polls_ofWr fun _ => rfl)).mono fun _ q hq => by
          rw [hq, List.append_nil]; rfl
      | _ => simp only [actWKind]; exact ActE.polls_stuck _ _
  | .record fs, hs, ctx, hc, member, id, c, v, ht => by
      cases v with
      | seq vs =>
        simp only [saneKind] at hs
        simp only [Kind.isFixed, Bool.false_eq_true, false_or, TypedKind] at ht
        rw [actWKind, askedWKind]
        exact ActE.polls_mapErr (polls_actWFields cfg fs hs ⟨fs, vs⟩ (counted_of_typed hs ht) vs ht)
      | _ => simp only [actWKind]; exact ActE.polls_stuck _ _
  | .arrRec fs n, hs, ctx, hc, member, id, c, v, ht => by
      cases v with
      | seq vs =>
        simp only [saneKind] at hs
        simp only [Kind.isFixed, Bool.false_eq_true, false_or, TypedKind] at ht
        rw [actWKind, askedWKind]
        split
        · exact ActE.polls_stuck _ _
        · refine polls_actRecs vs fun v hv => ?_
          obtain ⟨ws, rfl, hw⟩ := ht.2 v hv
          exact ⟨ws, rfl, polls_actWFields cfg fs (by simp_all) ⟨fs, ws⟩ (counted_of_typed (by simp_all) hw) ws hw⟩
      | _ => simp only [actWKind]; exact ActE.polls_stuck _ _
  | .vecRec fs len b sz, hs, ctx, hc, member, id, c, v, ht => by
      cases v with
      | seq vs =>
        simp only [saneKind, Bool.and_eq_true] at hs
        simp only [Kind.isFixed, Bool.false_eq_true, false_or, TypedKind] at ht
        rw [actWKind, askedWKind]
        refine polls_actComputed cfg _ len _ (polls_actRecs vs fun v hv => ?_)
        obtain ⟨ws, rfl, hw⟩ := ht.2 v hv
        exact ⟨ws, rfl, polls_actWFields cfg fs (by simp_all) ⟨fs, ws⟩ (counted_of_typed (by simp_all) hw) ws hw⟩
      | _ => simp only [actWKind]; exact ActE.polls_stuck _ _
theorem polls_actWField (cfg : Cfg) : ∀ f, saneField f = true → ∀ ctx, Counted cfg ctx.fs ctx.vs → ∀ v,
    TypedField cfg f v → ActE.Polls (actWField cfg ctx f v) fun _ q => q = askedWField cfg ctx.fs ctx.vs f v
  | .plain id k c, hs, ctx, hc, v, ht => by
      simp only [saneField] at hs
      simp only [TypedField] at ht
      rw [actWField, askedWField]
      exact polls_actWKind cfg k hs ctx hc true id c v (.inr ht)
  | .maybe id k p, hs, ctx, hc, v, ht => by
      simp only [saneField] at hs
      simp only [actWField]
      refine ActE.polls_andThen (polls_askPred _ p) ?_
      rintro b q rfl
      cases v with
      | present w =>
        simp only [TypedField] at ht
        cases b
        · exact ActE.polls_err _ _
        · refine (polls_actWKind cfg k hs ctx hc false id .none w (.inr ht)).mono ?_
          rintro _ q rfl
          simp only [askedWField, List.singleton_append]
          rfl
      | absent =>
        cases b
        · exact ActE.polls_ok (by simp only [askedWField]; rfl)
        · exact ActE.polls_err _ _
      | _ => exact ActE.polls_stuck _ _
  | .union id d alts c, hs, ctx, hc, v, ht => by
      simp only [saneField, Bool.and_eq_true] at hs
      simp only [actWField]
      cases v with
      | var i w =>
        simp only [TypedField] at ht
        have ih := polls_actWAlts cfg alts hs.2 ctx hc id i w ht
        cases d with
        | matchField => exact ih.mono fun _ q hq => by simp [hq, askedWField, askedDeducer]
        | matchCompute _ _ _ =>
          refine ActE.polls_andThen (polls_askDeducer _ _) ?_
          intro o q hq
          cases o with
          | none => exact ActE.polls_err _ _
          | some j =>
            simp only
            split
            · exact ActE.polls_err _ _
            · rename_i hj
              simp only [ne_eq, Decidable.not_not] at hj
              subst hj
              refine ih.mono fun _ q2 h2 => ?_
              rw [h2, hq j rfl, askedWField]; rfl
        | ladder _ =>
          refine ActE.polls_andThen (polls_askDeducer _ _) ?_
          intro o q hq
          cases o with
          | none => exact ActE.polls_err _ _
          | some j =>
            simp only
            split
            · exact ActE.polls_err _ _
            · rename_i hj
              simp only [ne_eq, Decidable.not_not] at hj
              subst hj
              refine ih.mono fun _ q2 h2 => ?_
              rw [h2, hq j rfl, askedWField]; rfl
      | _ => exact ActE.polls_stuck _ _
theorem polls_actWAlts (cfg : Cfg) : ∀ alts, saneAlts alts = true → ∀ ctx, Counted cfg ctx.fs ctx.vs → ∀ id i w,
    TypedAlts cfg alts i w →
    ActE.Polls (actWAlts cfg ctx id alts i w) fun _ q => q = askedWAlts cfg ctx.fs ctx.vs id alts i w
  | [], _, ctx, _, id, i, w, _ => by rw [actWAlts]; exact ActE.polls_stuck _ _
  | .mk k c :: alts, hs, ctx, hc, id, 0, w, ht => by
      simp only [saneAlts, Bool.and_eq_true] at hs
      simp only [TypedAlts] at ht
      rw [actWAlts, askedWAlts]
      exact polls_actGuard c w (polls_actWKind cfg k hs.1 ctx hc false id c w (.inr ht))
  | .mk k c :: alts, hs, ctx, hc, id, i + 1, w, ht => by
      simp only [saneAlts, Bool.and_eq_true] at hs
      simp only [TypedAlts] at ht
      rw [actWAlts, askedWAlts]
      exact polls_actWAlts cfg alts hs.2 ctx hc id i w ht
theorem polls_actWFields (cfg : Cfg) : ∀ fs, saneFields fs = true → ∀ ctx, Counted cfg ctx.fs ctx.vs → ∀ vs,
    TypedFields cfg fs vs →
    ActE.Polls (actWFields cfg ctx fs vs) fun _ q => q = askedWFields cfg ctx.fs ctx.vs fs vs
  | [], _, ctx, _, [], _ => by rw [actWFields]; exact ActE.polls_ok (by simp [askedWFields])
  | [], _, ctx, _, _ :: _, _ => by simp only [actWFields]; exact ActE.polls_stuck _ _
  | _ :: _, _, ctx, _, [], _ => by simp only [actWFields]; exact ActE.polls_stuck _ _
  | f :: fs, hs, ctx, hc, v :: vs, ht => by
      simp only [saneFields, Bool.and_eq_true] at hs
      simp only [TypedFields] at ht
      have h1 := polls_actWField cfg f hs.1 ctx hc v ht.1
      have h2 := polls_actWFields cfg fs hs.2 ctx hc vs ht.2
      have hd : isDerived ctx.fs f.id = isSlot ctx.fs f.id := isDerived_eq _ _
      rw [actWFields]
      refine ActE.polls_andThen (R1 := fun _ q => q =
        (if isSlot ctx.fs f.id then [] else askedCheck v f.constraint) ++ askedWField cfg ctx.fs ctx.vs f v)
        (ActE.polls_mapErr ?_) ?_
      · rw [hd]
        split
        · rename_i h
          refine h1.mono ?_
          rintro _ q rfl
          split
          · rfl
          · rename_i hn
            have hf : f.isFrozen = true := by simpa [hn] using h
            have : askedCheck v f.constraint = [] := by
              cases f with
              | plain id k c =>
                cases c with
                | user g => cases k <;> simp [Field.isFrozen, frozenVal] at hf
                | _ => rfl
              | _ => simp [Field.isFrozen] at hf
            rw [this]; rfl
        · rename_i h
          have hn : isSlot ctx.fs f.id = false := by
            cases h' : isSlot ctx.fs f.id
            · rfl
            · simp [h'] at h
          simp only [hn]
          exact polls_actGuard f.constraint v h1
      · rintro _ q rfl
        exact h2.mono fun _ q hq => by rw [hq, askedWFields]
end

/-! ### Whose callables a write calls -/

theorem Act.asks_ofWr (P : Call → Prop) {γ : Type} (r : Wr γ) : (Act.ofWr r).Asks P := by
  induction r with
  | ret a => trivial
  | stuck w => trivial
  | write bs k ih => exact fun b => ih b

theorem asks_actVerify (env : Env) (id : String) (n : Nat) : ∀ fs vs,
    Act.Asks (lengthens fs id) (actVerify env id n fs vs)
  | [], _ => by simp only [actVerify]; trivial
  | _ :: _, [] => by simp only [actVerify]; trivial
  | f :: fs, v :: vs => by
    rw [actVerify]
    refine ActE.asks_andThen ?_ fun _ => ActE.asks_mapOk (Act.Asks.mono ?_ (asks_actVerify env id n fs vs))
    · cases f with
      | plain i k c => exact ActE.asks_lift _ ((Field.plain i k c).condAgrees env id n v)
      | union i d alts c => exact ActE.asks_lift _ ((Field.union i d alts c).condAgrees env id n v)
      | maybe i k p =>
        simp only [actAgrees]
        split
        · rename_i hk
          split
          · refine ActE.asks_andThen (Act.Asks.mono ?_ (asks_askPred env p)) fun b => ?_
            · rintro _ ⟨args, rfl⟩
              exact ⟨i, k, p, args, by simp, hk, rfl⟩
            · split
              · split <;> trivial
              · trivial
          · trivial
          · trivial
        · trivial
    · rintro c ⟨i, k, p, args, hm, hk, rfl⟩
      exact ⟨i, k, p, args, by simp [hm], hk, rfl⟩

theorem asks_actVerifyThenWrite (cfg : Cfg) (ctx : WCtx) (id : String) (k : Kind) (v : Val) :
    Act.Asks (lengthens ctx.fs id) (actVerifyThenWrite cfg ctx id k v) := by
  unfold actVerifyThenWrite
  split
  · split
    · refine ActE.asks_andThen (asks_actVerify _ _ _ _ _) fun b => ?_
      split
      · exact Act.asks_ofWr _ _
      · trivial
    · trivial
  · exact Act.asks_ofWr _ _

theorem asks_actFixed (cfg : Cfg) (ctx : WCtx) (member : Bool) (id : String) (k : Kind) (c : Constraint) (v : Val) :
    Act.Asks (fun q => checkOwns c q ∨ lengthens ctx.fs id q) (actFixed cfg ctx member id k c v) := by
  have h : ∀ v, Act.Asks (fun q => checkOwns c q ∨ lengthens ctx.fs id q) (actVerifyThenWrite cfg ctx id k v) :=
    fun v => Act.Asks.mono (fun _ h => .inr h) (asks_actVerifyThenWrite cfg ctx id k v)
  unfold actFixed
  split
  · split
    · refine ActE.asks_andThen (ActE.asks_lift _ _) fun o => ?_
      cases o with
      | error r => trivial
      | ok x =>
        refine ActE.asks_andThen (Act.Asks.mono (fun _ h => .inl h) (asks_askCheck c _)) fun b => ?_
        split
        · exact h _
        · trivial
    · trivial
  · split <;> exact h _

theorem asks_actComputed (cfg : Cfg) (env : Env) (len : LenSpec) (n : Nat) {k : ActE Reason Unit} {P : Call → Prop}
    (hl : ∀ c, lenOwns len c → P c) (h : Act.Asks P k) : Act.Asks P (actComputed cfg env len n k) := by
  unfold actComputed
  split
  · exact h
  · refine ActE.asks_andThen (Act.Asks.mono hl (asks_askLen _ _ _)) fun m => ?_
    split
    · trivial
    · exact h

theorem asks_actGuard (c : Constraint) (v : Val) {k : ActE Reason Unit} {P : Call → Prop}
    (hc : ∀ q, checkOwns c q → P q) (h : Act.Asks P k) : Act.Asks P (actGuard c v k) := by
  refine ActE.asks_andThen (Act.Asks.mono hc (asks_askCheck c v)) fun b => ?_
  split
  · exact h
  · trivial

theorem asks_actRecs {one : List Val → ActE CastError Unit} {P : Call → Prop} (h : ∀ ws, Act.Asks P (one ws)) :
    ∀ vs, Act.Asks P (actRecs one vs)
  | [] => trivial
  | v :: vs => by
    cases v with
    | seq ws => exact ActE.asks_andThen (ActE.asks_mapErr (h ws)) fun _ => asks_actRecs h vs
    | _ => trivial

theorem fieldsOwn_mem {fs : List Field} {f : Field} {c : Call} (hf : f ∈ fs) (h : fieldOwns f c) : fieldsOwn fs c := by
  induction fs with
  | nil => cases hf
  | cons g fs ih =>
    rw [fieldsOwn]
    rcases List.mem_cons.1 hf with rfl | hf
    · exact .inl h
    · exact .inr (ih hf)

theorem lengthens_own {fs : List Field} {id : String} {c : Call} (h : lengthens fs id c) : fieldsOwn fs c := by
  obtain ⟨i, k, p, args, hm, -, rfl⟩ := h
  exact fieldsOwn_mem hm (by rw [fieldOwns]; exact .inl ⟨args, rfl⟩)

mutual
theorem asks_actWKind (cfg : Cfg) : ∀ k ctx member id c v,
    Act.Asks (fun q => kindOwns k q ∨ checkOwns c q ∨ lengthens ctx.fs id q) (actWKind cfg ctx member id c k v)
  | .num t w, ctx, member, id, c, v => by
      rw [actWKind]; exact Act.Asks.mono (fun _ h => .inr h) (asks_actFixed cfg ctx member id _ c v)
  | .fbuf e n, ctx, member, id, c, v => by
      rw [actWKind]; exact Act.Asks.mono (fun _ h => .inr h) (asks_actFixed cfg ctx member id _ c v)
  | .fstr n, ctx, member, id, c, v => by
      rw [actWKind]; exact Act.Asks.mono (fun _ h => .inr h) (asks_actFixed cfg ctx member id _ c v)
  | .vec e len b, ctx, member, id, c, v => by
      cases v with
      | seq vs =>
        rw [actWKind]
        exact asks_actComputed cfg _ len _ (fun c h => .inl (by rw [kindOwns]; exact h)) (Act.asks_ofWr _ _)
      | _ => simp only [actWKind]; trivial
  | .record fs, ctx, member, id, c, v => by
      cases v with
      | seq vs =>
        rw [actWKind]
        exact ActE.asks_mapErr (Act.Asks.mono (fun q h => .inl (by rw [kindOwns]; exact (or_self _).mp h))
          (asks_actWFields cfg fs ⟨fs, vs⟩ vs))
      | _ => simp only [actWKind]; trivial
  | .arrRec fs n, ctx, member, id, c, v => by
      cases v with
      | seq vs =>
        rw [actWKind]
        split
        · trivial
        · exact asks_actRecs (fun ws => Act.Asks.mono (fun q h => .inl (by rw [kindOwns]; exact (or_self _).mp h))
            (asks_actWFields cfg fs ⟨fs, ws⟩ ws)) vs
      | _ => simp only [actWKind]; trivial
  | .vecRec fs len b sz, ctx, member, id, c, v => by
      cases v with
      | seq vs =>
        rw [actWKind]
        exact asks_actComputed cfg _ len _ (fun c h => .inl (by rw [kindOwns]; exact .inl h))
          (asks_actRecs (fun ws => Act.Asks.mono (fun q h => .inl (by rw [kindOwns]; exact .inr ((or_self _).mp h)))
            (asks_actWFields cfg fs ⟨fs, ws⟩ ws)) vs)
      | _ => simp only [actWKind]; trivial
theorem asks_actWField (cfg : Cfg) : ∀ f ctx v,
    Act.Asks (fun q => fieldOwns f q ∨ lengthens ctx.fs f.id q) (actWField cfg ctx f v)
  | .plain id k c, ctx, v => by
      rw [actWField]
      refine Act.Asks.mono ?_ (asks_actWKind cfg k ctx true id c v)
      rintro q (h | h | h)
      · exact .inl (by rw [fieldOwns]; exact .inl h)
      · exact .inl (by rw [fieldOwns]; exact .inr h)
      · exact .inr h
  | .maybe id k p, ctx, v => by
      simp only [actWField]
      refine ActE.asks_andThen (Act.Asks.mono ?_ (asks_askPred _ p)) fun b => ?_
      · intro q h; exact .inl (by rw [fieldOwns]; exact .inl h)
      · split
        · split
          · refine Act.Asks.mono ?_ (asks_actWKind cfg k ctx false id .none _)
            rintro q (h | h | h)
            · exact .inl (by rw [fieldOwns]; exact .inr h)
            · cases q <;> exact h.elim
            · exact .inr h
          · trivial
        · split <;> trivial
        · trivial
  | .union id d alts c, ctx, v => by
      simp only [actWField]
      cases v with
      | var i w =>
        have ih : Act.Asks (fun q => fieldOwns (.union id d alts c) q ∨ lengthens ctx.fs id q)
            (actWAlts cfg ctx id alts i w) := by
          refine Act.Asks.mono ?_ (asks_actWAlts cfg alts ctx id i w)
          rintro q (h | h)
          · exact .inl (by rw [fieldOwns]; exact .inr (.inl h))
          · exact .inr h
        have hd : ∀ q, deducerOwns d q → fieldOwns (.union id d alts c) q ∨ lengthens ctx.fs id q :=
          fun q h => .inl (by rw [fieldOwns]; exact .inl h)
        cases d with
        | matchField => exact ih
        | matchCompute _ _ _ =>
          refine ActE.asks_andThen (Act.Asks.mono hd (asks_askDeducer _ _)) fun o => ?_
          cases o with
          | none => trivial
          | some j => simp only; split; trivial; exact ih
        | ladder _ =>
          refine ActE.asks_andThen (Act.Asks.mono hd (asks_askDeducer _ _)) fun o => ?_
          cases o with
          | none => trivial
          | some j => simp only; split; trivial; exact ih
      | _ => trivial
theorem asks_actWAlts (cfg : Cfg) : ∀ alts ctx id i w,
    Act.Asks (fun q => altsOwn alts q ∨ lengthens ctx.fs id q) (actWAlts cfg ctx id alts i w)
  | [], ctx, id, i, w => by rw [actWAlts]; trivial
  | .mk k c :: alts, ctx, id, 0, w => by
      rw [actWAlts]
      refine asks_actGuard c w (fun q h => .inl (by rw [altsOwn]; exact .inr (.inl h))) ?_
      refine Act.Asks.mono ?_ (asks_actWKind cfg k ctx false id c w)
      rintro q (h | h | h)
      · exact .inl (by rw [altsOwn]; exact .inl h)
      · exact .inl (by rw [altsOwn]; exact .inr (.inl h))
      · exact .inr h
  | .mk k c :: alts, ctx, id, i + 1, w => by
      rw [actWAlts]
      refine Act.Asks.mono ?_ (asks_actWAlts cfg alts ctx id i w)
      rintro q (h | h)
      · exact .inl (by rw [altsOwn]; exact .inr (.inr h))
      · exact .inr h
theorem asks_actWFields (cfg : Cfg) : ∀ fs ctx vs,
    Act.Asks (fun q => fieldsOwn fs q ∨ fieldsOwn ctx.fs q) (actWFields cfg ctx fs vs)
  | [], ctx, [] => by rw [actWFields]; trivial
  | [], ctx, _ :: _ => by simp only [actWFields]; trivial
  | _ :: _, ctx, [] => by simp only [actWFields]; trivial
  | f :: fs, ctx, v :: vs => by
      have h1 := asks_actWField cfg f ctx v
      have h2 := asks_actWFields cfg fs ctx vs
      have h3 : Act.Asks (fun q => fieldsOwn (f :: fs) q ∨ fieldsOwn ctx.fs q) (actWField cfg ctx f v) := by
        refine Act.Asks.mono ?_ h1
        rintro q (h | h)
        · exact .inl (by rw [fieldsOwn]; exact .inl h)
        · exact .inr (lengthens_own h)
      rw [actWFields]
      refine ActE.asks_andThen (ActE.asks_mapErr ?_) fun _ => Act.Asks.mono ?_ h2
      · split
        · exact h3
        · exact asks_actGuard _ _ (fun q h => .inl (by rw [fieldsOwn]; exact .inl (owns_check f q h))) h3
      · rintro q (h | h)
        · exact .inl (by rw [fieldsOwn]; exact .inr h)
        · exact .inr h
end

/-- One field of the writer, with its check and its tag. -/
def actWStep (cfg : Cfg) (ctx : WCtx) (f : Field) (v : Val) : ActE CastError Unit :=
  (if isDerived ctx.fs f.id || f.isFrozen then actWField cfg ctx f v
    else actGuard f.constraint v (actWField cfg ctx f v)).tag f.id

theorem asks_actWStep (cfg : Cfg) (ctx : WCtx) (f : Field) (v : Val) :
    Act.Asks (fun q => fieldOwns f q ∨ lengthens ctx.fs f.id q) (actWStep cfg ctx f v) := by
  unfold actWStep
  refine ActE.asks_mapErr ?_
  split
  · exact asks_actWField cfg f ctx v
  · exact asks_actGuard _ _ (fun q h => .inl (owns_check f q h)) (asks_actWField cfg f ctx v)

theorem broken_off_w (cfg : Cfg) (ctx : WCtx) (hc : Counted cfg ctx.fs ctx.vs) (W : World) :
    ∀ (fs : List Field), saneFields fs = true → ∀ (vs : List Val), TypedFields cfg fs vs → ∀ (s s' : W.State)
    (e : Ending (Except CastError Unit)), (actWFields cfg ctx fs vs).runOn W s = (e, s') → e ≠ .done (.ok ()) →
    ∃ pre pvs f v post t1 t2, fs = pre ++ f :: post ∧ pvs ++ [v] <+: vs ∧ pre.length = pvs.length ∧
      (actWFields cfg ctx fs vs).logOn W s = t1 ++ t2 ∧
      questionsOf t1 = askedWFields cfg ctx.fs ctx.vs pre pvs ∧
      (∀ q ∈ questionsOf t2, fieldOwns f q ∨ lengthens ctx.fs f.id q) ∧
      ((∃ r, e = .done (.error ⟨r, f.id⟩)) ∨ (∃ w, e = .stuck w) ∨ e = .thrown)
  | [], _, [], _, s, s', e, h, hne => by
    simp only [actWFields, ActE.ok, Act.runOn, Prod.mk.injEq] at h
    exact absurd h.1.symm hne
  | [], _, _ :: _, ht, _, _, _, _, _ => by simp [TypedFields] at ht
  | _ :: _, _, [], ht, _, _, _, _, _ => by simp [TypedFields] at ht
  | f :: fs, hs, v :: vs, ht, s, s', e, h, hne => by
    simp only [saneFields, Bool.and_eq_true] at hs
    simp only [TypedFields] at ht
    have hb := ActE.runOn_andThen W (actWStep cfg ctx f v) (fun _ => actWFields cfg ctx fs vs) s
    have hcons : actWFields cfg ctx (f :: fs) (v :: vs) =
      (actWStep cfg ctx f v).andThen fun _ => actWFields cfg ctx fs vs := by rw [actWFields]; rfl
    rw [← hcons, h] at hb
    have hask := Act.asks_log W (asks_actWStep cfg ctx f v) s
    have here : ∀ (hl : (actWFields cfg ctx (f :: fs) (v :: vs)).logOn W s = (actWStep cfg ctx f v).logOn W s)
        (he : (∃ r, e = .done (.error ⟨r, f.id⟩)) ∨ (∃ w, e = .stuck w) ∨ e = .thrown), _ := fun hl he =>
      (⟨[], [], f, v, fs, [], _, rfl, by simp, rfl, by simpa using hl, by simp [askedWFields, questionsOf], hask, he⟩ :
        ∃ pre pvs g w post t1 t2, f :: fs = pre ++ g :: post ∧ pvs ++ [w] <+: v :: vs ∧ pre.length = pvs.length ∧
          (actWFields cfg ctx (f :: fs) (v :: vs)).logOn W s = t1 ++ t2 ∧
          questionsOf t1 = askedWFields cfg ctx.fs ctx.vs pre pvs ∧
          (∀ q ∈ questionsOf t2, fieldOwns g q ∨ lengthens ctx.fs g.id q) ∧
          ((∃ r, e = .done (.error ⟨r, g.id⟩)) ∨ (∃ w, e = .stuck w) ∨ e = .thrown))
    cases hr : (actWStep cfg ctx f v).runOn W s with
    | mk e1 s1 =>
      rw [hr] at hb
      cases e1 with
      | thrown =>
        obtain ⟨h1, h2⟩ := hb
        cases h1
        exact here (by simpa using h2) (.inr (.inr rfl))
      | stuck w =>
        obtain ⟨h1, h2⟩ := hb
        cases h1
        exact here (by simpa using h2) (.inr (.inl ⟨w, rfl⟩))
      | done x =>
        cases x with
        | error er =>
          obtain ⟨h1, h2⟩ := hb
          cases h1
          obtain ⟨r, rfl⟩ := ActE.runOn_mapErr W _ _ s s' er hr
          exact here (by simpa using h2) (.inl ⟨r, rfl⟩)
        | ok u =>
          obtain ⟨h1, h2⟩ := hb
          obtain ⟨pre, pvs, g, w, post, t1, t2, rfl, hp, hlen, hl, hq, ho, he⟩ :=
            broken_off_w cfg ctx hc W fs hs.2 vs ht.2 s1 s' e h1.symm hne
          refine ⟨f :: pre, v :: pvs, g, w, post, (actWStep cfg ctx f v).logOn W s ++ t1, t2, rfl, ?_, by simp [hlen], ?_, ?_, ho, he⟩
          · simpa using hp
          · rw [h2, List.append_assoc]; simp only; rw [hl]
          · have hpo := polls_actWFields cfg [f] (by simp [saneFields, hs.1]) ctx hc [v] (by simp [TypedFields, ht.1])
            have hone : actWFields cfg ctx [f] [v] = (actWStep cfg ctx f v).andThen fun _ => ActE.ok () := by
              rw [actWFields, actWFields]; rfl
            have hb3 := ActE.runOn_andThen W (actWStep cfg ctx f v) (fun _ => (ActE.ok () : ActE CastError Unit)) s
            rw [← hone, hr] at hb3
            have := hpo W s s1 () hb3.1
            rw [hb3.2] at this
            rw [questionsOf_append, hq]
            simp only [ActE.ok, Act.logOn, List.append_nil] at this
            rw [this]
            simp [askedWFields]

end S2S
