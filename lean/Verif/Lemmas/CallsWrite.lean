import Verif.Lemmas.CallsRun
import Verif.Lemmas.WriteTree
/-
What a write emits does not depend on the user's code.
-/
namespace S2S
open Spec

variable {ε ε' α β : Type}

/-- Whatever the answers: the bytes written are a beginning of `q`, and all of it on
success. -/
def ActE.Line : List Byte → ActE ε α → Prop
  | q, .ret (.ok _) => q = []
  | _, .ret (.error _) => True
  | _, .stuck _ => True
  | _, .read _ _ => False
  | q, .write bs k => (∃ q', q = bs ++ q' ∧ Line q' (k true)) ∧ Line q (k false)
  | q, .alloc _ k => Line q k
  | q, .call _ k => ∀ a, Line q (k a)

theorem ActE.Line.log {r : ActE ε α} : ∀ {q : List Byte}, ActE.Line q r → ∀ (W : World) (s : W.State),
    bytesOf (Act.logOn W r s) <+: q ∧ ∀ a s', Act.runOn W r s = (.done (.ok a), s') → bytesOf (Act.logOn W r s) = q := by
  induction r with
  | ret x =>
    intro q h W s
    cases x with
    | ok a => cases h; exact ⟨List.nil_prefix, fun _ _ _ => rfl⟩
    | error e => exact ⟨List.nil_prefix, fun _ _ h => by simp [Act.runOn] at h⟩
  | stuck w => intro q h W s; exact ⟨List.nil_prefix, fun _ _ h => by simp [Act.runOn] at h⟩
  | read n k ih => intro q h; exact h.elim
  | write bs k ih =>
    intro q h W s
    obtain ⟨⟨q', rfl, h1⟩, h2⟩ := h
    simp only [Act.logOn, Act.runOn]
    cases W.write s bs with
    | mk o s1 =>
      cases o with
      | thrown => exact ⟨List.nil_prefix, fun _ _ h => by simp at h⟩
      | value o =>
        cases o with
        | false => exact ih false h2 W s1
        | true =>
          have := ih true h1 W s1
          simp only [bytesOf_append, bytesOf_bytes, List.prefix_append_right_inj, List.append_cancel_left_eq]
          exact this
  | alloc b k ih => intro q h W s; exact ih h W s
  | call c k ih =>
    intro q h W s
    simp only [Act.logOn, Act.runOn]
    cases W.call s c with
    | mk o s1 =>
      cases o with
      | thrown => exact ⟨List.nil_prefix, fun _ _ h => by simp at h⟩
      | value a => exact ih a (h a) W s1

namespace ActE

theorem line_ok (a : α) : Line [] (ok a : ActE ε α) := rfl

theorem line_andThen {r : ActE ε α} {f : α → ActE ε β} {q2 : List Byte} (hf : ∀ a, Line q2 (f a)) : ∀ {q1 : List Byte},
    Line q1 r → Line (q1 ++ q2) (r.andThen f) := by
  induction r with
  | ret x =>
    intro q1 h
    cases x with
    | ok a => cases h; exact hf a
    | error e => trivial
  | stuck w => intro q1 h; trivial
  | read n k ih => intro q1 h; exact h.elim
  | write bs k ih =>
    intro q1 h
    obtain ⟨⟨q', rfl, h1⟩, h2⟩ := h
    exact ⟨⟨q' ++ q2, by simp, ih true h1⟩, ih false h2⟩
  | alloc b k ih => intro q1 h; exact ih h
  | call c k ih => intro q1 h a; exact ih a (h a)

/-- After something that writes nothing. -/
theorem line_after {r : ActE ε α} {f : α → ActE ε β} {q : List Byte} (hr : Line [] r) (hf : ∀ a, Line q (f a)) :
    Line q (r.andThen f) := line_andThen hf hr

theorem line_mapErr {g : ε → ε'} {r : ActE ε α} : ∀ {q : List Byte}, Line q r → Line q (r.mapErr g) := by
  induction r with
  | ret x => intro q h; cases x <;> exact h
  | stuck w => intro q h; trivial
  | read n k ih => intro q h; exact h.elim
  | write bs k ih =>
    intro q h
    obtain ⟨⟨q', rfl, h1⟩, h2⟩ := h
    exact ⟨⟨q', rfl, ih true h1⟩, ih false h2⟩
  | alloc b k ih => intro q h; exact ih h
  | call c k ih => intro q h a; exact ih a (h a)

theorem line_mapOk {g : α → β} {r : ActE ε α} {q : List Byte} (h : Line q r) : Line q (r.mapOk g) := by
  have h' := line_andThen (f := fun a => (ok (g a) : ActE ε β)) (fun a => line_ok (g a)) h
  rw [List.append_nil] at h'
  exact h'

theorem line_lift (o : Except Stuck α) : Line [] (ActE.lift o : ActE ε α) := by
  cases o <;> trivial

theorem line_ofWr {P : ε → Prop} : ∀ {r : WrE ε α}, WrE.ShortE P r → ∃ q, Line q (ActE.ofWr r) := by
  intro r
  induction r with
  | ret x => intro _; exact ⟨[], by cases x <;> trivial⟩
  | stuck w => intro _; exact ⟨[], trivial⟩
  | write bs k ih =>
    intro h
    obtain ⟨⟨a, h1, h2⟩, h3⟩ := h
    obtain ⟨q, hq⟩ := ih true h3
    refine ⟨bs ++ q, ⟨q, rfl, hq⟩, ?_⟩
    cases a with
    | ok a => exact h2.elim
    | error e => simp only [h1, Act.ofWr]; trivial

end ActE

theorem line_askPred {ε : Type} (env : Env) (p : Pred) : ActE.Line [] (askPred env p : ActE ε Bool) := by
  unfold askPred
  split
  · exact fun _ => rfl
  · trivial

theorem line_askCalc {ε : Type} (env : Env) (c : Calc) : ActE.Line [] (askCalc env c : ActE ε Int) := by
  unfold askCalc
  split
  · exact fun _ => rfl
  · trivial

theorem line_askLen {ε : Type} (cfg : Cfg) (env : Env) (len : LenSpec) :
    ActE.Line [] (askLen cfg env len : ActE ε Nat) := by
  cases len with
  | fromField id => exact ActE.line_lift _
  | computed c => exact ActE.line_after (line_askCalc env c) fun _ => rfl

theorem line_askLadder {ε : Type} (env : Env) : ∀ ps : List Pred,
    ActE.Line [] (askLadder env ps : ActE ε (Option Nat))
  | [] => rfl
  | p :: ps => by
    refine ActE.line_after (line_askPred env p) fun b => ?_
    cases b
    · exact ActE.line_mapOk (line_askLadder env ps)
    · rfl

theorem line_askDeducer {ε : Type} (env : Env) (d : Deducer) :
    ActE.Line [] (askDeducer env d : ActE ε (Option Nat)) := by
  cases d with
  | matchField id s ls => exact ActE.line_lift _
  | matchCompute c s ls => exact ActE.line_after (line_askCalc env c) fun _ => rfl
  | ladder ps => exact line_askLadder env ps

theorem line_askCheck {ε : Type} (c : Constraint) (v : Val) : ActE.Line [] (askCheck c v : ActE ε Bool) := by
  cases c with
  | user f => exact fun _ => rfl
  | none => exact ActE.line_lift (Constraint.none.check v)
  | arrCmp eq w => exact ActE.line_lift ((Constraint.arrCmp eq w).check v)
  | _ => exact ActE.line_lift _

theorem line_actAgrees (env : Env) (target : String) (n : Nat) (f : Field) (v : Val) :
    ActE.Line [] (actAgrees env target n f v) := by
  unfold actAgrees
  split
  · split
    · split
      · refine ActE.line_after (line_askPred _ _) fun b => ?_
        split
        · split
          · rfl
          · trivial
        · rfl
      · rfl
      · trivial
    · rfl
  · exact ActE.line_lift _

theorem line_actVerify (env : Env) (target : String) (n : Nat) : ∀ fs vs,
    ActE.Line [] (actVerify env target n fs vs)
  | [], _ => by rw [actVerify]; rfl; simp
  | _ :: _, [] => by rw [actVerify]; rfl; simp
  | f :: fs, v :: vs => by
    rw [actVerify]
    exact ActE.line_after (line_actAgrees _ _ _ _ _) fun _ => ActE.line_mapOk (line_actVerify env target n fs vs)

theorem line_emitFixed (cfg : Cfg) (k : Kind) (v : Val) : ∃ q, ActE.Line q (ActE.ofWr (emitFixed cfg k v)) :=
  ActE.line_ofWr (wshort_emitFixed cfg k v)

theorem line_actVerifyThenWrite (cfg : Cfg) (ctx : WCtx) (id : String) (k : Kind) (v : Val) :
    ∃ q, ActE.Line q (actVerifyThenWrite cfg ctx id k v) := by
  obtain ⟨q, hq⟩ := line_emitFixed cfg k v
  refine ⟨q, ?_⟩
  unfold actVerifyThenWrite
  split
  · split
    · refine ActE.line_after (line_actVerify _ _ _ _ _) fun b => ?_
      split
      · exact hq
      · trivial
    · trivial
  · exact hq

theorem line_actFixed (cfg : Cfg) (ctx : WCtx) (member : Bool) (id : String) (k : Kind) (c : Constraint) (v : Val) :
    ∃ q, ActE.Line q (actFixed cfg ctx member id k c v) := by
  unfold actFixed
  split
  · split
    · rename_i t w
      cases deriveValue cfg ctx.fs ctx.vs id t w with
      | error w => exact ⟨[], trivial⟩
      | ok o =>
        cases o with
        | error r => exact ⟨[], trivial⟩
        | ok x =>
          obtain ⟨q, hq⟩ := line_actVerifyThenWrite cfg ctx id (.num t w) (.int x)
          refine ⟨q, ActE.line_after (r := askCheck c (.int x)) (line_askCheck c (.int x)) fun b => ?_⟩
          split
          · exact hq
          · trivial
    · exact ⟨[], trivial⟩
  · split <;> exact line_actVerifyThenWrite ..

theorem line_actComputed (cfg : Cfg) (env : Env) (len : LenSpec) (n : Nat) {k : ActE Reason Unit}
    (h : ∃ q, ActE.Line q k) : ∃ q, ActE.Line q (actComputed cfg env len n k) := by
  obtain ⟨q, hq⟩ := h
  refine ⟨q, ?_⟩
  unfold actComputed
  split
  · exact hq
  · refine ActE.line_after (line_askLen _ _ _) fun m => ?_
    split
    · trivial
    · exact hq

theorem line_actGuard (c : Constraint) (v : Val) {k : ActE Reason Unit} (h : ∃ q, ActE.Line q k) :
    ∃ q, ActE.Line q (actGuard c v k) := by
  obtain ⟨q, hq⟩ := h
  refine ⟨q, ActE.line_after (line_askCheck c v) fun b => ?_⟩
  split
  · exact hq
  · trivial

theorem line_actRecs {one : List Val → ActE CastError Unit} (h : ∀ ws, ∃ q, ActE.Line q (one ws)) : ∀ vs,
    ∃ q, ActE.Line q (actRecs one vs)
  | [] => ⟨[], rfl⟩
  | v :: vs => by
    obtain ⟨q2, h2⟩ := line_actRecs h vs
    cases v with
    | seq ws =>
      obtain ⟨q1, h1⟩ := h ws
      exact ⟨q1 ++ q2, ActE.line_andThen (fun _ => h2) (ActE.line_mapErr h1)⟩
    | _ => exact ⟨[], trivial⟩

mutual
theorem line_actWKind (cfg : Cfg) : ∀ k ctx member id c v, ∃ q, ActE.Line q (actWKind cfg ctx member id c k v)
  | .num t w, ctx, member, id, c, v => by rw [actWKind]; exact line_actFixed ..
  | .fbuf e n, ctx, member, id, c, v => by rw [actWKind]; exact line_actFixed ..
  | .fstr n, ctx, member, id, c, v => by rw [actWKind]; exact line_actFixed ..
  | .vec e len b, ctx, member, id, c, v => by
      cases v with
      | seq vs =>
        rw [actWKind]
        exact line_actComputed _ _ _ _ (ActE.line_ofWr (wshort_writeVec cfg e vs))
      | _ => simp only [actWKind]; exact ⟨[], trivial⟩
  | .record fs, ctx, member, id, c, v => by
      cases v with
      | seq vs =>
        rw [actWKind]
        obtain ⟨q, hq⟩ := line_actWFields cfg fs ⟨fs, vs⟩ vs
        exact ⟨q, ActE.line_mapErr hq⟩
      | _ => simp only [actWKind]; exact ⟨[], trivial⟩
  | .arrRec fs n, ctx, member, id, c, v => by
      cases v with
      | seq vs =>
        rw [actWKind]
        split
        · exact ⟨[], trivial⟩
        · exact line_actRecs (fun ws => line_actWFields cfg fs ⟨fs, ws⟩ ws) vs
      | _ => simp only [actWKind]; exact ⟨[], trivial⟩
  | .vecRec fs len b sz, ctx, member, id, c, v => by
      cases v with
      | seq vs =>
        rw [actWKind]
        exact line_actComputed _ _ _ _ (line_actRecs (fun ws => line_actWFields cfg fs ⟨fs, ws⟩ ws) vs)
      | _ => simp only [actWKind]; exact ⟨[], trivial⟩
theorem line_actWField (cfg : Cfg) : ∀ f ctx v, ∃ q, ActE.Line q (actWField cfg ctx f v)
  | .plain id k c, ctx, v => by rw [actWField]; exact line_actWKind cfg k ctx true id c v
  | .maybe id k p, ctx, v => by
      simp only [actWField]
      cases v with
      | present w =>
        obtain ⟨q, hq⟩ := line_actWKind cfg k ctx false id .none w
        refine ⟨q, ActE.line_after (line_askPred _ _) fun b => ?_⟩
        cases b
        · trivial
        · exact hq
      | absent =>
        refine ⟨[], ActE.line_after (line_askPred _ _) fun b => ?_⟩
        cases b
        · rfl
        · trivial
      | _ => exact ⟨[], ActE.line_after (line_askPred _ _) fun b => trivial⟩
  | .union id d alts c, ctx, v => by
      simp only [actWField]
      cases v with
      | var i w =>
        obtain ⟨q, hq⟩ := line_actWAlts cfg alts ctx id i w
        refine ⟨q, ?_⟩
        cases d with
        | matchField => exact hq
        | _ =>
          refine ActE.line_after (line_askDeducer _ _) fun o => ?_
          cases o with
          | none => trivial
          | some j =>
            simp only
            split
            · trivial
            · exact hq
      | _ => exact ⟨[], trivial⟩
theorem line_actWAlts (cfg : Cfg) : ∀ alts ctx id i w, ∃ q, ActE.Line q (actWAlts cfg ctx id alts i w)
  | [], ctx, id, i, w => by rw [actWAlts]; exact ⟨[], trivial⟩
  | .mk k c :: alts, ctx, id, 0, w => by rw [actWAlts]; exact line_actGuard _ _ (line_actWKind cfg k ctx false id c w)
  | .mk k c :: alts, ctx, id, i + 1, w => by rw [actWAlts]; exact line_actWAlts cfg alts ctx id i w
theorem line_actWFields (cfg : Cfg) : ∀ fs ctx vs, ∃ q, ActE.Line q (actWFields cfg ctx fs vs)
  | [], ctx, [] => by rw [actWFields]; exact ⟨[], rfl⟩
  | [], ctx, _ :: _ => by simp only [actWFields]; exact ⟨[], trivial⟩
  | _ :: _, ctx, [] => by simp only [actWFields]; exact ⟨[], trivial⟩
  | f :: fs, ctx, v :: vs => by
      rw [actWFields]
      obtain ⟨q2, h2⟩ := line_actWFields cfg fs ctx vs
      obtain ⟨q1, h1⟩ := line_actWField cfg f ctx v
      obtain ⟨q3, h3⟩ := line_actGuard f.constraint v ⟨q1, h1⟩
      split
      · exact ⟨q1 ++ q2, ActE.line_andThen (fun _ => h2) (ActE.line_mapErr h1)⟩
      · exact ⟨q3 ++ q2, ActE.line_andThen (fun _ => h2) (ActE.line_mapErr h3)⟩
end

theorem line_actStream (cfg : Cfg) (fs : List Field) (vs : List Val) : ∃ q, ActE.Line q (actStream cfg fs vs) :=
  line_actWFields cfg fs _ vs

/-- What the writer emits when the answers are a function, on a stream that takes
everything. -/
theorem ActE.Line.onList {A : Answers} {r : ActE ε α} : ∀ {q : List Byte} {r' : WrE ε α} {a : α} {got p : List Byte},
    ActE.Line q r → Act.ask A r = Act.ofWr r' → Wr.runOn listOut r' got = (.done (.ok a), p) → p = got ++ q := by
  induction r with
  | ret x =>
    intro q r' a got p hl h hr
    cases r' <;> simp only [Act.ask, Act.ofWr, Act.ret.injEq, reduceCtorEq] at h
    subst h
    cases hr
    cases hl
    exact (List.append_nil _).symm
  | stuck w =>
    intro q r' a got p hl h hr
    cases r' <;> simp only [Act.ask, Act.ofWr, Act.stuck.injEq, reduceCtorEq] at h
    cases hr
  | read n k ih => intro q r' a got p hl; exact hl.elim
  | write bs k ih =>
    intro q r' a got p hl h hr
    cases r' <;> simp only [Act.ask, Act.ofWr, Act.write.injEq, reduceCtorEq] at h
    obtain ⟨rfl, h⟩ := h
    obtain ⟨⟨q', rfl, h1⟩, _⟩ := hl
    have := ih true h1 (congrFun h true) hr
    rw [this]
    exact List.append_assoc _ _ _
  | alloc b k ih =>
    intro q r' a got p hl h hr
    cases r' <;> simp only [Act.ask, Act.ofWr, reduceCtorEq] at h
  | call c k ih =>
    intro q r' a got p hl h hr
    exact ih (A c) (hl (A c)) h hr

/-- A successful run, the answers a function, is one of the pure writer. -/
theorem runOn_wr {A : Answers} {P : ε → Prop} (W : World) {r : ActE ε α} : ∀ {r' : WrE ε α} {s s' : W.State} {a : α}
    (got : List Byte), Act.ask A r = Act.ofWr r' → WrE.ShortE P r' → Answered A (Act.logOn W r s) →
    Act.runOn W r s = (.done (.ok a), s') →
    Wr.runOn listOut r' got = (.done (.ok a), got ++ bytesOf (Act.logOn W r s)) := by
  induction r with
  | ret x =>
    intro r' s s' a got h _ _ hr
    cases r' <;> simp only [Act.ask, Act.ofWr, Act.ret.injEq, reduceCtorEq] at h
    subst h
    cases hr
    simp only [Act.logOn, bytesOf, List.append_nil]
    rfl
  | stuck w => intro r' s s' a got h _ _ hr; cases hr
  | read n k ih =>
    intro r' s s' a got h _ _ hr
    cases r' <;> simp only [Act.ask, Act.ofWr, reduceCtorEq] at h
  | write bs k ih =>
    intro r' s s' a got h hs hl hr
    cases r' <;> simp only [Act.ask, Act.ofWr, Act.write.injEq, reduceCtorEq] at h
    rename_i bs' k'
    obtain ⟨rfl, h⟩ := h
    obtain ⟨⟨x, h1, h2⟩, h3⟩ := hs
    simp only [Act.logOn] at hl ⊢
    simp only [Act.runOn] at hr
    cases hw : W.write s bs with
    | mk o s1 =>
      rw [hw] at hr
      simp only [hw] at hl
      cases o with
      | thrown => cases hr
      | value o =>
        cases o with
        | true =>
          have := ih true (got ++ bs) (congrFun h true) h3 (fun c b hc => hl c b (by simp [hc])) hr
          simp only [bytesOf_append, bytesOf_bytes]
          rw [← List.append_assoc]
          exact this
        | false =>
          have hx := congrFun h false
          have := ih false got hx (by rw [h1]; trivial) hl hr
          rw [h1] at this
          cases x with
          | ok y => exact h2.elim
          | error e => cases this
  | alloc b k ih =>
    intro r' s s' a got h _ _ hr
    cases r' <;> simp only [Act.ask, Act.ofWr, reduceCtorEq] at h
  | call c k ih =>
    intro r' s s' a got h hs hl hr
    simp only [Act.logOn] at hl ⊢
    simp only [Act.runOn] at hr
    cases hw : W.call s c with
    | mk o s1 =>
      rw [hw] at hr
      simp only [hw] at hl
      cases o with
      | thrown => cases hr
      | value b =>
        have hb := hl c b (by simp)
        simp only [Act.ask] at h
        rw [← hb] at h
        simpa only [bytesOf] using ih b got h hs (fun c b hc => hl c b (by simp [hc])) hr

end S2S
