import Verif.Lemmas.CallsUnder
/-
Running computations with calls.
-/
namespace S2S
open Spec

theorem bytesOf_append : ∀ s t : List Ev, bytesOf (s ++ t) = bytesOf s ++ bytesOf t
  | [], _ => rfl
  | .byte b :: s, t => by simp [bytesOf, bytesOf_append s t]
  | .answer _ _ :: s, t => by simp [bytesOf, bytesOf_append s t]

theorem questionsOf_append : ∀ s t : List Ev, questionsOf (s ++ t) = questionsOf s ++ questionsOf t
  | [], _ => rfl
  | .byte b :: s, t => by simp [questionsOf, questionsOf_append s t]
  | .answer _ _ :: s, t => by simp [questionsOf, questionsOf_append s t]

theorem bytesOf_bytes : ∀ bs : List Byte, bytesOf (bs.map .byte) = bs
  | [] => rfl
  | b :: bs => by simp [bytesOf, bytesOf_bytes bs]

theorem questionsOf_bytes : ∀ bs : List Byte, questionsOf (bs.map .byte) = []
  | [] => rfl
  | b :: bs => by simp [questionsOf, questionsOf_bytes bs]

/-! ### What a dialogue says -/

theorem AsksPred.says {env : Env} {p : Pred} {b : Bool} {t : List Ev} (h : AsksPred env p b t) :
    bytesOf t = [] ∧ questionsOf t = [.pred p (argsIn env p.ids)] := by
  obtain ⟨args, a, h1, rfl, _⟩ := h
  exact ⟨rfl, by simp [questionsOf, argsIn, h1]⟩

theorem AsksCalc.says {env : Env} {c : Calc} {R : Int → Prop} {t : List Ev} (h : AsksCalc env c R t) :
    bytesOf t = [] ∧ questionsOf t = [.calc c (argsIn env c.ids)] := by
  obtain ⟨args, a, h1, rfl, _⟩ := h
  exact ⟨rfl, by simp [questionsOf, argsIn, h1]⟩

theorem AsksLen.says {cfg : Cfg} {env : Env} {len : LenSpec} {n : Nat} {t : List Ev} (h : AsksLen cfg env n t len) :
    bytesOf t = [] ∧ questionsOf t = askedLen env len := by
  cases len with
  | fromField id => obtain ⟨rfl, _⟩ := h; exact ⟨rfl, rfl⟩
  | computed c => exact AsksCalc.says h

theorem AsksLadder.says {env : Env} : ∀ {ps : List Pred} {i : Nat} {t : List Ev}, AsksLadder env ps i t →
    bytesOf t = [] ∧ questionsOf t = (ps.take (i + 1)).map fun p => .pred p (argsIn env p.ids)
  | [], _, _, h => h.elim
  | p :: ps, 0, _, h => by simpa using AsksPred.says h
  | p :: ps, i + 1, _, h => by
    obtain ⟨t1, t2, rfl, h1, h2⟩ := h
    have h3 := AsksPred.says h1
    have h4 := AsksLadder.says h2
    simp [bytesOf_append, questionsOf_append, h3, h4]

theorem AsksDeducer.says {env : Env} {d : Deducer} {i : Nat} {t : List Ev} (h : AsksDeducer env i t d) :
    bytesOf t = [] ∧ questionsOf t = askedDeducer env i d := by
  cases d with
  | matchField id s ls => obtain ⟨rfl, _⟩ := h; exact ⟨rfl, rfl⟩
  | matchCompute c s ls => exact AsksCalc.says h
  | ladder ps => exact AsksLadder.says h

theorem AsksCheck.says {v : Val} {t : List Ev} {c : Constraint} (h : AsksCheck v t c) :
    bytesOf t = [] ∧ questionsOf t = askedCheck v c := by
  cases c with
  | user f => obtain ⟨a, rfl, _⟩ := h; exact ⟨rfl, rfl⟩
  | _ => obtain ⟨rfl, _⟩ := h; exact ⟨rfl, rfl⟩

theorem InTurn.says {P : Val → List Ev → Prop} {bf : Val → List Byte} {qf : Val → List Call}
    (h : ∀ v t, P v t → bytesOf t = bf v ∧ questionsOf t = qf v) : ∀ {vs : List Val} {t : List Ev}, InTurn P vs t →
    bytesOf t = vs.flatMap bf ∧ questionsOf t = vs.flatMap qf
  | [], _, ht => by cases ht; exact ⟨rfl, rfl⟩
  | v :: vs, _, ht => by
    obtain ⟨t1, t2, rfl, h1, h2⟩ := ht
    have h3 := h v t1 h1
    have h4 := InTurn.says h h2
    simp [bytesOf_append, questionsOf_append, h3, h4]

mutual
theorem says_kind (cfg : Cfg) : ∀ k env v t, TalkKind cfg env k v t →
    bytesOf t = wireKind cfg.wire k v ∧ questionsOf t = askedKind env k v
  | .num s w, env, v, t, h => by
      simp only [TalkKind] at h
      subst h
      exact ⟨bytesOf_bytes _, by rw [questionsOf_bytes]; simp only [askedKind]⟩
  | .fbuf e n, env, v, t, h => by
      simp only [TalkKind] at h
      subst h
      exact ⟨bytesOf_bytes _, by rw [questionsOf_bytes]; simp only [askedKind]⟩
  | .fstr n, env, v, t, h => by
      simp only [TalkKind] at h
      subst h
      exact ⟨bytesOf_bytes _, by rw [questionsOf_bytes]; simp only [askedKind]⟩
  | .vec e len b, env, v, t, h => by
      cases v with
      | seq vs =>
        simp only [TalkKind] at h
        obtain ⟨t1, h1, rfl⟩ := h
        have h2 := AsksLen.says h1
        rw [bytesOf_append, questionsOf_append, bytesOf_bytes, questionsOf_bytes, h2.1, h2.2, askedKind]
        simp
      | _ =>
        simp only [TalkKind] at h
        subst h
        exact ⟨bytesOf_bytes _, by rw [questionsOf_bytes]; simp only [askedKind]⟩
  | .record fs, env, v, t, h => by
      cases v with
      | seq vs =>
        simp only [TalkKind] at h
        simpa only [wireKind, askedKind] using says_fields cfg fs _ vs t h
      | _ =>
        simp only [TalkKind] at h
        subst h
        exact ⟨bytesOf_bytes _, by rw [questionsOf_bytes]; simp only [askedKind]⟩
  | .arrRec fs n, env, v, t, h => by
      cases v with
      | seq vs =>
        simp only [TalkKind] at h
        simp only [wireKind, askedKind]
        refine InTurn.says ?_ h
        rintro v t ⟨ws, rfl, h⟩
        exact says_fields cfg fs _ ws t h
      | _ =>
        simp only [TalkKind] at h
        subst h
        exact ⟨bytesOf_bytes _, by rw [questionsOf_bytes]; simp only [askedKind]⟩
  | .vecRec fs len b sz, env, v, t, h => by
      cases v with
      | seq vs =>
        simp only [TalkKind] at h
        obtain ⟨t1, t2, h1, rfl, h⟩ := h
        have h2 := AsksLen.says h1
        have h3 := InTurn.says (bf := recordBytes fun ws => wireFields cfg.wire fs ws)
          (qf := recordCalls fun ws => askedFields (envOf fs ws) fs ws) (by
            rintro v t ⟨ws, rfl, h⟩
            exact says_fields cfg fs _ ws t h) h
        simp only [wireKind, askedKind, bytesOf_append, questionsOf_append, h2, h3, List.nil_append, and_self]
      | _ =>
        simp only [TalkKind] at h
        subst h
        exact ⟨bytesOf_bytes _, by rw [questionsOf_bytes]; simp only [askedKind]⟩
theorem says_field (cfg : Cfg) : ∀ f env v t, TalkField cfg env f v t →
    bytesOf t = wireField cfg.wire f v ∧ questionsOf t = askedField env f v
  | .plain id k c, env, v, t, h => by
      simp only [TalkField] at h
      simpa only [wireField, askedField] using says_kind cfg k env v t h
  | .maybe id k p, env, v, t, h => by
      cases v with
      | absent =>
        simp only [TalkField] at h
        simpa only [wireField, askedField] using AsksPred.says h
      | present u =>
        simp only [TalkField] at h
        obtain ⟨t1, t2, rfl, h1, h2⟩ := h
        have h3 := AsksPred.says h1
        have h4 := says_kind cfg k env u t2 h2
        simp [wireField, askedField, bytesOf_append, questionsOf_append, h3, h4]
      | _ => simp [TalkField] at h
  | .union id d alts c, env, v, t, h => by
      cases v with
      | var i u =>
        simp only [TalkField] at h
        obtain ⟨t1, t2, rfl, h1, h2⟩ := h
        have h3 := AsksDeducer.says h1
        have h4 := says_alts cfg alts env i u t2 h2
        simp [wireField, askedField, bytesOf_append, questionsOf_append, h3, h4]
      | _ => simp [TalkField] at h
theorem says_alts (cfg : Cfg) : ∀ alts env i v t, TalkAlts cfg env alts i v t →
    bytesOf t = wireAlts cfg.wire alts i v ∧ questionsOf t = askedAlts env alts i v
  | [], env, i, v, t, h => by simp [TalkAlts] at h
  | .mk k c :: alts, env, 0, v, t, h => by
      simp only [TalkAlts] at h
      obtain ⟨t1, t2, rfl, h1, h2⟩ := h
      have h3 := says_kind cfg k env v t1 h1
      have h4 := AsksCheck.says h2
      simp [wireAlts, askedAlts, bytesOf_append, questionsOf_append, h3, h4]
  | .mk k c :: alts, env, i + 1, v, t, h => by
      simp only [TalkAlts] at h
      simpa only [wireAlts, askedAlts] using says_alts cfg alts env i v t h
theorem says_fields (cfg : Cfg) : ∀ fs env vs t, TalkFields cfg env fs vs t →
    bytesOf t = wireFields cfg.wire fs vs ∧ questionsOf t = askedFields env fs vs
  | [], env, [], t, h => by
      simp only [TalkFields] at h
      subst h
      simp [wireFields, askedFields, bytesOf, questionsOf]
  | [], env, _ :: _, t, h => by simp [TalkFields] at h
  | _ :: _, env, [], t, h => by simp [TalkFields] at h
  | f :: fs, env, v :: vs, t, h => by
      simp only [TalkFields] at h
      obtain ⟨t1, t2, t3, rfl, h1, h2, h3⟩ := h
      have h4 := says_field cfg f env v t1 h1
      have h5 := AsksCheck.says h2
      have h6 := says_fields cfg fs env vs t3 h3
      simp [wireFields, askedFields, bytesOf_append, questionsOf_append, h4, h5, h6]
end

/-! ### User code that is a function -/

theorem runOn_steady {W : World} {S : InStream} (H : Hosts W S) (A : Answers) (r : Act α) : ∀ (r' : Rd α),
    r.ask A = Act.ofRd r' → ∀ s, Answered A (r.logOn W s) →
    (∃ s', r.runOn W s = (.thrown, s')) ∨
    ∃ o s', r.runOn W s = (o.ending, s') ∧ r'.runOn S (H.view s) = (o, H.view s') := by
  induction r with
  | ret a =>
    intro r' h s _
    cases r' <;> simp only [Act.ask, Act.ofRd, Act.ret.injEq, reduceCtorEq] at h
    subst h
    exact .inr ⟨.done a, s, rfl, rfl⟩
  | stuck w =>
    intro r' h s _
    cases r' <;> simp only [Act.ask, Act.ofRd, Act.stuck.injEq, reduceCtorEq] at h
    subst h
    exact .inr ⟨.stuck w, s, rfl, rfl⟩
  | read n k ih =>
    intro r' h s hl
    cases r' <;> simp only [Act.ask, Act.ofRd, Act.read.injEq, reduceCtorEq] at h
    rename_i n' k'
    obtain ⟨rfl, h⟩ := h
    rw [Act.runOn]
    cases hr : W.read s n with
    | mk o s1 =>
      simp only [Act.logOn, hr] at hl
      cases o with
      | thrown => exact .inl ⟨s1, rfl⟩
      | value o =>
        have hr' := H.read s n o s1 hr
        simp only [Rd.runOn, hr']
        refine ih o (k' o) (congrFun h o) s1 ?_
        cases o with
        | none => exact hl
        | some bs => exact fun c a hc => hl c a (by simp [hc])
  | write bs k ih =>
    intro r' h s hl
    cases r' <;> simp only [Act.ask, Act.ofRd, reduceCtorEq] at h
  | alloc b k ih =>
    intro r' h s hl
    cases r' <;> simp only [Act.ask, Act.ofRd, Act.alloc.injEq, reduceCtorEq] at h
    obtain ⟨rfl, h⟩ := h
    exact ih _ h s hl
  | call c k ih =>
    intro r' h s hl
    rw [Act.runOn]
    cases hr : W.call s c with
    | mk o s1 =>
      simp only [Act.logOn, hr] at hl
      cases o with
      | thrown => exact .inl ⟨s1, rfl⟩
      | value a =>
        have ha := hl c a (by simp)
        have hv := H.call s c _ s1 hr
        rw [← hv]
        simp only [Act.ask] at h
        rw [← ha] at h
        exact ih a r' h s1 fun c' a' hc => hl c' a' (by simp [hc])

theorem runOn_steady_wr {W : World} {S : OutStream} (H : HostsOut W S) (A : Answers) (r : Act α) : ∀ (r' : Wr α),
    r.ask A = Act.ofWr r' → ∀ s, Answered A (r.logOn W s) →
    (∃ s', r.runOn W s = (.thrown, s')) ∨
    ∃ o s', r.runOn W s = (o.ending, s') ∧ r'.runOn S (H.view s) = (o, H.view s') := by
  induction r with
  | ret a =>
    intro r' h s _
    cases r' <;> simp only [Act.ask, Act.ofWr, Act.ret.injEq, reduceCtorEq] at h
    subst h
    exact .inr ⟨.done a, s, rfl, rfl⟩
  | stuck w =>
    intro r' h s _
    cases r' <;> simp only [Act.ask, Act.ofWr, Act.stuck.injEq, reduceCtorEq] at h
    subst h
    exact .inr ⟨.stuck w, s, rfl, rfl⟩
  | read n k ih =>
    intro r' h s hl
    cases r' <;> simp only [Act.ask, Act.ofWr, reduceCtorEq] at h
  | write bs k ih =>
    intro r' h s hl
    cases r' <;> simp only [Act.ask, Act.ofWr, Act.write.injEq, reduceCtorEq] at h
    rename_i n' k'
    obtain ⟨rfl, h⟩ := h
    rw [Act.runOn]
    cases hr : W.write s bs with
    | mk o s1 =>
      simp only [Act.logOn, hr] at hl
      cases o with
      | thrown => exact .inl ⟨s1, rfl⟩
      | value o =>
        have hr' := H.write s bs o s1 hr
        simp only [Wr.runOn, hr']
        refine ih o (k' o) (congrFun h o) s1 ?_
        cases o with
        | false => exact hl
        | true => exact fun c a hc => hl c a (by simp [hc])
  | alloc b k ih =>
    intro r' h s hl
    cases r' <;> simp only [Act.ask, Act.ofWr, reduceCtorEq] at h
  | call c k ih =>
    intro r' h s hl
    rw [Act.runOn]
    cases hr : W.call s c with
    | mk o s1 =>
      simp only [Act.logOn, hr] at hl
      cases o with
      | thrown => exact .inl ⟨s1, rfl⟩
      | value a =>
        have ha := hl c a (by simp)
        have hv := H.call s c _ s1 hr
        rw [← hv]
        simp only [Act.ask] at h
        rw [← ha] at h
        exact ih a r' h s1 fun c' a' hc => hl c' a' (by simp [hc])

theorem Calm.not_thrown {W : World} (h : Calm W) (r : Act α) (s : W.State) : ∀ s', r.runOn W s ≠ (.thrown, s') := by
  induction r generalizing s with
  | ret a => intro s' h'; cases h'
  | stuck w => intro s' h'; cases h'
  | read n k ih =>
    intro s'
    obtain ⟨o, s1, hr⟩ := h.1 s n
    simp only [Act.runOn, hr]
    exact ih o s1 s'
  | write bs k ih =>
    intro s'
    obtain ⟨o, s1, hr⟩ := h.2.1 s bs
    simp only [Act.runOn, hr]
    exact ih o s1 s'
  | alloc b k ih => exact ih s
  | call c k ih =>
    intro s'
    obtain ⟨o, s1, hr⟩ := h.2.2 s c
    simp only [Act.runOn, hr]
    exact ih o s1 s'

open Classical in
theorem Steady.answered {t : List Ev} (h : Steady t) : ∃ A, Answered A t := by
  refine ⟨fun c => if hc : ∃ a, .answer c a ∈ t then hc.choose else 0, fun c a hm => ?_⟩
  have hc : ∃ a, Ev.answer c a ∈ t := ⟨a, hm⟩
  simp only [hc, dite_true]
  exact h c _ _ hm hc.choose_spec

/-! ### Whose callables are asked -/

namespace Act

/-- Every call the computation may make is in `P`. -/
def Asks (P : Call → Prop) : Act α → Prop
  | ret _ => True
  | stuck _ => True
  | read _ k => ∀ o, (k o).Asks P
  | write _ k => ∀ b, (k b).Asks P
  | alloc _ k => k.Asks P
  | call c k => P c ∧ ∀ a, (k a).Asks P

theorem Asks.mono {P Q : Call → Prop} (hPQ : ∀ c, P c → Q c) {r : Act α} (h : r.Asks P) : r.Asks Q := by
  induction r with
  | ret a => trivial
  | stuck w => trivial
  | read n k ih => exact fun o => ih o (h o)
  | write bs k ih => exact fun b => ih b (h b)
  | alloc b k ih => exact ih h
  | call c k ih => exact ⟨hPQ _ h.1, fun a => ih a (h.2 a)⟩

theorem asks_bind {P : Call → Prop} {r : Act α} {f : α → Act β} (hr : r.Asks P) (hf : ∀ a, (f a).Asks P) :
    (r.bind f).Asks P := by
  induction r with
  | ret a => exact hf a
  | stuck w => trivial
  | read n k ih => exact fun o => ih o (hr o)
  | write bs k ih => exact fun b => ih b (hr b)
  | alloc b k ih => exact ih hr
  | call c k ih => exact ⟨hr.1, fun a => ih a (hr.2 a)⟩

theorem asks_ofRd (P : Call → Prop) (r : Rd α) : (ofRd r).Asks P := by
  induction r with
  | ret a => trivial
  | stuck w => trivial
  | read n k ih => exact ih
  | alloc b k ih => exact ih

theorem asks_log {P : Call → Prop} (W : World) {r : Act α} (hr : r.Asks P) (s : W.State) :
    ∀ c ∈ questionsOf (r.logOn W s), P c := by
  induction r generalizing s with
  | ret a => intro c hc; cases hc
  | stuck w => intro c hc; cases hc
  | read n k ih =>
    rw [logOn]
    cases W.read s n with
    | mk o s1 =>
      cases o with
      | thrown => intro c hc; cases hc
      | value o =>
        cases o with
        | none => exact ih _ (hr _) s1
        | some bs => simpa only [questionsOf_append, questionsOf_bytes, List.nil_append] using ih _ (hr _) s1
  | write bs k ih =>
    rw [logOn]
    cases W.write s bs with
    | mk o s1 =>
      cases o with
      | thrown => intro c hc; cases hc
      | value o =>
        cases o with
        | false => exact ih _ (hr _) s1
        | true => simpa only [questionsOf_append, questionsOf_bytes, List.nil_append] using ih _ (hr _) s1
  | alloc b k ih => exact ih hr s
  | call c k ih =>
    rw [logOn]
    cases W.call s c with
    | mk o s1 =>
      cases o with
      | thrown => intro c hc; cases hc
      | value a =>
        intro c' hc
        rcases List.mem_cons.1 hc with rfl | hc
        · exact hr.1
        · exact ih a (hr.2 a) s1 c' hc

end Act

namespace ActE

theorem asks_andThen {P : Call → Prop} {r : ActE ε α} {f : α → ActE ε β} (hr : Act.Asks P r)
    (hf : ∀ a, Act.Asks P (f a)) : Act.Asks P (r.andThen f) := by
  refine Act.asks_bind hr fun x => ?_
  cases x
  · trivial
  · exact hf _

theorem asks_mapErr {P : Call → Prop} {g : ε → ε'} {r : ActE ε α} (hr : Act.Asks P r) : Act.Asks P (r.mapErr g) := by
  refine Act.asks_bind hr fun x => ?_
  cases x <;> trivial

theorem asks_mapOk {P : Call → Prop} {g : α → β} {r : ActE ε α} (hr : Act.Asks P r) : Act.Asks P (r.mapOk g) :=
  asks_andThen hr fun _ => trivial

theorem asks_lift (P : Call → Prop) (o : Except Stuck α) : Act.Asks P (ActE.lift o : ActE ε α) := by
  cases o <;> trivial

end ActE

theorem asks_askPred {ε : Type} (env : Env) (p : Pred) :
    Act.Asks (fun c => ∃ args, c = .pred p args) (askPred env p : ActE ε Bool) := by
  unfold askPred
  split
  · exact ⟨⟨_, rfl⟩, fun _ => trivial⟩
  · trivial

theorem asks_askCalc {ε : Type} (env : Env) (c : Calc) :
    Act.Asks (fun q => ∃ args, q = .calc c args) (askCalc env c : ActE ε Int) := by
  unfold askCalc
  split
  · exact ⟨⟨_, rfl⟩, fun _ => trivial⟩
  · trivial

theorem asks_askLen {ε : Type} (cfg : Cfg) (env : Env) (len : LenSpec) :
    Act.Asks (lenOwns len) (askLen cfg env len : ActE ε Nat) := by
  cases len with
  | fromField id => exact ActE.asks_lift _ _
  | computed c =>
    refine ActE.asks_andThen (Act.Asks.mono ?_ (asks_askCalc env c)) fun _ => trivial
    rintro _ ⟨args, rfl⟩
    rfl

theorem asks_askLadder {ε : Type} (env : Env) : ∀ ps : List Pred,
    Act.Asks (deducerOwns (.ladder ps)) (askLadder env ps : ActE ε (Option Nat))
  | [] => trivial
  | p :: ps => by
    refine ActE.asks_andThen (Act.Asks.mono ?_ (asks_askPred env p)) fun b => ?_
    · rintro _ ⟨args, rfl⟩
      simp [deducerOwns]
    · cases b
      · refine ActE.asks_mapOk (Act.Asks.mono ?_ (asks_askLadder env ps))
        intro c hc
        cases c with
        | pred q args => simp only [deducerOwns] at hc ⊢; simp [hc]
        | _ => exact hc.elim
      · trivial

theorem asks_askDeducer {ε : Type} (env : Env) (d : Deducer) :
    Act.Asks (deducerOwns d) (askDeducer env d : ActE ε (Option Nat)) := by
  cases d with
  | matchField id s ls => exact ActE.asks_lift _ _
  | matchCompute c s ls =>
    refine ActE.asks_andThen (Act.Asks.mono ?_ (asks_askCalc env c)) fun _ => trivial
    rintro _ ⟨args, rfl⟩
    rfl
  | ladder ps => exact asks_askLadder env ps

theorem asks_askCheck {ε : Type} (c : Constraint) (v : Val) :
    Act.Asks (checkOwns c) (askCheck c v : ActE ε Bool) := by
  cases c with
  | user f => exact ⟨rfl, fun _ => trivial⟩
  | none => exact ActE.asks_lift _ (Constraint.none.check v)
  | arrCmp eq w => exact ActE.asks_lift _ ((Constraint.arrCmp eq w).check v)
  | _ => exact ActE.asks_lift _ _

theorem asks_actChecked (c : Constraint) (v : Val) : Act.Asks (checkOwns c) (actChecked c v) := by
  refine ActE.asks_andThen (asks_askCheck c v) fun b => ?_
  split <;> trivial

theorem asks_actRepeat {P : Call → Prop} {r : ActE ε Val} (h : Act.Asks P r) (n : Nat) :
    Act.Asks P (actRepeat r n) := by
  induction n with
  | zero => trivial
  | succ n ih => exact ActE.asks_andThen h fun _ => ActE.asks_andThen ih fun _ => trivial

mutual
theorem asks_actKind (cfg : Cfg) : ∀ k env, Act.Asks (kindOwns k) (actKind cfg env k)
  | .num t w, env => by rw [actKind]; exact Act.asks_ofRd _ _
  | .fbuf e n, env => by rw [actKind]; exact Act.asks_ofRd _ _
  | .fstr n, env => by rw [actKind]; exact Act.asks_ofRd _ _
  | .vec e len b, env => by
      rw [actKind]
      refine ActE.asks_andThen (Act.Asks.mono ?_ (asks_askLen cfg env len)) fun _ => Act.asks_ofRd _ _
      intro c hc; rw [kindOwns]; exact hc
  | .record fs, env => by
      rw [actKind]
      refine ActE.asks_mapOk (ActE.asks_mapErr (Act.Asks.mono ?_ (asks_actFields cfg fs _)))
      intro c hc; rw [kindOwns]; exact hc
  | .arrRec fs n, env => by
      rw [actKind]
      refine ActE.asks_mapOk (asks_actRepeat (ActE.asks_mapOk (ActE.asks_mapErr
        (Act.Asks.mono ?_ (asks_actFields cfg fs _)))) _)
      intro c hc; rw [kindOwns]; exact hc
  | .vecRec fs len b sz, env => by
      rw [actKind]
      refine ActE.asks_andThen (Act.Asks.mono ?_ (asks_askLen cfg env len)) fun n => ?_
      · intro c hc; rw [kindOwns]; exact .inl hc
      · cases checkedByteCount cfg sz (ceilingOf cfg b) n with
        | error r => trivial
        | ok m =>
          simp only [actResize]
          split
          · trivial
          · refine ActE.asks_mapOk (asks_actRepeat (ActE.asks_mapOk (ActE.asks_mapErr
              (Act.Asks.mono ?_ (asks_actFields cfg fs _)))) _)
            intro c hc; rw [kindOwns]; exact .inr hc
theorem asks_actField (cfg : Cfg) : ∀ f env, Act.Asks (fieldOwns f) (actField cfg env f)
  | .plain id k c, env => by
      rw [actField]
      refine Act.Asks.mono ?_ (asks_actKind cfg k env)
      intro c hc; rw [fieldOwns]; exact .inl hc
  | .maybe id k p, env => by
      rw [actField]
      refine ActE.asks_andThen (Act.Asks.mono ?_ (asks_askPred env p)) fun b => ?_
      · intro c hc; rw [fieldOwns]; exact .inl hc
      · split
        · refine ActE.asks_mapOk (Act.Asks.mono ?_ (asks_actKind cfg k env))
          intro c hc; rw [fieldOwns]; exact .inr hc
        · trivial
  | .union id d alts c, env => by
      rw [actField]
      refine ActE.asks_andThen (Act.Asks.mono ?_ (asks_askDeducer env d)) fun o => ?_
      · intro c hc; rw [fieldOwns]; exact .inl hc
      · cases o with
        | none => trivial
        | some i =>
          refine ActE.asks_mapOk (Act.Asks.mono ?_ (asks_actAlts cfg alts env i))
          intro c hc; rw [fieldOwns]; exact .inr (.inl hc)
theorem asks_actAlts (cfg : Cfg) : ∀ alts env i, Act.Asks (altsOwn alts) (actAlts cfg env alts i)
  | [], env, i => by rw [actAlts]; trivial
  | .mk k c :: alts, env, 0 => by
      rw [actAlts]
      refine ActE.asks_andThen (Act.Asks.mono ?_ (asks_actKind cfg k env)) fun v => ActE.asks_mapOk (Act.Asks.mono ?_
        (asks_actChecked c v))
      · intro c hc; rw [altsOwn]; exact .inl hc
      · intro c hc; rw [altsOwn]; exact .inr (.inl hc)
  | .mk k c :: alts, env, i + 1 => by
      rw [actAlts]
      refine Act.Asks.mono ?_ (asks_actAlts cfg alts env i)
      intro c hc; rw [altsOwn]; exact .inr (.inr hc)
theorem asks_actFields (cfg : Cfg) : ∀ fs env, Act.Asks (fieldsOwn fs) (actFields cfg env fs)
  | [], env => by rw [actFields]; trivial
  | f :: fs, env => by
      rw [actFields]
      refine ActE.asks_andThen (ActE.asks_mapErr (ActE.asks_andThen (Act.Asks.mono ?_ (asks_actField cfg f env))
        fun v => Act.Asks.mono ?_ (asks_actChecked f.constraint v))) fun v =>
        ActE.asks_andThen (Act.Asks.mono ?_ (asks_actFields cfg fs _)) fun _ => trivial
      · intro c hc; rw [fieldsOwn]; exact .inl hc
      · intro c hc; rw [fieldsOwn]; left
        cases f with
        | plain id k cn => rw [fieldOwns]; exact .inr hc
        | maybe id k p => cases c <;> exact hc.elim
        | union id d alts cn => rw [fieldOwns]; exact .inr (.inr hc)
      · intro c hc; rw [fieldsOwn]; exact .inr hc
end

/-! ### Reads that are broken off -/

theorem Act.runOn_bind (W : World) (r : Act α) (f : α → Act β) (s : W.State) :
    ((r.bind f).runOn W s = match r.runOn W s with
      | (.done a, s') => (f a).runOn W s'
      | (.stuck w, s') => (.stuck w, s')
      | (.thrown, s') => (.thrown, s')) ∧
    ((r.bind f).logOn W s = r.logOn W s ++ match r.runOn W s with
      | (.done a, s') => (f a).logOn W s'
      | (.stuck _, _) => []
      | (.thrown, _) => []) := by
  induction r generalizing s with
  | ret a => exact ⟨rfl, rfl⟩
  | stuck w => exact ⟨rfl, rfl⟩
  | read n k ih =>
    simp only [Act.bind, Act.runOn, Act.logOn]
    cases W.read s n with
    | mk o s1 =>
      cases o with
      | thrown => exact ⟨rfl, rfl⟩
      | value o =>
        cases o with
        | none => exact ih none s1
        | some bs => simp only [List.append_assoc, ih (some bs) s1, and_self]
  | write bs k ih =>
    simp only [Act.bind, Act.runOn, Act.logOn]
    cases W.write s bs with
    | mk o s1 =>
      cases o with
      | thrown => exact ⟨rfl, rfl⟩
      | value o =>
        cases o with
        | false => exact ih false s1
        | true => simp only [List.append_assoc, ih true s1, and_self]
  | alloc b k ih => exact ih s
  | call c k ih =>
    simp only [Act.bind, Act.runOn, Act.logOn]
    cases W.call s c with
    | mk o s1 =>
      cases o with
      | thrown => exact ⟨rfl, rfl⟩
      | value a => simp only [List.cons_append, ih a s1, and_self]

theorem ActE.runOn_andThen (W : World) (r : ActE ε α) (f : α → ActE ε β) (s : W.State) :
    (Act.runOn W (r.andThen f) s = match Act.runOn W r s with
      | (.done (.ok a), s') => Act.runOn W (f a) s'
      | (.done (.error e), s') => (.done (.error e), s')
      | (.stuck w, s') => (.stuck w, s')
      | (.thrown, s') => (.thrown, s')) ∧
    (Act.logOn W (r.andThen f) s = Act.logOn W r s ++ match Act.runOn W r s with
      | (.done (.ok a), s') => Act.logOn W (f a) s'
      | (.done (.error _), _) => []
      | (.stuck _, _) => []
      | (.thrown, _) => []) := by
  obtain ⟨h1, h2⟩ := Act.runOn_bind W r (fun
    | .ok a => f a
    | .error e => .ret (.error e)) s
  refine ⟨h1.trans ?_, h2.trans ?_⟩ <;> rcases Act.runOn W r s with ⟨_ | _ | _, _⟩ <;> try rfl
  · rename_i x; cases x <;> rfl
  · rename_i x; cases x <;> rfl

theorem actFields_cons (cfg : Cfg) (env : Env) (f : Field) (fs : List Field) :
    actFields cfg env (f :: fs) = (actStep cfg env f).andThen fun v =>
      (actFields cfg (env.set f.id v) fs).andThen fun vs => ActE.ok (v :: vs) := by
  rw [actFields]

theorem broken_off (cfg : Cfg) (W : World) : ∀ (fs : List Field) (env : Env) (s s' : W.State)
    (e : Ending (Except CastError (List Val))), (actFields cfg env fs).runOn W s = (e, s') →
    (∀ vs, e ≠ .done (.ok vs)) →
    ∃ pre f post vs s1, fs = pre ++ f :: post ∧
      (actFields cfg env pre).runOn W s = (.done (.ok vs), s1) ∧
      (actFields cfg env fs).logOn W s =
        (actFields cfg env pre).logOn W s ++ (actStep cfg (standing env pre vs) f).logOn W s1 ∧
      ((∃ er, e = .done (.error er) ∧ (actStep cfg (standing env pre vs) f).runOn W s1 = (.done (.error er), s')) ∨
       (∃ w, e = .stuck w ∧ (actStep cfg (standing env pre vs) f).runOn W s1 = (.stuck w, s')) ∨
       (e = .thrown ∧ (actStep cfg (standing env pre vs) f).runOn W s1 = (.thrown, s')))
  | [], env, s, s', e, h, hne => by
    simp only [actFields, ActE.ok, Act.runOn, Prod.mk.injEq] at h
    exact absurd h.1.symm (hne [])
  | f :: fs, env, s, s', e, h, hne => by
    have hnil : (actFields cfg env []).runOn W s = (.done (.ok []), s) ∧ (actFields cfg env []).logOn W s = [] := by
      simp only [actFields]; exact ⟨rfl, rfl⟩
    have hb := ActE.runOn_andThen W (actStep cfg env f) (fun v =>
      (actFields cfg (env.set f.id v) fs).andThen fun vs => ActE.ok (v :: vs)) s
    rw [← actFields_cons, h] at hb
    cases hr : (actStep cfg env f).runOn W s with
    | mk e1 s1 =>
      rw [hr] at hb
      cases e1 with
      | thrown =>
        obtain ⟨h1, h2⟩ := hb
        simp only [Prod.mk.injEq] at h1
        obtain ⟨rfl, rfl⟩ := h1
        exact ⟨[], f, fs, [], s, rfl, hnil.1, by rw [h2, hnil.2]; simp [standing], .inr (.inr ⟨rfl, hr⟩)⟩
      | stuck w =>
        obtain ⟨h1, h2⟩ := hb
        simp only [Prod.mk.injEq] at h1
        obtain ⟨rfl, rfl⟩ := h1
        exact ⟨[], f, fs, [], s, rfl, hnil.1, by rw [h2, hnil.2]; simp [standing], .inr (.inl ⟨w, rfl, hr⟩)⟩
      | done x =>
        cases x with
        | error er =>
          obtain ⟨h1, h2⟩ := hb
          simp only [Prod.mk.injEq] at h1
          obtain ⟨rfl, rfl⟩ := h1
          exact ⟨[], f, fs, [], s, rfl, hnil.1, by rw [h2, hnil.2]; simp [standing], .inl ⟨er, rfl, hr⟩⟩
        | ok v =>
          obtain ⟨h1, h2⟩ := hb
          simp only at h1 h2
          have hb2 := ActE.runOn_andThen W (actFields cfg (env.set f.id v) fs) (fun vs => ActE.ok (v :: vs)) s1
          cases hr2 : (actFields cfg (env.set f.id v) fs).runOn W s1 with
          | mk e2 s2 =>
            have key : (∀ vs, e2 ≠ .done (.ok vs)) ∧ (actFields cfg env (f :: fs)).logOn W s =
                (actStep cfg env f).logOn W s ++ (actFields cfg (env.set f.id v) fs).logOn W s1 ∧ e = e2 ∧ s' = s2 := by
              rw [hr2] at hb2
              rw [hb2.1] at h1
              rw [hb2.2] at h2
              cases e2 with
              | thrown => cases h1; exact ⟨by simp, by simpa using h2, rfl, rfl⟩
              | stuck w => cases h1; exact ⟨by simp, by simpa using h2, rfl, rfl⟩
              | done x =>
                cases x with
                | error er => cases h1; exact ⟨by simp, by simpa using h2, rfl, rfl⟩
                | ok vs => cases h1; exact absurd rfl (hne _)
            obtain ⟨hne2, hlog, rfl, rfl⟩ := key
            obtain ⟨pre, g, post, vs, s3, rfl, hp, hl, hc⟩ := broken_off cfg W fs _ s1 s' e hr2 hne2
            have hb3 := ActE.runOn_andThen W (actStep cfg env f) (fun v =>
              (actFields cfg (env.set f.id v) pre).andThen fun vs => ActE.ok (v :: vs)) s
            rw [← actFields_cons, hr] at hb3
            have hb4 := ActE.runOn_andThen W (actFields cfg (env.set f.id v) pre) (fun vs => ActE.ok (v :: vs)) s1
            rw [hp] at hb4
            have h5 : (actFields cfg env (f :: pre)).runOn W s = (.done (.ok (v :: vs)), s3) :=
              hb3.1.trans hb4.1
            have h6 : (actFields cfg env (f :: pre)).logOn W s =
                (actStep cfg env f).logOn W s ++ (actFields cfg (env.set f.id v) pre).logOn W s1 := by
              refine hb3.2.trans (congrArg _ (hb4.2.trans ?_))
              simp [ActE.ok, Act.logOn]
            refine ⟨f :: pre, g, post, v :: vs, s3, rfl, h5, ?_, ?_⟩
            · rw [hlog, hl, h6, List.append_assoc]; rfl
            · exact hc

theorem ActE.runOn_mapErr (W : World) (g : ε → ε') (r : ActE ε α) (s s' : W.State) (e : ε')
    (h : Act.runOn W (r.mapErr g) s = (.done (.error e), s')) : ∃ e0, e = g e0 := by
  rw [ActE.mapErr, (Act.runOn_bind W r _ s).1] at h
  rcases hr : Act.runOn W r s with ⟨x | w | _, s1⟩
  · rw [hr] at h
    cases x with
    | ok a => cases h
    | error e0 => cases h; exact ⟨e0, rfl⟩
  · rw [hr] at h; cases h
  · rw [hr] at h; cases h

theorem owns_check (f : Field) (c : Call) (h : checkOwns f.constraint c) : fieldOwns f c := by
  cases f with
  | plain id k cn => rw [fieldOwns]; exact .inr h
  | maybe id k p => cases c <;> exact h.elim
  | union id d alts cn => rw [fieldOwns]; exact .inr (.inr h)

end S2S
