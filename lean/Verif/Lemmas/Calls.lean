import Verif.Spec.Calls
import Verif.Lemmas.Shape
import Verif.Lemmas.ReadTree
/-
Computations with calls of user code.
-/
namespace S2S
open Spec

namespace Act

/-- `Path r t o`: if every access to the stream succeeds with the bytes of `t` and every
question is answered as in `t`, the computation ends in `o`, with `t` used up. -/
def Path : Act α → List Ev → Outcome α → Prop
  | ret a, t, o => t = [] ∧ o = .done a
  | stuck w, t, o => t = [] ∧ o = .stuck w
  | read n k, t, o => ∃ q t', t = q.map .byte ++ t' ∧ q.length = n ∧ (k (some q)).Path t' o
  | write bs k, t, o => ∃ t', t = bs.map .byte ++ t' ∧ (k true).Path t' o
  | alloc _ k, t, o => k.Path t o
  | call c k, t, o => ∃ a t', t = .answer c a :: t' ∧ (k a).Path t' o

/-- Every access to the stream that fails ends the computation at once, in `P`. -/
def Short (P : α → Prop) : Act α → Prop
  | ret _ => True
  | stuck _ => True
  | read n k => (∃ a, k none = ret a ∧ P a) ∧ ∀ q, q.length = n → (k (some q)).Short P
  | write _ k => (∃ a, k false = ret a ∧ P a) ∧ (k true).Short P
  | alloc _ k => k.Short P
  | call _ k => ∀ a, (k a).Short P

theorem bind_assoc (r : Act α) (f : α → Act β) (g : β → Act γ) :
    (r.bind f).bind g = r.bind fun a => (f a).bind g := by
  induction r with
  | ret a => rfl
  | stuck w => rfl
  | read n k ih => simp only [bind, ih]
  | write bs k ih => simp only [bind, ih]
  | alloc b k ih => simp only [bind, ih]
  | call c k ih => simp only [bind, ih]

theorem path_bind (r : Act α) (f : α → Act β) (t : List Ev) (o : Outcome β) :
    (r.bind f).Path t o ↔
      (∃ w, r.Path t (.stuck w) ∧ o = .stuck w) ∨
      (∃ a q s, t = q ++ s ∧ r.Path q (.done a) ∧ (f a).Path s o) := by
  induction r generalizing t with
  | ret a =>
    simp only [bind, Path]
    constructor
    · intro h; exact .inr ⟨a, [], t, rfl, ⟨rfl, rfl⟩, h⟩
    · rintro (⟨w, ⟨_, h⟩, _⟩ | ⟨a', q, s, rfl, ⟨rfl, h⟩, h2⟩)
      · cases h
      · cases h; simpa using h2
  | stuck w =>
    simp only [bind, Path]
    constructor
    · rintro ⟨rfl, rfl⟩; exact .inl ⟨w, ⟨rfl, rfl⟩, rfl⟩
    · rintro (⟨w', ⟨rfl, h⟩, rfl⟩ | ⟨a', q, s, rfl, ⟨rfl, h⟩, h2⟩)
      · cases h; exact ⟨rfl, rfl⟩
      · cases h
  | read n k ih =>
    simp only [bind, Path, ih]
    constructor
    · rintro ⟨q, r, rfl, hq, (⟨w, h1, rfl⟩ | ⟨a, q', s, rfl, h1, h2⟩)⟩
      · exact .inl ⟨w, ⟨q, r, rfl, hq, h1⟩, rfl⟩
      · exact .inr ⟨a, q.map .byte ++ q', s, by simp, ⟨q, q', rfl, hq, h1⟩, h2⟩
    · rintro (⟨w, ⟨q, r, rfl, hq, h1⟩, rfl⟩ | ⟨a, _, s, rfl, ⟨q, q', rfl, hq, h1⟩, h2⟩)
      · exact ⟨q, r, rfl, hq, .inl ⟨w, h1, rfl⟩⟩
      · exact ⟨q, q' ++ s, by simp, hq, .inr ⟨a, q', s, rfl, h1, h2⟩⟩
  | write bs k ih =>
    simp only [bind, Path, ih]
    constructor
    · rintro ⟨r, rfl, (⟨w, h1, rfl⟩ | ⟨a, q', s, rfl, h1, h2⟩)⟩
      · exact .inl ⟨w, ⟨r, rfl, h1⟩, rfl⟩
      · exact .inr ⟨a, bs.map .byte ++ q', s, by simp, ⟨q', rfl, h1⟩, h2⟩
    · rintro (⟨w, ⟨r, rfl, h1⟩, rfl⟩ | ⟨a, _, s, rfl, ⟨q', rfl, h1⟩, h2⟩)
      · exact ⟨r, rfl, .inl ⟨w, h1, rfl⟩⟩
      · exact ⟨q' ++ s, by simp, .inr ⟨a, q', s, rfl, h1, h2⟩⟩
  | alloc b k ih => simpa only [bind, Path] using ih t
  | call c k ih =>
    simp only [bind, Path, ih]
    constructor
    · rintro ⟨x, r, rfl, (⟨w, h1, rfl⟩ | ⟨a, q', s, rfl, h1, h2⟩)⟩
      · exact .inl ⟨w, ⟨x, r, rfl, h1⟩, rfl⟩
      · exact .inr ⟨a, .answer c x :: q', s, by simp, ⟨x, q', rfl, h1⟩, h2⟩
    · rintro (⟨w, ⟨x, r, rfl, h1⟩, rfl⟩ | ⟨a, _, s, rfl, ⟨x, q', rfl, h1⟩, h2⟩)
      · exact ⟨x, r, rfl, .inl ⟨w, h1, rfl⟩⟩
      · exact ⟨x, q' ++ s, by simp, .inr ⟨a, q', s, rfl, h1, h2⟩⟩

theorem short_bind {P : α → Prop} {Q : β → Prop} (r : Act α) (f : α → Act β)
    (hr : r.Short P) (hf : ∀ a, (f a).Short Q)
    (hPQ : ∀ a, P a → ∃ b, f a = ret b ∧ Q b) : (r.bind f).Short Q := by
  induction r with
  | ret a => exact hf a
  | stuck w => trivial
  | read n k ih =>
    obtain ⟨⟨a, h1, h2⟩, h3⟩ := hr
    refine ⟨?_, fun q hq => ih _ (h3 q hq)⟩
    simp only [h1, bind]
    exact hPQ a h2
  | write bs k ih =>
    obtain ⟨⟨a, h1, h2⟩, h3⟩ := hr
    refine ⟨?_, ih _ h3⟩
    simp only [h1, bind]
    exact hPQ a h2
  | alloc b k ih => exact ih hr
  | call c k ih => exact fun a => ih a (hr a)

theorem short_ofRd {P : α → Prop} {r : Rd α} (h : r.Short P) : (ofRd r).Short P := by
  induction r with
  | ret a => trivial
  | stuck w => trivial
  | read n k ih =>
    obtain ⟨⟨a, h1, h2⟩, h3⟩ := h
    exact ⟨⟨a, by simp only [h1]; rfl, h2⟩, fun q hq => ih _ (h3 q hq)⟩
  | alloc b k ih => exact ih h

/-- A run that ends with a result that no failed access gives has followed a path. -/
theorem path_of_runOn {P : α → Prop} (W : World) {r : Act α} (hs : r.Short P) {s s' : W.State} {a : α}
    (h : r.runOn W s = (.done a, s')) (ha : ¬ P a) : r.Path (r.logOn W s) (.done a) := by
  induction r generalizing s with
  | ret b => cases h; exact ⟨rfl, rfl⟩
  | stuck w => cases h
  | read n k ih =>
    obtain ⟨⟨b, h1, h2⟩, h3⟩ := hs
    rw [runOn] at h
    rw [logOn]
    cases hr : W.read s n with
    | mk o s1 =>
      simp only [hr] at h ⊢
      cases o with
      | thrown => cases h
      | value o =>
        cases o with
        | none =>
          simp only [h1, runOn] at h
          cases h
          exact absurd h2 ha
        | some bs =>
          have hl := W.len s n bs s1 hr
          exact ⟨bs, _, rfl, hl, ih _ (h3 bs hl) h⟩
  | write bs k ih =>
    obtain ⟨⟨b, h1, h2⟩, h3⟩ := hs
    rw [runOn] at h
    rw [logOn]
    cases hr : W.write s bs with
    | mk o s1 =>
      simp only [hr] at h ⊢
      cases o with
      | thrown => cases h
      | value o =>
        cases o with
        | false =>
          simp only [h1, runOn] at h
          cases h
          exact absurd h2 ha
        | true => exact ⟨_, rfl, ih _ h3 h⟩
  | alloc b k ih => exact ih hs h
  | call c k ih =>
    rw [runOn] at h
    rw [logOn]
    cases hr : W.call s c with
    | mk o s1 =>
      simp only [hr] at h ⊢
      cases o with
      | thrown => cases h
      | value x => exact ⟨x, _, rfl, ih x (hs x) h⟩

theorem takeBytes_append : ∀ (q : List Byte) (t : List Ev), takeBytes q.length (q.map .byte ++ t) = some (q, t)
  | [], _ => rfl
  | b :: q, t => by
    rw [List.length_cons, List.map_cons, List.cons_append, takeBytes, takeBytes_append q t]
    rfl

/-- Played back, a path leads to its end. -/
theorem runOn_player {r : Act α} {t : List Ev} {o : Outcome α} (h : r.Path t o) (rest : List Ev) :
    r.runOn player (t ++ rest) = (o.ending, rest) := by
  induction r generalizing t with
  | ret a => obtain ⟨rfl, rfl⟩ := h; rfl
  | stuck w => obtain ⟨rfl, rfl⟩ := h; rfl
  | read n k ih =>
    obtain ⟨q, t', rfl, rfl, h⟩ := h
    simp only [runOn, player, List.append_assoc, takeBytes_append]
    exact ih _ h
  | write bs k ih =>
    obtain ⟨t', rfl, h⟩ := h
    simp only [runOn, player, List.append_assoc, takeBytes_append]
    exact ih _ h
  | alloc b k ih => exact ih h
  | call c k ih =>
    obtain ⟨a, t', rfl, h⟩ := h
    exact ih a h

theorem path_ofRd (r : Rd α) (t : List Ev) (o : Outcome α) :
    (ofRd r).Path t o ↔ ∃ p, t = p.map .byte ∧ r.Path p o := by
  induction r generalizing t with
  | ret a =>
    simp only [ofRd, Path, Rd.Path]
    constructor
    · rintro ⟨rfl, rfl⟩; exact ⟨[], rfl, rfl, rfl⟩
    · rintro ⟨p, rfl, rfl, rfl⟩; exact ⟨rfl, rfl⟩
  | stuck w =>
    simp only [ofRd, Path, Rd.Path]
    constructor
    · rintro ⟨rfl, rfl⟩; exact ⟨[], rfl, rfl, rfl⟩
    · rintro ⟨p, rfl, rfl, rfl⟩; exact ⟨rfl, rfl⟩
  | read n k ih =>
    simp only [ofRd, Path, Rd.Path, ih]
    constructor
    · rintro ⟨q, _, rfl, hq, p, rfl, h⟩; exact ⟨q ++ p, by simp, q, p, rfl, hq, h⟩
    · rintro ⟨_, rfl, q, p, rfl, hq, h⟩; exact ⟨q, p.map .byte, by simp, hq, p, rfl, h⟩
  | alloc b k ih => simpa only [ofRd, Path, Rd.Path] using ih t

end Act

namespace ActE

variable {ε ε' α β : Type}

/-- `r` succeeds with `a`, in the course of `t`. -/
abbrev Gives (r : ActE ε α) (t : List Ev) (a : α) : Prop := Act.Path r t (.done (.ok a))

@[simp] theorem gives_ok (a b : α) (t : List Ev) : Gives (ActE.ok a : ActE ε α) t b ↔ t = [] ∧ b = a := by
  simp [Gives, ActE.ok, Act.Path]

@[simp] theorem gives_err (e : ε) (b : α) (t : List Ev) : Gives (ActE.err e : ActE ε α) t b ↔ False := by
  simp [Gives, ActE.err, Act.Path]

@[simp] theorem gives_stuck (w : Stuck) (b : α) (t : List Ev) :
    Gives (Act.stuck w : ActE ε α) t b ↔ False := by
  simp [Gives, Act.Path]

theorem gives_andThen (r : ActE ε α) (f : α → ActE ε β) (t : List Ev) (b : β) :
    Gives (r.andThen f) t b ↔ ∃ a q s, t = q ++ s ∧ Gives r q a ∧ Gives (f a) s b := by
  simp only [Gives, andThen, Act.path_bind]
  constructor
  · rintro (⟨w, _, h⟩ | ⟨a, q, s, rfl, h1, h2⟩)
    · cases h
    · cases a with
      | ok a => exact ⟨a, q, s, rfl, h1, h2⟩
      | error e => cases h2.2
  · rintro ⟨a, q, s, rfl, h1, h2⟩
    exact .inr ⟨.ok a, q, s, rfl, h1, h2⟩

theorem gives_mapErr (g : ε → ε') (r : ActE ε α) (t : List Ev) (b : α) :
    Gives (r.mapErr g) t b ↔ Gives r t b := by
  simp only [Gives, mapErr, Act.path_bind]
  constructor
  · rintro (⟨w, _, h⟩ | ⟨a, q, s, rfl, h1, h2⟩)
    · cases h
    · cases a with
      | ok a => obtain ⟨rfl, h2⟩ := h2; cases h2; simpa using h1
      | error e => obtain ⟨rfl, h2⟩ := h2; cases h2
  · intro h
    exact .inr ⟨.ok b, t, [], by simp, h, rfl, rfl⟩

theorem gives_mapOk (g : α → β) (r : ActE ε α) (t : List Ev) (b : β) :
    Gives (r.mapOk g) t b ↔ ∃ a, b = g a ∧ Gives r t a := by
  simp only [mapOk, gives_andThen, gives_ok]
  constructor
  · rintro ⟨a, q, s, rfl, h, rfl, rfl⟩; exact ⟨a, rfl, by simpa using h⟩
  · rintro ⟨a, rfl, h⟩; exact ⟨a, t, [], by simp, h, rfl, rfl⟩

theorem gives_lift (o : Except Stuck α) (t : List Ev) (a : α) :
    Gives (ActE.lift o : ActE ε α) t a ↔ t = [] ∧ o = .ok a := by
  cases o with
  | ok b => simp [ActE.lift, eq_comm]
  | error w => simp [ActE.lift]

theorem gives_ofRd (r : RdE ε α) (t : List Ev) (a : α) :
    Gives (ActE.ofRd r) t a ↔ ∃ p, t = p.map .byte ∧ RdE.Gives r p a := Act.path_ofRd r t _

theorem gives_call (c : Call) (k : Int → ActE ε α) (t : List Ev) (b : α) :
    Gives (Act.call c k : ActE ε α) t b ↔ ∃ a t', t = .answer c a :: t' ∧ Gives (k a) t' b := Iff.rfl

/-- An access that fails ends the computation with an error in `P`. -/
abbrev ShortE (P : ε → Prop) (r : ActE ε α) : Prop :=
  Act.Short (fun | .ok _ => False | .error e => P e) r

theorem short_andThen {P : ε → Prop} {r : ActE ε α} {f : α → ActE ε β}
    (hr : ShortE P r) (hf : ∀ a, ShortE P (f a)) : ShortE P (r.andThen f) := by
  refine Act.short_bind r _ hr ?_ ?_
  · rintro (a | a)
    · trivial
    · exact hf a
  · rintro (a | a) h
    · exact ⟨_, rfl, h⟩
    · exact h.elim

theorem short_mapErr {P : ε → Prop} {P' : ε' → Prop} {g : ε → ε'} {r : ActE ε α}
    (hr : ShortE P r) (hg : ∀ e, P e → P' (g e)) : ShortE P' (r.mapErr g) := by
  refine Act.short_bind r _ hr ?_ ?_
  · rintro (a | a) <;> trivial
  · rintro (a | a) h
    · exact ⟨_, rfl, hg a h⟩
    · exact h.elim

theorem short_mapOk {P : ε → Prop} {g : α → β} {r : ActE ε α} (hr : ShortE P r) : ShortE P (r.mapOk g) :=
  short_andThen hr fun _ => trivial

theorem short_lift (P : ε → Prop) (o : Except Stuck α) : ShortE P (ActE.lift o : ActE ε α) := by
  cases o <;> trivial

end ActE

/-! ### Asking -/

theorem gives_askPred {ε : Type} (env : Env) (p : Pred) (b : Bool) (t : List Ev) :
    ActE.Gives (askPred env p : ActE ε Bool) t b ↔ AsksPred env p b t := by
  unfold askPred AsksPred
  cases h : env.getAll p.ids with
  | none => simp
  | some vs =>
    simp only [ActE.gives_call, ActE.gives_ok, Option.some.injEq]
    constructor
    · rintro ⟨a, t', rfl, rfl, rfl⟩; exact ⟨vs, a, rfl, rfl, rfl⟩
    · rintro ⟨_, a, rfl, rfl, rfl⟩; exact ⟨a, [], rfl, rfl, rfl⟩

theorem gives_askCalc {ε : Type} (env : Env) (c : Calc) (x : Int) (t : List Ev) :
    ActE.Gives (askCalc env c : ActE ε Int) t x ↔ AsksCalc env c (fun a => a = x) t := by
  unfold askCalc AsksCalc
  cases h : env.getAll c.ids with
  | none => simp
  | some vs =>
    simp only [ActE.gives_call, ActE.gives_ok, Option.some.injEq]
    constructor
    · rintro ⟨a, t', rfl, rfl, rfl⟩; exact ⟨vs, _, rfl, rfl, rfl⟩
    · rintro ⟨_, a, rfl, rfl, rfl⟩; exact ⟨a, [], rfl, rfl, rfl⟩

theorem gives_calc_then {ε α : Type} (env : Env) (c : Calc) (g : Int → α) (y : α) (t : List Ev) :
    ActE.Gives ((askCalc env c : ActE ε Int).andThen fun x => ActE.ok (g x)) t y ↔
      AsksCalc env c (fun a => g a = y) t := by
  simp only [ActE.gives_andThen, gives_askCalc, ActE.gives_ok, AsksCalc]
  constructor
  · rintro ⟨x, q, s, rfl, ⟨args, a, h, rfl, rfl⟩, rfl, rfl⟩; exact ⟨args, a, h, by simp, rfl⟩
  · rintro ⟨args, a, h, rfl, rfl⟩; exact ⟨a, _, [], by simp, ⟨args, a, h, rfl, rfl⟩, rfl, rfl⟩

theorem gives_askLen {ε : Type} (cfg : Cfg) (env : Env) (len : LenSpec) (n : Nat) (t : List Ev) :
    ActE.Gives (askLen cfg env len : ActE ε Nat) t n ↔ AsksLen cfg env n t len := by
  cases len with
  | fromField id =>
    simp only [askLen, ActE.gives_lift, AsksLen, LenSpec.eval]
    split
    · rename_i x h; simp [h]
    · rename_i h; simp only [reduceCtorEq, and_false, false_iff]
      rintro ⟨_, x, hx, _⟩; exact h x hx
  | computed c => exact gives_calc_then env c _ n t

theorem gives_askLadder {ε : Type} (env : Env) : ∀ (ps : List Pred) (i : Nat) (t : List Ev),
    ActE.Gives (askLadder env ps : ActE ε (Option Nat)) t (some i) ↔ AsksLadder env ps i t
  | [], i, t => by simp [askLadder, AsksLadder]
  | p :: ps, i, t => by
    simp only [askLadder, ActE.gives_andThen, gives_askPred]
    constructor
    · rintro ⟨b, q, s, rfl, h1, h2⟩
      cases b with
      | true =>
        simp only [if_true, ActE.gives_ok, Option.some.injEq] at h2
        obtain ⟨rfl, rfl⟩ := h2
        simpa only [AsksLadder, List.append_nil] using h1
      | false =>
        simp only [Bool.false_eq_true, if_false, ActE.gives_mapOk] at h2
        obtain ⟨o, ho, h2⟩ := h2
        cases o with
        | none => cases ho
        | some j =>
          cases ho
          exact ⟨q, s, rfl, h1, (gives_askLadder env ps j s).1 h2⟩
    · intro h
      cases i with
      | zero => exact ⟨true, t, [], by simp, h, by simp⟩
      | succ i =>
        obtain ⟨t1, t2, rfl, h1, h2⟩ := h
        refine ⟨false, t1, t2, rfl, h1, ?_⟩
        simp only [Bool.false_eq_true, if_false, ActE.gives_mapOk]
        exact ⟨some i, rfl, (gives_askLadder env ps i t2).2 h2⟩

theorem gives_askDeducer {ε : Type} (env : Env) (d : Deducer) (i : Nat) (t : List Ev) :
    ActE.Gives (askDeducer env d : ActE ε (Option Nat)) t (some i) ↔ AsksDeducer env i t d := by
  cases d with
  | matchField id s ls => simp only [askDeducer, ActE.gives_lift, AsksDeducer]
  | matchCompute c s ls => exact gives_calc_then env c _ (some i) t
  | ladder ps => exact gives_askLadder env ps i t

theorem gives_askCheck {ε : Type} (c : Constraint) (v : Val) (t : List Ev) :
    ActE.Gives (askCheck c v : ActE ε Bool) t true ↔ AsksCheck v t c := by
  cases c with
  | user f =>
    simp only [askCheck, AsksCheck, ActE.gives_call, ActE.gives_ok]
    constructor
    · rintro ⟨a, t', rfl, rfl, h⟩; exact ⟨a, rfl, by simpa using h⟩
    · rintro ⟨a, rfl, h⟩; exact ⟨a, [], rfl, rfl, by simpa using h⟩
  | _ => simp only [askCheck, AsksCheck, ActE.gives_lift, Holds]

theorem gives_actChecked (c : Constraint) (v u : Val) (t : List Ev) :
    ActE.Gives (actChecked c v) t u ↔ u = v ∧ AsksCheck v t c := by
  simp only [actChecked, ActE.gives_andThen]
  constructor
  · rintro ⟨b, q, s, rfl, h1, h2⟩
    cases b with
    | true =>
      simp only [if_true, ActE.gives_ok] at h2
      obtain ⟨rfl, rfl⟩ := h2
      exact ⟨rfl, by simpa using (gives_askCheck c _ q).1 h1⟩
    | false => simp at h2
  · rintro ⟨rfl, h⟩
    exact ⟨true, t, [], by simp, (gives_askCheck c _ t).2 h, by simp⟩

/-! ### What is asked depends on the values of the fields named only -/

theorem AsksPred.congr {p : Pred} {env E : Env} (h : Agree p.ids env E) (b : Bool) (t : List Ev) :
    AsksPred env p b t ↔ AsksPred E p b t := by
  simp only [AsksPred, getAll_congr h]

theorem AsksCalc.congr {c : Calc} {env E : Env} (h : Agree c.ids env E) (R : Int → Prop) (t : List Ev) :
    AsksCalc env c R t ↔ AsksCalc E c R t := by
  simp only [AsksCalc, getAll_congr h]

theorem AsksLen.congr {cfg : Cfg} {len : LenSpec} {env E : Env} (h : Agree (lenDeps len) env E) (n : Nat)
    (t : List Ev) : AsksLen cfg env n t len ↔ AsksLen cfg E n t len := by
  cases len with
  | fromField id => simp only [AsksLen, h id (by simp [lenDeps])]
  | computed c => exact AsksCalc.congr h _ t

theorem AsksLadder.congr {env E : Env} : ∀ {ps : List Pred}, Agree (ps.flatMap Pred.ids) env E →
    ∀ i t, AsksLadder env ps i t ↔ AsksLadder E ps i t
  | [], _, i, t => Iff.rfl
  | p :: ps, h, 0, t => AsksPred.congr (h.mono (by simp +contextual)) true t
  | p :: ps, h, i + 1, t => by
    have h1 := fun t1 => AsksPred.congr (p := p) (h.mono (by simp +contextual)) false t1
    have h2 := fun t2 => AsksLadder.congr (ps := ps) (h.mono (by simp +contextual)) i t2
    simp only [AsksLadder, h1, h2]

theorem AsksDeducer.congr {d : Deducer} {env E : Env} (h : Agree (deducerDeps d) env E) (i : Nat)
    (t : List Ev) : AsksDeducer env i t d ↔ AsksDeducer E i t d := by
  cases d with
  | matchField id s ls => simp only [AsksDeducer, Deducer.eval_congr h]
  | matchCompute c s ls => exact AsksCalc.congr h _ t
  | ladder ps => exact AsksLadder.congr h i t

theorem AsksLadder.lt {env : Env} : ∀ {ps : List Pred} {i : Nat} {t : List Ev}, AsksLadder env ps i t → i < ps.length
  | [], _, _, h => h.elim
  | p :: ps, 0, _, _ => by simp
  | p :: ps, i + 1, _, h => by
    obtain ⟨_, t2, _, _, h⟩ := h
    have := AsksLadder.lt h
    simp only [List.length_cons]; omega

theorem AsksDeducer.lt {d : Deducer} {env : Env} {i : Nat} {t : List Ev} (h : AsksDeducer env i t d) :
    i < arity d := by
  cases d with
  | matchField id s ls => exact Deducer.eval_lt env _ i h.2
  | matchCompute c s ls => obtain ⟨_, _, _, _, h⟩ := h; exact switchIdx_lt _ _ _ _ h
  | ladder ps => exact AsksLadder.lt h

/-! ### Reading -/

theorem gives_actRepeat (r : ActE ε Val) (P : Val → List Ev → Prop)
    (hr : ∀ t v, ActE.Gives r t v ↔ P v t) (n : Nat) (t : List Ev) (vs : List Val) :
    ActE.Gives (actRepeat r n) t vs ↔ vs.length = n ∧ InTurn P vs t := by
  induction n generalizing t vs with
  | zero =>
    simp only [actRepeat, ActE.gives_ok]
    constructor
    · rintro ⟨rfl, rfl⟩; exact ⟨rfl, rfl⟩
    · rintro ⟨h, h2⟩
      have : vs = [] := by simpa using h
      subst this
      exact ⟨h2, rfl⟩
  | succ n ih =>
    simp only [actRepeat, ActE.gives_andThen, ActE.gives_ok, hr, ih]
    constructor
    · rintro ⟨v, q, s, rfl, hv, vs', q', s', rfl, ⟨hl, hP⟩, rfl, rfl⟩
      exact ⟨by simp [hl], q, q', by simp, hv, hP⟩
    · rintro ⟨hl, hP⟩
      cases vs with
      | nil => simp at hl
      | cons v vs =>
        obtain ⟨t1, t2, rfl, h1, h2⟩ := hP
        exact ⟨v, t1, t2, rfl, h1, vs, t2, [], by simp, ⟨by simpa using hl, h2⟩, rfl, rfl⟩

theorem InTurn.and_iff {P : Val → Prop} {Q : Val → List Ev → Prop} : ∀ (vs : List Val) (t : List Ev),
    InTurn (fun v t => P v ∧ Q v t) vs t ↔ (∀ v ∈ vs, P v) ∧ InTurn Q vs t
  | [], t => by simp [InTurn]
  | v :: vs, t => by
    simp only [InTurn, List.mem_cons, forall_eq_or_imp, InTurn.and_iff vs]
    constructor
    · rintro ⟨t1, t2, rfl, ⟨h1, h2⟩, h3, h4⟩; exact ⟨⟨h1, h3⟩, t1, t2, rfl, h2, h4⟩
    · rintro ⟨⟨h1, h3⟩, t1, t2, rfl, h2, h4⟩; exact ⟨t1, t2, rfl, ⟨h1, h2⟩, h3, h4⟩

theorem InTurn.congr {P Q : Val → List Ev → Prop} (h : ∀ v t, P v t ↔ Q v t) : ∀ (vs : List Val) (t : List Ev),
    InTurn P vs t ↔ InTurn Q vs t
  | [], _ => Iff.rfl
  | v :: vs, t => by simp only [InTurn, h, InTurn.congr h vs]

theorem gives_actResize (cfg : Cfg) (n : Nat) (k : ActE ε α) (t : List Ev) (a : α) :
    ActE.Gives (actResize cfg n k) t a ↔ n ≤ cfg.ptrdiffMax ∧ ActE.Gives k t a := by
  unfold actResize
  split
  · simp; omega
  · have : n ≤ cfg.ptrdiffMax := by omega
    simp only [this, true_and]
    exact Iff.rfl

private theorem gives_actRecs (cfg : Cfg) (fs : List Field)
    (hfs : ∀ t ws, ActE.Gives (actFields cfg (dfltEnv fs) fs) t ws ↔
      FitsFields cfg fs ws ∧ TalkFields cfg (envOf fs ws) fs ws t) (n : Nat) (t : List Ev) (v : Val) :
    ActE.Gives ((actRepeat (((actFields cfg (dfltEnv fs) fs).untag).mapOk .seq) n).mapOk .seq) t v ↔
      ∃ vs, v = .seq vs ∧ vs.length = n ∧ (∀ v ∈ vs, ∃ ws, v = .seq ws ∧ FitsFields cfg fs ws) ∧
        InTurn (fun v t => ∃ ws, v = .seq ws ∧ TalkFields cfg (envOf fs ws) fs ws t) vs t := by
  rw [ActE.gives_mapOk]
  have hr : ∀ (t : List Ev) (v : Val), ActE.Gives (((actFields cfg (dfltEnv fs) fs).untag).mapOk Val.seq) t v ↔
      (∃ ws, v = .seq ws ∧ FitsFields cfg fs ws) ∧
      ∃ ws, v = .seq ws ∧ TalkFields cfg (envOf fs ws) fs ws t := by
    intro t v
    simp only [ActE.gives_mapOk, ActE.untag, ActE.gives_mapErr, hfs]
    constructor
    · rintro ⟨ws, rfl, h, h'⟩; exact ⟨⟨ws, rfl, h⟩, ws, rfl, h'⟩
    · rintro ⟨⟨ws, rfl, h⟩, ws', e, h'⟩; cases e; exact ⟨ws, rfl, h, h'⟩
  simp only [gives_actRepeat _ _ hr, InTurn.and_iff]

mutual
theorem gives_actKind (cfg : Cfg) : (k : Kind) → saneKind k = true → uniqueKind k = true → earlierKind k = true →
    ∀ env E t v, Agree (kindDeps k) env E →
    (ActE.Gives (actKind cfg env k) t v ↔ FitsKind cfg k v ∧ TalkKind cfg E k v t)
  | .num s w, _, _, _, env, E, t, v, _ => by
      simp only [actKind, ActE.gives_ofRd, gives_readNum]
      cases v <;> simp [FitsKind, TalkKind, wireKind, and_comm]
  | .fbuf e n, _, _, _, env, E, t, v, _ => by
      simp only [actKind, ActE.gives_ofRd, gives_readFixedBuf]
      cases v with
      | seq vs =>
        simp only [FitsKind, TalkKind, wireKind, Val.seq.injEq, exists_eq_left', and_assoc]
        constructor
        · rintro ⟨p, rfl, h1, h2, rfl⟩; exact ⟨h1, h2, rfl⟩
        · rintro ⟨h1, h2, rfl⟩; exact ⟨_, rfl, h1, h2, rfl⟩
      | _ => simp [FitsKind]
  | .fstr n, _, _, _, env, E, t, v, _ => by
      simp only [actKind, ActE.gives_ofRd, gives_readFixedStr cfg.wire]
      cases v with
      | seq vs =>
        simp only [FitsKind, TalkKind, wireKind, Val.seq.injEq, exists_eq_left', and_assoc]
        constructor
        · rintro ⟨p, rfl, h1, h2, rfl⟩; exact ⟨h1, h2, rfl⟩
        · rintro ⟨h1, h2, rfl⟩; exact ⟨_, rfl, h1, h2, rfl⟩
      | _ => simp [FitsKind]
  | .vec e len bound, hs, _, _, env, E, t, v, h => by
      simp only [saneKind, decide_eq_true_eq] at hs
      simp only [actKind, ActE.gives_andThen, gives_askLen, ActE.gives_ofRd, gives_readVec cfg e _ _ hs]
      constructor
      · rintro ⟨n, q, s, rfl, hn, p, rfl, vs, rfl, hl, hc, he, rfl⟩
        subst hl
        exact ⟨⟨hc, he⟩, q, (AsksLen.congr h _ _).1 hn, rfl⟩
      · rintro ⟨h1, h2⟩
        cases v with
        | seq vs =>
          obtain ⟨t1, h3, rfl⟩ := h2
          exact ⟨vs.length, t1, _, rfl, (AsksLen.congr h _ _).2 h3, _, rfl, vs, rfl, rfl, h1.1, h1.2, rfl⟩
        | _ => simp [FitsKind] at h1
  | .record fs, hs, hu, he, env, E, t, v, h => by
      simp only [saneKind, uniqueKind, earlierKind] at hs hu he
      simp only [actKind, ActE.gives_mapOk, ActE.untag, ActE.gives_mapErr]
      constructor
      · rintro ⟨ws, rfl, h1⟩
        exact (gives_actFields cfg fs [] hs hu he _ (envOf fs ws) t ws (by simp [Agree]) (maps_envOf [] fs ws hu)).1 h1
      · rintro ⟨h1, h2⟩
        cases v with
        | seq ws =>
          exact ⟨ws, rfl, (gives_actFields cfg fs [] hs hu he _ (envOf fs ws) t ws (by simp [Agree])
            (maps_envOf [] fs ws hu)).2 ⟨h1, h2⟩⟩
        | _ => simp [FitsKind] at h1
  | .arrRec fs n, hs, hu, he, env, E, t, v, h => by
      simp only [saneKind, uniqueKind, earlierKind] at hs hu he
      simp only [actKind, gives_actRecs cfg fs fun t ws => gives_actFields cfg fs [] hs hu he _ (envOf fs ws) t ws
        (by simp [Agree]) (maps_envOf [] fs ws hu)]
      constructor
      · rintro ⟨vs, rfl, hl, h1, h2⟩; exact ⟨⟨hl, h1⟩, h2⟩
      · rintro ⟨h1, h2⟩
        cases v with
        | seq vs => exact ⟨vs, rfl, h1.1, h1.2, h2⟩
        | _ => simp [FitsKind] at h1
  | .vecRec fs len bound sz, hs, hu, he, env, E, t, v, h => by
      simp only [saneKind, uniqueKind, earlierKind, Bool.and_eq_true, decide_eq_true_eq] at hs hu he
      have hr := gives_actRecs cfg fs fun t ws => gives_actFields cfg fs [] hs.2 hu he _ (envOf fs ws) t ws
        (by simp [Agree]) (maps_envOf [] fs ws hu)
      simp only [actKind, ActE.gives_andThen, gives_askLen]
      constructor
      · rintro ⟨n, q, s, rfl, hn, h'⟩
        cases hc : checkedByteCount cfg sz (ceilingOf cfg bound) n with
        | error r => simp [hc] at h'
        | ok m =>
          simp only [hc, gives_actResize, hr] at h'
          obtain ⟨hp, vs, rfl, hl, h1, h2⟩ := h'
          subst hl
          exact ⟨⟨⟨((checkedByteCount_ok _ _ _ _ _ hs.1).mp hc).1, hp⟩, h1⟩, q, s, (AsksLen.congr h _ _).1 hn, rfl, h2⟩
      · rintro ⟨h1, h2⟩
        cases v with
        | seq vs =>
          obtain ⟨t1, t2, h3, rfl, h4⟩ := h2
          refine ⟨vs.length, t1, t2, rfl, (AsksLen.congr h _ _).2 h3, ?_⟩
          have hc := (checkedByteCount_ok cfg sz (ceilingOf cfg bound) vs.length _ hs.1).mpr ⟨h1.1.1, rfl⟩
          simp only [hc, gives_actResize, hr]
          exact ⟨h1.1.2, vs, rfl, rfl, h1.2, h4⟩
        | _ => simp [FitsKind] at h1
theorem gives_actField (cfg : Cfg) : (f : Field) → saneField f = true → uniqueField f = true →
    earlierField f = true → ∀ env E t v, Agree (fieldDeps f) env E →
    (ActE.Gives (actField cfg env f) t v ↔ FitsField cfg f v ∧ TalkField cfg E f v t)
  | .plain id k c, hs, hu, he, env, E, t, v, h => by
      simp only [saneField, uniqueField, earlierField] at hs hu he
      simp only [actField, FitsField, TalkField]
      exact gives_actKind cfg k hs hu he env E t v h
  | .maybe id k p, hs, hu, he, env, E, t, v, h => by
      simp only [saneField, uniqueField, earlierField] at hs hu he
      have hp : Agree p.ids env E := h.mono (by simp +contextual [fieldDeps])
      have hk : Agree (kindDeps k) env E := h.mono (by simp +contextual [fieldDeps])
      simp only [actField, ActE.gives_andThen, gives_askPred]
      constructor
      · rintro ⟨b, q, s, rfl, hb, h'⟩
        cases b with
        | true =>
          simp only [if_true, ActE.gives_mapOk, gives_actKind cfg k hs hu he env E _ _ hk] at h'
          obtain ⟨u, rfl, h1, h2⟩ := h'
          exact ⟨h1, q, s, rfl, (AsksPred.congr hp _ _).1 hb, h2⟩
        | false =>
          simp only [Bool.false_eq_true, if_false, ActE.gives_ok] at h'
          obtain ⟨rfl, rfl⟩ := h'
          refine ⟨trivial, ?_⟩
          simp only [TalkField, List.append_nil]
          exact (AsksPred.congr hp _ _).1 hb
      · rintro ⟨h1, h2⟩
        cases v with
        | present u =>
          obtain ⟨t1, t2, rfl, h3, h4⟩ := h2
          refine ⟨true, t1, t2, rfl, (AsksPred.congr hp _ _).2 h3, ?_⟩
          simp only [if_true, ActE.gives_mapOk, gives_actKind cfg k hs hu he env E _ _ hk]
          exact ⟨u, rfl, h1, h4⟩
        | absent =>
          exact ⟨false, t, [], by simp, (AsksPred.congr hp _ _).2 h2, by simp⟩
        | _ => simp [FitsField] at h1
  | .union id d alts c, hs, hu, he, env, E, t, v, h => by
      simp only [saneField, uniqueField, earlierField, Bool.and_eq_true, decide_eq_true_eq] at hs hu he
      have hd : Agree (deducerDeps d) env E := h.mono (by simp +contextual [fieldDeps])
      have hk : Agree (alts.flatMap fun a => kindDeps a.kind) env E := h.mono (by
        intro j hj
        simp only [fieldDeps, List.mem_append]
        exact .inr hj)
      simp only [actField, ActE.gives_andThen]
      constructor
      · rintro ⟨o, q, s, rfl, hb, h'⟩
        cases o with
        | none => simp at h'
        | some i =>
          have hd' := (gives_askDeducer env d i q).1 hb
          have hi := AsksDeducer.lt hd'
          rw [hs.1] at hi
          simp only [ActE.gives_mapOk] at h'
          obtain ⟨a, rfl, h'⟩ := h'
          rw [gives_actAlts cfg alts hs.2 hu he env E s i hi hk] at h'
          obtain ⟨u, rfl, h1, h2⟩ := h'
          exact ⟨h1, q, s, rfl, (AsksDeducer.congr hd _ _).1 hd', h2⟩
      · rintro ⟨h1, h2⟩
        cases v with
        | var i u =>
          obtain ⟨t1, t2, rfl, h3, h4⟩ := h2
          have hi := AsksDeducer.lt h3
          rw [hs.1] at hi
          refine ⟨some i, t1, t2, rfl, (gives_askDeducer env d i t1).2 ((AsksDeducer.congr hd _ _).2 h3), ?_⟩
          simp only [ActE.gives_mapOk]
          exact ⟨some u, rfl, (gives_actAlts cfg alts hs.2 hu he env E t2 i hi hk _).2 ⟨u, rfl, h1, h4⟩⟩
        | _ => simp [FitsField] at h1
theorem gives_actAlts (cfg : Cfg) : (alts : List Alt) → saneAlts alts = true → uniqueAlts alts = true →
    earlierAlts alts = true → ∀ env E t i, i < alts.length →
    Agree (alts.flatMap fun a => kindDeps a.kind) env E →
    ∀ o, (ActE.Gives (actAlts cfg env alts i) t o ↔
      ∃ v, o = some v ∧ FitsAlts cfg alts i v ∧ TalkAlts cfg E alts i v t)
  | [], _, _, _, env, E, t, i, hi, _, o => by simp at hi
  | .mk k c :: alts, hs, hu, he, env, E, t, 0, hi, h, o => by
      simp only [saneAlts, uniqueAlts, earlierAlts, Bool.and_eq_true] at hs hu he
      have hk : Agree (kindDeps k) env E := h.mono (by simp +contextual)
      simp only [actAlts, ActE.gives_andThen, ActE.gives_mapOk, gives_actChecked,
        gives_actKind cfg k hs.1 hu.1 he.1 env E _ _ hk, FitsAlts, TalkAlts]
      constructor
      · rintro ⟨v, q, s, rfl, ⟨h1, h2⟩, u, rfl, rfl, h3⟩
        exact ⟨_, rfl, h1, q, s, rfl, h2, h3⟩
      · rintro ⟨v, rfl, h1, q, s, rfl, h2, h3⟩
        exact ⟨v, q, s, rfl, ⟨h1, h2⟩, v, rfl, rfl, h3⟩
  | .mk k c :: alts, hs, hu, he, env, E, t, i + 1, hi, h, o => by
      simp only [saneAlts, uniqueAlts, earlierAlts, Bool.and_eq_true] at hs hu he
      simp only [actAlts, FitsAlts, TalkAlts]
      exact gives_actAlts cfg alts hs.2 hu.2 he.2 env E t i (by simpa using hi) (h.mono (by
        intro j hj
        rw [List.flatMap_cons, List.mem_append]
        exact .inr hj)) o
theorem gives_actFields (cfg : Cfg) : (fs : List Field) → ∀ seen, saneFields fs = true →
    uniqueFields seen fs = true → earlierFields seen fs = true → ∀ env E t vs, Agree seen env E → Maps E fs vs →
    (ActE.Gives (actFields cfg env fs) t vs ↔ FitsFields cfg fs vs ∧ TalkFields cfg E fs vs t)
  | [], seen, _, _, _, env, E, t, vs, _, _ => by
      simp only [actFields, ActE.gives_ok]
      cases vs <;> simp [FitsFields, TalkFields]
  | f :: fs, seen, hs, hu, he, env, E, t, vs, h, hm => by
      simp only [saneFields, uniqueFields, earlierFields, Bool.and_eq_true, List.all_eq_true] at hs hu he
      have hf : Agree (fieldDeps f) env E := h.mono fun i hi => by simpa using he.1.1 i hi
      simp only [actFields, ActE.gives_andThen, ActE.tag, ActE.gives_mapErr, gives_actChecked, ActE.gives_ok,
        gives_actField cfg f hs.1 hu.1.2 he.1.2 env E _ _ hf]
      have hnext : ∀ v ws, vs = v :: ws → Agree (seen ++ [f.id]) (env.set f.id v) E := by
        rintro v ws rfl i hi
        simp only [Env.set]
        split
        · rename_i h'; subst h'; exact hm.1.symm
        · rw [List.mem_append, List.mem_singleton] at hi
          rcases hi with hi | hi
          · exact h i hi
          · contradiction
      constructor
      · rintro ⟨v, q, s, rfl, ⟨u, q', s', rfl, ⟨h1, h2⟩, rfl, h3⟩, ws, q2, s2, rfl, h4, rfl, rfl⟩
        have := (gives_actFields cfg fs (seen ++ [f.id]) hs.2 hu.2 he.2 _ E q2 ws (hnext _ ws rfl) hm.2).1 h4
        exact ⟨⟨h1, this.1⟩, q', s', q2, by simp, h2, h3, this.2⟩
      · rintro ⟨h1, h2⟩
        cases vs with
        | nil => simp [FitsFields] at h1
        | cons v ws =>
          obtain ⟨t1, t2, t3, rfl, h3, h4, h5⟩ := h2
          refine ⟨v, t1 ++ t2, t3, rfl, ⟨v, t1, t2, rfl, ⟨h1.1, h3⟩, rfl, h4⟩, ws, t3, [], by simp, ?_, rfl, rfl⟩
          exact (gives_actFields cfg fs (seen ++ [f.id]) hs.2 hu.2 he.2 _ E t3 ws (hnext v ws rfl) hm.2).2 ⟨h1.2, h5⟩
end

/-- **Reading with the user's code, characterised.** -/
theorem actCast_gives_iff (cfg : Cfg) (fs : List Field) (hwf : WellFormed fs) (t : List Ev) (vs : List Val) :
    ActE.Gives (actCast cfg fs) t vs ↔ FitsFields cfg fs vs ∧ Dialogue cfg fs vs t := by
  obtain ⟨h1, h2, h3⟩ := hwf
  exact gives_actFields cfg fs [] h1 h2 h3 (dfltEnv fs) (envOf fs vs) t vs (by simp [Agree]) (maps_envOf [] fs vs h2)

/-! ### An access that fails ends the read -/

abbrev ShortA (r : ActE Reason α) : Prop := ActE.ShortE (fun e => e = .bufferExhaustion) r
abbrev ShortAC (r : ActE CastError α) : Prop := ActE.ShortE (fun e => e.reason = .bufferExhaustion) r

theorem short_askPred {ε : Type} (P : ε → Prop) (env : Env) (p : Pred) : ActE.ShortE P (askPred env p : ActE ε Bool) := by
  unfold askPred
  split
  · intro a; trivial
  · trivial

theorem short_askCalc {ε : Type} (P : ε → Prop) (env : Env) (c : Calc) : ActE.ShortE P (askCalc env c : ActE ε Int) := by
  unfold askCalc
  split
  · intro a; trivial
  · trivial

theorem short_askLen {ε : Type} (P : ε → Prop) (cfg : Cfg) (env : Env) (len : LenSpec) :
    ActE.ShortE P (askLen cfg env len : ActE ε Nat) := by
  cases len with
  | fromField id => exact ActE.short_lift _ _
  | computed c => exact ActE.short_andThen (short_askCalc P env c) fun _ => trivial

theorem short_askLadder {ε : Type} (P : ε → Prop) (env : Env) : ∀ ps : List Pred,
    ActE.ShortE P (askLadder env ps : ActE ε (Option Nat))
  | [] => trivial
  | p :: ps => by
    refine ActE.short_andThen (short_askPred P env p) fun b => ?_
    cases b
    · exact ActE.short_mapOk (short_askLadder P env ps)
    · trivial

theorem short_askDeducer {ε : Type} (P : ε → Prop) (env : Env) (d : Deducer) :
    ActE.ShortE P (askDeducer env d : ActE ε (Option Nat)) := by
  cases d with
  | matchField id s ls => exact ActE.short_lift _ _
  | matchCompute c s ls => exact ActE.short_andThen (short_askCalc P env c) fun _ => trivial
  | ladder ps => exact short_askLadder P env ps

theorem short_askCheck {ε : Type} (P : ε → Prop) (c : Constraint) (v : Val) :
    ActE.ShortE P (askCheck c v : ActE ε Bool) := by
  cases c with
  | user f => intro a; trivial
  | none => exact ActE.short_lift P (Constraint.none.check v)
  | arrCmp eq w => exact ActE.short_lift P ((Constraint.arrCmp eq w).check v)
  | _ => exact ActE.short_lift _ _

theorem short_actChecked (c : Constraint) (v : Val) : ShortA (actChecked c v) := by
  refine ActE.short_andThen (short_askCheck _ c v) fun b => ?_
  split <;> trivial

theorem short_actRepeat {P : ε → Prop} {r : ActE ε Val} (h : ActE.ShortE P r) (n : Nat) :
    ActE.ShortE P (actRepeat r n) := by
  induction n with
  | zero => trivial
  | succ n ih => exact ActE.short_andThen h fun _ => ActE.short_andThen ih fun _ => trivial

theorem short_actResize {P : ε → Prop} (cfg : Cfg) (n : Nat) {k : ActE ε α} (h : ActE.ShortE P k) :
    ActE.ShortE P (actResize cfg n k) := by
  unfold actResize
  split
  · trivial
  · exact h

mutual
theorem short_actKind (cfg : Cfg) : (k : Kind) → ∀ env, ShortA (actKind cfg env k)
  | .num t w, env => by rw [actKind]; exact Act.short_ofRd (short_readNum _ _ _)
  | .fbuf e n, env => by rw [actKind]; exact Act.short_ofRd (short_readFixedBuf _ _ _)
  | .fstr n, env => by rw [actKind]; exact Act.short_ofRd (short_readFixedStr _)
  | .vec e len b, env => by
      rw [actKind]
      exact ActE.short_andThen (short_askLen _ _ _ _) fun _ => Act.short_ofRd (short_readVec _ _ _ _)
  | .record fs, env => by
      rw [actKind]
      exact ActE.short_mapOk (ActE.short_mapErr (short_actFields cfg fs _) fun _ h => h)
  | .arrRec fs n, env => by
      rw [actKind]
      exact ActE.short_mapOk (short_actRepeat (ActE.short_mapOk
        (ActE.short_mapErr (short_actFields cfg fs _) fun _ h => h)) _)
  | .vecRec fs len b sz, env => by
      rw [actKind]
      refine ActE.short_andThen (short_askLen _ _ _ _) fun n => ?_
      split
      · trivial
      · exact short_actResize _ _ (ActE.short_mapOk (short_actRepeat (ActE.short_mapOk
          (ActE.short_mapErr (short_actFields cfg fs _) fun _ h => h)) _))
theorem short_actField (cfg : Cfg) : (f : Field) → ∀ env, ShortA (actField cfg env f)
  | .plain id k c, env => by rw [actField]; exact short_actKind cfg k env
  | .maybe id k p, env => by
      rw [actField]
      refine ActE.short_andThen (short_askPred _ _ _) fun b => ?_
      split
      · exact ActE.short_mapOk (short_actKind cfg k env)
      · trivial
  | .union id d alts c, env => by
      rw [actField]
      refine ActE.short_andThen (short_askDeducer _ _ _) fun o => ?_
      cases o with
      | none => trivial
      | some i => exact ActE.short_mapOk (short_actAlts cfg alts env i)
theorem short_actAlts (cfg : Cfg) : (alts : List Alt) → ∀ env i, ShortA (actAlts cfg env alts i)
  | [], env, i => by rw [actAlts]; trivial
  | .mk k c :: alts, env, 0 => by
      rw [actAlts]
      exact ActE.short_andThen (short_actKind cfg k env) fun _ => ActE.short_mapOk (short_actChecked _ _)
  | .mk k c :: alts, env, i + 1 => by
      rw [actAlts]
      exact short_actAlts cfg alts env i
theorem short_actFields (cfg : Cfg) : (fs : List Field) → ∀ env, ShortAC (actFields cfg env fs)
  | [], env => by rw [actFields]; trivial
  | f :: fs, env => by
      rw [actFields]
      refine ActE.short_andThen (ActE.short_mapErr (ActE.short_andThen (short_actField cfg f env)
        fun _ => short_actChecked _ _) fun _ h => h) fun _ => ?_
      exact ActE.short_andThen (short_actFields cfg fs _) fun _ => trivial
end

theorem short_actCast (cfg : Cfg) (fs : List Field) : ShortAC (actCast cfg fs) := short_actFields cfg fs _

end S2S
