import Verif.Spec.Guarded
import Verif.Lemmas.Either
import Verif.Props.Exact
/-
C148: optionals spelled by hand, with a constraint on what they hold.
-/
namespace S2S.Props
open Spec Demo

theorem readGuards_eq (cfg : Cfg) (gs : List GField) (env : Env) :
    readGuards cfg env gs = readFields cfg env (gs.map GField.usual) := by
  induction gs generalizing env with
  | nil => simp only [readGuards, List.map_nil, readFields]
  | cons g gs ih =>
    cases g with
    | std f => simp only [readGuards, List.map_cons, GField.usual, readFields, ih]
    | guarded id k c p =>
      simp only [readGuards, List.map_cons, GField.usual, readFields, readField, Field.constraint, Field.id, ih]

theorem writeKind_unchecked (cfg : Cfg) {ctx : WCtx} {id : String} (h : isDerived ctx.fs id = false) (c : Constraint)
    (k : Kind) (v : Val) : writeKind cfg ctx false id c k v = writeKind cfg ctx false id .none k v := by
  have hf : ∀ k v, writeFixed cfg ctx false id k c v = writeFixed cfg ctx false id k .none v := by
    intro k v; simp [writeFixed, h]
  cases k with
  | num t w => simp only [writeKind, hf]
  | fbuf e n => simp only [writeKind, hf]
  | fstr n => simp only [writeKind, hf]
  | _ => cases v <;> simp only [writeKind]

theorem writeGuard_ok {S : OutStream} {cfg : Cfg} {ctx : WCtx} {id : String} {k : Kind} {c : Constraint} {p : Pred}
    (h : isDerived ctx.fs id = false) {v : Val} {s s' : S.State} :
    Wr.runOn S (writeGuard cfg ctx id k c p v) s = (.done (.ok ()), s') ↔
      Wr.runOn S (writeField cfg ctx (.maybe id k p) v) s = (.done (.ok ()), s') ∧
        ∀ w, v = .present w → Holds c w := by
  unfold writeGuard
  rw [writeField]
  cases p.eval ctx.env with
  | error e => simp [WrE.lift, WrE.andThen, Wr.bind, Wr.runOn]
  | ok b =>
    simp only [WrE.lift, WrE.ok, WrE.andThen, Wr.bind]
    cases v with
    | present w =>
      cases b with
      | false => simp [WrE.err, Wr.runOn]
      | true =>
        simp only [if_true, WrE.checked, writeKind_unchecked cfg h c, Val.present.injEq, forall_eq', Holds]
        cases hc : c.check w with
        | error e => simp [WrE.lift, WrE.andThen, Wr.bind, Wr.runOn]
        | ok b => cases b <;> simp [WrE.lift, WrE.ok, WrE.err, WrE.andThen, Wr.bind, Wr.runOn]
    | _ => simp

theorem tag_ok {S : OutStream} {r : WrE Reason Unit} {id : String} {s s' : S.State} :
    Wr.runOn S (r.tag id) s = (.done (.ok ()), s') ↔ Wr.runOn S r s = (.done (.ok ()), s') := by
  rw [WrE.tag, WrE.runOn_mapErr']
  rcases Wr.runOn S r s with ⟨(_ | _) | _, t⟩ <;> simp

theorem andThen_ok {S : OutStream} {r : WrE ε Unit} {f : Unit → WrE ε Unit} {s s' : S.State} :
    Wr.runOn S (r.andThen f) s = (.done (.ok ()), s') ↔
      ∃ t, Wr.runOn S r s = (.done (.ok ()), t) ∧ Wr.runOn S (f ()) t = (.done (.ok ()), s') := by
  rw [WrE.runOn_andThen']
  rcases Wr.runOn S r s with ⟨(_ | _) | _, t⟩ <;> simp

theorem checked_free (v : Val) (r : WrE Reason Unit) : WrE.checked .none v r = r := by
  simp [WrE.checked, Constraint.check, WrE.lift, WrE.ok, WrE.andThen, Wr.bind]

theorem writeGuards_ok {S : OutStream} {cfg : Cfg} {ctx : WCtx} : ∀ (gs : List GField) (vs : List Val),
    (∀ id k c p, GField.guarded id k c p ∈ gs → isDerived ctx.fs id = false) → ∀ {s s' : S.State},
    (Wr.runOn S (writeGuards cfg ctx gs vs) s = (.done (.ok ()), s') ↔
      Wr.runOn S (writeFields cfg ctx (gs.map GField.usual) vs) s = (.done (.ok ()), s') ∧ Kept gs vs)
  | [], [], _, _, _ => by simp [writeGuards, writeFields, Kept]
  | [], _ :: _, _, _, _ => by simp [writeGuards, writeFields, Kept]
  | g :: _, [], _, _, _ => by cases g <;> simp [writeGuards, writeFields, Kept, Wr.runOn]
  | g :: gs, v :: vs, hd, s, s' => by
      have ih := fun {s s' : S.State} => writeGuards_ok (S := S) (cfg := cfg) (ctx := ctx) gs vs
        (fun id k c p h => hd id k c p (by simp [h])) (s := s) (s' := s')
      cases g with
      | std f =>
        simp only [writeGuards, List.map_cons, GField.usual, writeFields, andThen_ok, ih, Kept]
        constructor
        · rintro ⟨t, h1, h2, h3⟩; exact ⟨⟨t, h1, h2⟩, h3⟩
        · rintro ⟨⟨t, h1, h2⟩, h3⟩; exact ⟨t, h1, h2, h3⟩
      | guarded id k c p =>
        have h := hd id k c p (by simp)
        simp only [writeGuards, List.map_cons, GField.usual, writeFields, andThen_ok, ih, Kept, Field.id, h,
          Field.isFrozen, Field.constraint, Bool.or_false, Bool.false_eq_true, if_false, checked_free,
          tag_ok, writeGuard_ok h]
        constructor
        · rintro ⟨t, ⟨h1, h4⟩, h2, h3⟩; exact ⟨⟨t, h1, h2⟩, h4, h3⟩
        · rintro ⟨⟨t, h1, h2⟩, h4, h3⟩; exact ⟨t, ⟨h1, h4⟩, h2, h3⟩

/-- C148. Reading, the constraints play no role. -/
theorem C148_read (cfg : Cfg) (gs : List GField) :
    structCastGuard cfg gs = structCast cfg (gs.map GField.usual) := by
  unfold structCastGuard structCast
  exact readGuards_eq cfg gs _

/-- C148. Writing, what is accepted is what is accepted without the constraints, if it satisfies them. -/
theorem C148_write (S : OutStream) (cfg : Cfg) (gs : List GField) (hu : Unswitched gs) (vs : List Val)
    (s s' : S.State) :
    (streamCastGuard cfg gs vs).runOn S s = (.done (.ok ()), s') ↔
      (streamCast cfg (gs.map GField.usual) vs).runOn S s = (.done (.ok ()), s') ∧ Kept gs vs :=
  writeGuards_ok (ctx := ⟨gs.map GField.usual, vs⟩) gs vs hu

/-- C148. So what was read is written back exactly if the constraints hold, and what was written is
read back in any case. -/
theorem C148_back_partial (cfg : Cfg) (gs : List GField) (hu : Unswitched gs) (hrw : Rewritable cfg (gs.map GField.usual))
    (inp rest : List Byte) (vs : List Val) (h : (structCastGuard cfg gs).run inp = (.done (.ok vs), rest)) :
    ∃ p, inp = p ++ rest ∧ ((streamCastGuard cfg gs vs).run = (.done (.ok ()), p) ↔ Kept gs vs) := by
  rw [C148_read] at h
  obtain ⟨p, rfl, hp⟩ := C49_rewrite cfg _ hrw inp rest vs h
  refine ⟨p, rfl, ?_⟩
  have := C148_write listOut cfg gs hu vs [] p
  exact this.trans (and_iff_right hp)

theorem C148_round_partial (cfg : Cfg) (gs : List GField) (hu : Unswitched gs) (hsc : SelfConsistent cfg (gs.map GField.usual))
    (vs : List Val) (hst : Storable cfg (gs.map GField.usual) vs) (p rest : List Byte)
    (h : (streamCastGuard cfg gs vs).run = (.done (.ok ()), p)) :
    (structCastGuard cfg gs).run (p ++ rest) = (.done (.ok (settle (gs.map GField.usual) vs)), rest) := by
  have h1 := ((C148_write listOut cfg gs hu vs [] p).1 h).1
  obtain ⟨hv, rfl⟩ := write_sound cfg _ hsc vs hst p h1
  rw [C148_read]
  exact (read_iff cfg _ hsc.1 _ _ _).2 ⟨hv, rfl⟩

/-- A flag and an optional percentage. -/
def percent : List GField :=
  [.std (.plain "has" (.num u8 1) .none),
   .guarded "pct" (.num u8 1) (.cmp .le u8 100) ⟨["has"], fun vs => vs == [.int 1]⟩]

theorem percent_unswitched : Unswitched percent := by
  intro id k c p h
  simp only [percent, List.mem_cons, List.not_mem_nil, or_false, reduceCtorEq, false_or, GField.guarded.injEq] at h
  obtain ⟨rfl, -⟩ := h
  decide

/-- Forty percent are written and read. -/
example (rest : List Byte) :
    (structCastGuard be64 percent).run ([1, 40] ++ rest) = (.done (.ok [.int 1, .present (.int 40)]), rest) :=
  C148_round_partial be64 percent percent_unswitched (by decide +kernel) [.int 1, .present (.int 40)] (by decide +kernel)
    [1, 40] rest rfl

/-- Two hundred are read and not written back, whatever the stream. -/
example (S : OutStream) (s s' : S.State) :
    (streamCastGuard be64 percent [.int 1, .present (.int 200)]).runOn S s ≠ (.done (.ok ()), s') := by
  intro h
  exact absurd (((C148_write S be64 percent percent_unswitched _ s s').1 h).2.1 _ rfl) (by unfold Holds; nofun)

/-- C148: reading does not check what writing does. -/
theorem C148_fails_read :
    (structCastGuard be64 percent).run [1, 200] = (.done (.ok [.int 1, .present (.int 200)]), []) ∧
    (streamCastGuard be64 percent [.int 1, .present (.int 200)]).run =
      (.done (.error ⟨.validationFailure, "pct"⟩), [1]) := ⟨rfl, rfl⟩

example : structCastGuard be64 percent = structCast be64 (percent.map GField.usual) := C148_read be64 percent
example : ¬ Kept percent [.int 1, .present (.int 200)] := by
  obtain ⟨p, hp, h⟩ := C148_back_partial be64 percent percent_unswitched (rewritable_of_checked (by decide +kernel)) [1, 200] []
    [.int 1, .present (.int 200)] (by rfl)
  rw [← h]
  intro h'
  cases h'

end S2S.Props
