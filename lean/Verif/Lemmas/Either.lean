import Verif.Spec.Either
import Verif.Lemmas.Group
/-
Optionals spelled as unions.
-/
namespace S2S
open Spec

/-! ### Computations that do the same on a stream -/

/-- The same result and the same state of the stream afterwards. -/
def Rd.SameOn (S : InStream) (r r' : Rd α) : Prop := ∀ s, r.runOn S s = r'.runOn S s

theorem RdE.sameOn_andThen {S : InStream} {r r' : RdE ε α} {f f' : α → RdE ε β} (h : Rd.SameOn S r r')
    (hf : ∀ a, Rd.SameOn S (f a) (f' a)) : Rd.SameOn S (r.andThen f) (r'.andThen f') := by
  intro s
  rw [RdE.runOn_andThen, RdE.runOn_andThen, h s]
  split
  · exact hf _ _
  · rfl
  · rfl

theorem RdE.sameOn_mapErr {S : InStream} {r r' : RdE ε α} (g : ε → ε') (h : Rd.SameOn S r r') :
    Rd.SameOn S (r.mapErr g) (r'.mapErr g) := by
  intro s
  rw [RdE.runOn_mapErr, RdE.runOn_mapErr, h s]

def Wr.SameOn (S : OutStream) (r r' : Wr α) : Prop := ∀ s, r.runOn S s = r'.runOn S s

theorem Wr.runOn_bind' (S : OutStream) (r : Wr α) (f : α → Wr β) (s : S.State) :
    (r.bind f).runOn S s =
      match r.runOn S s with
      | (.done a, s') => (f a).runOn S s'
      | (.stuck w, s') => (.stuck w, s') := by
  induction r generalizing s with
  | ret a => rfl
  | stuck w => rfl
  | write bs k ih => simp only [Wr.bind, Wr.runOn]; exact ih _ _

theorem WrE.runOn_andThen' (S : OutStream) (r : WrE ε α) (f : α → WrE ε β) (s : S.State) :
    Wr.runOn S (r.andThen f) s =
      match Wr.runOn S r s with
      | (.done (.ok a), s') => Wr.runOn S (f a) s'
      | (.done (.error e), s') => (.done (.error e), s')
      | (.stuck w, s') => (.stuck w, s') := by
  rw [WrE.andThen, Wr.runOn_bind']
  cases Wr.runOn S r s with
  | mk o s' =>
    cases o with
    | stuck w => rfl
    | done a => cases a <;> rfl

theorem WrE.runOn_mapErr' (S : OutStream) (g : ε → ε') (r : WrE ε α) (s : S.State) :
    Wr.runOn S (r.mapErr g) s =
      match Wr.runOn S r s with
      | (.done (.ok a), s') => (.done (.ok a), s')
      | (.done (.error e), s') => (.done (.error (g e)), s')
      | (.stuck w, s') => (.stuck w, s') := by
  rw [WrE.mapErr, Wr.map, Wr.runOn_bind']
  cases Wr.runOn S r s with
  | mk o s' =>
    cases o with
    | stuck w => rfl
    | done a => cases a <;> rfl

theorem WrE.sameOn_andThen {S : OutStream} {r r' : WrE ε α} {f f' : α → WrE ε β} (h : Wr.SameOn S r r')
    (hf : ∀ a, Wr.SameOn S (f a) (f' a)) : Wr.SameOn S (r.andThen f) (r'.andThen f') := by
  intro s
  rw [WrE.runOn_andThen', WrE.runOn_andThen', h s]
  split
  · exact hf _ _
  · rfl
  · rfl

theorem WrE.sameOn_mapErr {S : OutStream} {r r' : WrE ε α} (g : ε → ε') (h : Wr.SameOn S r r') :
    Wr.SameOn S (r.mapErr g) (r'.mapErr g) := by
  intro s
  rw [WrE.runOn_mapErr', WrE.runOn_mapErr', h s]

/-! ### Names and values -/

@[simp] theorem asUnion_id (pick : String → Bool) (f : Field) : (asUnion pick f).id = f.id := by
  cases f <;> simp only [asUnion]
  split <;> rfl

@[simp] theorem asUnion_constraint (pick : String → Bool) (f : Field) : (asUnion pick f).constraint = f.constraint := by
  cases f <;> simp only [asUnion]
  split <;> rfl

theorem asVariant_unpicked {pick : String → Bool} {f : Field} (h : pick f.id = false) (v : Val) :
    asVariant pick f v = v := by
  cases f <;> simp only [asVariant]
  simp only [Field.id] at h
  simp [h]

theorem envOf_asUnion (pick : String → Bool) : ∀ fs vs i, pick i = false →
    envOf (fs.map (asUnion pick)) (asVariants pick fs vs) i = envOf fs vs i
  | [], vs, i, _ => by simp [asVariants, envOf]
  | f :: fs, [], i, _ => by simp [asVariants, envOf]
  | f :: fs, v :: vs, i, h => by
      simp only [List.map_cons, asVariants, envOf, asUnion_id]
      have ih := envOf_asUnion pick fs vs i h
      simp only [Env.set] at ih ⊢
      split
      · rename_i he; subst he; rw [asVariant_unpicked h]
      · exact ih

theorem dflts_agree (pick : String → Bool) : ∀ fs i, pick i = false →
    dfltEnv (fs.map (asUnion pick)) i = dfltEnv fs i
  | [], i, _ => rfl
  | f :: fs, i, h => by
      have ih := dflts_agree pick fs i h
      unfold dfltEnv at ih ⊢
      simp only [List.map_cons, Field.dflts, envOf, asUnion_id]
      simp only [Env.set] at ih ⊢
      split
      · rename_i he
        subst he
        cases f <;> simp only [asUnion, Field.id] at h ⊢
        simp [h]
      · exact ih

theorem agree_set_same {pick : String → Bool} {env env' : Env} (h : ∀ i, pick i = false → env i = env' i)
    {f : Field} (v : Val) : ∀ i, pick i = false → env.set f.id v i = env'.set f.id (asVariant pick f v) i := by
  intro i hi
  simp only [Env.set]
  split
  · rename_i he; subst he; rw [asVariant_unpicked hi]
  · exact h i hi

/-! ### Reading -/

theorem RdE.mapOk_andThen' (r : RdE ε α) (g : α → β) (f : β → RdE ε γ) :
    (r.mapOk g).andThen f = r.andThen fun a => f (g a) := by
  unfold RdE.mapOk
  rw [RdE.andThen_assoc]
  congr 1

theorem readNothing {S : InStream} (hS : IdleIn S) (cfg : Cfg) (env : Env) (s : S.State) :
    Rd.runOn S (readKind cfg env (.fbuf (.scalar (.int 1 false)) 0)) s = (.done (.ok (.seq [])), s) := by
  simp only [readKind, readFixedBuf, readNativeImpl, Nat.zero_mul, Nat.lt_irrefl, if_false]
  rw [RdE.runOn_andThen]
  simp only [Rd.runOn, hS s]
  simp [RdE.ok, Rd.runOn, decodeN, RdE.value, swapIfForeign, RdE.andThen, Rd.bind]

theorem readField_asUnion {S : InStream} (hS : IdleIn S) (pick : String → Bool) (cfg : Cfg) {env env' : Env}
    {f : Field} (h : Agree (fieldDeps f) env env') :
    Rd.SameOn S (readField cfg env' (asUnion pick f)) ((readField cfg env f).mapOk (asVariant pick f)) := by
  rw [readField_congr cfg f h]
  have hid : ∀ g : Field, (∀ v, asVariant pick f v = v) → Rd.SameOn S (readField cfg env' g)
      ((readField cfg env' g).mapOk (asVariant pick f)) := by
    intro g hv s
    unfold RdE.mapOk
    rw [RdE.runOn_andThen]
    rcases Rd.runOn S (readField cfg env' g) s with ⟨(_ | _) | _, s'⟩ <;> simp [RdE.ok, Rd.runOn, hv]
  cases f with
  | plain id k c => exact hid _ fun v => rfl
  | union id d alts c => exact hid _ fun v => rfl
  | maybe id k p =>
    simp only [asUnion]
    cases hp : pick id with
    | false => exact hid _ fun v => by simp [asVariant, hp]
    | true =>
      intro s
      simp only [if_true, readField, Deducer.eval, ladderIdx, Pred.eval, negated, nothingAlt]
      cases env'.getAll p.ids with
      | none => simp [RdE.lift, RdE.andThen, Rd.bind, Rd.runOn, RdE.mapOk]
      | some us =>
        simp only
        cases hb : p.fn us with
        | true =>
          simp only [RdE.lift, RdE.ok_andThen, readAlts, if_true, RdE.checked, Constraint.check, RdE.mapOk,
            RdE.andThen_assoc]
          rw [RdE.runOn_andThen, RdE.runOn_andThen]
          rcases Rd.runOn S (readKind cfg env' k) s with ⟨(_ | _) | _, s'⟩ <;>
            simp [RdE.ok, Rd.runOn, RdE.andThen, Rd.bind, asVariant, hp, toVariant]
        | false =>
          simp only [Bool.not_false, RdE.lift, RdE.ok_andThen, readAlts, RdE.checked, Constraint.check, RdE.mapOk,
            RdE.andThen_assoc, Option.map]
          rw [RdE.runOn_andThen, readNothing hS]
          simp [RdE.ok, Rd.runOn, RdE.andThen, Rd.bind, asVariant, hp, toVariant]

theorem fieldStep_asUnion {S : InStream} (hS : IdleIn S) (pick : String → Bool) (cfg : Cfg) {env env' : Env}
    {f : Field} (h : Agree (fieldDeps f) env env') :
    Rd.SameOn S (fieldStep cfg env' (asUnion pick f)) ((fieldStep cfg env f).mapOk (asVariant pick f)) := by
  intro s
  have h1 := readField_asUnion hS pick cfg h s
  simp only [fieldStep, RdE.tag, RdE.mapOk, asUnion_constraint, asUnion_id, RdE.runOn_andThen, RdE.runOn_mapErr]
    at h1 ⊢
  rw [h1]
  have hc : ∀ v, Constraint.check f.constraint (asVariant pick f v) = Constraint.check f.constraint v := by
    intro v; cases f <;> rfl
  rcases Rd.runOn S (readField cfg env f) s with ⟨(_ | v) | _, s'⟩
  · rfl
  · simp only [RdE.ok, Rd.runOn, RdE.checked, hc]
    rcases Constraint.check f.constraint v with _ | _ | _ <;>
      simp [RdE.lift, RdE.andThen, Rd.bind, Rd.runOn, RdE.ok, RdE.err]
  · rfl

theorem readFields_asUnion {S : InStream} (hS : IdleIn S) (pick : String → Bool) (cfg : Cfg) (fs : List Field)
    (hu : Unread pick fs) (env env' : Env) (he : ∀ i, pick i = false → env i = env' i) :
    Rd.SameOn S (readFields cfg env' (fs.map (asUnion pick)))
      ((readFields cfg env fs).mapOk (asVariants pick fs)) := by
  induction fs generalizing env env' with
  | nil => intro s; simp [readFields, RdE.mapOk, RdE.ok_andThen, asVariants]
  | cons f fs ih =>
    intro s
    have h1 : Agree (fieldDeps f) env env' := fun i hi => he i (hu f (by simp) i hi)
    have h2 := fieldStep_asUnion hS pick cfg h1 s
    rw [List.map_cons, readFields_cons, readFields_cons]
    simp only [RdE.mapOk, RdE.runOn_andThen, asUnion_id] at h2 ⊢
    rw [h2]
    rcases Rd.runOn S (fieldStep cfg env f) s with ⟨(_ | v) | _, s'⟩
    · rfl
    · have h3 := ih (fun g hg => hu g (by simp [hg])) _ _ (agree_set_same (f := f) he v) s'
      simp only [RdE.mapOk, RdE.runOn_andThen, RdE.ok, Rd.runOn] at h3 ⊢
      rw [h3]
      rcases Rd.runOn S (readFields cfg (env.set f.id v) fs) s' with ⟨(_ | vs) | _, s''⟩ <;> rfl
    · rfl

/-! ### Writing -/

theorem lenDerived_asUnion (pick : String → Bool) (fs : List Field) :
    lenDerivedIds (fs.map (asUnion pick)) = lenDerivedIds fs := by
  induction fs with
  | nil => rfl
  | cons f fs ih =>
    unfold lenDerivedIds at ih ⊢
    rw [List.map_cons, List.filterMap_cons, List.filterMap_cons, ih]
    cases f with
    | maybe id k p => simp only [asUnion]; cases pick id <;> rfl
    | _ => rfl

theorem discDerived_asUnion (pick : String → Bool) (fs : List Field) :
    discDerivedIds (fs.map (asUnion pick)) = discDerivedIds fs := by
  induction fs with
  | nil => rfl
  | cons f fs ih =>
    unfold discDerivedIds at ih ⊢
    rw [List.map_cons, List.filterMap_cons, List.filterMap_cons, ih]
    cases f with
    | maybe id k p => simp only [asUnion]; cases pick id <;> rfl
    | _ => rfl

theorem isDerived_asUnion (pick : String → Bool) (fs : List Field) (i : String) :
    isDerived (fs.map (asUnion pick)) i = isDerived fs i := by
  simp only [isDerived, lenDerived_asUnion, discDerived_asUnion]

theorem implies_asUnion (pick : String → Bool) (cfg : Cfg) (t : String) (f : Field) (v : Val) :
    (asUnion pick f).implies cfg t (asVariant pick f v) = f.implies cfg t v := by
  cases f with
  | plain => rfl
  | union => rfl
  | maybe id k p =>
    simp only [asUnion, asVariant]
    cases pick id
    · rfl
    · simp [Field.implies]

theorem deriveScan_asUnion (pick : String → Bool) (cfg : Cfg) (t : String) : ∀ fs vs d,
    deriveScan cfg t (fs.map (asUnion pick)) (asVariants pick fs vs) d = deriveScan cfg t fs vs d
  | [], vs, d => by simp [deriveScan]
  | f :: fs, [], d => by simp [deriveScan, asVariants]
  | f :: fs, v :: vs, d => by
      simp only [List.map_cons, asVariants, deriveScan, implies_asUnion, deriveScan_asUnion pick cfg t fs vs]

theorem nothing_target : (Kind.fbuf (.scalar (.int 1 false)) 0).lenTarget? = none := rfl

theorem condTargets_asUnion (pick : String → Bool) (t : String) (f : Field) :
    (asUnion pick f).condTargets t = f.condTargets t := by
  cases f with
  | plain => rfl
  | union => rfl
  | maybe id k p =>
    simp only [asUnion]
    cases pick id
    · rfl
    · simp [Field.condTargets, anyAltTargets, nothingAlt, Alt.kind, nothing_target]

theorem hasConditional_asUnion (pick : String → Bool) (fs : List Field) (t : String) :
    hasConditional (fs.map (asUnion pick)) t = hasConditional fs t := by
  simp only [hasConditional, List.any_map]
  congr 1
  funext f
  exact condTargets_asUnion pick t f

theorem verifyScan_asUnion (pick : String → Bool) {env env' : Env} (he : ∀ i, pick i = false → env i = env' i)
    (t : String) (n : Nat) : ∀ fs vs, Unread pick fs → Optionals fs vs → NotHeldBack pick env fs vs →
    verifyScan env' t n (fs.map (asUnion pick)) (asVariants pick fs vs) = verifyScan env t n fs vs
  | [], vs, _, _, _ => by simp [verifyScan]
  | f :: fs, [], _, _, _ => by simp [verifyScan, asVariants]
  | f :: fs, v :: vs, hu, ho, hn => by
      have hu' : Unread pick fs := fun g hg => hu g (by simp [hg])
      have ho' : Optionals fs vs := by cases f <;> simp only [Optionals] at ho <;> first | exact ho.2 | exact ho
      have hn' : NotHeldBack pick env fs vs := by
        cases f <;> simp only [NotHeldBack] at hn <;> first | exact hn.2 | exact hn
      simp only [List.map_cons, asVariants, verifyScan, verifyScan_asUnion pick he t n fs vs hu' ho' hn']
      have : (asUnion pick f).condAgrees env' t n (asVariant pick f v) = f.condAgrees env t n v := by
        cases f with
        | plain => rfl
        | union => rfl
        | maybe id k p =>
          have hp : p.eval env = p.eval env' := Pred.eval_congr fun i hi =>
            he i (hu (.maybe id k p) (by simp) i (by simp [fieldDeps, hi]))
          simp only [asUnion, asVariant]
          cases hi : pick id with
          | false => simp [Field.condAgrees, hp]
          | true =>
            simp only [Optionals] at ho
            simp only [NotHeldBack] at hn
            by_cases hk : k.lenTarget? = some t
            · rcases ho.1 with rfl | ⟨w, rfl⟩
              · simp [Field.condAgrees, hk, anyAltTargets, nothingAlt, Alt.kind, nothing_target, toVariant]
              · have := hn.1 hi (by simp [hk]) w rfl
                simp [Field.condAgrees, hk, anyAltTargets, nothingAlt, Alt.kind, toVariant, this]
            · simp [Field.condAgrees, hk, anyAltTargets, nothingAlt, Alt.kind, nothing_target]
      rw [this]

theorem sameTo_asUnion (pick : String → Bool) (cfg : Cfg) (fs : List Field) (vs : List Val) (hu : Unread pick fs)
    (ho : Optionals fs vs) (hn : NotHeldBack pick (envOf fs vs) fs vs) :
    SameTo cfg fs ⟨fs, vs⟩ ⟨fs.map (asUnion pick), asVariants pick fs vs⟩ where
  env f hf i hi := (envOf_asUnion pick fs vs i (hu f hf i hi)).symm
  derived f _ := (isDerived_asUnion pick fs f.id).symm
  value f _ t w := by simp only [deriveValue, deriveScan_asUnion]
  cond f _ := (hasConditional_asUnion pick fs f.id).symm
  verify f _ n := (verifyScan_asUnion pick (fun i hi => (envOf_asUnion pick fs vs i hi).symm) f.id n fs vs hu ho hn).symm

theorem not_isDerived_of_unread {pick : String → Bool} {fs : List Field} (hu : Unread pick fs) {i : String}
    (hi : pick i = true) : isDerived fs i = false := by
  have := isDerived_drop i [] fs [] fun g hg h => by simp [hu g hg i h] at hi
  rw [List.nil_append, List.append_nil] at this
  exact this

theorem not_hasConditional_of_unread {pick : String → Bool} {fs : List Field} (hu : Unread pick fs) {i : String}
    (hi : pick i = true) : hasConditional fs i = false := by
  have := hasConditional_drop i [] fs [] fun g hg h => by simp [hu g hg i h] at hi
  rw [List.nil_append, List.append_nil] at this
  exact this

theorem writeNothing {S : OutStream} (hS : IdleOut S) (cfg : Cfg) {ctx : WCtx} {id : String} (c : Constraint)
    (h1 : isDerived ctx.fs id = false) (h2 : hasConditional ctx.fs id = false) (s : S.State) :
    Wr.runOn S (writeKind cfg ctx false id c (.fbuf (.scalar (.int 1 false)) 0) (.seq [])) s = (.done (.ok ()), s) := by
  simp only [writeKind, writeFixed, h1, verifyThenWrite, h2, emitFixed, writeFixedBuf, encodeN, writeNative,
    writeNativeImpl]
  cases cfg.foreign <;> simp [WrE.all, WrE.ok, Wr.runOn, hS s]

/-- The write of one optional and of the union for it. -/
theorem writeStep_asUnion {S : OutStream} (hS : IdleOut S) (pick : String → Bool) (cfg : Cfg) {fs : List Field}
    {ctx ctx' : WCtx} (h : SameTo cfg fs ctx ctx') (hu : Unread pick ctx.fs) (hu' : Unread pick ctx'.fs) {f : Field}
    (hf : f ∈ fs) {v : Val} (hv : ∀ id k p, f = .maybe id k p → v = .absent ∨ ∃ w, v = .present w) :
    Wr.SameOn S (writeStep cfg ctx' (asUnion pick f) (asVariant pick f v)) (writeStep cfg ctx f v) := by
  have hid : Wr.SameOn S (writeStep cfg ctx' f v) (writeStep cfg ctx f v) := by
    intro s
    rw [writeStep, writeStep, h.derived f hf, h.field hf]
  cases f with
  | plain id k c => exact hid
  | union id d alts c => exact hid
  | maybe id k p =>
    simp only [asUnion, asVariant]
    cases hp : pick id with
    | false => exact hid
    | true =>
      have d1 := not_isDerived_of_unread hu hp
      have d2 := not_isDerived_of_unread hu' hp
      have c2 := not_hasConditional_of_unread hu' hp
      have he : p.eval ctx.env = p.eval ctx'.env :=
        Pred.eval_congr ((h.env _ hf).mono (by simp +contextual [fieldDeps]))
      have hk := fun w => h.kind hf false .none k (by simp +contextual [fieldDeps]) w
      simp only [Field.id] at hk
      intro s
      simp only [if_true, writeStep, Field.id, d1, d2, Field.isFrozen, Field.constraint, WrE.checked,
        Constraint.check, WrE.lift, Bool.or_false, WrE.tag, WrE.runOn_mapErr', writeField, he, hk]
      rcases hv id k p rfl with rfl | ⟨w, rfl⟩
      · simp only [toVariant, Deducer.eval, ladderIdx, Pred.eval, negated]
        cases ctx'.env.getAll p.ids with
        | none => rfl
        | some us =>
          cases hb : p.fn us with
          | true => simp [hb, WrE.ok, WrE.err, WrE.andThen, Wr.bind, Wr.runOn]
          | false =>
            have := writeNothing hS cfg .none d2 c2 s
            simp [hb, WrE.lift, WrE.ok, WrE.andThen, Wr.bind, Wr.runOn, writeAlts, nothingAlt, WrE.checked,
              Constraint.check, this]
      · simp only [toVariant, Deducer.eval, ladderIdx, Pred.eval, negated]
        cases ctx'.env.getAll p.ids with
        | none => rfl
        | some us =>
          cases hb : p.fn us with
          | true =>
            simp [hb, WrE.lift, WrE.ok, WrE.andThen, Wr.bind, writeAlts, WrE.checked, Constraint.check]
          | false => simp [hb, WrE.ok, WrE.err, WrE.andThen, Wr.bind, Wr.runOn]

theorem unread_asUnion {pick : String → Bool} {fs : List Field} (hu : Unread pick fs) :
    Unread pick (fs.map (asUnion pick)) := by
  intro g hg i hi
  obtain ⟨f, hf, rfl⟩ := List.mem_map.1 hg
  refine hu f hf i ?_
  cases f with
  | plain => exact hi
  | union => exact hi
  | maybe id k p =>
    simp only [asUnion] at hi
    split at hi
    · simp [fieldDeps, deducerDeps, negated, nothingAlt, Alt.kind, kindDeps] at hi ⊢
      exact hi.symm
    · exact hi

theorem writeFields_asUnion {S : OutStream} (hS : IdleOut S) (pick : String → Bool) (cfg : Cfg) {fs : List Field}
    {ctx ctx' : WCtx} (h : SameTo cfg fs ctx ctx') (hu : Unread pick ctx.fs) (hu' : Unread pick ctx'.fs) :
    ∀ ps ws, (∀ f ∈ ps, f ∈ fs) → Optionals ps ws →
    Wr.SameOn S (writeFields cfg ctx' (ps.map (asUnion pick)) (asVariants pick ps ws)) (writeFields cfg ctx ps ws)
  | [], [], _, _ => by intro s; simp only [List.map_nil, asVariants, writeFields]
  | [], _ :: _, _, _ => by intro s; simp only [List.map_nil, asVariants, writeFields]
  | _ :: _, [], _, _ => by intro s; simp only [List.map_cons, asVariants, writeFields]
  | f :: ps, w :: ws, hm, ho => by
      rw [List.map_cons, asVariants, writeFields_cons, writeFields_cons]
      refine WrE.sameOn_andThen (writeStep_asUnion hS pick cfg h hu hu' (hm f (by simp)) ?_) fun _ =>
        writeFields_asUnion hS pick cfg h hu hu' ps ws (fun g hg => hm g (by simp [hg])) ?_
      · rintro id k p rfl
        exact ho.1
      · cases f <;> simp only [Optionals] at ho <;> first | exact ho.2 | exact ho

/-! ### What was written agrees with the predicates -/

theorem WrE.ok_of_andThen {S : OutStream} {r : WrE ε α} {f : α → WrE ε β} {s s' : S.State} {b : β}
    (h : Wr.runOn S (r.andThen f) s = (.done (.ok b), s')) :
    ∃ a t, Wr.runOn S r s = (.done (.ok a), t) ∧ Wr.runOn S (f a) t = (.done (.ok b), s') := by
  rw [WrE.runOn_andThen'] at h
  split at h
  · rename_i a t e; exact ⟨a, t, e, h⟩
  · cases h
  · cases h

theorem writeField_of_step {S : OutStream} {cfg : Cfg} {ctx : WCtx} {f : Field} {v : Val} {s s' : S.State}
    (hc : f.constraint = .none) (h : Wr.runOn S (writeStep cfg ctx f v) s = (.done (.ok ()), s')) :
    Wr.runOn S (writeField cfg ctx f v) s = (.done (.ok ()), s') := by
  simp only [writeStep, WrE.tag, WrE.runOn_mapErr', hc, WrE.checked, Constraint.check, WrE.lift, WrE.ok,
    WrE.andThen, Wr.bind, if_true, ite_self] at h
  split at h
  · rename_i e; simp only [Prod.mk.injEq, true_and] at h; rw [e, h]
  · cases h
  · cases h

theorem notHeldBack_of_written {S : OutStream} (pick : String → Bool) {cfg : Cfg} {ctx : WCtx} : ∀ ps ws
    {s s' : S.State}, Wr.runOn S (writeFields cfg ctx ps ws) s = (.done (.ok ()), s') →
    NotHeldBack pick ctx.env ps ws
  | [], _, _, _, _ => by simp [NotHeldBack]
  | _ :: _, [], _, _, _ => by simp [NotHeldBack]
  | f :: ps, w :: ws, s, s', h => by
      rw [writeFields_cons] at h
      obtain ⟨_, t, h1, h2⟩ := WrE.ok_of_andThen h
      have ih := notHeldBack_of_written pick ps ws h2
      cases f with
      | plain => simpa only [NotHeldBack] using ih
      | union => simpa only [NotHeldBack] using ih
      | maybe id k p =>
        refine ⟨?_, ih⟩
        rintro - - w rfl
        have h3 := writeField_of_step rfl h1
        simp only [writeField] at h3
        obtain ⟨b, t', h4, h5⟩ := WrE.ok_of_andThen h3
        cases he : p.eval ctx.env with
        | error e => simp [he, WrE.lift, Wr.runOn] at h4
        | ok c =>
          simp only [he, WrE.lift, WrE.ok, Wr.runOn, Prod.mk.injEq, Outcome.done.injEq, Except.ok.injEq] at h4
          obtain ⟨rfl, rfl⟩ := h4
          cases c with
          | true => rfl
          | false => simp [WrE.err, Wr.runOn] at h5

theorem notHeldBack_of_union_written {S : OutStream} (pick : String → Bool) {cfg : Cfg} {ctx : WCtx} : ∀ ps ws
    {s s' : S.State}, Wr.runOn S (writeFields cfg ctx (ps.map (asUnion pick)) (asVariants pick ps ws)) s =
      (.done (.ok ()), s') → NotHeldBack pick ctx.env ps ws
  | [], _, _, _, _ => by simp [NotHeldBack]
  | _ :: _, [], _, _, _ => by simp [NotHeldBack]
  | f :: ps, w :: ws, s, s', h => by
      rw [List.map_cons, asVariants, writeFields_cons] at h
      obtain ⟨_, t, h1, h2⟩ := WrE.ok_of_andThen h
      have ih := notHeldBack_of_union_written pick ps ws h2
      cases f with
      | plain => simpa only [NotHeldBack] using ih
      | union => simpa only [NotHeldBack] using ih
      | maybe id k p =>
        refine ⟨?_, ih⟩
        rintro hp - w rfl
        simp only [asUnion, asVariant, hp, if_true, toVariant] at h1
        have h3 := writeField_of_step rfl h1
        simp only [writeField, Deducer.eval, ladderIdx, Pred.eval, negated] at h3
        rw [Pred.eval]
        cases hg : ctx.env.getAll p.ids with
        | none => simp [hg, WrE.lift, WrE.andThen, Wr.bind, Wr.runOn] at h3
        | some us =>
          cases hb : p.fn us with
          | true => simp [hb]
          | false => simp [hg, hb, WrE.lift, WrE.ok, WrE.err, WrE.andThen, Wr.bind, Wr.runOn] at h3

theorem NotHeldBack.congr {pick : String → Bool} {env env' : Env} : ∀ {fs vs}, (∀ f ∈ fs, Agree (fieldDeps f) env env') →
    NotHeldBack pick env fs vs → NotHeldBack pick env' fs vs
  | [], _, _, _ => by simp [NotHeldBack]
  | _ :: _, [], _, _ => by simp [NotHeldBack]
  | f :: fs, v :: vs, he, h => by
      have ih := fun h => NotHeldBack.congr (pick := pick) (fs := fs) (vs := vs) (fun g hg => he g (by simp [hg])) h
      cases f with
      | plain => simp only [NotHeldBack] at h ⊢; exact ih h
      | union => simp only [NotHeldBack] at h ⊢; exact ih h
      | maybe id k p =>
        refine ⟨?_, ih h.2⟩
        rw [← Pred.eval_congr ((he (.maybe id k p) (by simp)).mono (by simp +contextual [fieldDeps]))]
        exact h.1

/-! ### Schemas -/

theorem saneFields_asUnion (pick : String → Bool) : ∀ fs, saneFields (fs.map (asUnion pick)) = saneFields fs
  | [] => rfl
  | f :: fs => by
      simp only [List.map_cons, saneFields, saneFields_asUnion pick fs]
      congr 1
      cases f with
      | maybe id k p =>
        simp only [asUnion]
        cases pick id
        · rfl
        · simp [saneField, arity, saneAlts, nothingAlt, saneKind]
      | _ => rfl

theorem uniqueFields_asUnion (pick : String → Bool) : ∀ fs seen,
    uniqueFields seen (fs.map (asUnion pick)) = uniqueFields seen fs
  | [], _ => rfl
  | f :: fs, seen => by
      simp only [List.map_cons, uniqueFields, uniqueFields_asUnion pick fs, asUnion_id]
      congr 2
      cases f with
      | maybe id k p =>
        simp only [asUnion]
        cases pick id
        · rfl
        · simp [uniqueField, uniqueAlts, nothingAlt, uniqueKind]
      | _ => rfl

theorem earlierFields_asUnion (pick : String → Bool) : ∀ fs seen,
    earlierFields seen (fs.map (asUnion pick)) = earlierFields seen fs
  | [], _ => rfl
  | f :: fs, seen => by
      simp only [List.map_cons, earlierFields, earlierFields_asUnion pick fs, asUnion_id]
      congr 1
      cases f with
      | maybe id k p =>
        simp only [asUnion]
        cases pick id
        · rfl
        · simp only [if_true, fieldDeps, deducerDeps, negated, nothingAlt, Alt.kind, kindDeps, earlierField, earlierAlts,
            earlierKind, List.flatMap_cons, List.flatMap_nil, List.append_nil, List.all_append, Bool.and_true]
          cases (p.ids.all fun i => seen.contains i) <;> simp
      | _ => rfl

end S2S
