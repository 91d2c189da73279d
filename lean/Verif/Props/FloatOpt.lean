import Verif.Spec.FloatOpt
import Verif.Props.FloatLen
/-
C164: optional containers whose lengths are floating-point numbers.
-/
namespace S2S.Props
open Spec Demo Compare

namespace FloatOpt

/-! ### Reading -/

theorem usual_id {cfg : Cfg} {g : QField} {f : Field} (h : AsOpt1 cfg g f) : f.id = g.usual.id := by
  cases h <;> rfl

theorem usual_constraint {cfg : Cfg} {g : QField} {f : Field} (h : AsOpt1 cfg g f) :
    f.constraint = g.usual.constraint := by
  cases h <;> rfl

/-- The length of the optional is one, if that is there. -/
def Len1 (cfg : Cfg) (env : Env) (g : QField) : Prop :=
  ∀ id src bytes b p, g = .opt id src bytes b p → p.eval env = .ok true →
    ∃ x n, env src = some (.int x) ∧ IsLength cfg bytes x n

theorem read1 {cfg : Cfg} {g : QField} {f : Field} (h : AsOpt1 cfg g f) (env : Env) :
    (readOpts1 cfg env g = readField cfg env f ∧ Len1 cfg env g) ∨
      ((∃ w, readOpts1 cfg env g = Rd.stuck w) ∧ ¬ Len1 cfg env g) := by
  cases h with
  | std f => exact .inl ⟨rfl, fun _ _ _ _ _ h => by cases h⟩
  | slot id bytes w c => exact .inl ⟨rfl, fun _ _ _ _ _ h => by cases h⟩
  | opt id src bytes b p r hr =>
    simp only [readOpts1, readOpt, readField]
    cases hp : p.eval env with
    | error e =>
      refine .inl ⟨rfl, fun _ _ _ _ _ h h1 => ?_⟩
      cases h
      rw [hp] at h1
      cases h1
    | ok held =>
      cases held with
      | false =>
        refine .inl ⟨rfl, fun _ _ _ _ _ h h1 => ?_⟩
        cases h
        rw [hp] at h1
        cases h1
      | true =>
        cases hl : lengthIn cfg env src bytes with
        | ok n =>
          refine .inl ⟨by rw [readSized_ok hr b hl], fun _ _ _ _ _ h _ => ?_⟩
          cases h
          unfold lengthIn at hl
          split at hl
          · rename_i x hx
            exact ⟨x, n, hx, asLength_ok.1 hl⟩
          · cases hl
        | error e =>
          refine .inr ⟨⟨e, ?_⟩, fun h => ?_⟩
          · simp only [readSized, hl]
            rfl
          · obtain ⟨x, n, hx, hn⟩ := h _ _ _ _ _ rfl hp
            simp only [lengthIn, hx, asLength_ok.2 hn] at hl
            cases hl

/-- The program is the same, until a number is no length. -/
theorem read_cases {cfg : Cfg} (S : InStream) {gs : List QField} {fs : List Field} (h : AsOpts cfg gs fs) :
    ∀ (env : Env) (s : S.State),
    ((readOpts cfg env gs).runOn S s = (readFields cfg env fs).runOn S s ∧
      ∀ vs s', (readFields cfg env fs).runOn S s = (.done (.ok vs), s') → OptLengths cfg env gs vs) ∨
    ((∃ w s', (readOpts cfg env gs).runOn S s = (.stuck w, s')) ∧
      ∀ vs s', (readFields cfg env fs).runOn S s = (.done (.ok vs), s') → ¬ OptLengths cfg env gs vs) := by
  induction h with
  | nil =>
    intro env s
    refine .inl ⟨by simp only [readOpts, readFields], ?_⟩
    intro vs s' h
    simp only [readFields, RdE.ok, Rd.runOn] at h
    cases h
    trivial
  | @cons g f gs fs h1 _ ih =>
    intro env s
    rw [readOpts, readFields, ← usual_constraint h1, ← usual_id h1]
    rcases read1 h1 env with ⟨h2, h3⟩ | ⟨⟨w, h2⟩, h3⟩
    · rw [h2]
      generalize ((readField cfg env f).andThen fun v => RdE.checked f.constraint v).tag f.id = r
      rw [RdE.runOn_andThen S r, RdE.runOn_andThen S r]
      rcases hr : r.runOn S s with ⟨o, s1⟩
      cases o with
      | stuck w => exact .inl ⟨rfl, fun vs s' h => by cases h⟩
      | done o =>
        cases o with
        | error e => exact .inl ⟨rfl, fun vs s' h => by cases h⟩
        | ok v =>
          simp only
          have hok : ∀ vs s', ((readFields cfg (env.set f.id v) fs).andThen fun vs => RdE.ok (v :: vs)).runOn S s1 =
              (.done (.ok vs), s') →
              ∃ ws, vs = v :: ws ∧ (readFields cfg (env.set f.id v) fs).runOn S s1 = (.done (.ok ws), s') := by
            intro vs s' h
            rw [RdE.runOn_andThen] at h
            rcases hf : (readFields cfg (env.set f.id v) fs).runOn S s1 with ⟨o, s2⟩
            rw [hf] at h
            cases o with
            | stuck w => cases h
            | done o =>
              cases o with
              | error e => cases h
              | ok ws =>
                simp only [RdE.ok, Rd.runOn] at h
                cases h
                exact ⟨ws, rfl, rfl⟩
          rcases ih (env.set f.id v) s1 with ⟨h4, h5⟩ | ⟨⟨w, s2, h4⟩, h5⟩
          · refine .inl ⟨by rw [RdE.runOn_andThen, RdE.runOn_andThen, h4], fun vs s' h => ?_⟩
            obtain ⟨ws, rfl, h6⟩ := hok vs s' h
            exact ⟨h3, usual_id h1 ▸ h5 ws s' h6⟩
          · refine .inr ⟨⟨w, s2, by rw [RdE.runOn_andThen, h4]⟩, fun vs s' h h7 => ?_⟩
            obtain ⟨ws, rfl, h6⟩ := hok vs s' h
            exact h5 ws s' h6 (usual_id h1 ▸ h7.2)
    · refine .inr ⟨⟨w, s, by rw [h2]; rfl⟩, fun vs s' _ h => ?_⟩
      cases vs with
      | nil => exact h
      | cons v vs => exact h3 h.1

theorem dflts_opt {cfg : Cfg} {gs : List QField} {fs : List Field} (h : AsOpts cfg gs fs) :
    dfltEnv (gs.map QField.usual) = dfltEnv fs := by
  unfold dfltEnv
  induction h with
  | nil => rfl
  | cons h1 _ ih =>
    simp only [List.map_cons, Field.dflts, envOf, ih, usual_id h1]
    congr 1
    cases h1 <;> rfl

end FloatOpt

/-- C164, reading: what is read is what is read when the lengths are computed by callables that
drop the fraction, and the number was a length for every optional that is there. -/
theorem C164_read (cfg : Cfg) (S : InStream) (gs : List QField) (fs : List Field) (h : AsOpts cfg gs fs)
    (s s' : S.State) (vs : List Val) :
    (structCastOpts cfg gs).runOn S s = (.done (.ok vs), s') ↔
      (structCast cfg fs).runOn S s = (.done (.ok vs), s') ∧ OptLengths cfg (dfltEnv fs) gs vs := by
  unfold structCastOpts structCast
  rw [FloatOpt.dflts_opt h]
  rcases FloatOpt.read_cases S h (dfltEnv fs) s with ⟨h1, h2⟩ | ⟨⟨w, s1, h1⟩, h2⟩
  · rw [h1]
    exact ⟨fun h => ⟨h, h2 _ _ h⟩, fun h => h.1⟩
  · rw [h1]
    constructor
    · intro h; cases h
    · rintro ⟨h3, h4⟩; exact absurd h4 (h2 _ _ h3)

/-- C164, errors: the casts report the same, or one of the conversions is undefined. -/
theorem C164_errors (cfg : Cfg) (S : InStream) (gs : List QField) (fs : List Field) (h : AsOpts cfg gs fs)
    (s : S.State) :
    (structCastOpts cfg gs).runOn S s = (structCast cfg fs).runOn S s ∨
      ∃ w s', (structCastOpts cfg gs).runOn S s = (.stuck w, s') := by
  unfold structCastOpts structCast
  rw [FloatOpt.dflts_opt h]
  rcases FloatOpt.read_cases S h (dfltEnv fs) s with ⟨h1, _⟩ | ⟨h1, _⟩
  · exact .inl h1
  · exact .inr h1

/-! ### Writing -/

namespace FloatOpt
section
variable {cfg : Cfg} {R : Rounding} {C : FloatOf R} {gs : List QField} {vs : List Val}

/-- The name is not that of a floating-point number. -/
def Other (gs : List QField) (i : String) : Prop := ∀ id bytes w c, .slot id bytes w c ∈ gs → id ≠ i

theorem usuals (gs : List QField) : (gs.map QField.written).map LField.usual = gs.map QField.usual := by
  rw [List.map_map]; rfl

theorem env_same {hs : List QField} {fs : List Field} (h : AsOpts cfg hs fs) (us : List Val) :
    envOf (hs.map QField.usual) us = envOf fs us := by
  induction h generalizing us with
  | nil => rfl
  | @cons g f hs fs h1 _ ih =>
    cases us with
    | nil => rfl
    | cons u us => simp only [List.map_cons, envOf, ih, usual_id h1]

theorem derived_same {hs : List QField} {fs : List Field} (h : AsOpts cfg hs fs) (i : String) :
    isDerived (hs.map QField.usual) i = isDerived fs i := by
  have h1 : lenDerivedIds (hs.map QField.usual) = lenDerivedIds fs := by
    induction h with
    | nil => rfl
    | cons h1 _ ih =>
      simp only [lenDerivedIds, List.map_cons, List.filterMap_cons] at ih ⊢
      rw [ih]
      cases h1 <;> rfl
  have h2 : discDerivedIds (hs.map QField.usual) = discDerivedIds fs := by
    clear h1
    induction h with
    | nil => rfl
    | cons h1 _ ih =>
      simp only [discDerivedIds, List.map_cons, List.filterMap_cons] at ih ⊢
      rw [ih]
      cases h1 <;> rfl
  simp only [isDerived, h1, h2]

theorem scan_same {hs : List QField} {fs : List Field} (h : AsOpts cfg hs fs) (i : String) :
    ∀ us d, deriveScan cfg i (hs.map QField.usual) us d = deriveScan cfg i fs us d := by
  induction h with
  | nil => intro us d; rfl
  | @cons g f hs fs h1 _ ih =>
    intro us d
    cases us with
    | nil => rfl
    | cons u us =>
      have : g.usual.implies cfg i u = f.implies cfg i u := by cases h1 <;> rfl
      simp only [List.map_cons, deriveScan, this, ih]

theorem src_ne (ha : OptApart gs) {i : String} (hi : Other gs i) {id src : String} {bytes : Nat} {b : Body}
    {p : Pred} (h : .opt id src bytes b p ∈ gs) : src ≠ i := by
  obtain ⟨w, c', h1⟩ := ha.2.2.1 _ _ _ _ _ h
  exact hi _ _ _ _ h1

theorem body_computed (b : Body) (r : Calc) : (b.kind (.computed r)).lenTarget? = none := by
  cases b <;> rfl

theorem cond_same (ha : OptApart gs) {i : String} (hi : Other gs i) {hs : List QField} {fs : List Field}
    (h : AsOpts cfg hs fs) (hsub : ∀ g ∈ hs, g ∈ gs) :
    hasConditional (hs.map QField.usual) i = hasConditional fs i := by
  induction h with
  | nil => rfl
  | @cons g f hs fs h1 _ ih =>
    have ih := ih fun g hg => hsub g (by simp [hg])
    simp only [hasConditional, List.map_cons, List.any_cons] at ih ⊢
    rw [ih]
    congr 1
    cases h1 with
    | std f => rfl
    | slot => rfl
    | opt id src bytes b p r hr =>
      have h2 := src_ne ha hi (hsub _ (List.mem_cons_self ..))
      simp [QField.usual, QField.written, LField.usual, Field.condTargets, body_target, body_computed, h2]

theorem verify_same (ha : OptApart gs) {i : String} (hi : Other gs i) {n : Nat} {env : Env} {hs : List QField}
    {fs : List Field} (h : AsOpts cfg hs fs) : (∀ g ∈ hs, g ∈ gs) → ∀ us,
      verifyScan env i n (hs.map QField.usual) us = verifyScan env i n fs us := by
  induction h with
  | nil => intro _ us; rfl
  | @cons g f hs fs h1 _ ih =>
    intro hsub us
    cases us with
    | nil => rfl
    | cons u us =>
      have : g.usual.condAgrees env i n u = f.condAgrees env i n u := by
        cases h1 with
        | std f => rfl
        | slot => rfl
        | opt id src bytes b p r hr =>
          have h2 := src_ne ha hi (hsub _ (List.mem_cons_self ..))
          simp [QField.usual, QField.written, LField.usual, Field.condAgrees, body_target, body_computed, h2]
      simp only [List.map_cons, verifyScan, this, ih (fun g hg => hsub g (by simp [hg]))]

/-! The numbers. -/

theorem slot_derived (ha : OptApart gs) {id : String} {bytes w : Nat} {c : Constraint}
    (hid : .slot id bytes w c ∈ gs) : isDerived (gs.map QField.usual) id = false := by
  simp only [isDerived, Bool.or_eq_false_iff, List.contains_eq_mem, decide_eq_false_iff_not, lenDerived_iff,
    List.mem_map]
  constructor
  · rintro ⟨f, ⟨g, hg, rfl⟩, i, k, c', he, hk⟩
    cases g with
    | std f =>
      simp only [QField.usual, QField.written, LField.usual] at he
      subst he
      exact ha.2.1 _ _ _ _ _ hg hid (lenTarget_mem hk)
    | slot =>
      simp only [QField.usual, QField.written, LField.usual] at he
      cases he
      cases hk
    | opt => cases he
  · simp only [discDerivedIds, List.mem_filterMap, List.mem_map, not_exists, not_and]
    rintro f ⟨g, hg, rfl⟩ hm
    cases g with
    | std f =>
      refine ha.2.1 f _ _ _ _ hg hid ?_
      cases f with
      | union i d alts c =>
        cases d with
        | matchField j t ls =>
          simp only [QField.usual, QField.written, LField.usual, Option.some.injEq] at hm
          simp [fieldDeps, deducerDeps, hm]
        | _ => cases hm
      | _ => cases hm
    | slot => cases hm
    | opt => cases hm

theorem slot_cond (ha : OptApart gs) {id : String} {bytes w : Nat} {c : Constraint}
    (hid : .slot id bytes w c ∈ gs) : hasConditional (gs.map QField.usual) id = true ↔ ∃ g ∈ gs, OptBy id g := by
  simp only [hasConditional, List.any_map, List.any_eq_true, Function.comp]
  constructor
  · rintro ⟨g, hg, h⟩
    refine ⟨g, hg, ?_⟩
    cases g with
    | std f =>
      have h : f.condTargets id = true := h
      rw [condTargets_unseen (ha.2.1 f _ _ _ _ hg hid)] at h
      cases h
    | slot => cases h
    | opt i src bytes b p =>
      simp only [QField.usual, QField.written, LField.usual, Field.condTargets, body_target, Option.some.injEq,
        decide_eq_true_eq] at h
      subst h
      exact ⟨_, _, _, _, rfl⟩
  · rintro ⟨g, hg, i, bytes', b, p, rfl⟩
    exact ⟨_, hg, by simp [QField.usual, QField.written, LField.usual, Field.condTargets, body_target]⟩

theorem computed_cond (ha : OptApart gs) {id : String} {bytes w : Nat} {c : Constraint}
    (hid : .slot id bytes w c ∈ gs) {hs : List QField} {fs : List Field} (h : AsOpts cfg hs fs)
    (hsub : ∀ g ∈ hs, g ∈ gs) : hasConditional fs id = false := by
  induction h with
  | nil => rfl
  | @cons g f hs fs h1 _ ih =>
    have ih := ih fun g hg => hsub g (by simp [hg])
    have hg := hsub g (by simp)
    simp only [hasConditional, List.any_cons] at ih ⊢
    rw [ih, Bool.or_false]
    cases h1 with
    | std f => exact condTargets_unseen (ha.2.1 f _ _ _ _ hg hid)
    | slot => rfl
    | opt i src bytes b p r hr => simp [Field.condTargets, body_computed]

theorem not_frozen (ha : OptApart gs) {id : String} {bytes w : Nat} {c : Constraint} (hid : .slot id bytes w c ∈ gs) :
    frozenVal (.num (.int bytes false) w) c = none := by
  have h := ha.2.2.2 _ _ _ _ hid
  have h1 := frozen_of_const (k := .num (.int bytes false) w) (c := c)
  rw [h] at h1
  simpa using h1

theorem other_of {g : QField} (hn : (gs.map fun g => g.usual.id).Nodup) (hg : g ∈ gs)
    (h : ∀ id bytes w c, g ≠ .slot id bytes w c) : Other gs g.usual.id := by
  intro id bytes w c hm he
  refine h id bytes w c ?_
  clear h
  induction gs with
  | nil => simp at hg
  | cons a gs ih =>
    simp only [List.map_cons, List.nodup_cons] at hn
    rcases List.mem_cons.1 hg with rfl | hg1
    · rcases List.mem_cons.1 hm with rfl | hm1
      · rfl
      · exact absurd (List.mem_map.2 ⟨_, hm1, he⟩) hn.1
    · rcases List.mem_cons.1 hm with rfl | hm1
      · exact absurd (List.mem_map.2 ⟨g, hg1, he.symm⟩) hn.1
      · exact ih hn.2 hg1 hm1

theorem nodup_eq {g g' : QField} (hn : (gs.map fun g => g.usual.id).Nodup) (hg : g ∈ gs) (hg' : g' ∈ gs)
    (h : g.usual.id = g'.usual.id) : g = g' := by
  induction gs with
  | nil => simp at hg
  | cons a gs ih =>
    simp only [List.map_cons, List.nodup_cons] at hn
    rcases List.mem_cons.1 hg with rfl | hg1
    · rcases List.mem_cons.1 hg' with rfl | hm1
      · rfl
      · exact absurd (List.mem_map.2 ⟨g', hm1, h.symm⟩) hn.1
    · rcases List.mem_cons.1 hg' with rfl | hm1
      · exact absurd (List.mem_map.2 ⟨g, hg1, h⟩) hn.1
      · exact ih hn.2 hg1 hm1

theorem env_of_zip : ∀ (hs : List QField) (us : List Val), (hs.map fun g => g.usual.id).Nodup →
    ∀ g u, (g, u) ∈ hs.zip us → envOf (hs.map QField.usual) us g.usual.id = some u := by
  intro hs
  induction hs with
  | nil => intro us _ g u h; simp at h
  | cons a hs ih =>
    intro us hn g u h
    cases us with
    | nil => simp at h
    | cons b us =>
      simp only [List.map_cons, List.nodup_cons] at hn
      simp only [List.zip_cons_cons, List.mem_cons, Prod.mk.injEq] at h
      rcases h with ⟨rfl, rfl⟩ | h
      · simp [envOf, Env.set]
      · have hne : g.usual.id ≠ a.usual.id := fun he =>
          hn.1 (List.mem_map.2 ⟨g, (List.of_mem_zip h).1, he⟩)
        simp only [List.map_cons, envOf, Env.set, if_neg hne, ih us hn.2 g u h]

theorem zip_of_mem {hs : List QField} {us : List Val} (hl : hs.length = us.length) {g : QField} (hg : g ∈ hs) :
    ∃ u, (g, u) ∈ hs.zip us := by
  induction hs generalizing us with
  | nil => simp at hg
  | cons a hs ih =>
    cases us with
    | nil => simp at hl
    | cons u us =>
      rcases List.mem_cons.1 hg with rfl | hg
      · exact ⟨u, by simp⟩
      · obtain ⟨v, hv⟩ := ih (by simpa using hl) hg
        exact ⟨v, by simp [hv]⟩

/-! The scan over the optionals. -/

theorem lift_ok {ε α β : Type} (a : α) (k : α → WrE ε β) : (WrE.lift (.ok a)).andThen k = k a := rfl

theorem lift_error {ε α β : Type} (w : Stuck) (k : α → WrE ε β) :
    (WrE.lift (.error w)).andThen k = Wr.stuck w := rfl

theorem agrees_other {g : QField} (ha : OptApart gs) {id : String} {bytes w : Nat} {c : Constraint}
    (hid : .slot id bytes w c ∈ gs) (hg : g ∈ gs) (h : ¬ OptBy id g) (env : Env) (n : Nat) (u : Val) :
    g.usual.condAgrees env id n u = .ok true := by
  cases g with
  | std f =>
    have h1 := condTargets_unseen (ha.2.1 f _ _ _ _ hg hid)
    cases f with
    | plain => rfl
    | maybe i k p =>
      simp only [Field.condTargets, decide_eq_false_iff_not] at h1
      simp [QField.usual, QField.written, LField.usual, Field.condAgrees, h1]
    | union i d alts c =>
      simp only [Field.condTargets] at h1
      simp [QField.usual, QField.written, LField.usual, Field.condAgrees, h1]
  | slot => rfl
  | opt i src bytes' b p =>
    have h1 : src ≠ id := by
      rintro rfl
      exact h ⟨_, _, _, _, rfl⟩
    simp [QField.usual, QField.written, LField.usual, Field.condAgrees, body_target, h1]

theorem agrees_opt (env : Env) (id i : String) (bytes : Nat) (b : Body) (p : Pred) (n : Nat) (u : Val) :
    (QField.opt i id bytes b p).usual.condAgrees env id n u = .ok true ↔ OptAgrees env n p u := by
  simp only [QField.usual, QField.written, LField.usual, Field.condAgrees, body_target, if_true, OptAgrees]
  cases u with
  | absent => simp
  | present w =>
    cases hp : p.eval env with
    | error e => simp
    | ok held =>
      cases held with
      | false => simp
      | true => cases w <;> simp [Val.size?]
  | _ => simp

theorem verify_true {env : Env} {id : String} {n : Nat} : ∀ (hs : List QField) (us : List Val),
    verifyScan env id n (hs.map QField.usual) us = .ok true ↔
      ∀ g u, (g, u) ∈ hs.zip us → g.usual.condAgrees env id n u = .ok true := by
  intro hs
  induction hs with
  | nil => intro us; simp [verifyScan]
  | cons g hs ih =>
    intro us
    cases us with
    | nil => simp [verifyScan]
    | cons u us =>
      simp only [List.map_cons, verifyScan, List.zip_cons_cons, List.mem_cons, Prod.mk.injEq, or_imp, forall_and]
      rw [← ih us]
      have e : (∀ g' u', g' = g ∧ u' = u → g'.usual.condAgrees env id n u' = .ok true) ↔
          g.usual.condAgrees env id n u = .ok true :=
        ⟨fun h => h _ _ ⟨rfl, rfl⟩, fun h _ _ ⟨h1, h2⟩ => h1 ▸ h2 ▸ h⟩
      rw [e]
      cases g.usual.condAgrees env id n u <;> cases verifyScan env id n (hs.map QField.usual) us <;> simp

theorem verify_false {env : Env} {id : String} {n : Nat} : ∀ (hs : List QField) (us : List Val),
    (∀ g u, (g, u) ∈ hs.zip us → ∃ a, g.usual.condAgrees env id n u = .ok a) →
    (∃ g u, (g, u) ∈ hs.zip us ∧ g.usual.condAgrees env id n u = .ok false) →
    verifyScan env id n (hs.map QField.usual) us = .ok false := by
  have all : ∀ (hs : List QField) (us : List Val),
      (∀ g u, (g, u) ∈ hs.zip us → ∃ a, g.usual.condAgrees env id n u = .ok a) →
      ∃ a, verifyScan env id n (hs.map QField.usual) us = .ok a := by
    intro hs
    induction hs with
    | nil => intro us _; exact ⟨true, by simp [verifyScan]⟩
    | cons g hs ih =>
      intro us h
      cases us with
      | nil => exact ⟨true, by simp [verifyScan]⟩
      | cons u us =>
        obtain ⟨a, h1⟩ := h g u (by simp)
        obtain ⟨b, h2⟩ := ih us fun g u hm => h g u (by simp [hm])
        exact ⟨a && b, by simp only [List.map_cons, verifyScan, h1, h2]⟩
  intro hs
  induction hs with
  | nil => rintro us _ ⟨g, u, h, _⟩; simp at h
  | cons g hs ih =>
    intro us h hex
    cases us with
    | nil => obtain ⟨g, u, h, _⟩ := hex; simp at h
    | cons u us =>
      obtain ⟨a, h1⟩ := h g u (by simp)
      obtain ⟨b, h2⟩ := all hs us fun g u hm => h g u (by simp [hm])
      simp only [List.map_cons, verifyScan, h1, h2]
      obtain ⟨g', u', hm, h3⟩ := hex
      simp only [List.zip_cons_cons, List.mem_cons, Prod.mk.injEq] at hm
      rcases hm with ⟨rfl, rfl⟩ | hm
      · rw [h1] at h3
        cases h3
        rfl
      · have h4 := ih us (fun g u hm => h g u (by simp [hm])) ⟨g', u', hm, h3⟩
        rw [h2] at h4
        cases h4
        simp

/-- What the writer checks of a number. -/
theorem verify_iff (ha : OptApart gs) {id : String} {bytes w : Nat} {c : Constraint}
    (hid : .slot id bytes w c ∈ gs) (env : Env) (n : Nat) :
    verifyScan env id n (gs.map QField.usual) vs = .ok true ↔
      ∀ i bytes' b p u, (.opt i id bytes' b p, u) ∈ gs.zip vs → OptAgrees env n p u := by
  rw [verify_true]
  constructor
  · intro h i bytes' b p u hm
    exact (agrees_opt ..).1 (h _ _ hm)
  · intro h g u hm
    by_cases hg : OptBy id g
    · obtain ⟨i, bytes', b, p, rfl⟩ := hg
      exact (agrees_opt ..).2 (h _ _ _ _ _ hm)
    · exact agrees_other ha hid (List.of_mem_zip hm).1 hg env n u

end
end FloatOpt

section
open FloatOpt
variable {cfg : Cfg} {R : Rounding} {C : FloatOf R} {gs : List QField} {vs : List Val}

/-- C164, writing: if every number is a length and the optionals agree with it, the program is
that of the list with computed lengths. The numbers are written as they are. -/
theorem C164_write (ha : OptApart gs) {fs : List Field} (hc : AsOpts cfg gs fs) (hl : gs.length = vs.length)
    (hr : OptReady cfg gs vs) : streamCastOpts C cfg gs vs = streamCast cfg fs vs := by
  have henv := env_same hc vs
  have main : ∀ (hs : List QField) (fs' : List Field), AsOpts cfg hs fs' → ∀ vs', (∀ g ∈ hs, g ∈ gs) →
      (∀ g v, (g, v) ∈ hs.zip vs' → (g, v) ∈ gs.zip vs) →
      writeLens C cfg ⟨gs.map QField.usual, vs⟩ (hs.map QField.written) vs' = writeFields cfg ⟨fs, vs⟩ fs' vs' := by
    intro hs fs' h
    induction h with
    | nil => intro vs' _ _; cases vs' <;> simp only [List.map_nil, writeLens, writeFields]
    | @cons g f hs fs' h2 _ ih =>
      intro vs' hsub hz
      cases vs' with
      | nil => simp only [List.map_cons, writeLens, writeFields]
      | cons v vs' =>
        have ih := ih vs' (fun g hg => hsub g (by simp [hg])) (fun g v hm => hz g v (by simp [hm]))
        have hg := hsub g (by simp)
        have hgv := hz g v (by simp)
        rw [List.map_cons, writeLens, writeFields, ih]
        congr 1
        cases h2 with
        | std f =>
          have hns : Other gs f.id := other_of ha.1 hg fun _ _ _ _ h => by cases h
          have hsame : SameTo cfg [f] ⟨gs.map QField.usual, vs⟩ ⟨fs, vs⟩ := by
            refine ⟨?_, ?_, ?_, ?_, ?_⟩ <;> simp only [List.mem_singleton, forall_eq]
            · exact fun i _ => congrFun henv i
            · exact derived_same hc _
            · intro t w
              simp only [deriveValue, scan_same hc]
            · exact cond_same ha hns hc fun _ h => h
            · intro n
              simp only [WCtx.env, henv]
              exact verify_same ha hns hc (fun _ h => h) vs
          simp only [QField.written, LField.usual, writeLens1, hsame.field (List.mem_singleton_self f),
            hsame.derived f (List.mem_singleton_self f)]
        | slot id bytes w c =>
          have e0 := FloatOpt.slot_derived ha hg
          have e1 : isDerived fs id = false := derived_same hc id ▸ e0
          have e2 := computed_cond ha hg hc fun _ h => h
          have e3 := FloatOpt.not_frozen ha hg
          have hw : writeField cfg ⟨fs, vs⟩ (.plain id (.num (.int bytes false) w) c) v =
              emitFixed cfg (.num (.int bytes false) w) v := by
            simp [writeField, writeKind, writeFixed, e1, e2, e3, verifyThenWrite]
          have hv : ∀ x, v = .int x → verifyThenWriteFloat cfg ⟨gs.map QField.usual, vs⟩ id bytes w x =
              writeNum cfg (.int bytes false) w x := by
            rintro x rfl
            unfold verifyThenWriteFloat
            split
            · rename_i h
              obtain ⟨x', n, hx, h1, h2⟩ := hr id bytes w c _ hgv ((FloatOpt.slot_cond ha hg).1 h)
              cases hx
              rw [asLength_ok.2 h1, lift_ok, WCtx.env, (verify_iff ha hg _ n).2 h2, lift_ok]
              rfl
            · rfl
          simp only [QField.written, LField.usual, Field.id, Field.isFrozen, Field.constraint, e0, e1, e3, hw,
            writeLens1, writeSlot, Option.isSome_none, Bool.or_false, Bool.false_eq_true, if_false, Option.getD_none]
          congr 2
          cases v with
          | int x => simp only [emitFixed, hv x rfl]
          | _ => rfl
        | opt id src bytes b p r hd =>
          obtain ⟨w, c', hsl⟩ := ha.2.2.1 _ _ _ _ _ hg
          obtain ⟨u, hu⟩ := FloatOpt.zip_of_mem hl hsl
          obtain ⟨x, n, rfl, h1, h2⟩ := hr _ _ _ _ _ hu ⟨_, hg, _, _, _, _, rfl⟩
          have h3 := h2 _ _ _ _ _ hgv
          rw [henv] at h3
          have h4 : envOf fs vs src = some (.int x) := henv ▸ env_of_zip gs vs ha.1 _ _ hu
          have h5 : LenSpec.eval cfg (envOf fs vs) (.computed r) = .ok n :=
            computed_eval hd (by simp only [lengthIn, h4, asLength_ok.2 h1])
          have h6 : writeField cfg ⟨gs.map QField.usual, vs⟩ (.maybe id (b.kind (.fromField src)) p) v =
              writeField cfg ⟨fs, vs⟩ (.maybe id (b.kind (.computed r)) p) v := by
            simp only [writeField, WCtx.env, henv]
            rcases h3 with rfl | ⟨w', rfl, h3 | ⟨h3, ws, rfl, h7⟩⟩
            · rfl
            · rw [h3]; rfl
            · rw [h3]
              cases b <;>
                simp only [Body.kind, writeKind, verifyComputed, WCtx.env, h5, h7] <;>
                simp [WrE.lift, WrE.ok, WrE.andThen, Wr.bind]
          simp only [QField.written, LField.usual, Field.id, Field.isFrozen, Field.constraint, writeLens1, h6,
            derived_same hc id]
          rfl
  have := main gs fs hc vs (fun _ h => h) (fun _ _ h => h)
  rw [streamCastOpts, streamCastLens, usuals, this, streamCast]

/-- C164, refusing: otherwise the struct is not written. -/
theorem C164_refused (S : OutStream) (ha : OptApart gs) (s s' : S.State)
    (h : (streamCastOpts C cfg gs vs).runOn S s = (.done (.ok ()), s')) :
    gs.length = vs.length ∧ OptReady cfg gs vs := by
  rw [streamCastOpts, streamCastLens, usuals] at h
  have main : ∀ (hs : List QField) (vs' : List Val) (s : S.State), (∀ g ∈ hs, g ∈ gs) →
      (writeLens C cfg ⟨gs.map QField.usual, vs⟩ (hs.map QField.written) vs').runOn S s = (.done (.ok ()), s') →
      hs.length = vs'.length ∧
      ∀ id bytes w c v, (.slot id bytes w c, v) ∈ hs.zip vs' → (∃ g ∈ gs, OptBy id g) →
        ∃ x n, v = .int x ∧ IsLength cfg bytes x n ∧
          ∀ i bytes' b p u, (.opt i id bytes' b p, u) ∈ gs.zip vs →
            OptAgrees (envOf (gs.map QField.usual) vs) n p u := by
    intro hs
    induction hs with
    | nil =>
      intro vs' s _ h
      cases vs' with
      | nil => exact ⟨rfl, fun _ _ _ _ _ h => by simp at h⟩
      | cons v vs' => simp only [List.map_nil, writeLens, Wr.runOn] at h; cases h
    | cons g hs ih =>
      intro vs' s hsub h
      cases vs' with
      | nil => simp only [List.map_cons, writeLens, Wr.runOn] at h; cases h
      | cons v vs' =>
        rw [List.map_cons, writeLens, andThen_ok] at h
        obtain ⟨s1, h1, h2⟩ := h
        obtain ⟨h3, h4⟩ := ih vs' s1 (fun g hg => hsub g (by simp [hg])) h2
        refine ⟨by simp [h3], fun id bytes w c u hm hex => ?_⟩
        simp only [List.zip_cons_cons, List.mem_cons, Prod.mk.injEq] at hm
        rcases hm with ⟨rfl, rfl⟩ | hm
        · have hg := hsub _ (List.mem_cons_self ..)
          rw [tag_ok] at h1
          have e0 := FloatOpt.slot_derived ha hg
          have e3 := FloatOpt.not_frozen ha hg
          simp only [QField.written, LField.usual, Field.id, Field.isFrozen, Field.constraint, e0, e3, writeLens1,
            writeSlot, Option.isSome_none, Bool.or_false, Bool.false_eq_true, if_false, Option.getD_none] at h1
          cases hck : c.check u with
          | error e => simp only [WrE.checked, hck] at h1; cases h1
          | ok b =>
            cases b with
            | false => simp only [WrE.checked, hck] at h1; cases h1
            | true =>
              cases u with
              | int x =>
                simp only [WrE.checked, hck, verifyThenWriteFloat, (FloatOpt.slot_cond ha hg).2 hex, if_true, lift_ok] at h1
                cases hn : asLength cfg bytes x with
                | error e => rw [hn, lift_error] at h1; cases h1
                | ok n =>
                  rw [hn, lift_ok] at h1
                  refine ⟨x, n, rfl, asLength_ok.1 hn, (verify_iff ha hg _ n).1 ?_⟩
                  cases hv : verifyScan (WCtx.env ⟨gs.map QField.usual, vs⟩) id n (gs.map QField.usual) vs with
                  | error e => rw [hv, lift_error] at h1; cases h1
                  | ok a =>
                    cases a with
                    | false => rw [hv, lift_ok] at h1; cases h1
                    | true => exact hv
              | _ => simp only [WrE.checked, hck] at h1; cases h1
        · exact h4 id bytes w c u hm hex
  exact main gs vs s (fun _ h => h) h

/-- C164, both: the struct is written if and only if the list with computed lengths is and every
number is a length its optionals agree with. -/
theorem C164_iff (S : OutStream) (ha : OptApart gs) {fs : List Field} (hc : AsOpts cfg gs fs)
    (hl : gs.length = vs.length) (s s' : S.State) :
    (streamCastOpts C cfg gs vs).runOn S s = (.done (.ok ()), s') ↔
      (streamCast cfg fs vs).runOn S s = (.done (.ok ()), s') ∧ OptReady cfg gs vs := by
  constructor
  · intro h
    have hr := (C164_refused S ha s s' h).2
    exact ⟨C164_write (C := C) ha hc hl hr ▸ h, hr⟩
  · rintro ⟨h, hr⟩
    rw [C164_write ha hc hl hr]
    exact h

theorem FloatOpt.write_prefix (S : OutStream) {ctx : WCtx} (B : List LField) (vs2 : List Val) :
    ∀ (A : List LField) (vs1 : List Val) (s s1 : S.State),
    (writeLens C cfg ctx A vs1).runOn S s = (.done (.ok ()), s1) →
    (writeLens C cfg ctx (A ++ B) (vs1 ++ vs2)).runOn S s = (writeLens C cfg ctx B vs2).runOn S s1 := by
  intro A
  induction A with
  | nil =>
    intro vs1 s s1 h
    cases vs1 with
    | nil =>
      simp only [writeLens, WrE.ok, Wr.runOn] at h
      cases h
      rfl
    | cons v vs1 => simp only [writeLens, Wr.runOn] at h; cases h
  | cons g A ih =>
    intro vs1 s s1 h
    cases vs1 with
    | nil => simp only [writeLens, Wr.runOn] at h; cases h
    | cons v vs1 =>
      rw [writeLens, andThen_ok] at h
      obtain ⟨t, h1, h2⟩ := h
      simp only [List.cons_append, writeLens]
      rw [WrE.runOn_andThen', h1]
      exact ih vs1 t s1 h2

/-- The turn of a number that is the length of an optional. -/
theorem FloatOpt.write_turn (S : OutStream) (ha : OptApart gs) {pre post : List QField} {vs1 vs2 : List Val}
    {id : String} {bytes w : Nat} {c : Constraint} {x : Int} (hg : gs = pre ++ .slot id bytes w c :: post)
    (hv : vs = vs1 ++ .int x :: vs2) (hex : ∃ g ∈ gs, OptBy id g) (hck : c.check (.int x) = .ok true)
    {s s1 : S.State} (h : (writeLens C cfg ⟨gs.map QField.usual, vs⟩ (pre.map QField.written) vs1).runOn S s =
      (.done (.ok ()), s1)) :
    (streamCastOpts C cfg gs vs).runOn S s =
      ((WrE.tag id ((WrE.lift (asLength cfg bytes x)).andThen fun n =>
        (WrE.lift (verifyScan (envOf (gs.map QField.usual) vs) id n (gs.map QField.usual) vs)).andThen fun agreed =>
        if agreed then writeNum cfg (.int bytes false) w x else WrE.err .foundContradictingLength)).andThen fun _ =>
      writeLens C cfg ⟨gs.map QField.usual, vs⟩ (post.map QField.written) vs2).runOn S s1 := by
  have hm : .slot id bytes w c ∈ gs := by simp [hg]
  have e0 := FloatOpt.slot_derived ha hm
  have e3 := FloatOpt.not_frozen ha hm
  have e4 := (FloatOpt.slot_cond ha hm).2 hex
  rw [streamCastOpts, streamCastLens, usuals]
  have : (writeLens C cfg ⟨gs.map QField.usual, vs⟩ (gs.map QField.written) vs).runOn S s =
      (writeLens C cfg ⟨gs.map QField.usual, vs⟩
        (pre.map QField.written ++ (QField.slot id bytes w c :: post).map QField.written) (vs1 ++ .int x :: vs2)).runOn S s := by
    rw [← List.map_append, ← hg, ← hv]
  rw [this, write_prefix S _ _ _ _ _ _ h, List.map_cons, writeLens]
  simp only [QField.written, LField.usual, Field.id, Field.isFrozen, Field.constraint, e0, e3, writeLens1, writeSlot,
    Option.isSome_none, Bool.or_false, Bool.false_eq_true, if_false, Option.getD_none, WrE.checked, hck, lift_ok,
    verifyThenWriteFloat, e4, if_true, WCtx.env]

/-- C164, undefined: a number that is no length is not written if it is the length of an
optional, whether that is there or not. Writing is undefined as soon as its turn comes. -/
theorem C164_unwritable (S : OutStream) (ha : OptApart gs) {pre post : List QField} {vs1 vs2 : List Val}
    {id : String} {bytes w : Nat} {c : Constraint} {x : Int} (hg : gs = pre ++ .slot id bytes w c :: post)
    (hv : vs = vs1 ++ .int x :: vs2) (hex : ∃ g ∈ gs, OptBy id g) (hck : c.check (.int x) = .ok true)
    (hx : ∀ n, ¬ IsLength cfg bytes x n) (s s1 : S.State)
    (h : (writeLens C cfg ⟨gs.map QField.usual, vs⟩ (pre.map QField.written) vs1).runOn S s =
      (.done (.ok ()), s1)) :
    (streamCastOpts C cfg gs vs).runOn S s = (.stuck .badConversion, s1) := by
  rw [write_turn S ha hg hv hex hck h, asLength_bad hx, lift_error]
  rfl

/-- C164, contradictions: if an optional that is there has another size, this is reported before
anything of the number is written. -/
theorem C164_contradicting (S : OutStream) (ha : OptApart gs) {pre post : List QField} {vs1 vs2 : List Val}
    {id : String} {bytes w : Nat} {c : Constraint} {x : Int} {n : Nat} (hg : gs = pre ++ .slot id bytes w c :: post)
    (hv : vs = vs1 ++ .int x :: vs2) (hck : c.check (.int x) = .ok true) (hx : IsLength cfg bytes x n)
    (hall : ∀ i bytes' b p u, (.opt i id bytes' b p, u) ∈ gs.zip vs →
      ∃ m, OptAgrees (envOf (gs.map QField.usual) vs) m p u)
    (hex : ∃ i bytes' b p u, (.opt i id bytes' b p, u) ∈ gs.zip vs ∧
      ¬ OptAgrees (envOf (gs.map QField.usual) vs) n p u)
    (s s1 : S.State)
    (h : (writeLens C cfg ⟨gs.map QField.usual, vs⟩ (pre.map QField.written) vs1).runOn S s =
      (.done (.ok ()), s1)) :
    (streamCastOpts C cfg gs vs).runOn S s = (.done (.error ⟨.foundContradictingLength, id⟩), s1) := by
  have hm : .slot id bytes w c ∈ gs := by simp [hg]
  obtain ⟨i, bytes', b, p, u, hz, hno⟩ := hex
  have hopt : ∀ i bytes' b p u, (QField.opt i id bytes' b p, u) ∈ gs.zip vs →
      ∃ a, (QField.opt i id bytes' b p).usual.condAgrees (envOf (gs.map QField.usual) vs) id n u = .ok a := by
    intro i bytes' b p u hz
    obtain ⟨m, h1⟩ := hall _ _ _ _ _ hz
    simp only [QField.usual, QField.written, LField.usual, Field.condAgrees, body_target, if_true]
    rcases h1 with rfl | ⟨w', rfl, h1 | ⟨h1, ws, rfl, h2⟩⟩
    · exact ⟨true, rfl⟩
    · rw [h1]
      exact ⟨true, rfl⟩
    · rw [h1]
      exact ⟨_, rfl⟩
  have hf : verifyScan (envOf (gs.map QField.usual) vs) id n (gs.map QField.usual) vs = .ok false := by
    refine verify_false gs vs (fun g u hm' => ?_) ⟨_, u, hz, ?_⟩
    · by_cases hg' : OptBy id g
      · obtain ⟨i, bytes', b, p, rfl⟩ := hg'
        exact hopt _ _ _ _ _ hm'
      · exact ⟨true, agrees_other ha hm (List.of_mem_zip hm').1 hg' _ n u⟩
    · obtain ⟨a, h1⟩ := hopt _ _ _ _ _ hz
      cases a with
      | false => exact h1
      | true => exact absurd ((agrees_opt ..).1 h1) hno
  rw [write_turn S ha hg hv ⟨_, (List.of_mem_zip hz).1, _, _, _, _, rfl⟩ hck h, asLength_ok.2 hx, lift_ok, hf, lift_ok]
  rfl

theorem FloatOpt.lengths_ready (ha : OptApart gs) {fs : List Field} (hc : AsOpts cfg gs fs)
    (hr : OptReady cfg gs vs) {hs : List QField} {fs' : List Field} (h : AsOpts cfg hs fs') :
    ∀ (vs' : List Val), (∀ g ∈ hs, g ∈ gs) → hs.length = vs'.length →
    (∀ g v, (g, v) ∈ hs.zip vs' → (g, v) ∈ gs.zip vs) → ∀ {seen : List String} {env : Env},
    earlierFields seen fs' = true →
    (∀ i ∈ seen, ∀ bytes w c, .slot i bytes w c ∈ gs → (∃ g ∈ gs, OptBy i g) →
      ∃ x n, env i = some (.int x) ∧ IsLength cfg bytes x n) →
    OptLengths cfg env hs (settleFields fs vs fs' vs') := by
  induction h with
  | nil =>
    intro vs' _ hl _ seen env _ _
    cases vs' with
    | nil => simp only [settleFields, OptLengths]
    | cons => simp at hl
  | @cons g f hs fs' h2 _ ih =>
    intro vs' hsub hl hz seen env he hs1
    cases vs' with
    | nil => simp at hl
    | cons u vs' =>
      simp only [earlierFields, Bool.and_eq_true] at he
      have hg := hsub g (by simp)
      have hgu := hz g u (by simp)
      have hset : ∀ i ∈ seen ++ [f.id], ∀ bytes w c, .slot i bytes w c ∈ gs → (∃ g ∈ gs, OptBy i g) →
          ∃ x n, (env.set g.usual.id (settleField fs vs f u)) i = some (.int x) ∧ IsLength cfg bytes x n := by
        intro i hi bytes w c hsl hex
        by_cases hii : i = g.usual.id
        · have hgs : g = .slot i bytes w c := FloatOpt.nodup_eq ha.1 hg hsl hii.symm
          subst hgs
          cases h2
          have e1 : isSlot fs i = false := by
            rw [← isDerived_eq, ← derived_same hc]; exact FloatOpt.slot_derived ha hg
          have e2 := ha.2.2.2 _ _ _ _ hg
          obtain ⟨x, n, rfl, h5, _⟩ := hr _ _ _ _ _ hgu hex
          refine ⟨x, n, ?_, h5⟩
          simp [Env.set, QField.usual, QField.written, LField.usual, Field.id, settleField, e1, e2, settleKind]
        · have hi : i ∈ seen := by
            rcases List.mem_append.1 hi with h | h
            · exact h
            · rw [List.mem_singleton, FloatOpt.usual_id h2] at h; exact absurd h hii
          simp only [Env.set, if_neg hii]
          exact hs1 i hi bytes w c hsl hex
      have ih := ih vs' (fun g hg => hsub g (by simp [hg])) (by simpa using hl)
        (fun g v hm => hz g v (by simp [hm])) he.2 hset
      rw [settleFields]
      refine ⟨?_, ih⟩
      rintro id src bytes b p rfl _
      obtain ⟨w, c', hsl⟩ := ha.2.2.1 _ _ _ _ _ hg
      refine hs1 src ?_ bytes w c' hsl ⟨_, hg, _, _, _, _, rfl⟩
      have h4 := he.1.1
      rw [List.all_eq_true] at h4
      cases h2 with
      | opt _ _ _ _ _ r hr =>
        have h5 := h4 src (by simp [fieldDeps, bodyDeps, lenDeps, hr.1])
        simpa using h5

/-- C164, there and back: what was written is read back, the numbers as they were. -/
theorem C164_round (ha : OptApart gs) {fs : List Field} (hc : AsOpts cfg gs fs) (hsc : SelfConsistent cfg fs)
    (hst : Storable cfg fs vs) (p : List Byte)
    (h : (streamCastOpts C cfg gs vs).run = (.done (.ok ()), p)) (rest : List Byte) :
    (structCastOpts cfg gs).run (p ++ rest) = (.done (.ok (settle fs vs)), rest) := by
  obtain ⟨hl, hr⟩ := C164_refused listOut ha _ _ h
  rw [C164_write ha hc hl hr] at h
  refine (C164_read cfg listIn gs fs hc _ _ _).2 ⟨C45_round_trip cfg fs hsc vs hst p h rest, ?_⟩
  exact lengths_ready ha hc hr hc vs (fun _ h => h) hl (fun _ _ h => h) hsc.1.2.2 fun i hi => absurd hi (by simp)

/-- C164, undefined reading: where the list with computed lengths is read and a number was no
length of an optional that is there, reading is undefined. -/
theorem C164_undefined (S : InStream) {fs : List Field} (hc : AsOpts cfg gs fs) (s s' : S.State)
    (h : (structCast cfg fs).runOn S s = (.done (.ok vs), s')) (hn : ¬ OptLengths cfg (dfltEnv fs) gs vs) :
    ∃ w s1, (structCastOpts cfg gs).runOn S s = (.stuck w, s1) := by
  rcases C164_errors cfg S gs fs hc s with h1 | h1
  · rw [h] at h1
    exact absurd ((C164_read cfg S gs fs hc s s' vs).1 h1).2 hn
  · exact h1

end

/-! ### A list with such an optional -/

def optComputed (cfg : Cfg) : QField → Field
  | .std f => f
  | .slot id bytes w c => .plain id (.num (.int bytes false) w) c
  | .opt id src bytes b p => .maybe id (b.kind (.computed (dropping cfg src bytes))) p

/-- C164, every list: there is a list with computed lengths for each. -/
theorem C164_computed (cfg : Cfg) (gs : List QField) : AsOpts cfg gs (gs.map (optComputed cfg)) := by
  induction gs with
  | nil => exact .nil
  | cons g gs ih =>
    refine .cons ?_ ih
    cases g with
    | std f => exact .std f
    | slot id bytes w c => exact .slot ..
    | opt id src bytes b p => exact .opt _ _ _ _ _ _ (drops ..)

/-- A flag, a `float`, and that many numbers if the flag is 1. -/
def optCounted : List QField :=
  [.std (.plain "flag" (.num (.int 1 false) 1) .none), .slot "n" 4 4 .none,
    .opt "xs" "n" 4 (.vec (.scalar u16) none) ⟨["flag"], fun vs => vs == [.int 1]⟩]

theorem optCounted_apart : OptApart optCounted := by
  simp [OptApart, optCounted, QField.usual, QField.written, LField.usual, Field.id]
  refine ⟨?_, ?_, ?_⟩
  · rintro _ _ _ _ _ rfl rfl rfl rfl rfl
    decide
  · rintro _ _ _ _ _ rfl rfl rfl rfl rfl
    exact ⟨rfl, rfl⟩
  · rintro _ _ _ _ rfl rfl rfl rfl
    rfl

set_option exponentiation.threshold 2000

theorem float_nan : ∀ n, ¬ IsLength le64 4 0x7fc00000 n := by
  intro n h
  obtain ⟨v, hv, _⟩ := (C162_lengths le64 4 0x7fc00000).1 ⟨n, h⟩
  rw [show real 4 0x7fc00000 = .nan by decide +kernel] at hv
  cases hv

theorem optCounted_ready {x : Int} {n : Nat} {flag u : Val} (hx : IsLength le64 4 x n)
    (hu : OptAgrees (envOf (optCounted.map QField.usual) [flag, .int x, u]) n ⟨["flag"], fun vs => vs == [.int 1]⟩ u) :
    OptReady le64 optCounted [flag, .int x, u] := by
  intro id bytes w c v hm _
  simp only [optCounted, List.zip_cons_cons, List.zip_nil_left, List.mem_cons, Prod.mk.injEq, List.not_mem_nil,
    or_false, reduceCtorEq, false_and, false_or, QField.slot.injEq] at hm
  obtain ⟨⟨rfl, rfl, rfl, rfl⟩, rfl⟩ := hm
  refine ⟨x, n, rfl, hx, ?_⟩
  intro i bytes' b p u' hm
  simp only [optCounted, List.zip_cons_cons, List.zip_nil_left, List.mem_cons, Prod.mk.injEq, List.not_mem_nil,
    or_false, reduceCtorEq, false_and, false_or, QField.opt.injEq] at hm
  obtain ⟨⟨rfl, _, rfl, rfl, rfl⟩, rfl⟩ := hm
  exact hu

theorem float_two_half : IsLength le64 4 0x40200000 2 := asLength_ok.1 (by decide +kernel)

/-- Two numbers are written after `2.5f`, and so they are read back. A container that is no
optional would be written after `2.0f` (C162). -/
theorem two_half_written {R : Rounding} (C : FloatOf R) :
    (streamCastOpts C le64 optCounted [.int 1, .int 0x40200000, .present (.seq [.int 7, .int 8])]).run =
      (.done (.ok ()), [1, 0, 0, 0x20, 0x40, 7, 0, 8, 0]) := by
  rw [C164_write optCounted_apart (C164_computed ..) rfl
    (optCounted_ready float_two_half (.inr ⟨_, rfl, .inr ⟨rfl, _, rfl, rfl⟩⟩))]
  rfl

example {R : Rounding} (C : FloatOf R) :
    (streamCastOpts C le64 optCounted [.int 1, .int 0x40200000, .present (.seq [.int 7, .int 8])]).run =
      (.done (.ok ()), [1, 0, 0, 0x20, 0x40, 7, 0, 8, 0]) :=
  (C164_iff listOut optCounted_apart (C164_computed ..) rfl [] _).2
    ⟨rfl, optCounted_ready float_two_half (.inr ⟨_, rfl, .inr ⟨rfl, _, rfl, rfl⟩⟩)⟩

example {R : Rounding} (C : FloatOf R) :
    OptReady le64 optCounted [.int 1, .int 0x40200000, .present (.seq [.int 7, .int 8])] :=
  (C164_refused listOut optCounted_apart [] _ (two_half_written C)).2

example (rest : List Byte) : (structCastOpts le64 optCounted).run ([1, 0, 0, 0x20, 0x40, 7, 0, 8, 0] ++ rest) =
    (.done (.ok [.int 1, .int 0x40200000, .present (.seq [.int 7, .int 8])]), rest) := by
  obtain ⟨C⟩ := C162_converts ieee
  refine C164_round optCounted_apart (C164_computed ..) ?_ ?_ _ (two_half_written C) rest
  · decide +kernel
  · decide +kernel

/-- Read as it was computed, or undefined: here an end of the stream. -/
example : (structCastOpts le64 optCounted).run [1, 0, 0, 0x40] =
      (structCast le64 (optCounted.map (optComputed le64))).run [1, 0, 0, 0x40] ∨
    ∃ w s', (structCastOpts le64 optCounted).run [1, 0, 0, 0x40] = (.stuck w, s') :=
  C164_errors le64 listIn optCounted _ (C164_computed ..) _

/-- A NaN where the numbers are there: one callable says 0 of it, the conversion is undefined. -/
example : ∃ w s', (structCastOpts le64 optCounted).run [1, 0, 0, 0xc0, 0x7f] = (.stuck w, s') := by
  refine C164_undefined (cfg := le64) (gs := optCounted) (vs := [.int 1, .int 0x7fc00000, .present (.seq [])])
    listIn (C164_computed ..) [1, 0, 0, 0xc0, 0x7f] [] rfl ?_
  rintro ⟨_, _, h, _⟩
  obtain ⟨x, n, hx, hn⟩ := h _ _ _ _ _ rfl rfl
  cases hx
  exact float_nan n hn

/-- Two numbers after `3.0f`: refused before anything of the length is written. -/
example {R : Rounding} (C : FloatOf R) :
    (streamCastOpts C le64 optCounted [.int 1, .int 0x40400000, .present (.seq [.int 7, .int 8])]).run =
      (.done (.error ⟨.foundContradictingLength, "n"⟩), [1]) := by
  refine C164_contradicting (n := 3) (vs := [.int 1, .int 0x40400000, .present (.seq [.int 7, .int 8])]) listOut
    optCounted_apart (pre := [_]) (post := [_]) (vs1 := [_]) (vs2 := [_]) rfl rfl rfl (asLength_ok.1 (by decide +kernel)) ?_ ?_ [] [1] rfl
  · intro i bytes' b p u hm
    simp only [optCounted, List.zip_cons_cons, List.zip_nil_left, List.mem_cons, Prod.mk.injEq, List.not_mem_nil,
      or_false, reduceCtorEq, false_and, false_or, QField.opt.injEq] at hm
    obtain ⟨⟨rfl, _, rfl, rfl, rfl⟩, rfl⟩ := hm
    exact ⟨2, .inr ⟨_, rfl, .inr ⟨rfl, _, rfl, rfl⟩⟩⟩
  · refine ⟨"xs", 4, .vec (.scalar u16) none, ⟨["flag"], fun vs => vs == [.int 1]⟩, _,
      List.mem_cons_of_mem _ (List.mem_cons_of_mem _ (List.mem_singleton_self _)), ?_⟩
    rintro (h | ⟨w, h, h1 | ⟨_, ws, h1, h2⟩⟩)
    · cases h
    · cases h1
    · cases h
      cases h1
      cases h2

/-- A NaN where no numbers are there is read, and what was read is not written again: that is
undefined, once the flag is written. -/
theorem C164_fails_again {R : Rounding} (C : FloatOf R) :
    (structCastOpts le64 optCounted).run [0, 0, 0, 0xc0, 0x7f] =
        (.done (.ok [.int 0, .int 0x7fc00000, .absent]), []) ∧
      (streamCastOpts C le64 optCounted [.int 0, .int 0x7fc00000, .absent]).run = (.stuck .badConversion, [0]) := by
  refine ⟨(C164_read le64 listIn optCounted _ (C164_computed ..) _ _ _).2 ⟨rfl, ?_⟩, ?_⟩
  · refine ⟨(fun _ _ _ _ _ h => by cases h), (fun _ _ _ _ _ h => by cases h), fun _ _ _ _ _ h h1 => ?_, trivial⟩
    cases h
    cases h1
  · exact C164_unwritable listOut optCounted_apart (pre := [_]) (post := [_]) (vs1 := [_]) (vs2 := [_])
      rfl rfl ⟨_, List.mem_cons_of_mem _ (List.mem_cons_of_mem _ (List.mem_singleton_self _)), _, _, _, _, rfl⟩ rfl
      float_nan [] [0] rfl

end S2S.Props
