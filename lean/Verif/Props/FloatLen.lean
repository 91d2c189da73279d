import Verif.Lemmas.FloatLen
import Verif.Lemmas.Group
import Verif.Lemmas.Platform
import Verif.Props.RoundTrip
import Verif.Props.Guarded
import Verif.Props.Compare
/-
C162: lengths that are floating-point numbers.
-/
namespace S2S.Props
open Spec Demo Compare

/-! ### Reading -/

theorem computed_eval {cfg : Cfg} {env : Env} {src : String} {bytes : Nat} {r : Calc} (hr : Drops cfg src bytes r)
    {n : Nat} (h : lengthIn cfg env src bytes = .ok n) :
    LenSpec.eval cfg env (.computed r) = .ok n := by
  unfold lengthIn at h
  split at h
  · rename_i x hx
    have hl := asLength_ok.1 h
    have h1 : r.eval env = .ok (n : Int) := by
      simp only [Calc.eval, hr.1, Env.getAll, hx, hr.2 x n hl]
    simp only [LenSpec.eval, h1]
    have h2 : cfg.toSz (n : Int) = n := by
      have := toSz_small (cfg := cfg) (x := (n : Int)) (by omega) (by
        have := hl.2
        simp only [Cfg.szMod]
        omega)
      simpa using this
    rw [h2]
  · cases h

theorem constant_eval {cfg : Cfg} {env : Env} {n : Nat} (h : n < 256 ^ cfg.szBytes) :
    LenSpec.eval cfg env (.computed ⟨[], fun _ => n⟩) = .ok n := by
  have h2 : cfg.toSz (n : Int) = n := by
    have := toSz_small (cfg := cfg) (x := (n : Int)) (by omega) (by simp only [Cfg.szMod]; omega)
    simpa using this
  simp only [LenSpec.eval, Calc.eval, Env.getAll, h2]

theorem readKind_len {cfg : Cfg} {env : Env} (b : Body) {l l' : LenSpec} (h : l.eval cfg env = l'.eval cfg env) :
    readKind cfg env (b.kind l) = readKind cfg env (b.kind l') := by
  cases b <;> simp only [Body.kind, readKind, h]

theorem lengthIn_lt {cfg : Cfg} {env : Env} {src : String} {bytes n : Nat} (h : lengthIn cfg env src bytes = .ok n) :
    n < 256 ^ cfg.szBytes := by
  unfold lengthIn at h
  split at h
  · exact (asLength_ok.1 h).2
  · cases h

theorem readSized_ok {cfg : Cfg} {env : Env} {src : String} {bytes : Nat} {r : Calc} (hr : Drops cfg src bytes r)
    (b : Body) {n : Nat} (h : lengthIn cfg env src bytes = .ok n) :
    readSized cfg env src bytes b = readKind cfg env (b.kind (.computed r)) := by
  rw [readSized, h, RdE.lift, RdE.ok_andThen]
  exact readKind_len b (by rw [constant_eval (lengthIn_lt h), computed_eval hr h])

theorem usual_id {cfg : Cfg} {g : LField} {f : Field} (h : AsComputed1 cfg g f) : f.id = g.usual.id := by
  cases h <;> rfl
theorem usual_constraint {cfg : Cfg} {g : LField} {f : Field} (h : AsComputed1 cfg g f) :
    f.constraint = g.usual.constraint := by
  cases h <;> rfl

/-- The program is the same, until a number is no length. -/
theorem readLens_cases {cfg : Cfg} (S : InStream) {gs : List LField} {fs : List Field} (h : AsComputed cfg gs fs) :
    ∀ (env : Env) (s : S.State),
    ((readLens cfg env gs).runOn S s = (readFields cfg env fs).runOn S s ∧
      ∀ vs s', (readFields cfg env fs).runOn S s = (.done (.ok vs), s') → Lengths cfg env gs vs) ∨
    ((∃ w s', (readLens cfg env gs).runOn S s = (.stuck w, s')) ∧
      ∀ vs s', (readFields cfg env fs).runOn S s = (.done (.ok vs), s') → ¬ Lengths cfg env gs vs) := by
  induction h with
  | nil =>
    intro env s
    refine .inl ⟨by simp only [readLens, readFields], ?_⟩
    intro vs s' h
    simp only [readFields, RdE.ok, Rd.runOn] at h
    cases h
    trivial
  | @cons g f gs fs h1 _ ih =>
    intro env s
    have step : ∀ (r : RdE CastError Val) (L : List Val → Prop),
        (∀ v vs, L (v :: vs) ↔ Lengths cfg (env.set f.id v) gs vs) →
        (((r.andThen fun v => (readLens cfg (env.set f.id v) gs).andThen fun vs => RdE.ok (v :: vs)).runOn S s =
          (r.andThen fun v => (readFields cfg (env.set f.id v) fs).andThen fun vs => RdE.ok (v :: vs)).runOn S s ∧
        ∀ vs s', (r.andThen fun v => (readFields cfg (env.set f.id v) fs).andThen fun vs =>
          RdE.ok (v :: vs)).runOn S s = (.done (.ok vs), s') → L vs) ∨
        ((∃ w s', (r.andThen fun v => (readLens cfg (env.set f.id v) gs).andThen fun vs =>
          RdE.ok (v :: vs)).runOn S s = (.stuck w, s')) ∧
        ∀ vs s', (r.andThen fun v => (readFields cfg (env.set f.id v) fs).andThen fun vs =>
          RdE.ok (v :: vs)).runOn S s = (.done (.ok vs), s') → ¬ L vs)) := by
      intro r L hL
      simp only [RdE.runOn_andThen]
      rcases hr : r.runOn S s with ⟨o, s1⟩
      cases o with
      | stuck w => exact .inl ⟨rfl, fun vs s' h => by cases h⟩
      | done o =>
        cases o with
        | error e => exact .inl ⟨rfl, fun vs s' h => by cases h⟩
        | ok v =>
          simp only
          rcases ih (env.set f.id v) s1 with ⟨h2, h3⟩ | ⟨⟨w, s2, h2⟩, h3⟩
          · refine .inl ⟨by rw [h2], fun vs s' h => ?_⟩
            rcases hf : (readFields cfg (env.set f.id v) fs).runOn S s1 with ⟨o, s2⟩
            rw [hf] at h
            cases o with
            | stuck w => cases h
            | done o =>
              cases o with
              | error e => cases h
              | ok ws =>
                simp only [RdE.ok, Rd.runOn] at h
                cases h
                exact (hL v ws).2 (h3 ws _ hf)
          · refine .inr ⟨⟨w, s2, by rw [h2]⟩, fun vs s' h => ?_⟩
            rcases hf : (readFields cfg (env.set f.id v) fs).runOn S s1 with ⟨o, s2⟩
            rw [hf] at h
            cases o with
            | stuck w => cases h
            | done o =>
              cases o with
              | error e => cases h
              | ok ws =>
                simp only [RdE.ok, Rd.runOn] at h
                cases h
                exact fun h4 => h3 ws _ hf ((hL v ws).1 h4)
    cases h1 with
    | std f =>
      simp only [readLens, readFields, LField.usual]
      exact step _ (Lengths cfg env (.std f :: gs)) fun v vs => by simp only [Lengths, LField.usual]
    | slot id bytes w c =>
      simp only [readLens, readFields, LField.usual]
      exact step _ (Lengths cfg env (.slot id bytes w c :: gs)) fun v vs => by simp only [Lengths, LField.usual]
    | sized id src bytes b c r hr =>
      cases hl : lengthIn cfg env src bytes with
      | ok n =>
        simp only [readLens, readFields, readField, readSized_ok hr b hl, Field.constraint, Field.id]
        refine step _ (Lengths cfg env (.sized id src bytes b c :: gs)) fun v vs => ?_
        simp only [Lengths, Field.id]
        refine and_iff_right ?_
        unfold lengthIn at hl
        split at hl
        · rename_i x hx
          exact ⟨x, n, hx, asLength_ok.1 hl⟩
        · cases hl
      | error w =>
        refine .inr ⟨⟨w, s, ?_⟩, fun vs s' _ h => ?_⟩
        · simp only [readLens, readSized, hl, RdE.lift]
          rfl
        · cases vs with
          | nil => exact h
          | cons v vs =>
            obtain ⟨⟨x, n, hx, hn⟩, _⟩ := h
            simp only [lengthIn, hx, asLength_ok.2 hn] at hl
            cases hl

theorem dflts_computed {cfg : Cfg} {gs : List LField} {fs : List Field} (h : AsComputed cfg gs fs) :
    dfltEnv (gs.map LField.usual) = dfltEnv fs := by
  unfold dfltEnv
  induction h with
  | nil => rfl
  | cons h1 _ ih =>
    simp only [List.map_cons, Field.dflts, envOf, ih, usual_id h1]
    congr 1
    cases h1 with
    | std f => rfl
    | slot id bytes w c => rfl
    | sized id src bytes b c r hr => cases b <;> simp only [LField.usual, Field.dflt, Body.kind, Kind.dflt]

/-- C162, reading: what is read is what is read when the lengths are computed by callables that
drop the fraction, and every number was a length. -/
theorem C162_read (cfg : Cfg) (S : InStream) (gs : List LField) (fs : List Field) (h : AsComputed cfg gs fs)
    (s s' : S.State) (vs : List Val) :
    (structCastLens cfg gs).runOn S s = (.done (.ok vs), s') ↔
      (structCast cfg fs).runOn S s = (.done (.ok vs), s') ∧ Lengths cfg (dfltEnv fs) gs vs := by
  unfold structCastLens structCast
  rw [dflts_computed h]
  rcases readLens_cases S h (dfltEnv fs) s with ⟨h1, h2⟩ | ⟨⟨w, s1, h1⟩, h2⟩
  · rw [h1]
    exact ⟨fun h => ⟨h, h2 _ _ h⟩, fun h => h.1⟩
  · rw [h1]
    constructor
    · intro h; cases h
    · rintro ⟨h3, h4⟩; exact absurd h4 (h2 _ _ h3)

/-- C162, errors: the casts report the same, or one of the conversions is undefined. -/
theorem C162_errors (cfg : Cfg) (S : InStream) (gs : List LField) (fs : List Field) (h : AsComputed cfg gs fs)
    (s : S.State) :
    (structCastLens cfg gs).runOn S s = (structCast cfg fs).runOn S s ∨
      ∃ w s', (structCastLens cfg gs).runOn S s = (.stuck w, s') := by
  unfold structCastLens structCast
  rw [dflts_computed h]
  rcases readLens_cases S h (dfltEnv fs) s with ⟨h1, _⟩ | ⟨h1, _⟩
  · exact .inl h1
  · exact .inr h1

/-- The names after some fields were read. -/
def envAfter (env : Env) : List LField → List Val → Env
  | g :: gs, v :: vs => envAfter (env.set g.usual.id v) gs vs
  | _, _ => env

theorem readLens_stuck {cfg : Cfg} (S : InStream) (A B : List LField) : ∀ (env : Env) (s s1 : S.State) (us : List Val),
    (readLens cfg env A).runOn S s = (.done (.ok us), s1) →
    ∀ w s2, (readLens cfg (envAfter env A us) B).runOn S s1 = (.stuck w, s2) →
    us.length = A.length ∧ (readLens cfg env (A ++ B)).runOn S s = (.stuck w, s2) := by
  induction A with
  | nil =>
    intro env s s1 us h w s2 h2
    simp only [readLens, RdE.ok, Rd.runOn] at h
    cases h
    exact ⟨rfl, h2⟩
  | cons g A ih =>
    intro env s s1 us h w s2 h2
    have step : ∀ r : RdE CastError Val,
        (r.andThen fun v => (readLens cfg (env.set g.usual.id v) A).andThen fun vs =>
          RdE.ok (v :: vs)).runOn S s = (.done (.ok us), s1) →
        us.length = A.length + 1 ∧ (r.andThen fun v => (readLens cfg (env.set g.usual.id v) (A ++ B)).andThen fun vs =>
          RdE.ok (v :: vs)).runOn S s = (.stuck w, s2) := by
      intro r h
      rw [RdE.runOn_andThen] at h ⊢
      rcases hr : r.runOn S s with ⟨o, s3⟩
      rw [hr] at h
      cases o with
      | stuck w => cases h
      | done o =>
        cases o with
        | error e => cases h
        | ok v =>
          simp only [RdE.runOn_andThen] at h ⊢
          rcases hf : (readLens cfg (env.set g.usual.id v) A).runOn S s3 with ⟨o, s4⟩
          rw [hf] at h
          cases o with
          | stuck w => cases h
          | done o =>
            cases o with
            | error e => cases h
            | ok ws =>
              simp only [RdE.ok, Rd.runOn] at h
              cases h
              obtain ⟨h3, h4⟩ := ih _ _ _ _ hf w s2 h2
              rw [h4]
              exact ⟨by simp [h3], rfl⟩
    cases g <;> exact step _ h

theorem envAfter_other (src : String) (A : List LField) : ∀ (env : Env) (us : List Val),
    src ∉ A.map (fun g => g.usual.id) → envAfter env A us src = env src := by
  induction A with
  | nil => intro env us _; cases us <;> rfl
  | cons g A ih =>
    intro env us h
    simp only [List.map_cons, List.mem_cons, not_or] at h
    cases us with
    | nil => rfl
    | cons u us =>
      rw [envAfter, ih _ _ h.2]
      simp [Env.set, h.1]

theorem envAfter_slot (pre mid : List LField) (g : LField) (u : Val) : ∀ (env : Env) (us ms : List Val),
    us.length = pre.length → g.usual.id ∉ mid.map (fun g => g.usual.id) →
    envAfter env (pre ++ g :: mid) (us ++ u :: ms) g.usual.id = some u := by
  induction pre with
  | nil =>
    intro env us ms hl hm
    cases us with
    | cons _ _ => simp at hl
    | nil =>
      rw [List.nil_append, List.nil_append, envAfter, envAfter_other _ _ _ _ hm]
      simp [Env.set]
  | cons p pre ih =>
    intro env us ms hl hm
    cases us with
    | nil => simp at hl
    | cons v us => exact ih _ us ms (by simpa using hl) hm

/-- C162, undefined: once the number is read and it is no length, reading the container is
undefined. Nothing but a constraint on the number stands before it. -/
theorem C162_undefined (cfg : Cfg) (S : InStream) (pre mid post : List LField) (id src : String) (bytes w : Nat)
    (b : Body) (c c' : Constraint) (env : Env) (s s1 : S.State) (us ms : List Val) (x : Int)
    (hl : us.length = pre.length) (hm : src ∉ mid.map fun g => g.usual.id)
    (hr : (readLens cfg env (pre ++ .slot src bytes w c' :: mid)).runOn S s =
      (.done (.ok (us ++ .int x :: ms)), s1))
    (hx : ∀ n, ¬ IsLength cfg bytes x n) :
    (readLens cfg env ((pre ++ .slot src bytes w c' :: mid) ++ .sized id src bytes b c :: post)).runOn S s =
      (.stuck .badConversion, s1) := by
  refine (readLens_stuck S _ _ env s s1 _ hr .badConversion s1 ?_).2
  have h1 := envAfter_slot pre mid (.slot src bytes w c') (.int x) env us ms hl hm
  simp only [LField.usual, Field.id] at h1
  simp only [readLens, readSized, lengthIn, h1, asLength_bad hx, RdE.lift]
  rfl

/-- C162, which numbers are lengths: not NaN and the infinities, not the numbers from -1 down, not
those from 2^64 up; all others are. -/
theorem C162_lengths (cfg : Cfg) (bytes : Nat) (x : Int) :
    (∃ n, IsLength cfg bytes x n) ↔
      ∃ v, real bytes x = .fin v ∧ -one < v ∧ v < (256 ^ cfg.szBytes : Nat) * one := by
  have ho := one_pos
  unfold IsLength
  cases hr : real bytes x with
  | nan => simp [Truncates]
  | inf p => simp [Truncates]
  | fin v =>
    simp only [truncates_iff, Real.fin.injEq, exists_eq_left']
    rcases Int.lt_or_le v 0 with h | h
    · have hn : v.tdiv one = -(-v / one) := by
        rw [← Int.tdiv_eq_ediv_of_nonneg (a := -v) (by omega), Int.neg_tdiv, Int.neg_neg]
      have h0 : 0 ≤ -v / one := Int.ediv_nonneg (by omega) (by omega)
      have hp : (0 : Int) ≤ (256 ^ cfg.szBytes : Nat) * one := Int.mul_nonneg (Int.natCast_nonneg _) (by omega)
      have hpp : 0 < 256 ^ cfg.szBytes := Nat.pow_pos (by decide)
      rw [hn]
      have h1 : -v / one = 0 ↔ -v < one := by
        have := Int.ediv_lt_iff_lt_mul (a := -v) (b := 1) ho
        rw [Int.one_mul] at this
        omega
      constructor
      · rintro ⟨n, h2, h3⟩
        have := h1.1 (by omega)
        exact ⟨by omega, by omega⟩
      · rintro ⟨h2, _⟩
        exact ⟨0, by have := h1.2 (by omega); omega, hpp⟩
    · rw [Int.tdiv_eq_ediv_of_nonneg h]
      have h0 : 0 ≤ v / one := Int.ediv_nonneg (by omega) (by omega)
      have h1 := Int.ediv_lt_iff_lt_mul (a := v) (b := ((256 ^ cfg.szBytes : Nat) : Int)) ho
      constructor
      · rintro ⟨n, h2, h3⟩
        exact ⟨by omega, h1.1 (by omega)⟩
      · rintro ⟨_, h2⟩
        have := h1.2 h2
        exact ⟨(v / one).toNat, by omega, by omega⟩

/-! ### Writing -/

/-- The name is not that of a floating-point number. -/
def NoSlot (gs : List LField) (i : String) : Prop := ∀ id bytes w c, .slot id bytes w c ∈ gs → id ≠ i

theorem bodyDeps (b : Body) (l : LenSpec) : kindDeps (b.kind l) = lenDeps l := by cases b <;> rfl

theorem sized_deps {cfg : Cfg} {id src : String} {bytes : Nat} {b : Body} {c : Constraint} {f : Field}
    (h : AsComputed1 cfg (.sized id src bytes b c) f) : fieldDeps f = [src] := by
  cases h with
  | sized _ _ _ _ _ r hr => simp only [fieldDeps, bodyDeps, lenDeps, hr.1]

theorem sized_deps_usual {id src : String} {bytes : Nat} {b : Body} {c : Constraint} :
    fieldDeps (LField.sized id src bytes b c).usual = [src] := by
  simp only [LField.usual, fieldDeps, bodyDeps, lenDeps]

section
variable {cfg : Cfg} {R : Rounding} {C : FloatOf R} {gs : List LField} {vs : List Val}

theorem src_ne (ha : Apart gs) {i : String} (hi : NoSlot gs i) {id src : String} {bytes : Nat} {b : Body}
    {c : Constraint} (h : .sized id src bytes b c ∈ gs) : i ∉ [src] := by
  obtain ⟨w, c', h1⟩ := ha.2.2.1 _ _ _ _ _ h
  have := hi _ _ _ _ h1
  simp only [List.mem_singleton]
  exact fun h => this h.symm

theorem env_filled {hs : List LField} {vs' us' : List Val} (hf : FilledAll cfg C gs vs hs vs' us') :
    ∀ {fs : List Field}, AsComputed cfg hs fs → ∀ i, NoSlot hs i →
      envOf (hs.map LField.usual) vs' i = envOf fs us' i := by
  induction hf with
  | nil => intro fs h i _; cases h; rfl
  | @cons g v u hs vs' us' h1 _ ih =>
    intro fs h i hi
    cases h with
    | cons h2 h3 =>
      have h4 := ih h3 i fun id bytes w c hm => hi id bytes w c (by simp [hm])
      simp only [List.map_cons, envOf, Env.set, h4, usual_id h2]
      split
      · rename_i he
        cases h1 with
        | std f v => rfl
        | sized => rfl
        | free => rfl
        | slot id bytes w c v n => exact absurd he.symm (hi id bytes w c (by simp))
      · rfl

theorem implies_filled (ha : Apart gs) {g : LField} (hg : g ∈ gs) {f : Field} (h : AsComputed1 cfg g f) {v u : Val}
    (hf : Filled1 cfg C gs vs g v u) {i : String} (hi : NoSlot gs i) :
    g.usual.implies cfg i v = f.implies cfg i u := by
  cases h with
  | std f => cases hf; rfl
  | slot id bytes w c =>
    have h1 : ∀ v, (LField.slot id bytes w c).usual.implies cfg i v = .ok none := fun v =>
      implies_unseen cfg (by simp [LField.usual, fieldDeps, kindDeps]) v
    rw [h1]
    exact (h1 u).symm
  | sized id src bytes b c r hr =>
    rw [implies_unseen cfg (sized_deps_usual ▸ src_ne ha hi hg) v,
      implies_unseen cfg (sized_deps (.sized id src bytes b c r hr) ▸ src_ne ha hi hg) u]

theorem scan_filled (ha : Apart gs) {i : String} (hi : NoSlot gs i) {hs : List LField} {vs' us' : List Val}
    (hf : FilledAll cfg C gs vs hs vs' us') : (∀ g ∈ hs, g ∈ gs) → ∀ {fs : List Field}, AsComputed cfg hs fs → ∀ d,
      deriveScan cfg i (hs.map LField.usual) vs' d = deriveScan cfg i fs us' d := by
  induction hf with
  | nil => intro _ fs h d; cases h; rfl
  | @cons g v u hs vs' us' h1 _ ih =>
    intro hsub fs h d
    cases h with
    | cons h2 h3 =>
      simp only [List.map_cons, deriveScan, implies_filled ha (hsub g (by simp)) h2 h1 hi,
        ih (fun g hg => hsub g (by simp [hg])) h3]

theorem lenDerived_iff (fs : List Field) (i : String) :
    i ∈ lenDerivedIds fs ↔ ∃ f ∈ fs, ∃ id k c, f = .plain id k c ∧ k.lenTarget? = some i := by
  simp only [lenDerivedIds, List.mem_filterMap]
  constructor
  · rintro ⟨f, hf, h⟩
    cases f with
    | plain id k c => exact ⟨_, hf, id, k, c, rfl, h⟩
    | _ => cases h
  · rintro ⟨f, hf, id, k, c, rfl, h⟩
    exact ⟨_, hf, h⟩

theorem derived_filled (ha : Apart gs) {i : String} (hi : NoSlot gs i) {hs : List LField} {fs : List Field}
    (h : AsComputed cfg hs fs) (hsub : ∀ g ∈ hs, g ∈ gs) : isDerived (hs.map LField.usual) i = isDerived fs i := by
  have key : (lenDerivedIds (hs.map LField.usual)).contains i = (lenDerivedIds fs).contains i := by
    induction h with
    | nil => rfl
    | @cons g f hs fs h1 _ ih =>
      have ih := ih fun g hg => hsub g (by simp [hg])
      have e : ∀ (f : Field) (fs : List Field), lenDerivedIds (f :: fs) = lenDerivedIds [f] ++ lenDerivedIds fs := by
        intro f fs
        simp only [lenDerivedIds, List.filterMap_cons, List.filterMap_nil]
        split <;> simp
      have hh : (lenDerivedIds [g.usual]).contains i = (lenDerivedIds [f]).contains i := by
        have h0 : ∀ f : Field, i ∉ fieldDeps f → (lenDerivedIds [f]).contains i = false := by
          intro f hf
          simp only [List.contains_eq_mem, decide_eq_false_iff_not, lenDerived_iff]
          rintro ⟨f', hf', id, k, c, rfl, hk⟩
          simp only [List.mem_singleton] at hf'
          subst hf'
          exact hf (lenTarget_mem hk)
        cases h1 with
        | std f => rfl
        | slot id bytes w c => rfl
        | sized id src bytes b c r hr =>
          have hg := hsub _ (List.mem_cons_self ..)
          rw [h0 _ (sized_deps_usual ▸ src_ne ha hi hg),
            h0 _ (sized_deps (.sized id src bytes b c r hr) ▸ src_ne ha hi hg)]
      rw [List.map_cons, e, e f fs]
      simp only [List.contains_eq_mem, List.mem_append, Bool.decide_or] at hh ih ⊢
      rw [hh, ih]
  have key2 : discDerivedIds (hs.map LField.usual) = discDerivedIds fs := by
    clear key
    induction h with
    | nil => rfl
    | cons h1 _ ih =>
      have ih := ih fun g hg => hsub g (by simp [hg])
      cases h1 <;> simp only [List.map_cons, LField.usual, discDerivedIds, List.filterMap_cons] at ih ⊢ <;> rw [ih]
  simp only [isDerived, key, key2]

theorem cond_filled {hs : List LField} {fs : List Field} (h : AsComputed cfg hs fs) (i : String) :
    hasConditional (hs.map LField.usual) i = hasConditional fs i := by
  induction h with
  | nil => rfl
  | cons h1 _ ih =>
    simp only [hasConditional, List.map_cons, List.any_cons] at ih ⊢
    rw [ih]
    cases h1 <;> rfl

theorem verify_filled {i : String} {n : Nat} {env env' : Env}
    {hs : List LField} {vs' us' : List Val} (hf : FilledAll cfg C gs vs hs vs' us') :
    (∀ f, .std f ∈ hs → Agree (fieldDeps f) env env') → ∀ {fs : List Field}, AsComputed cfg hs fs →
      verifyScan env i n (hs.map LField.usual) vs' = verifyScan env' i n fs us' := by
  induction hf with
  | nil => intro _ fs h; cases h; rfl
  | @cons g v u hs vs' us' h1 _ ih =>
    intro he fs h
    cases h with
    | @cons _ f _ _ h2 h3 =>
      have hh : g.usual.condAgrees env i n v = f.condAgrees env' i n u := by
        cases h2 with
        | std f =>
          cases h1
          have h4 := he f (by simp)
          cases f with
          | maybe id k p =>
            have hp := Pred.eval_congr (p := p) (h4.mono (by simp +contextual [fieldDeps]))
            simp only [LField.usual, Field.condAgrees, hp]
          | _ => rfl
        | slot => rfl
        | sized => rfl
      simp only [List.map_cons, verifyScan, hh, ih (fun f hf => he f (by simp [hf])) h3]

/-! The slots. -/

theorem body_target (b : Body) (src : String) : (b.kind (.fromField src)).lenTarget? = some src := by
  cases b <;> rfl

theorem usual_implies (ha : Apart gs) {id : String} {bytes w : Nat} {c : Constraint}
    (hid : .slot id bytes w c ∈ gs) {g : LField} (hg : g ∈ gs) (v : Val) :
    (¬ SizedBy id g → g.usual.implies cfg id v = .ok none) ∧
    (SizedBy id g → g.usual.implies cfg id v =
      match v.size? with | some n => .ok (some n) | none => .error .illTyped) := by
  constructor
  · intro h
    refine implies_unseen cfg ?_ v
    cases g with
    | std f => exact ha.2.1 f _ _ _ _ hg hid
    | slot => simp [LField.usual, fieldDeps, kindDeps]
    | sized i src bytes b c =>
      rw [sized_deps_usual, List.mem_singleton]
      rintro rfl
      exact h ⟨_, _, _, _, rfl⟩
  · rintro ⟨i, bytes', b, c', rfl⟩
    simp only [LField.usual, Field.implies, body_target, if_true]
    cases v.size? <;> rfl

/-- The scan for a length finds the sizes of its containers. -/
theorem scan_agreed (ha : Apart gs) {id : String} {bytes w : Nat} {c : Constraint}
    (hid : .slot id bytes w c ∈ gs) {n : Nat} : ∀ (hs : List LField) (vs' : List Val), (∀ g ∈ hs, g ∈ gs) →
    hs.length = vs'.length →
    (∀ g u, (g, u) ∈ hs.zip vs' → SizedBy id g → ∃ ws, u = .seq ws ∧ ws.length = n) →
    ∀ d : Derivation, d.agreed = true → (d.seen = true → d.derived = n) →
    ∃ d', deriveScan cfg id (hs.map LField.usual) vs' d = .ok d' ∧ d'.agreed = true ∧
      (d'.seen = true → d'.derived = n) ∧ (d.seen = true ∨ (∃ g ∈ hs, SizedBy id g) → d'.seen = true) := by
  intro hs
  induction hs with
  | nil =>
    intro vs' _ _ _ d h1 h2
    refine ⟨d, by cases vs' <;> rfl, h1, h2, ?_⟩
    rintro (h | ⟨g, hg, _⟩)
    · exact h
    · simp at hg
  | cons g hs ih =>
    intro vs' hsub hl hn d h1 h2
    cases vs' with
    | nil => simp at hl
    | cons v vs' =>
      obtain ⟨e1, e2⟩ := usual_implies (cfg := cfg) ha hid (hsub g (by simp)) v
      have ih := ih vs' (fun g hg => hsub g (by simp [hg])) (by simpa using hl)
        (fun g u hm => hn g u (by simp [hm]))
      by_cases hs' : SizedBy id g
      · obtain ⟨ws, rfl, hw⟩ := hn g v (by simp) hs'
        have e3 := e2 hs'
        simp only [Val.size?] at e3
        obtain ⟨d', h3, h4, h5, h6⟩ := ih (d.record ws.length)
          (by
            simp only [Derivation.record]
            split
            · rename_i h
              simp only [Bool.and_eq_true, decide_eq_true_eq, ne_eq] at h
              exact absurd (by rw [h2 h.1, hw]) h.2
            · exact h1)
          (fun _ => hw)
        refine ⟨d', ?_, h4, h5, fun _ => h6 (.inl rfl)⟩
        simp only [List.map_cons, deriveScan, e3, h3]
      · obtain ⟨d', h3, h4, h5, h6⟩ := ih d h1 h2
        refine ⟨d', ?_, h4, h5, ?_⟩
        · simp only [List.map_cons, deriveScan, e1 hs', h3]
        · rintro (h | ⟨g', hg', h⟩)
          · exact h6 (.inl h)
          · rcases List.mem_cons.1 hg' with rfl | hg'
            · exact absurd h hs'
            · exact h6 (.inr ⟨g', hg', h⟩)

theorem agreed_scan (ha : Apart gs) {id : String} {bytes w : Nat} {c : Constraint}
    (hid : .slot id bytes w c ∈ gs) : ∀ (hs : List LField) (vs' : List Val), (∀ g ∈ hs, g ∈ gs) →
    ∀ d d' : Derivation, deriveScan cfg id (hs.map LField.usual) vs' d = .ok d' → d'.agreed = true →
    d.agreed = true ∧ (d.seen = true → d.derived = d'.derived) ∧
    ∀ g u, (g, u) ∈ hs.zip vs' → SizedBy id g → ∃ ws, u = .seq ws ∧ ws.length = d'.derived := by
  intro hs
  induction hs with
  | nil =>
    intro vs' _ d d' h h1
    have : d' = d := by cases vs' <;> (simp only [List.map_nil, deriveScan] at h; cases h; rfl)
    subst this
    exact ⟨h1, fun _ => rfl, fun g u hm => by simp at hm⟩
  | cons g hs ih =>
    intro vs' hsub d d' h h1
    cases vs' with
    | nil =>
      simp only [List.map_cons, deriveScan] at h
      cases h
      exact ⟨h1, fun _ => rfl, fun g u hm => by simp at hm⟩
    | cons v vs' =>
      obtain ⟨e1, e2⟩ := usual_implies (cfg := cfg) ha hid (hsub g (by simp)) v
      by_cases hs' : SizedBy id g
      · cases hv : v.size? with
        | none =>
          rw [hv] at e2
          simp only [List.map_cons, deriveScan, e2 hs'] at h
          cases h
        | some m =>
          rw [hv] at e2
          simp only [List.map_cons, deriveScan, e2 hs'] at h
          obtain ⟨h2, h3, h4⟩ := ih vs' (fun g hg => hsub g (by simp [hg])) _ _ h h1
          have h5 : m = d'.derived := h3 rfl
          obtain ⟨ws, rfl, hw⟩ : ∃ ws, v = .seq ws ∧ ws.length = m := by
            cases v <;> simp only [Val.size?, Option.some.injEq, reduceCtorEq] at hv
            exact ⟨_, rfl, hv⟩
          simp only [Derivation.record] at h2
          split at h2
          · cases h2
          · rename_i h6
            refine ⟨h2, fun hd => ?_, fun g' u hm hg' => ?_⟩
            · simp only [hd, Bool.true_and, decide_eq_true_eq, ne_eq, Decidable.not_not] at h6
              omega
            · simp only [List.zip_cons_cons, List.mem_cons, Prod.mk.injEq] at hm
              rcases hm with ⟨rfl, rfl⟩ | hm
              · exact ⟨ws, rfl, by omega⟩
              · exact h4 g' u hm hg'
      · simp only [List.map_cons, deriveScan, e1 hs'] at h
        obtain ⟨h2, h3, h4⟩ := ih vs' (fun g hg => hsub g (by simp [hg])) _ _ h h1
        refine ⟨h2, h3, fun g' u hm hg' => ?_⟩
        simp only [List.zip_cons_cons, List.mem_cons, Prod.mk.injEq] at hm
        rcases hm with ⟨rfl, rfl⟩ | hm
        · exact absurd hg' hs'
        · exact h4 g' u hm hg'

theorem slot_cond (ha : Apart gs) {id : String} {bytes w : Nat} {c : Constraint}
    (hid : .slot id bytes w c ∈ gs) : hasConditional (gs.map LField.usual) id = false := by
  simp only [hasConditional, List.any_map, List.any_eq_false, Function.comp]
  intro g hg
  cases g with
  | std f => simp [LField.usual, condTargets_unseen (ha.2.1 f _ _ _ _ hg hid)]
  | slot => simp [LField.usual, Field.condTargets]
  | sized => simp [LField.usual, Field.condTargets]

theorem slot_derived (ha : Apart gs) {id : String} {bytes w : Nat} {c : Constraint}
    (hid : .slot id bytes w c ∈ gs) : isDerived (gs.map LField.usual) id = true ↔ ∃ g ∈ gs, SizedBy id g := by
  have h2 : (discDerivedIds (gs.map LField.usual)).contains id = false := by
    simp only [List.contains_eq_mem, decide_eq_false_iff_not, discDerivedIds, List.mem_filterMap,
      List.mem_map, not_exists, not_and]
    rintro f ⟨g, hg, rfl⟩ hm
    cases g with
    | std f =>
      refine ha.2.1 f _ _ _ _ hg hid ?_
      cases f with
      | union i d alts c =>
        cases d with
        | matchField j t ls =>
          simp only [LField.usual, Option.some.injEq] at hm
          simp [fieldDeps, deducerDeps, hm]
        | _ => cases hm
      | _ => cases hm
    | slot => cases hm
    | sized => cases hm
  simp only [isDerived, h2, Bool.or_false, List.contains_eq_mem, decide_eq_true_eq, lenDerived_iff, List.mem_map]
  constructor
  · rintro ⟨f, ⟨g, hg, rfl⟩, i, k, c', he, hk⟩
    refine ⟨g, hg, ?_⟩
    cases g with
    | std f =>
      simp only [LField.usual] at he
      subst he
      exact absurd (lenTarget_mem hk) (ha.2.1 _ _ _ _ _ hg hid)
    | slot =>
      simp only [LField.usual] at he
      cases he
      cases hk
    | sized i src bytes b c =>
      simp only [LField.usual] at he
      cases he
      rw [body_target] at hk
      cases hk
      exact ⟨_, _, _, _, rfl⟩
  · rintro ⟨g, hg, i, bytes', b, c', rfl⟩
    exact ⟨_, ⟨_, hg, rfl⟩, i, _, c', rfl, body_target b id⟩

theorem computed_free (ha : Apart gs) {fs : List Field} (h : AsComputed cfg gs fs) {id : String} {bytes w : Nat}
    {c : Constraint} (hid : .slot id bytes w c ∈ gs) : isDerived fs id = false ∧ hasConditional fs id = false := by
  refine ⟨?_, cond_filled h id ▸ slot_cond ha hid⟩
  have key : ∀ hs fs, AsComputed cfg hs fs → (∀ g ∈ hs, g ∈ gs) → isDerived fs id = false := by
    intro hs fs h
    induction h with
    | nil => intro _; rfl
    | @cons g f hs fs h1 _ ih =>
      intro hsub
      have ih := ih fun g hg => hsub g (by simp [hg])
      have hg := hsub g (by simp)
      simp only [isDerived, Bool.or_eq_false_iff, List.contains_eq_mem, decide_eq_false_iff_not] at ih ⊢
      cases h1 with
      | std f =>
        have hn := ha.2.1 f _ _ _ _ hg hid
        have := isDerived_drop id [] [f] fs (by simpa using hn)
        simp only [List.nil_append, List.singleton_append] at this
        have h3 : isDerived fs id = false := by
          simp only [isDerived, Bool.or_eq_false_iff, List.contains_eq_mem, decide_eq_false_iff_not]; exact ih
        rw [h3] at this
        simpa only [isDerived, Bool.or_eq_false_iff, List.contains_eq_mem, decide_eq_false_iff_not] using this
      | slot => simpa only [lenDerivedIds, discDerivedIds, List.filterMap_cons, Kind.lenTarget?, Kind.lenSpec?] using ih
      | sized i src bytes b c r hr =>
        cases b <;>
          simpa only [lenDerivedIds, discDerivedIds, List.filterMap_cons, Kind.lenTarget?, Kind.lenSpec?, Body.kind] using ih
  exact key gs fs h fun _ h => h

theorem fits_iff {bytes w n : Nat} (hb : bytes = 4 ∨ bytes = 8) :
    floatFits C cfg bytes w n = .ok true ↔ Fits cfg bytes w n := by
  have h1 : n >>> (w * 8) ≠ 0 ↔ ¬ n < 256 ^ w := by
    rw [Nat.shiftRight_eq_div_pow, show 256 ^ w = 2 ^ (w * 8) by
      rw [Nat.mul_comm, Nat.pow_mul], Ne, Nat.div_eq_zero_iff]
    have := Nat.two_pow_pos (w * 8)
    omega
  unfold floatFits Fits
  rw [← converts_back C hb]
  split
  · rename_i h
    simp only [Except.ok.injEq, Bool.false_eq_true, false_iff, not_and]
    exact fun h2 => absurd (h2 h.1) (h1.1 h.2)
  · rename_i h
    rw [and_iff_right (fun h2 => Decidable.byContradiction fun h3 => h ⟨h2, h1.2 h3⟩)]
    cases hl : asLength cfg bytes (C.bits bytes n) with
    | error e => simp [Except.map]
    | ok m => simp [Except.map]

theorem slot_env {hs : List LField} {vs' us' : List Val} (hf : FilledAll cfg C gs vs hs vs' us') :
    ∀ {fs : List Field}, AsComputed cfg hs fs → (hs.map fun g => g.usual.id).Nodup →
    ∀ {id : String} {bytes w : Nat} {c : Constraint}, .slot id bytes w c ∈ hs → (∃ g ∈ gs, SizedBy id g) →
    ∃ n, envOf fs us' id = some (.int (C.bits bytes n)) ∧ Fits cfg bytes w n ∧
      ∀ g u, (g, u) ∈ gs.zip vs → SizedBy id g → ∃ ws, u = .seq ws ∧ ws.length = n := by
  induction hf with
  | nil => intro fs _ _ id bytes w c h; simp at h
  | @cons g v u hs vs' us' h1 _ ih =>
    intro fs h hn id bytes w c hm hex
    cases h with
    | @cons _ f _ fs h2 h3 =>
      simp only [List.map_cons, List.nodup_cons] at hn
      rcases List.mem_cons.1 hm with rfl | hm
      · cases h1 with
        | free _ _ _ _ _ hno =>
          obtain ⟨g, hg, h⟩ := hex
          exact absurd h (hno g hg)
        | slot _ _ _ _ _ n _ h4 h5 h6 =>
          refine ⟨n, ?_, h5, h4⟩
          have e : id = f.id := (usual_id h2).symm
          simp only [envOf, Env.set, ← e, if_true]
      · obtain ⟨n, h4, h5⟩ := ih h3 hn.2 hm hex
        refine ⟨n, ?_, h5⟩
        have hne : id ≠ f.id := by
          rw [usual_id h2]
          rintro rfl
          exact hn.1 (List.mem_map.2 ⟨_, hm, rfl⟩)
        simp only [envOf, Env.set, if_neg hne, h4]

theorem noSlot_of {g : LField} (hn : (gs.map fun g => g.usual.id).Nodup) (hg : g ∈ gs)
    (h : ∀ id bytes w c, g ≠ .slot id bytes w c) : NoSlot gs g.usual.id := by
  intro id bytes w c hm he
  refine h id bytes w c ?_
  clear h
  induction gs with
  | nil => simp at hg
  | cons a gs ih =>
    simp only [List.map_cons, List.nodup_cons] at hn
    rcases List.mem_cons.1 hg with rfl | hg1
    · rcases List.mem_cons.1 hm with rfl | hm1
      · rfl
      · exact absurd (List.mem_map.2 ⟨_, hm1, he⟩) hn.1
    · rcases List.mem_cons.1 hm with rfl | hm1
      · exact absurd (List.mem_map.2 ⟨g, hg1, he.symm⟩) hn.1
      · exact ih hn.2 hg1 hm1

theorem nodup_eq {g g' : LField} (hn : (gs.map fun g => g.usual.id).Nodup) (hg : g ∈ gs) (hg' : g' ∈ gs)
    (h : g.usual.id = g'.usual.id) : g = g' := by
  induction gs with
  | nil => simp at hg
  | cons a gs ih =>
    simp only [List.map_cons, List.nodup_cons] at hn
    rcases List.mem_cons.1 hg with rfl | hg1
    · rcases List.mem_cons.1 hg' with rfl | hm1
      · rfl
      · exact absurd (List.mem_map.2 ⟨g', hm1, h.symm⟩) hn.1
    · rcases List.mem_cons.1 hg' with rfl | hm1
      · exact absurd (List.mem_map.2 ⟨g, hg1, h⟩) hn.1
      · exact ih hn.2 hg1 hm1

theorem filled_length {hs : List LField} {vs' us' : List Val} (hf : FilledAll cfg C gs vs hs vs' us') :
    hs.length = vs'.length := by
  induction hf with
  | nil => rfl
  | cons _ _ ih => simp [ih]

theorem not_frozen (ha : Apart gs) {id : String} {bytes w : Nat} {c : Constraint} (hid : .slot id bytes w c ∈ gs) :
    frozenVal (.num (.int bytes false) w) c = none := by
  have h := (ha.2.2.2 _ _ _ _ hid).2
  have h1 := frozen_of_const (k := .num (.int bytes false) w) (c := c)
  rw [h] at h1
  simpa using h1

/-- What the writer derives for a length. -/
theorem derive_filled (ha : Apart gs) (hl : gs.length = vs.length) {id : String} {bytes w : Nat} {c : Constraint}
    (hid : .slot id bytes w c ∈ gs) {n : Nat} (hex : ∃ g ∈ gs, SizedBy id g)
    (hd : ∀ g u, (g, u) ∈ gs.zip vs → SizedBy id g → ∃ ws, u = .seq ws ∧ ws.length = n)
    (hfit : Fits cfg bytes w n) :
    deriveFloat C cfg (gs.map LField.usual) vs id bytes w = .ok (.ok (C.bits bytes n)) := by
  obtain ⟨d, h1, h2, h3, h4⟩ := scan_agreed (cfg := cfg) ha hid gs vs (fun _ h => h) hl hd {} rfl (by simp)
  have h5 := h3 (h4 (.inr hex))
  simp only [deriveFloat, h1, h2, h5, (fits_iff (ha.2.2.2 _ _ _ _ hid).1).2 hfit]
  rfl

/-- C162, writing: if the lengths can be written, the program is that of the list with computed
lengths, for the struct with the lengths filled in. -/
theorem C162_write (ha : Apart gs) {fs : List Field} (hc : AsComputed cfg gs fs) {us : List Val}
    (hf : Filled cfg C gs vs us) : streamCastLens C cfg gs vs = streamCast cfg fs us := by
  have hl := filled_length hf
  have henv := env_filled hf hc
  have main : ∀ hs vs' us' fs', FilledAll cfg C gs vs hs vs' us' → AsComputed cfg hs fs' → (∀ g ∈ hs, g ∈ gs) →
      (∀ g v, (g, v) ∈ hs.zip vs' → (g, v) ∈ gs.zip vs) →
      writeLens C cfg ⟨gs.map LField.usual, vs⟩ hs vs' = writeFields cfg ⟨fs, us⟩ fs' us' := by
    intro hs vs' us' fs' hf'
    induction hf' generalizing fs' with
    | nil => intro h _ _; cases h; simp only [writeLens, writeFields]
    | @cons g v u hs vs' us' h1 _ ih =>
      intro h hsub hz
      cases h with
      | @cons _ f _ fs' h2 h3 =>
        have ih := ih fs' h3 (fun g hg => hsub g (by simp [hg])) (fun g v hm => hz g v (by simp [hm]))
        have hg := hsub g (by simp)
        rw [writeLens, writeFields, ih]
        congr 1
        cases h2 with
        | std f =>
          cases h1
          have hns : NoSlot gs f.id := noSlot_of ha.1 hg fun _ _ _ _ h => by cases h
          have hdeps : ∀ f, .std f ∈ gs → Agree (fieldDeps f) (envOf (gs.map LField.usual) vs) (envOf fs us) := by
            intro f hfm i hi
            refine henv i fun id bytes w c hm => ?_
            rintro rfl
            exact ha.2.1 f _ _ _ _ hfm hm hi
          have hsame : SameTo cfg [f] ⟨gs.map LField.usual, vs⟩ ⟨fs, us⟩ := by
            refine ⟨?_, ?_, ?_, ?_, ?_⟩ <;> simp only [List.mem_singleton, forall_eq]
            · exact hdeps f hg
            · exact derived_filled ha hns hc fun _ h => h
            · intro t w
              simp only [deriveValue, scan_filled ha hns hf (fun _ h => h) hc]
            · exact cond_filled hc _
            · exact fun n => verify_filled hf hdeps hc
          simp only [LField.usual, writeLens1, hsame.field (List.mem_singleton_self f),
            hsame.derived f (List.mem_singleton_self f)]
        | slot id bytes w c =>
          obtain ⟨e1, e2⟩ := computed_free ha hc hg
          have e3 := not_frozen ha hg
          have e4 := slot_cond ha hg
          have hv : ∀ x, verifyThenWriteFloat cfg ⟨gs.map LField.usual, vs⟩ id bytes w x =
              writeNum cfg (.int bytes false) w x := by
            intro x; simp [verifyThenWriteFloat, e4]
          have hw : ∀ v, writeField cfg ⟨fs, us⟩ (.plain id (.num (.int bytes false) w) c) v =
              emitFixed cfg (.num (.int bytes false) w) v := by
            intro v
            simp [writeField, writeKind, writeFixed, e1, e2, e3, verifyThenWrite]
          simp only [LField.usual, Field.id, Field.isFrozen, Field.constraint, e1, e3, hw, writeLens1,
            Option.isSome_none, Bool.or_false, Bool.false_eq_true, if_false]
          cases h1 with
          | free _ _ _ _ _ hno =>
            have e5 : isDerived (gs.map LField.usual) id = false := by
              rw [Bool.eq_false_iff]
              exact fun h => by
                obtain ⟨g, hg', h⟩ := (slot_derived ha hg).1 h
                exact hno g hg' h
            simp only [e5, Bool.false_eq_true, if_false, writeSlot, e3, Option.getD_none]
            congr 2
            cases v <;> simp only [emitFixed, hv]
          | slot _ _ _ _ _ n hex hd hfit hck =>
            have e5 := (slot_derived ha hg).2 hex
            simp only [e5, if_true, writeSlot, derive_filled ha hl hg hex hd hfit, hv, WrE.checked, emitFixed]
            show WrE.tag id ((WrE.lift (c.check (.int (C.bits bytes n)))).andThen _) = _
            rw [hck]
        | sized id src bytes b c r hr =>
          cases h1
          have hns : NoSlot gs id := noSlot_of ha.1 hg fun _ _ _ _ h => by cases h
          have e1 := derived_filled ha hns hc fun _ h => h
          have e2 : ∀ l : LenSpec, (Field.plain id (b.kind l) c).isFrozen = false := by
            intro l; cases b <;> rfl
          obtain ⟨w, c', hsl⟩ := ha.2.2.1 _ _ _ _ _ hg
          obtain ⟨n, h4, h5, h6⟩ := slot_env hf hc ha.1 hsl ⟨_, hg, _, _, _, _, rfl⟩
          obtain ⟨ws, rfl, hws⟩ := h6 (.sized id src bytes b c) v (hz _ v (by simp)) ⟨_, _, _, _, rfl⟩
          have h7 := (converts_back C (ha.2.2.2 _ _ _ _ hsl).1).2 h5.2
          have h8 : LenSpec.eval cfg (WCtx.env ⟨fs, us⟩) (.computed r) = .ok n := by
            refine computed_eval hr ?_
            simp only [lengthIn, WCtx.env, h4, h7]
          have h9 : writeKind cfg ⟨gs.map LField.usual, vs⟩ true id c (b.kind (.fromField src)) (.seq ws) =
              writeKind cfg ⟨fs, us⟩ true id c (b.kind (.computed r)) (.seq ws) := by
            cases b <;>
              simp only [Body.kind, writeKind, verifyComputed, h8, hws] <;> simp [WrE.lift, WrE.ok, WrE.andThen, Wr.bind]
          simp only [LField.usual, Field.id, e1, e2, Field.constraint, writeLens1, writeField, h9]
  exact main gs vs us fs hf hc (fun _ h => h) fun _ _ h => h

/-- C162, refusing: if they cannot be written, the struct is not. -/
theorem C162_refused (S : OutStream) (ha : Apart gs) (s s' : S.State)
    (h : (streamCastLens C cfg gs vs).runOn S s = (.done (.ok ()), s')) : ∃ us, Filled cfg C gs vs us := by
  have main : ∀ hs vs' s, (∀ g ∈ hs, g ∈ gs) →
      (writeLens C cfg ⟨gs.map LField.usual, vs⟩ hs vs').runOn S s = (.done (.ok ()), s') →
      ∃ us', FilledAll cfg C gs vs hs vs' us' := by
    intro hs
    induction hs with
    | nil =>
      intro vs' s _ h
      cases vs' with
      | nil => exact ⟨[], .nil⟩
      | cons v vs' => simp only [writeLens, Wr.runOn] at h; cases h
    | cons g hs ih =>
      intro vs' s hsub h
      cases vs' with
      | nil => simp only [writeLens, Wr.runOn] at h; cases h
      | cons v vs' =>
        rw [writeLens, andThen_ok] at h
        obtain ⟨s1, h1, h2⟩ := h
        obtain ⟨us', h3⟩ := ih vs' s1 (fun g hg => hsub g (by simp [hg])) h2
        have hg := hsub g (by simp)
        rw [tag_ok] at h1
        suffices h4 : ∃ u, Filled1 cfg C gs vs g v u from ⟨h4.choose :: us', .cons h4.choose_spec h3⟩
        cases g with
        | std f => exact ⟨v, .std f v⟩
        | sized => exact ⟨v, .sized ..⟩
        | slot id bytes w c =>
          by_cases hex : ∃ g ∈ gs, SizedBy id g
          · have e5 := (slot_derived ha hg).2 hex
            simp only [LField.usual, Field.id, e5, Bool.true_or, if_true, writeLens1, writeSlot, deriveFloat] at h1
            cases hd : deriveScan cfg id (gs.map LField.usual) vs {} with
            | error e => rw [hd] at h1; cases h1
            | ok d =>
              simp only [hd] at h1
              cases hag : d.agreed with
              | false => simp only [hag] at h1; cases h1
              | true =>
                simp only [hag] at h1
                cases hff : floatFits C cfg bytes w d.derived with
                | error e => simp only [hff] at h1; cases h1
                | ok b =>
                  cases b with
                  | false => simp only [hff] at h1; cases h1
                  | true =>
                    simp only [hff] at h1
                    have h4 := (agreed_scan (cfg := cfg) ha hg gs vs (fun _ h => h) _ _ hd hag).2.2
                    cases hck : c.check (.int (C.bits bytes d.derived)) with
                    | error e =>
                      simp only [Bool.not_true, Bool.false_eq_true, if_false, WrE.lift, WrE.ok, WrE.andThen, Wr.bind, hck] at h1
                      cases h1
                    | ok b =>
                      cases b with
                      | false =>
                        simp only [Bool.not_true, Bool.false_eq_true, if_false, WrE.lift, WrE.ok, WrE.andThen, Wr.bind, hck] at h1
                        cases h1
                      | true =>
                        exact ⟨_, .slot id bytes w c v d.derived hex h4
                          ((fits_iff (ha.2.2.2 _ _ _ _ hg).1).1 hff) hck⟩
          · exact ⟨v, .free id bytes w c v fun g hg h => hex ⟨g, hg, h⟩⟩
  exact main gs vs s (fun _ h => h) h

theorem lengths_filled (ha : Apart gs) {fs : List Field} (hc : AsComputed cfg gs fs) (us : List Val)
    {hs : List LField} {vs' us' : List Val} (hf : FilledAll cfg C gs vs hs vs' us') :
    ∀ {fs' : List Field}, AsComputed cfg hs fs' → (∀ g ∈ hs, g ∈ gs) → ∀ {seen : List String} {env : Env},
    earlierFields seen fs' = true →
    (∀ i ∈ seen, ∀ bytes w c, .slot i bytes w c ∈ gs → (∃ g ∈ gs, SizedBy i g) →
      ∃ x n, env i = some (.int x) ∧ IsLength cfg bytes x n) →
    Lengths cfg env hs (settleFields fs us fs' us') := by
  induction hf with
  | nil => intro fs' h _ seen env _ _; cases h; simp only [settleFields, Lengths]
  | @cons g v u hs vs' us' h1 _ ih =>
    intro fs' h hsub seen env he hs1
    cases h with
    | @cons _ f _ fs' h2 h3 =>
      simp only [earlierFields, Bool.and_eq_true] at he
      have hg := hsub g (by simp)
      have hset : ∀ i ∈ seen ++ [f.id], ∀ bytes w c, .slot i bytes w c ∈ gs → (∃ g ∈ gs, SizedBy i g) →
          ∃ x n, (env.set g.usual.id (settleField fs us f u)) i = some (.int x) ∧ IsLength cfg bytes x n := by
        intro i hi bytes w c hsl hex
        by_cases hii : i = g.usual.id
        · have hgs : g = .slot i bytes w c := by
            cases g with
            | std f => exact absurd hii (noSlot_of ha.1 hg (fun _ _ _ _ h => by cases h) i _ _ _ hsl)
            | sized => exact absurd hii (noSlot_of ha.1 hg (fun _ _ _ _ h => by cases h) i _ _ _ hsl)
            | slot id bytes' w' c' =>
              have hii : i = id := hii
              subst hii
              exact nodup_eq ha.1 hg hsl rfl
          subst hgs
          cases h2
          have e1 : isSlot fs i = false := by rw [← isDerived_eq]; exact (computed_free ha hc hg).1
          have e2 := (ha.2.2.2 _ _ _ _ hg).2
          cases h1 with
          | free _ _ _ _ _ hno => obtain ⟨g, hg, h⟩ := hex; exact absurd h (hno g hg)
          | slot _ _ _ _ _ n _ _ h5 _ =>
            refine ⟨C.bits bytes n, n, ?_, asLength_ok.1 ((converts_back C (ha.2.2.2 _ _ _ _ hg).1).2 h5.2)⟩
            simp [Env.set, LField.usual, Field.id, settleField, e1, e2, settleKind]
        · have hi : i ∈ seen := by
            rcases List.mem_append.1 hi with h | h
            · exact h
            · rw [List.mem_singleton, usual_id h2] at h; exact absurd h hii
          simp only [Env.set, if_neg hii]
          exact hs1 i hi bytes w c hsl hex
      have ih := ih h3 (fun g hg => hsub g (by simp [hg])) he.2 hset
      rw [settleFields]
      cases g with
      | std f => simpa only [Lengths] using ih
      | slot => simpa only [Lengths] using ih
      | sized id src bytes b c =>
        simp only [Lengths]
        refine ⟨?_, ih⟩
        obtain ⟨w, c', hsl⟩ := ha.2.2.1 _ _ _ _ _ hg
        refine hs1 src ?_ bytes w c' hsl ⟨_, hg, _, _, _, _, rfl⟩
        have h4 := he.1.1
        rw [List.all_eq_true] at h4
        cases h2 with
        | sized _ _ _ _ _ r hr =>
          have h5 := h4 src (by simp [fieldDeps, bodyDeps, lenDeps, hr.1])
          simpa using h5

/-- C162, there and back: what was written is read back with the lengths filled in. -/
theorem C162_round (ha : Apart gs) {fs : List Field} (hc : AsComputed cfg gs fs) (hsc : SelfConsistent cfg fs)
    {us : List Val} (hf : Filled cfg C gs vs us) (hst : Storable cfg fs us) (p : List Byte)
    (h : (streamCastLens C cfg gs vs).run = (.done (.ok ()), p)) (rest : List Byte) :
    (structCastLens cfg gs).run (p ++ rest) = (.done (.ok (settle fs us)), rest) := by
  rw [C162_write ha hc hf] at h
  refine (C162_read cfg listIn gs fs hc _ _ _).2 ⟨C45_round_trip cfg fs hsc us hst p h rest, ?_⟩
  exact lengths_filled ha hc us hf hc (fun _ h => h) hsc.1.2.2 fun i hi => absurd hi (by simp)

/-- C162, sizes: a container whose size the floating-point type has not is never written. -/
theorem C162_too_many (S : OutStream) (ha : Apart gs) {id src : String} {bytes : Nat} {b : Body} {c : Constraint}
    {ws : List Val} (hg : (.sized id src bytes b c, .seq ws) ∈ gs.zip vs) (hn : ¬ HasNumber bytes ws.length)
    (s s' : S.State) : (streamCastLens C cfg gs vs).runOn S s ≠ (.done (.ok ()), s') := by
  intro h
  obtain ⟨us, hf⟩ := C162_refused S ha s s' h
  have hm := (List.of_mem_zip hg).1
  obtain ⟨w, c', hsl⟩ := ha.2.2.1 _ _ _ _ _ hm
  have key : ∀ {hs vs' us'}, FilledAll cfg C gs vs hs vs' us' → .slot src bytes w c' ∈ hs → HasNumber bytes ws.length := by
    intro hs vs' us' hf
    induction hf with
    | nil => intro h; simp at h
    | @cons g v u hs vs' us' h1 _ ih =>
      intro h
      rcases List.mem_cons.1 h with rfl | h
      · cases h1 with
        | free _ _ _ _ _ hno => exact absurd ⟨_, _, _, _, rfl⟩ (hno _ hm)
        | slot _ _ _ _ _ n _ h4 h5 _ =>
          obtain ⟨ws', h6, h7⟩ := h4 _ _ hg ⟨_, _, _, _, rfl⟩
          cases h6
          rw [h7]
          exact h5.2.1
      · exact ih h
  exact hn (key hf hsl)

/-- C162, which sizes those are: a `float` of its own size says every size up to 2^24, a `double`
every one up to 2^53, and not the next. -/
theorem C162_sizes (n : Nat) (hn : n < 256 ^ cfg.szBytes) :
    (n ≤ 2 ^ 24 → Fits cfg 4 4 n) ∧ (n ≤ 2 ^ 53 → Fits cfg 8 8 n) ∧
      ¬ Fits cfg 4 4 (2 ^ 24 + 1) ∧ ¬ Fits cfg 8 8 (2 ^ 53 + 1) := by
  refine ⟨fun h => ⟨fun _ => ?_, (small_sizes n).1 h, hn⟩, fun h => ⟨fun _ => ?_, (small_sizes n).2 h, hn⟩,
    fun h => next_size.1 h.2.1, fun h => next_size.2 h.2.1⟩
  · exact Nat.lt_of_le_of_lt h (by decide)
  · exact Nat.lt_of_le_of_lt h (by decide)
end

/-! ### A list with such a length -/

/-- One callable that drops the fraction. -/
def dropping (cfg : Cfg) (src : String) (bytes : Nat) : Calc :=
  ⟨[src], fun
    | [.int x] => match asLength cfg bytes x with
      | .ok n => n
      | .error _ => 0
    | _ => 0⟩

theorem drops (cfg : Cfg) (src : String) (bytes : Nat) : Drops cfg src bytes (dropping cfg src bytes) :=
  ⟨rfl, fun x n h => by simp only [dropping, asLength_ok.2 h]⟩

def computed1 (cfg : Cfg) : LField → Field
  | .std f => f
  | .slot id bytes w c => .plain id (.num (.int bytes false) w) c
  | .sized id src bytes b c => .plain id (b.kind (.computed (dropping cfg src bytes))) c

/-- C162, every list: there is a list with computed lengths for each. -/
theorem C162_computed (cfg : Cfg) (gs : List LField) : AsComputed cfg gs (gs.map (computed1 cfg)) := by
  induction gs with
  | nil => exact .nil
  | cons g gs ih =>
    refine .cons ?_ ih
    cases g with
    | std f => exact .std f
    | slot id bytes w c => exact .slot ..
    | sized id src bytes b c => exact .sized _ _ _ _ _ _ (drops ..)

theorem real_mod {n : Nat} (hn : n = 4 ∨ n = 8) (x : Nat) : (formatOf n).real (x % 256 ^ n) = (formatOf n).real x := by
  rcases hn with rfl | rfl
  · have h1 : x % 256 ^ 4 / 2 ^ 23 % 2 ^ 8 = x / 2 ^ 23 % 2 ^ 8 := by omega
    have h2 : x % 256 ^ 4 % 2 ^ 23 = x % 2 ^ 23 := by omega
    have h3 : x % 256 ^ 4 / 2 ^ 31 % 2 = x / 2 ^ 31 % 2 := by omega
    simp only [formatOf, if_true, binary32, Format.real, Format.expField, Format.mantField, Format.magnitude,
      Format.neg, h1, h2, h3]
  · have h1 : x % 256 ^ 8 / 2 ^ 52 % 2 ^ 11 = x / 2 ^ 52 % 2 ^ 11 := by omega
    have h2 : x % 256 ^ 8 % 2 ^ 52 = x % 2 ^ 52 := by omega
    have h3 : x % 256 ^ 8 / 2 ^ 63 % 2 = x / 2 ^ 63 % 2 := by omega
    simp only [formatOf, show (8 : Nat) ≠ 4 by decide, if_false, binary64, Format.real, Format.expField,
      Format.mantField, Format.magnitude, Format.neg, h1, h2, h3]

/-- However an implementation rounds, it has a conversion of sizes to floating-point numbers. -/
theorem C162_converts (R : Rounding) : Nonempty (FloatOf R) := by
  refine ⟨⟨fun n v => ((R.number n (v * one)).2.choose.toNat % 256 ^ n : Nat), fun n v hn => ?_, fun n v hn => ?_⟩⟩
  · refine Eq.trans ?_ (R.number n (v * one)).2.choose_spec
    simp only [real, Int.toNat_natCast, real_mod hn]
  · simp only [ScalarTy.InRange]
    have : (R.number n (v * one)).2.choose.toNat % 256 ^ n < 256 ^ n :=
      Nat.mod_lt _ (Nat.pow_pos (by decide))
    omega

/-- The bits of a size that the type has. -/
theorem size_bits {R : Rounding} (C : FloatOf R) {n v x : Nat} (hn : n = 4 ∨ n = 8) (hx : x < 256 ^ n)
    (hr : real n x = .fin (v * one)) (hp : 0 < signedBits n x) : C.bits n v = x := by
  have h1 := C.is n v hn
  rw [to_number R hr] at h1
  obtain ⟨h2, h3⟩ := C.inRange n v hn
  obtain ⟨y, hy⟩ : ∃ y : Nat, C.bits n v = y := ⟨(C.bits n v).toNat, by omega⟩
  rw [hy] at h1 h3 ⊢
  have h4 := cmp_signed hn (x := y) (k := x) (by omega) hx
  rw [h1, hr] at h4
  simp only [Real.cmp] at h4
  split at h4
  · cases h4
  · have h5 : compare (signedBits n y) (signedBits n x) = .eq := by
      rw [← Option.some.inj h4, Int.compare_eq_eq]
    rw [Int.compare_eq_eq] at h5
    rw [← h5] at hp
    unfold signedBits unsignedBits at h5 hp
    rcases hn with rfl | rfl <;> grind

/-- A length that is a `float`, declared with so many bytes, and that many numbers. -/
def floatCounted (w : Nat) : List LField :=
  [.slot "n" 4 w .none, .sized "xs" "n" 4 (.vec (.scalar u16) none) .none]

theorem floatCounted_apart (w : Nat) : Apart (floatCounted w) := by
  simp [Apart, floatCounted, LField.usual, Field.id]
  refine ⟨?_, ?_⟩
  · rintro _ _ _ _ _ rfl rfl rfl rfl rfl
    exact ⟨rfl, rfl⟩
  · rintro _ _ _ _ rfl rfl rfl rfl
    exact ⟨.inl rfl, rfl⟩

theorem float_three {R : Rounding} (C : FloatOf R) : C.bits 4 3 = 0x40400000 :=
  size_bits C (.inl rfl) (by decide) (by decide +kernel) (by decide)

theorem floatCounted_filled {R : Rounding} (C : FloatOf R) (v : Val) :
    Filled le64 C (floatCounted 4) [v, .seq [.int 7, .int 8, .int 9]] [.int 0x40400000, .seq [.int 7, .int 8, .int 9]] := by
  rw [← float_three C]
  refine .cons (.slot _ _ _ _ _ 3 ⟨_, List.mem_cons_of_mem _ (List.mem_singleton_self _), _, _, _, _, rfl⟩ ?_ ((C162_sizes 3 (by decide)).1 (by decide)) rfl)
    (.cons (.sized ..) .nil)
  intro g u hg h
  simp only [floatCounted, List.zip_cons_cons, List.zip_nil_left, List.mem_cons, Prod.mk.injEq, List.not_mem_nil,
    or_false] at hg
  rcases hg with ⟨rfl, rfl⟩ | ⟨rfl, rfl⟩
  · obtain ⟨_, _, _, _, h⟩ := h; cases h
  · exact ⟨_, rfl, rfl⟩

set_option exponentiation.threshold 2000

/-- Three numbers are written after `3.0f`, whatever the length was before, and read back. -/
example {R : Rounding} (C : FloatOf R) (v : Val) :
    (streamCastLens C le64 (floatCounted 4) [v, .seq [.int 7, .int 8, .int 9]]).run =
      (.done (.ok ()), [0, 0, 0x40, 0x40, 7, 0, 8, 0, 9, 0]) := by
  rw [C162_write (floatCounted_apart 4) (C162_computed ..) (floatCounted_filled C v)]
  rfl

example (rest : List Byte) : (structCastLens le64 (floatCounted 4)).run ([0, 0, 0x40, 0x40, 7, 0, 8, 0, 9, 0] ++ rest) =
    (.done (.ok [.int 0x40400000, .seq [.int 7, .int 8, .int 9]]), rest) := by
  obtain ⟨C⟩ := C162_converts ieee
  refine C162_round (floatCounted_apart 4) (C162_computed ..) ?_ (floatCounted_filled C (.int 0)) ?_ _ ?_ rest
  · decide +kernel
  · decide +kernel
  · rw [C162_write (floatCounted_apart 4) (C162_computed ..) (floatCounted_filled C _)]
    rfl

/-- `2.5f` is read as 2. -/
example : (structCastLens le64 (floatCounted 4)).run [0, 0, 0x20, 0x40, 7, 0, 8, 0, 9, 0] =
    (.done (.ok [.int 0x40200000, .seq [.int 7, .int 8]]), [9, 0]) := by
  refine (C162_read le64 listIn (floatCounted 4) _ (C162_computed ..) _ _ _).2 ⟨rfl, ?_⟩
  exact ⟨⟨0x40200000, 2, rfl, asLength_ok.1 (by decide +kernel)⟩, trivial⟩

/-- Read as it was computed, or undefined: here an end of the stream. -/
example : (structCastLens le64 (floatCounted 4)).run [0, 0, 0x40, 0x40, 7] =
      (structCast le64 ((floatCounted 4).map (computed1 le64))).run [0, 0, 0x40, 0x40, 7] ∨
    ∃ w s', (structCastLens le64 (floatCounted 4)).run [0, 0, 0x40, 0x40, 7] = (.stuck w, s') :=
  C162_errors le64 listIn (floatCounted 4) _ (C162_computed ..) _

/-- A NaN is no length. -/
example : (structCastLens le64 (floatCounted 4)).run [0, 0, 0xc0, 0x7f, 7, 0] = (.stuck .badConversion, [7, 0]) := by
  refine C162_undefined le64 listIn [] [] [] "xs" "n" 4 4 (.vec (.scalar u16) none) .none .none _ _ _ [] []
    0x7fc00000 rfl (by simp) ?_ ?_
  · rfl
  · intro n h
    have := (C162_lengths le64 4 0x7fc00000).1 ⟨n, h⟩
    obtain ⟨v, hv, _⟩ := this
    rw [show real 4 0x7fc00000 = .nan by decide +kernel] at hv
    cases hv

/-- Every `float` and every `double` from just above -1 to 2^64 is a length on a 64-bit host; 2.5 is. -/
example : ∃ n, IsLength le64 4 0x40200000 n :=
  (C162_lengths le64 4 0x40200000).2 ⟨5 * 2 ^ 1073, by decide +kernel, by decide +kernel, by decide +kernel⟩

example : Fits le64 4 4 16777216 ∧ ¬ Fits le64 4 4 16777217 :=
  ⟨(C162_sizes _ (by decide)).1 (by decide), (C162_sizes 0 (by decide)).2.2.1⟩

/-- Three numbers and a length: they can be written, so there is a struct with the length
filled in. -/
example {R : Rounding} (C : FloatOf R) : ∃ us, Filled le64 C (floatCounted 4) [.int 0, .seq [.int 7, .int 8, .int 9]] us := by
  refine C162_refused listOut (floatCounted_apart 4) [] [0, 0, 0x40, 0x40, 7, 0, 8, 0, 9, 0] ?_
  rw [C162_write (floatCounted_apart 4) (C162_computed ..) (floatCounted_filled C _)]
  rfl

/-- 2^24 + 1 numbers are not written. -/
example {R : Rounding} (C : FloatOf R) (x : Int) (s' : List Byte) :
    (streamCastLens C le64 (floatCounted 4) [.int 0, .seq (List.replicate (2 ^ 24 + 1) (.int x))]).run ≠
      (.done (.ok ()), s') := by
  refine C162_too_many listOut (floatCounted_apart 4) (List.mem_cons_of_mem _ (List.mem_singleton_self _)) ?_ [] s'
  rw [List.length_replicate]
  exact next_size.1

/-- A length declared with two bytes on a little-endian host: three numbers are written, and read
back is none. -/
theorem C162_fails_narrow {R : Rounding} (C : FloatOf R) :
    (streamCastLens C le64 (floatCounted 2) [.int 0, .seq [.int 7, .int 8, .int 9]]).run =
        (.done (.ok ()), [0, 0, 7, 0, 8, 0, 9, 0]) ∧
      (structCastLens le64 (floatCounted 2)).run [0, 0, 7, 0, 8, 0, 9, 0] =
        (.done (.ok [.int 0, .seq []]), [7, 0, 8, 0, 9, 0]) := by
  have hf : Filled le64 C (floatCounted 2) [.int 0, .seq [.int 7, .int 8, .int 9]]
      [.int 0x40400000, .seq [.int 7, .int 8, .int 9]] := by
    rw [← float_three C]
    refine .cons (.slot _ _ _ _ _ 3 ⟨_, List.mem_cons_of_mem _ (List.mem_singleton_self _), _, _, _, _, rfl⟩ ?_ ?_ rfl) (.cons (.sized ..) .nil)
    · intro g u hg h
      simp only [floatCounted, List.zip_cons_cons, List.zip_nil_left, List.mem_cons, Prod.mk.injEq, List.not_mem_nil,
        or_false] at hg
      rcases hg with ⟨rfl, rfl⟩ | ⟨rfl, rfl⟩
      · obtain ⟨_, _, _, _, h⟩ := h; cases h
      · exact ⟨_, rfl, rfl⟩
    · exact ⟨fun _ => by decide, (small_sizes 3).1 (by decide), by decide⟩
  rw [C162_write (floatCounted_apart 2) (C162_computed ..) hf]
  exact ⟨rfl, rfl⟩

end S2S.Props
