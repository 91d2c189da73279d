import Verif.Lemmas.Shape
import Verif.Lemmas.ReadTree
/-
A list of fields is read field by field: how the read of a list relates to the
reads of its initial parts.
-/
namespace S2S
open Spec

theorem readKind_congr (cfg : Cfg) {env env' : Env} (k : Kind) (h : Agree (kindDeps k) env env') :
    readKind cfg env k = readKind cfg env' k := by
  cases k with
  | vec e len b => rw [readKind, readKind, LenSpec.eval_congr (by exact h)]
  | vecRec fs len b sz => rw [readKind, readKind, LenSpec.eval_congr (by exact h)]
  | num t w => rw [readKind, readKind]
  | fbuf e n => rw [readKind, readKind]
  | fstr n => rw [readKind, readKind]
  | record fs => rw [readKind, readKind]
  | arrRec fs n => rw [readKind, readKind]

theorem readAlts_congr (cfg : Cfg) {env env' : Env} (alts : List Alt) (i : Nat)
    (h : Agree (alts.flatMap fun a => kindDeps a.kind) env env') :
    readAlts cfg env alts i = readAlts cfg env' alts i := by
  induction alts generalizing i with
  | nil => rw [readAlts, readAlts]
  | cons a alts ih =>
    obtain ⟨k, c⟩ := a
    cases i with
    | zero =>
      rw [readAlts, readAlts, readKind_congr cfg k (h.mono (by simp +contextual))]
    | succ i =>
      rw [readAlts, readAlts]
      exact ih i (h.mono (by
        intro j hj
        rw [List.flatMap_cons, List.mem_append]
        exact .inr hj))

theorem readField_congr (cfg : Cfg) {env env' : Env} (f : Field) (h : Agree (fieldDeps f) env env') :
    readField cfg env f = readField cfg env' f := by
  cases f with
  | plain id k c => rw [readField, readField, readKind_congr cfg k h]
  | maybe id k p =>
    rw [readField, readField, readKind_congr cfg k (h.mono (by simp +contextual [fieldDeps])),
      Pred.eval_congr (h.mono (by simp +contextual [fieldDeps]))]
  | union id d alts c =>
    rw [readField, readField, Deducer.eval_congr (h.mono (by simp +contextual [fieldDeps]))]
    have : ∀ i, readAlts cfg env alts i = readAlts cfg env' alts i := fun i =>
      readAlts_congr cfg alts i (h.mono (by
        intro j hj
        simp only [fieldDeps, List.mem_append]
        exact .inr hj))
    simp only [this]

theorem readFields_congr (cfg : Cfg) (fs : List Field) (seen : List String) {env env' : Env}
    (he : earlierFields seen fs = true) (h : Agree seen env env') :
    readFields cfg env fs = readFields cfg env' fs := by
  induction fs generalizing seen env env' with
  | nil => rw [readFields, readFields]
  | cons f fs ih =>
    simp only [earlierFields, Bool.and_eq_true, List.all_eq_true] at he
    rw [readFields, readFields, readField_congr cfg f (h.mono fun i hi => by simpa using he.1.1 i hi)]
    have : ∀ v, readFields cfg (env.set f.id v) fs = readFields cfg (env'.set f.id v) fs := fun v =>
      ih (seen ++ [f.id]) he.2 (by
        intro i hi
        simp only [Env.set]
        split
        · rfl
        · rename_i hn
          rw [List.mem_append, List.mem_singleton] at hi
          rcases hi with hi | hi
          · exact h i hi
          · contradiction)
    simp only [this]

/-! Initial parts of a schema. -/

theorem sane_prefix (pre post : List Field) (h : saneFields (pre ++ post) = true) :
    saneFields pre = true := by
  induction pre with
  | nil => rfl
  | cons f fs ih =>
    simp only [List.cons_append, saneFields, Bool.and_eq_true] at h ⊢
    exact ⟨h.1, ih h.2⟩

theorem unique_prefix (pre post : List Field) (seen : List String)
    (h : uniqueFields seen (pre ++ post) = true) : uniqueFields seen pre = true := by
  induction pre generalizing seen with
  | nil => rfl
  | cons f fs ih =>
    simp only [List.cons_append, uniqueFields, Bool.and_eq_true] at h ⊢
    exact ⟨h.1, ih _ h.2⟩

theorem earlier_prefix (pre post : List Field) (seen : List String)
    (h : earlierFields seen (pre ++ post) = true) : earlierFields seen pre = true := by
  induction pre generalizing seen with
  | nil => rfl
  | cons f fs ih =>
    simp only [List.cons_append, earlierFields, Bool.and_eq_true] at h ⊢
    exact ⟨h.1, ih _ h.2⟩

theorem wf_prefix {pre post : List Field} (h : WellFormed (pre ++ post)) :
    WellFormed pre :=
  ⟨sane_prefix _ _ h.1, unique_prefix _ _ _ h.2.1, earlier_prefix _ _ _ h.2.2⟩

/-- The read of one field with its check. -/
abbrev fieldStep (cfg : Cfg) (env : Env) (f : Field) : RdE CastError Val :=
  ((readField cfg env f).andThen fun v => RdE.checked f.constraint v).tag f.id

theorem readFields_cons (cfg : Cfg) (env : Env) (f : Field) (fs : List Field) :
    readFields cfg env (f :: fs) = (fieldStep cfg env f).andThen fun v =>
      (readFields cfg (env.set f.id v) fs).andThen fun vs => RdE.ok (v :: vs) := by
  rw [readFields]

theorem fieldStep_error (cfg : Cfg) (env : Env) (f : Field) (S : InStream) (s s' : S.State)
    (e : CastError) (h : (fieldStep cfg env f).runOn S s = (.done (.error e), s')) :
    e.failedAt = f.id := by
  unfold fieldStep RdE.tag at h
  rw [RdE.runOn_mapErr] at h
  split at h <;> cases h
  rfl

/-- A failing read fails at some field: what comes before is read, what comes
after plays no role. -/
theorem readFields_error_iff (cfg : Cfg) (fs : List Field) (env : Env) (S : InStream)
    (s s' : S.State) (e : CastError) :
    (readFields cfg env fs).runOn S s = (.done (.error e), s') ↔
    ∃ pre f post vs s1, fs = pre ++ f :: post ∧ e.failedAt = f.id ∧
      (readFields cfg env pre).runOn S s = (.done (.ok vs), s1) ∧
      (readFields cfg env (pre ++ [f])).runOn S s = (.done (.error e), s') := by
  induction fs generalizing env s with
  | nil =>
    rw [readFields]
    constructor
    · intro h; cases h
    · rintro ⟨pre, f, post, vs, s1, h, _⟩
      simp at h
  | cons g gs ih =>
    rw [readFields_cons, RdE.runOn_andThen]
    cases hg : Rd.runOn S (fieldStep cfg env g) s with
    | mk o s2 =>
      cases o with
      | stuck w =>
        simp only
        constructor
        · intro h; cases h
        · rintro ⟨pre, f, post, vs, s1, h, _, h2, h3⟩
          cases pre with
          | nil =>
            simp only [List.nil_append, List.cons.injEq] at h
            obtain ⟨rfl, rfl⟩ := h
            rw [List.nil_append, readFields_cons, RdE.runOn_andThen, hg] at h3
            cases h3
          | cons p pre =>
            simp only [List.cons_append, List.cons.injEq] at h
            obtain ⟨rfl, rfl⟩ := h
            rw [readFields_cons, RdE.runOn_andThen, hg] at h2
            cases h2
      | done a =>
        cases a with
        | error e' =>
          simp only
          constructor
          · intro h
            cases h
            refine ⟨[], g, gs, [], s, rfl, fieldStep_error _ _ _ _ _ _ _ hg, ?_, ?_⟩
            · rw [readFields]; rfl
            · rw [List.nil_append, readFields_cons, RdE.runOn_andThen, hg]
          · rintro ⟨pre, f, post, vs, s1, h, _, h2, h3⟩
            cases pre with
            | nil =>
              simp only [List.nil_append, List.cons.injEq] at h
              obtain ⟨rfl, rfl⟩ := h
              rw [List.nil_append, readFields_cons, RdE.runOn_andThen, hg] at h3
              exact h3
            | cons p pre =>
              simp only [List.cons_append, List.cons.injEq] at h
              obtain ⟨rfl, rfl⟩ := h
              rw [readFields_cons, RdE.runOn_andThen, hg] at h2
              cases h2
        | ok v =>
          simp only
          rw [RdE.runOn_andThen]
          constructor
          · intro h
            have h : (readFields cfg (env.set g.id v) gs).runOn S s2 = (.done (.error e), s') := by
              split at h
              · cases h
              · rename_i h'
                cases h
                exact h'
              · cases h
            obtain ⟨pre, f, post, vs, s1, rfl, h1, h2, h3⟩ := (ih _ _).mp h
            refine ⟨g :: pre, f, post, v :: vs, s1, rfl, h1, ?_, ?_⟩
            · rw [readFields_cons, RdE.runOn_andThen, hg]
              simp only
              rw [RdE.runOn_andThen, h2]
              rfl
            · rw [List.cons_append, readFields_cons, RdE.runOn_andThen, hg]
              simp only
              rw [RdE.runOn_andThen, h3]
          · rintro ⟨pre, f, post, vs, s1, h, h1, h2, h3⟩
            cases pre with
            | nil =>
              simp only [List.nil_append, List.cons.injEq] at h
              obtain ⟨rfl, rfl⟩ := h
              rw [List.nil_append, readFields_cons, RdE.runOn_andThen, hg] at h3
              simp only at h3
              rw [readFields] at h3
              cases h3
            | cons p pre =>
              simp only [List.cons_append, List.cons.injEq] at h
              obtain ⟨rfl, rfl⟩ := h
              rw [readFields_cons, RdE.runOn_andThen, hg] at h2
              simp only at h2
              rw [RdE.runOn_andThen] at h2
              rw [List.cons_append, readFields_cons, RdE.runOn_andThen, hg] at h3
              simp only at h3
              rw [RdE.runOn_andThen] at h3
              have h3' : (readFields cfg (env.set g.id v) (pre ++ [f])).runOn S s2
                  = (.done (.error e), s') := by
                split at h3
                · cases h3
                · rename_i h'
                  cases h3
                  exact h'
                · cases h3
              have h2' : ∃ ws, (readFields cfg (env.set g.id v) pre).runOn S s2
                  = (.done (.ok ws), s1) := by
                split at h2
                · rename_i ws s3 h'
                  simp only [RdE.ok, Rd.runOn, Prod.mk.injEq] at h2
                  obtain ⟨_, rfl⟩ := h2
                  exact ⟨ws, h'⟩
                · cases h2
                · cases h2
              obtain ⟨ws, h2'⟩ := h2'
              have := (ih _ _).mpr ⟨pre, f, post, ws, s1, rfl, h1, h2', h3'⟩
              rw [this]

theorem structCast_prefix (cfg : Cfg) (env : Env) (pre post : List Field)
    (hwf : WellFormed (pre ++ post)) : readFields cfg env pre = structCast cfg pre :=
  readFields_congr cfg pre [] (wf_prefix hwf).2.2 (by simp [Agree])

end S2S
