import Verif.Lemmas.ReadMain
/-
What the reader sees of a list while reading it, against the list as read: the
same wherever a field looks, as dependencies point backwards.
-/
namespace S2S
open Spec

def Agree (ids : List String) (env env' : Env) : Prop := ∀ i ∈ ids, env i = env' i

theorem Agree.mono {ids ids' : List String} {env env' : Env} (h : Agree ids env env')
    (hs : ∀ i ∈ ids', i ∈ ids) : Agree ids' env env' := fun i hi => h i (hs i hi)

theorem getAll_congr {ids : List String} {env env' : Env} (h : Agree ids env env') :
    env.getAll ids = env'.getAll ids := by
  induction ids with
  | nil => rfl
  | cons i is ih =>
    simp only [Env.getAll, h i (by simp), ih fun j hj => h j (by simp [hj])]

theorem Pred.eval_congr {p : Pred} {env env' : Env} (h : Agree p.ids env env') :
    p.eval env = p.eval env' := by simp only [Pred.eval, getAll_congr h]

theorem Calc.eval_congr {c : Calc} {env env' : Env} (h : Agree c.ids env env') :
    c.eval env = c.eval env' := by simp only [Calc.eval, getAll_congr h]

theorem LenSpec.eval_congr {cfg : Cfg} {len : LenSpec} {env env' : Env}
    (h : Agree (lenDeps len) env env') : len.eval cfg env = len.eval cfg env' := by
  cases len with
  | fromField id => simp only [LenSpec.eval, h id (by simp [lenDeps])]
  | computed c => simp only [LenSpec.eval, Calc.eval_congr h]

theorem ladderIdx_congr {ps : List Pred} {env env' : Env}
    (h : Agree (ps.flatMap Pred.ids) env env') : ladderIdx env ps = ladderIdx env' ps := by
  induction ps with
  | nil => rfl
  | cons p ps ih =>
    have h1 : p.eval env = p.eval env' := Pred.eval_congr (h.mono (by simp +contextual))
    simp only [ladderIdx, h1, ih (h.mono (by simp +contextual))]

theorem Deducer.eval_congr {d : Deducer} {env env' : Env}
    (h : Agree (deducerDeps d) env env') : d.eval env = d.eval env' := by
  cases d with
  | matchField id t ls => simp only [Deducer.eval, h id (by simp [deducerDeps])]
  | matchCompute c t ls => simp only [Deducer.eval, Calc.eval_congr h]
  | ladder ps => exact ladderIdx_congr h

/-- `env` gives every field its value. -/
def Maps (env : Env) : List Field → List Val → Prop
  | f :: fs, v :: vs => env f.id = some v ∧ Maps env fs vs
  | _, _ => True

theorem uniqueFields_not_seen (seen : List String) (fs : List Field)
    (h : uniqueFields seen fs = true) : ∀ i ∈ seen, i ∉ fs.map Field.id := by
  induction fs generalizing seen with
  | nil => simp
  | cons f fs ih =>
    simp only [uniqueFields, Bool.and_eq_true, Bool.not_eq_true', List.contains_eq_mem,
      decide_eq_false_iff_not] at h
    intro i hi
    rw [List.map_cons, List.mem_cons]
    rintro (rfl | h')
    · exact h.1.1 hi
    · exact ih _ h.2 i (by simp [hi]) h'

theorem maps_set (env : Env) (id : String) (v : Val) (fs : List Field) (vs : List Val)
    (hid : id ∉ fs.map Field.id) (h : Maps env fs vs) : Maps (env.set id v) fs vs := by
  induction fs generalizing vs with
  | nil => simp [Maps]
  | cons f fs ih =>
    cases vs with
    | nil => simp [Maps]
    | cons w ws =>
      rw [List.map_cons, List.mem_cons, not_or] at hid
      refine ⟨?_, ih ws hid.2 h.2⟩
      simp only [Env.set, if_neg (Ne.symm hid.1)]
      exact h.1

theorem maps_envOf (seen : List String) (fs : List Field) (vs : List Val)
    (h : uniqueFields seen fs = true) : Maps (envOf fs vs) fs vs := by
  induction fs generalizing seen vs with
  | nil => simp [Maps]
  | cons f fs ih =>
    cases vs with
    | nil => simp [Maps]
    | cons v vs =>
      simp only [uniqueFields, Bool.and_eq_true] at h
      refine ⟨by simp [envOf, Env.set], ?_⟩
      simp only [envOf]
      exact maps_set _ _ _ _ _ (uniqueFields_not_seen _ _ h.2 f.id (by simp)) (ih _ vs h.2)

mutual
theorem step_iff_kind (cfg : Cfg) : (k : Kind) → uniqueKind k = true → earlierKind k = true →
    ∀ env E v, Agree (kindDeps k) env E → (StepKind cfg env k v ↔ ShapedKind cfg E k v)
  | .num t w, _, _, env, E, v, _ => by cases v <;> simp [StepKind, ShapedKind]
  | .fbuf e n, _, _, env, E, v, _ => by cases v <;> simp [StepKind, ShapedKind]
  | .fstr n, _, _, env, E, v, _ => by cases v <;> simp [StepKind, ShapedKind]
  | .vec e len b, _, _, env, E, v, h => by
      cases v <;> simp only [StepKind, ShapedKind]
      rw [LenSpec.eval_congr h]
  | .record fs, hu, he, env, E, v, h => by
      simp only [uniqueKind, earlierKind] at hu he
      cases v with
      | seq vs =>
        simp only [StepKind, ShapedKind]
        exact step_iff_fields cfg fs [] hu he _ _ vs (by simp [Agree]) (maps_envOf [] fs vs hu)
      | _ => simp [StepKind, ShapedKind]
  | .arrRec fs n, hu, he, env, E, v, h => by
      simp only [uniqueKind, earlierKind] at hu he
      cases v with
      | seq vs =>
        simp only [StepKind, ShapedKind]
        simp only [fun ws => step_iff_fields cfg fs [] hu he (dfltEnv fs) (envOf fs ws) ws
          (by simp [Agree]) (maps_envOf [] fs ws hu)]
      | _ => simp [StepKind, ShapedKind]
  | .vecRec fs len b sz, hu, he, env, E, v, h => by
      simp only [uniqueKind, earlierKind] at hu he
      cases v with
      | seq vs =>
        simp only [StepKind, ShapedKind]
        simp only [fun ws => step_iff_fields cfg fs [] hu he (dfltEnv fs) (envOf fs ws) ws
          (by simp [Agree]) (maps_envOf [] fs ws hu)]
        rw [LenSpec.eval_congr h]
      | _ => simp [StepKind, ShapedKind]
theorem step_iff_field (cfg : Cfg) : (f : Field) → uniqueField f = true → earlierField f = true →
    ∀ env E v, Agree (fieldDeps f) env E → (StepField cfg env f v ↔ ShapedField cfg E f v)
  | .plain id k c, hu, he, env, E, v, h => by
      simp only [uniqueField, earlierField] at hu he
      simp only [StepField, ShapedField]
      exact step_iff_kind cfg k hu he env E v h
  | .maybe id k p, hu, he, env, E, v, h => by
      simp only [uniqueField, earlierField] at hu he
      have h1 : p.eval env = p.eval E :=
        Pred.eval_congr (h.mono (by simp +contextual [fieldDeps]))
      cases v with
      | absent => simp only [StepField, ShapedField, h1]
      | present u =>
        simp only [StepField, ShapedField, h1]
        rw [step_iff_kind cfg k hu he env E u (h.mono (by simp +contextual [fieldDeps]))]
      | _ => simp [StepField, ShapedField]
  | .union id d alts c, hu, he, env, E, v, h => by
      simp only [uniqueField, earlierField] at hu he
      have h1 : d.eval env = d.eval E :=
        Deducer.eval_congr (h.mono (by simp +contextual [fieldDeps]))
      cases v with
      | var i u =>
        simp only [StepField, ShapedField, h1]
        rw [step_iff_alts cfg alts hu he env E i u (h.mono (by
          intro j hj
          simp only [fieldDeps, List.mem_append]
          exact .inr hj))]
      | _ => simp [StepField, ShapedField]
theorem step_iff_alts (cfg : Cfg) : (alts : List Alt) → uniqueAlts alts = true →
    earlierAlts alts = true → ∀ env E i v,
    Agree (alts.flatMap fun a => kindDeps a.kind) env E →
    (StepAlts cfg env alts i v ↔ ShapedAlts cfg E alts i v)
  | [], _, _, env, E, i, v, _ => by simp [StepAlts, ShapedAlts]
  | .mk k c :: alts, hu, he, env, E, 0, v, h => by
      simp only [uniqueAlts, earlierAlts, Bool.and_eq_true] at hu he
      simp only [StepAlts, ShapedAlts]
      exact step_iff_kind cfg k hu.1 he.1 env E v (h.mono (by simp +contextual))
  | .mk k c :: alts, hu, he, env, E, i + 1, v, h => by
      simp only [uniqueAlts, earlierAlts, Bool.and_eq_true] at hu he
      simp only [StepAlts, ShapedAlts]
      exact step_iff_alts cfg alts hu.2 he.2 env E i v (h.mono (by
        intro j hj
        rw [List.flatMap_cons, List.mem_append]
        exact .inr hj))
theorem step_iff_fields (cfg : Cfg) : (fs : List Field) → ∀ seen, uniqueFields seen fs = true →
    earlierFields seen fs = true → ∀ env E vs, Agree seen env E → Maps E fs vs →
    (StepFields cfg env fs vs ↔ ShapedFields cfg E fs vs)
  | [], seen, _, _, env, E, vs, _, _ => by simp [StepFields, ShapedFields]
  | f :: fs, seen, hu, he, env, E, [], _, _ => by simp [StepFields, ShapedFields]
  | f :: fs, seen, hu, he, env, E, v :: vs, h, hm => by
      simp only [uniqueFields, earlierFields, Bool.and_eq_true, List.all_eq_true] at hu he
      simp only [StepFields, ShapedFields]
      rw [step_iff_field cfg f hu.1.2 he.1.2 env E v (h.mono (fun i hi => by
        simpa using he.1.1 i hi))]
      rw [step_iff_fields cfg fs (seen ++ [f.id]) hu.2 he.2 (env.set f.id v) E vs ?_ hm.2]
      intro i hi
      simp only [Env.set]
      split
      · rename_i h'; subst h'; exact hm.1.symm
      · rw [List.mem_append, List.mem_singleton] at hi
        rcases hi with hi | hi
        · exact h i hi
        · contradiction
end

/-- **Reading, characterised.** Reading succeeds with exactly the valid structs,
each from exactly its encoding. -/
theorem structCast_gives_iff (cfg : Cfg) (fs : List Field) (hwf : WellFormed fs)
    (p : List Byte) (vs : List Val) :
    RdE.Gives (structCast cfg fs) p vs ↔ Valid cfg fs vs ∧ p = wire cfg fs vs := by
  obtain ⟨h1, h2, h3⟩ := hwf
  unfold structCast Valid wire
  rw [gives_readFields cfg fs h1,
    step_iff_fields cfg fs [] h2 h3 (dfltEnv fs) (envOf fs vs) vs (by simp [Agree])
      (maps_envOf [] fs vs h2)]

end S2S
