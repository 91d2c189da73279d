import Verif.Spec.Own
import Verif.Lemmas.Shape
import Verif.Lemmas.ReadDefined
/-
Reading with callables that are told of their own field.
-/
namespace S2S
open Spec

/-! ### Callables -/

theorem getAll_weave {env : Env} {id : String} {v : Val} (h : env id = some v) : ∀ ids : List String,
    env.getAll ids = (env.getAll (ids.filter (· ≠ id))).map (weave id v ids)
  | [] => by simp [Env.getAll, weave]
  | i :: is => by
    have ih := getAll_weave h is
    by_cases hi : i = id
    · subst hi
      rw [List.filter_cons_of_neg (by simp), Env.getAll, h, ih]
      cases env.getAll (is.filter (· ≠ i)) <;> simp [weave]
    · rw [List.filter_cons_of_pos (by simpa using hi), Env.getAll, Env.getAll, ih]
      cases env i <;> cases env.getAll (is.filter (· ≠ id)) <;> simp [weave, hi]

theorem selflessPred_eval {env : Env} {id : String} {v : Val} (h : env id = some v) (p : Pred) :
    (selflessPred id v p).eval env = p.eval env := by
  unfold Pred.eval
  rw [getAll_weave h p.ids, selflessPred]
  cases env.getAll (p.ids.filter (· ≠ id)) <;> rfl

theorem selflessCalc_eval {env : Env} {id : String} {v : Val} (h : env id = some v) (c : Calc) :
    (selflessCalc id v c).eval env = c.eval env := by
  unfold Calc.eval
  rw [getAll_weave h c.ids, selflessCalc]
  cases env.getAll (c.ids.filter (· ≠ id)) <;> rfl

theorem selflessLen_eval (cfg : Cfg) {env : Env} {id : String} {v : Val} (h : env id = some v) (l : LenSpec) :
    (selflessLen id v l).eval cfg env = l.eval cfg env := by
  cases l with
  | fromField i => rfl
  | computed c => simp only [selflessLen, LenSpec.eval, selflessCalc_eval h]

theorem selflessLadder_eval {env : Env} {id : String} {v : Val} (h : env id = some v) : ∀ ps : List Pred,
    ladderIdx env (ps.map (selflessPred id v)) = ladderIdx env ps
  | [] => rfl
  | p :: ps => by
    rw [List.map_cons, ladderIdx, ladderIdx, selflessPred_eval h, selflessLadder_eval h ps]

theorem selflessGuide_eval {env : Env} {id : String} {v : Val} (h : env id = some v) (d : Deducer) :
    (selflessGuide id v d).eval env = d.eval env := by
  cases d with
  | matchField i t ls => rfl
  | matchCompute c t ls => simp only [selflessGuide, Deducer.eval, selflessCalc_eval h]
  | ladder ps => exact selflessLadder_eval h ps

/-! ### What is the same -/

@[simp] theorem selfless_id (f : Field) : (selflessField f).id = f.id := by
  cases f <;> rw [selflessField] <;> rfl

@[simp] theorem selfless_constraint (f : Field) : (selflessField f).constraint = f.constraint := by
  cases f <;> rw [selflessField] <;> rfl

mutual
theorem selfless_dfltKind (id : String) (v : Val) : ∀ k, (selflessKind id v k).dflt = k.dflt
  | .num _ _ => by rw [selflessKind]
  | .fbuf _ _ => by rw [selflessKind]
  | .fstr _ => by rw [selflessKind]
  | .vec _ _ _ => by rw [selflessKind, Kind.dflt, Kind.dflt]
  | .record fs => by rw [selflessKind, Kind.dflt, Kind.dflt, selfless_dflts fs]
  | .arrRec fs n => by rw [selflessKind, Kind.dflt, Kind.dflt, selfless_dflts fs]
  | .vecRec _ _ _ _ => by rw [selflessKind, Kind.dflt, Kind.dflt]
theorem selfless_dflt : ∀ f, (selflessField f).dflt = f.dflt
  | .plain _ k _ => by rw [selflessField, Field.dflt, Field.dflt, selfless_dfltKind _ _ k]
  | .maybe _ _ _ => by rw [selflessField, Field.dflt, Field.dflt]
  | .union _ _ alts _ => by rw [selflessField, Field.dflt, Field.dflt, selfless_dfltFirst _ _ alts]
theorem selfless_dflts : ∀ fs, Field.dflts (selfless fs) = Field.dflts fs
  | [] => by rw [selfless]
  | f :: fs => by rw [selfless, Field.dflts, Field.dflts, selfless_dflt f, selfless_dflts fs]
theorem selfless_dfltFirst (id : String) (v : Val) : ∀ alts,
    Alt.dfltFirst (selflessAlts id v alts) = Alt.dfltFirst alts
  | [] => by rw [selflessAlts]
  | .mk k _ :: _ => by rw [selflessAlts, Alt.dfltFirst, Alt.dfltFirst, selfless_dfltKind _ _ k]
end

theorem selfless_envOf : ∀ fs vs, envOf (selfless fs) vs = envOf fs vs
  | [], _ => by rw [selfless]
  | f :: fs, [] => by rw [selfless, envOf.eq_def, envOf.eq_def]
  | f :: fs, v :: vs => by rw [selfless, envOf, envOf, selfless_id, selfless_envOf fs vs]

theorem selfless_dfltEnv (fs : List Field) : dfltEnv (selfless fs) = dfltEnv fs := by
  rw [dfltEnv, dfltEnv, selfless_dflts, selfless_envOf]

/-! ### Reading -/

/-- Every field holds what it is constructed with. -/
def Untouched (env : Env) (fs : List Field) : Prop := ∀ f ∈ fs, env f.id = some f.dflt

theorem untouched_dflt {fs : List Field} (hu : uniqueFields [] fs = true) : Untouched (dfltEnv fs) fs := by
  intro f hf
  refine env_zip hu ?_
  clear hu
  induction fs with
  | nil => cases hf
  | cons g fs ih =>
    rw [Field.dflts, List.zip_cons_cons]
    rcases List.mem_cons.1 hf with rfl | hf
    · exact List.mem_cons_self ..
    · exact List.mem_cons_of_mem _ (ih hf)

mutual
theorem selfless_readKind (cfg : Cfg) {env : Env} {id : String} {v : Val} (h : env id = some v) :
    (k : Kind) → uniqueKind k = true → readKind cfg env (selflessKind id v k) = readKind cfg env k
  | .num _ _, _ => by rw [selflessKind]
  | .fbuf _ _, _ => by rw [selflessKind]
  | .fstr _, _ => by rw [selflessKind]
  | .vec e len b, _ => by
      rw [selflessKind]
      simp only [readKind]
      rw [selflessLen_eval cfg h]
  | .record fs, hu => by
      rw [uniqueKind] at hu
      rw [selflessKind]
      simp only [readKind]
      rw [selfless_dfltEnv, selfless_readFields cfg fs [] hu _ (untouched_dflt hu)]
  | .arrRec fs n, hu => by
      rw [uniqueKind] at hu
      rw [selflessKind]
      simp only [readKind]
      rw [selfless_dfltEnv, selfless_readFields cfg fs [] hu _ (untouched_dflt hu)]
  | .vecRec fs len b sz, hu => by
      rw [uniqueKind] at hu
      rw [selflessKind]
      simp only [readKind]
      rw [selflessLen_eval cfg h, selfless_dfltEnv, selfless_readFields cfg fs [] hu _ (untouched_dflt hu)]
termination_by structural k => k
theorem selfless_readField (cfg : Cfg) {env : Env} : (f : Field) → env f.id = some f.dflt →
    uniqueField f = true → readField cfg env (selflessField f) = readField cfg env f
  | .plain id k c, h, hu => by
      rw [uniqueField] at hu
      rw [Field.dflt, Field.id] at h
      rw [selflessField, readField, readField, selfless_readKind cfg h k hu]
  | .maybe id k p, h, hu => by
      rw [uniqueField] at hu
      rw [Field.dflt, Field.id] at h
      rw [selflessField, readField, readField, selfless_readKind cfg h k hu, selflessPred_eval h]
  | .union id d alts c, h, hu => by
      rw [uniqueField] at hu
      rw [Field.dflt, Field.id] at h
      rw [selflessField, readField, readField, selflessGuide_eval h]
      congr 1; funext o
      cases o with
      | none => rfl
      | some i =>
        show RdE.mapOk _ _ = RdE.mapOk _ _
        rw [selfless_readAlts cfg h alts hu i]
        congr 1; funext o
        cases o with
        | none => rw [selfless_dfltFirst]
        | some w => rfl
termination_by structural f => f
theorem selfless_readAlts (cfg : Cfg) {env : Env} {id : String} {v : Val} (h : env id = some v) :
    (alts : List Alt) → uniqueAlts alts = true → ∀ i,
      readAlts cfg env (selflessAlts id v alts) i = readAlts cfg env alts i
  | [], _, i => by rw [selflessAlts]
  | .mk k c :: alts, hu, i => by
      simp only [uniqueAlts, Bool.and_eq_true] at hu
      rw [selflessAlts]
      cases i with
      | zero => rw [readAlts, readAlts, selfless_readKind cfg h k hu.1]
      | succ i => rw [readAlts, readAlts, selfless_readAlts cfg h alts hu.2 i]
termination_by structural alts => alts
theorem selfless_readFields (cfg : Cfg) : (fs : List Field) → ∀ seen, uniqueFields seen fs = true →
    ∀ env : Env, Untouched env fs → readFields cfg env (selfless fs) = readFields cfg env fs
  | [], _, _, env, _ => by rw [selfless]
  | f :: fs, seen, hu, env, h => by
      simp only [uniqueFields, Bool.and_eq_true] at hu
      rw [selfless, readFields, readFields, selfless_readField cfg f (h f (List.mem_cons_self ..)) hu.1.2,
        selfless_id, selfless_constraint]
      congr 1; funext v
      rw [selfless_readFields cfg fs _ hu.2 (env.set f.id v)]
      intro g hg
      have : g.id ≠ f.id := fun e => uniqueFields_not_seen _ fs hu.2 f.id (by simp)
        (by rw [← e]; exact List.mem_map_of_mem hg)
      rw [Env.set, if_neg this]
      exact h g (List.mem_cons_of_mem _ hg)
termination_by structural fs => fs
end

theorem selfless_structCast (cfg : Cfg) {fs : List Field} (hu : uniqueFields [] fs = true) :
    structCast cfg (selfless fs) = structCast cfg fs := by
  rw [structCast, structCast, selfless_dfltEnv, selfless_readFields cfg fs [] hu _ (untouched_dflt hu)]

/-! ### The schema is well formed -/

theorem selflessGuide_arity (id : String) (v : Val) (d : Deducer) : arity (selflessGuide id v d) = arity d := by
  cases d <;> simp [selflessGuide, arity]

theorem selflessAlts_length (id : String) (v : Val) (alts : List Alt) :
    (selflessAlts id v alts).length = alts.length := by
  induction alts with
  | nil => rw [selflessAlts]
  | cons a alts ih => obtain ⟨k, c⟩ := a; rw [selflessAlts, List.length_cons, List.length_cons, ih]

mutual
theorem selfless_saneKind (id : String) (v : Val) : (k : Kind) → saneKind (selflessKind id v k) = saneKind k
  | .num _ _ => by rw [selflessKind]
  | .fbuf _ _ => by rw [selflessKind]
  | .fstr _ => by rw [selflessKind]
  | .vec _ _ _ => by rw [selflessKind, saneKind, saneKind]
  | .record fs => by rw [selflessKind, saneKind, saneKind, selfless_sane fs]
  | .arrRec fs _ => by rw [selflessKind, saneKind, saneKind, selfless_sane fs]
  | .vecRec fs _ _ _ => by rw [selflessKind, saneKind, saneKind, selfless_sane fs]
theorem selfless_saneField : (f : Field) → saneField (selflessField f) = saneField f
  | .plain _ k _ => by rw [selflessField, saneField, saneField, selfless_saneKind _ _ k]
  | .maybe _ k _ => by rw [selflessField, saneField, saneField, selfless_saneKind _ _ k]
  | .union _ d alts _ => by
      rw [selflessField, saneField, saneField, selfless_saneAlts _ _ alts, selflessGuide_arity, selflessAlts_length]
theorem selfless_saneAlts (id : String) (v : Val) : (alts : List Alt) →
    saneAlts (selflessAlts id v alts) = saneAlts alts
  | [] => by rw [selflessAlts]
  | .mk k _ :: alts => by rw [selflessAlts, saneAlts, saneAlts, selfless_saneKind _ _ k, selfless_saneAlts _ _ alts]
theorem selfless_sane : (fs : List Field) → saneFields (selfless fs) = saneFields fs
  | [] => by rw [selfless]
  | f :: fs => by rw [selfless, saneFields, saneFields, selfless_saneField f, selfless_sane fs]
end

mutual
theorem selfless_uniqueKind (id : String) (v : Val) : (k : Kind) → uniqueKind (selflessKind id v k) = uniqueKind k
  | .num _ _ => by rw [selflessKind]
  | .fbuf _ _ => by rw [selflessKind]
  | .fstr _ => by rw [selflessKind]
  | .vec _ _ _ => by rw [selflessKind]; simp only [uniqueKind]
  | .record fs => by rw [selflessKind, uniqueKind, uniqueKind, selfless_unique fs]
  | .arrRec fs _ => by rw [selflessKind, uniqueKind, uniqueKind, selfless_unique fs]
  | .vecRec fs _ _ _ => by rw [selflessKind, uniqueKind, uniqueKind, selfless_unique fs]
theorem selfless_uniqueField : (f : Field) → uniqueField (selflessField f) = uniqueField f
  | .plain _ k _ => by rw [selflessField, uniqueField, uniqueField, selfless_uniqueKind _ _ k]
  | .maybe _ k _ => by rw [selflessField, uniqueField, uniqueField, selfless_uniqueKind _ _ k]
  | .union _ d alts _ => by rw [selflessField, uniqueField, uniqueField, selfless_uniqueAlts _ _ alts]
theorem selfless_uniqueAlts (id : String) (v : Val) : (alts : List Alt) →
    uniqueAlts (selflessAlts id v alts) = uniqueAlts alts
  | [] => by rw [selflessAlts]
  | .mk k _ :: alts => by
      rw [selflessAlts, uniqueAlts, uniqueAlts, selfless_uniqueKind _ _ k, selfless_uniqueAlts _ _ alts]
theorem selfless_unique : (fs : List Field) → ∀ seen, uniqueFields seen (selfless fs) = uniqueFields seen fs
  | [], _ => by rw [selfless]
  | f :: fs, seen => by
      rw [selfless, uniqueFields, uniqueFields, selfless_id, selfless_uniqueField f, selfless_unique fs]
end

theorem selflessLen_deps {id : String} {v : Val} {len : LenSpec} (hs : id ∉ lenSources len) {i : String}
    (h : i ∈ lenDeps (selflessLen id v len)) : i ∈ lenDeps len ∧ i ≠ id := by
  cases len with
  | fromField j =>
    obtain rfl : i = j := by simpa [selflessLen, lenDeps] using h
    exact ⟨h, fun e => hs (by simp [lenSources, e])⟩
  | computed c => simpa [selflessLen, lenDeps, selflessCalc] using h

theorem selflessKind_deps {id : String} {v : Val} {k : Kind} (hs : id ∉ kindSources k) {i : String}
    (h : i ∈ kindDeps (selflessKind id v k)) : i ∈ kindDeps k ∧ i ≠ id := by
  cases k with
  | vec e len b => rw [selflessKind, kindDeps] at h; exact selflessLen_deps hs h
  | vecRec fs len b sz => rw [selflessKind, kindDeps] at h; exact selflessLen_deps hs h
  | _ => rw [selflessKind] at h; cases h

theorem selflessGuide_deps {id : String} {v : Val} {d : Deducer} (hs : id ∉ guideSources d) {i : String}
    (h : i ∈ deducerDeps (selflessGuide id v d)) : i ∈ deducerDeps d ∧ i ≠ id := by
  cases d with
  | matchField j t ls =>
    obtain rfl : i = j := by simpa [selflessGuide, deducerDeps] using h
    exact ⟨h, fun e => hs (by simp [guideSources, e])⟩
  | matchCompute c t ls => simpa [selflessGuide, deducerDeps, selflessCalc] using h
  | ladder ps =>
    simp only [selflessGuide, deducerDeps, List.mem_flatMap, List.mem_map] at h ⊢
    obtain ⟨_, ⟨p, hp, rfl⟩, h⟩ := h
    have : i ∈ p.ids ∧ i ≠ id := by simpa [selflessPred] using h
    exact ⟨⟨p, hp, this.1⟩, this.2⟩

theorem selflessField_deps {f : Field} (hs : f.id ∉ fieldSources f) {i : String}
    (h : i ∈ fieldDeps (selflessField f)) : i ∈ fieldDeps f ∧ i ≠ f.id := by
  cases f with
  | plain id k c => rw [selflessField, fieldDeps] at h; exact selflessKind_deps hs h
  | maybe id k p =>
    rw [selflessField, fieldDeps, List.mem_append] at h
    rw [fieldDeps, List.mem_append]
    rcases h with h | h
    · have := selflessKind_deps (id := id) hs h
      exact ⟨.inl this.1, this.2⟩
    · have : i ∈ p.ids ∧ i ≠ id := by simpa [selflessPred] using h
      exact ⟨.inr this.1, this.2⟩
  | union id d alts c =>
    rw [selflessField, fieldDeps, List.mem_append] at h
    rw [fieldDeps, List.mem_append]
    rw [fieldSources, List.mem_append, not_or] at hs
    rcases h with h | h
    · have := selflessGuide_deps (id := id) hs.1 h
      exact ⟨.inl this.1, this.2⟩
    · have : (i ∈ alts.flatMap fun a => kindDeps a.kind) ∧ i ≠ id := by
        revert h
        generalize Val.var 0 (Alt.dfltFirst alts) = v
        have hs : id ∉ _ := hs.2
        rename_i hs0
        clear hs0
        intro h
        induction alts with
        | nil => rw [selflessAlts] at h; cases h
        | cons a alts ih =>
          obtain ⟨k, c⟩ := a
          rw [selflessAlts, List.flatMap_cons, List.mem_append] at h
          rw [List.flatMap_cons, List.mem_append, not_or] at hs
          rw [List.flatMap_cons, List.mem_append]
          rcases h with h | h
          · have := selflessKind_deps (k := k) (id := id) hs.1 h
            exact ⟨.inl this.1, this.2⟩
          · have := ih hs.2 h
            exact ⟨.inr this.1, this.2⟩
      exact ⟨.inr this.1, this.2⟩

mutual
theorem selfless_earlierKind (id : String) (v : Val) : (k : Kind) → upToSelfKind k = true →
    earlierKind (selflessKind id v k) = true
  | .num _ _, _ => by rw [selflessKind, earlierKind] <;> simp
  | .fbuf _ _, _ => by rw [selflessKind, earlierKind] <;> simp
  | .fstr _, _ => by rw [selflessKind, earlierKind] <;> simp
  | .vec _ _ _, _ => by rw [selflessKind, earlierKind] <;> simp
  | .record fs, h => by rw [upToSelfKind] at h; rw [selflessKind, earlierKind]; exact selfless_earlier fs [] h
  | .arrRec fs _, h => by rw [upToSelfKind] at h; rw [selflessKind, earlierKind]; exact selfless_earlier fs [] h
  | .vecRec fs _ _ _, h => by rw [upToSelfKind] at h; rw [selflessKind, earlierKind]; exact selfless_earlier fs [] h
theorem selfless_earlierField : (f : Field) → upToSelfField f = true → earlierField (selflessField f) = true
  | .plain _ k _, h => by rw [upToSelfField] at h; rw [selflessField, earlierField]; exact selfless_earlierKind _ _ k h
  | .maybe _ k _, h => by rw [upToSelfField] at h; rw [selflessField, earlierField]; exact selfless_earlierKind _ _ k h
  | .union _ d alts _, h => by
      rw [upToSelfField] at h; rw [selflessField, earlierField]; exact selfless_earlierAlts _ _ alts h
theorem selfless_earlierAlts (id : String) (v : Val) : (alts : List Alt) → upToSelfAlts alts = true →
    earlierAlts (selflessAlts id v alts) = true
  | [], _ => by rw [selflessAlts, earlierAlts]
  | .mk k _ :: alts, h => by
      simp only [upToSelfAlts, Bool.and_eq_true] at h
      rw [selflessAlts, earlierAlts, selfless_earlierKind _ _ k h.1, selfless_earlierAlts _ _ alts h.2]; rfl
theorem selfless_earlier : (fs : List Field) → ∀ seen, upToSelf seen fs = true →
    earlierFields seen (selfless fs) = true
  | [], _, _ => by rw [selfless, earlierFields]
  | f :: fs, seen, h => by
      simp only [upToSelf, Bool.and_eq_true, List.all_eq_true, Bool.or_eq_true, beq_iff_eq,
        Bool.not_eq_true', List.contains_eq_mem, decide_eq_true_eq, decide_eq_false_iff_not] at h
      rw [selfless, earlierFields, selfless_earlierField f h.1.2, selfless_id, selfless_earlier fs _ h.2]
      simp only [Bool.and_true, List.all_eq_true, List.contains_eq_mem, decide_eq_true_eq]
      intro i hi
      obtain ⟨h1, h2⟩ := selflessField_deps h.1.1.2 hi
      rcases h.1.1.1 i h1 with h3 | h3
      · exact h3
      · exact absurd h3 h2
end

theorem selfless_wellFormed {fs : List Field} (h : Acceptable fs) : WellFormed (selfless fs) :=
  ⟨by rw [selfless_sane]; exact h.1, by rw [selfless_unique]; exact h.2.1, selfless_earlier fs [] h.2.2⟩

/-! ### What else is the same -/

mutual
theorem selfless_wireKind (o : Endian) (id : String) (v : Val) : (k : Kind) → ∀ w,
    wireKind o (selflessKind id v k) w = wireKind o k w
  | .num _ _, _ => by rw [selflessKind]
  | .fbuf _ _, _ => by rw [selflessKind]
  | .fstr _, _ => by rw [selflessKind]
  | .vec _ _ _, w => by rw [selflessKind]; cases w <;> simp only [wireKind]
  | .record fs, w => by rw [selflessKind]; cases w <;> simp only [wireKind, selfless_wire o fs]
  | .arrRec fs _, w => by rw [selflessKind]; cases w <;> simp only [wireKind, selfless_wire o fs]
  | .vecRec fs _ _ _, w => by rw [selflessKind]; cases w <;> simp only [wireKind, selfless_wire o fs]
theorem selfless_wireField (o : Endian) : (f : Field) → ∀ w, wireField o (selflessField f) w = wireField o f w
  | .plain _ k _, w => by rw [selflessField]; simp only [wireField, selfless_wireKind o _ _ k]
  | .maybe _ k _, w => by rw [selflessField]; cases w <;> simp only [wireField, selfless_wireKind o _ _ k]
  | .union _ _ alts _, w => by
      rw [selflessField]; cases w <;> simp only [wireField, selfless_wireAlts o _ _ alts]
theorem selfless_wireAlts (o : Endian) (id : String) (v : Val) : (alts : List Alt) → ∀ i w,
    wireAlts o (selflessAlts id v alts) i w = wireAlts o alts i w
  | [], _, _ => by rw [selflessAlts]
  | .mk k _ :: alts, i, w => by
      rw [selflessAlts]
      cases i <;> simp only [wireAlts, selfless_wireKind o _ _ k, selfless_wireAlts o _ _ alts]
theorem selfless_wire (o : Endian) : (fs : List Field) → ∀ ws, wireFields o (selfless fs) ws = wireFields o fs ws
  | [], _ => by rw [selfless]
  | f :: fs, ws => by
      rw [selfless]
      cases ws <;> simp only [wireFields, selfless_wireField o f, selfless_wire o fs]
end

mutual
theorem selfless_fitsKind (cfg : Cfg) (id : String) (v : Val) : (k : Kind) → ∀ w,
    FitsKind cfg (selflessKind id v k) w ↔ FitsKind cfg k w
  | .num _ _, _ => by rw [selflessKind]
  | .fbuf _ _, _ => by rw [selflessKind]
  | .fstr _, _ => by rw [selflessKind]
  | .vec _ _ _, w => by rw [selflessKind]; cases w <;> simp only [FitsKind]
  | .record fs, w => by rw [selflessKind]; cases w <;> simp only [FitsKind, selfless_fits cfg fs]
  | .arrRec fs _, w => by rw [selflessKind]; cases w <;> simp only [FitsKind, selfless_fits cfg fs]
  | .vecRec fs _ _ _, w => by rw [selflessKind]; cases w <;> simp only [FitsKind, selfless_fits cfg fs]
theorem selfless_fitsField (cfg : Cfg) : (f : Field) → ∀ w, FitsField cfg (selflessField f) w ↔ FitsField cfg f w
  | .plain _ k _, w => by rw [selflessField]; simp only [FitsField, selfless_fitsKind cfg _ _ k]
  | .maybe _ k _, w => by rw [selflessField]; cases w <;> simp only [FitsField, selfless_fitsKind cfg _ _ k]
  | .union _ _ alts _, w => by
      rw [selflessField]; cases w <;> simp only [FitsField, selfless_fitsAlts cfg _ _ alts]
theorem selfless_fitsAlts (cfg : Cfg) (id : String) (v : Val) : (alts : List Alt) → ∀ i w,
    FitsAlts cfg (selflessAlts id v alts) i w ↔ FitsAlts cfg alts i w
  | [], _, _ => by rw [selflessAlts]
  | .mk k _ :: alts, i, w => by
      rw [selflessAlts]
      cases i <;> simp only [FitsAlts, selfless_fitsKind cfg _ _ k, selfless_fitsAlts cfg _ _ alts]
theorem selfless_fits (cfg : Cfg) : (fs : List Field) → ∀ ws, FitsFields cfg (selfless fs) ws ↔ FitsFields cfg fs ws
  | [], _ => by rw [selfless]
  | f :: fs, ws => by
      rw [selfless]
      cases ws <;> simp only [FitsFields, selfless_fitsField cfg f, selfless_fits cfg fs]
end

mutual
theorem selfless_okKind (id : String) (v : Val) : (k : Kind) → ∀ w, OkKind (selflessKind id v k) w ↔ OkKind k w
  | .num _ _, _ => by rw [selflessKind]
  | .fbuf _ _, _ => by rw [selflessKind]
  | .fstr _, _ => by rw [selflessKind]
  | .vec _ _ _, w => by rw [selflessKind]; cases w <;> simp only [OkKind]
  | .record fs, w => by rw [selflessKind]; cases w <;> simp only [OkKind, selfless_ok fs]
  | .arrRec fs _, w => by rw [selflessKind]; cases w <;> simp only [OkKind, selfless_ok fs]
  | .vecRec fs _ _ _, w => by rw [selflessKind]; cases w <;> simp only [OkKind, selfless_ok fs]
theorem selfless_okField : (f : Field) → ∀ w, OkField (selflessField f) w ↔ OkField f w
  | .plain _ k _, w => by rw [selflessField]; simp only [OkField, selfless_okKind _ _ k]
  | .maybe _ k _, w => by rw [selflessField]; cases w <;> simp only [OkField, selfless_okKind _ _ k]
  | .union _ _ alts _, w => by
      rw [selflessField]; cases w <;> simp only [OkField, selfless_okAlts _ _ alts]
theorem selfless_okAlts (id : String) (v : Val) : (alts : List Alt) → ∀ i w,
    OkAlts (selflessAlts id v alts) i w ↔ OkAlts alts i w
  | [], _, _ => by rw [selflessAlts]
  | .mk k _ :: alts, i, w => by
      rw [selflessAlts]
      cases i <;> simp only [OkAlts, selfless_okKind _ _ k, selfless_okAlts _ _ alts]
theorem selfless_ok : (fs : List Field) → ∀ ws, OkFields (selfless fs) ws ↔ OkFields fs ws
  | [], _ => by rw [selfless]
  | f :: fs, ws => by
      rw [selfless]
      cases ws <;> simp only [OkFields, selfless_okField f, selfless_ok fs]
end

end S2S
