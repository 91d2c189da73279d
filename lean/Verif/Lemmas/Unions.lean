import Verif.Lemmas.Contrib
import Verif.Lemmas.Append
import Verif.Lemmas.WriteComplete
/-
Unions: when the guide has a verdict, and reading one as reading the alternative.
-/
namespace S2S
open Spec

theorem hasScalar_mem {fs : List Field} {id : String} {P : ScalarTy → Nat → Prop}
    (h : HasScalar fs id P) : ∃ t w c, P t w ∧ Field.plain id (.num t w) c ∈ fs := by
  obtain ⟨f, hf, h⟩ := h
  split at h
  · rename_i i t w c
    obtain ⟨rfl, hp⟩ := h
    exact ⟨t, w, c, hp, hf⟩
  · exact h.elim

theorem evaluable_of {env : Env} {d : Deducer} (h : ∀ i ∈ deducerDeps d, ∃ v, env i = some v)
    (hm : ∀ id t ls, d = .matchField id t ls → ∃ x, env id = some (.int x)) : Evaluable env d := by
  cases d with
  | matchField id t ls => exact .inl ((hm id t ls rfl).imp fun _ => .inl)
  | matchCompute comp t ls => exact Calc.eval_ok fun i hi => h i hi
  | ladder ps =>
    intro p hp
    exact Pred.eval_ok fun i hi => h i (List.mem_flatMap.2 ⟨p, hp, hi⟩)

theorem evaluable_read {cfg : Cfg} {pre post : List Field} {id : String} {d : Deducer}
    {alts : List Alt} {c : Constraint} (hwf : WellFormed (pre ++ .union id d alts c :: post))
    (hres : Resolves (pre ++ .union id d alts c :: post)) {vs : List Val}
    (hv : FitsFields cfg pre vs) : Evaluable (envOf pre vs) d := by
  have hl : pre.length = vs.length := fits_length hv
  have hdeps : ∀ i ∈ deducerDeps d, i ∈ pre.map Field.id := by
    have := earlier_suffix pre _ [] hwf.2.2
    simp only [earlierFields, Bool.and_eq_true, List.all_eq_true, List.nil_append] at this
    intro i hi
    have h1 := this.1.1 i (by simp [fieldDeps, hi])
    simpa using h1
  refine evaluable_of (fun i hi => envOf_some hl (hdeps i hi)) ?_
  rintro tid t ls rfl
  have h1 := (hres (.union id (.matchField tid t ls) alts c) (by simp)).2
  obtain ⟨t', w, c', -, hmem⟩ := hasScalar_mem h1
  obtain ⟨g, hg, hid⟩ := List.mem_map.1 (hdeps tid (by simp [deducerDeps]))
  have : Field.plain tid (.num t' w) c' = g :=
    field_inj hwf.2.1 hmem (by simp [hg]) hid.symm
  subst this
  obtain ⟨v, hz⟩ := zip_of_mem hl hg
  have h2 := fits_zip hv hz
  rw [FitsField] at h2
  cases v with
  | int x => exact ⟨x, env_zip (wf_prefix hwf).2.1 hz⟩
  | _ => simp [FitsKind] at h2

theorem evaluable_write {cfg : Cfg} {fs : List Field} {id : String} {d : Deducer}
    {alts : List Alt} {c : Constraint} (hwf : WellFormed fs) (hres : Resolves fs)
    (hf : Field.union id d alts c ∈ fs) {vs : List Val} (hty : TypedFields cfg fs vs) :
    Evaluable (envOf fs vs) d := by
  have hl := typed_length hty
  refine evaluable_of (fun i hi => deps_some hwf.acceptable hl hf i (by simp [fieldDeps, hi])) ?_
  rintro tid t ls rfl
  obtain ⟨t', w, c', -, hmem⟩ := hasScalar_mem (hres _ hf).2
  obtain ⟨v, hz⟩ := zip_of_mem hl hmem
  have h2 := typed_zip hty hz
  rw [TypedField] at h2
  cases v with
  | int x => exact ⟨x, env_zip hwf.2.1 hz⟩
  | _ => simp [TypedKind] at h2

theorem readAlts_get {cfg : Cfg} {env : Env} {alts : List Alt} {i : Nat} {k : Kind} {c : Constraint}
    (h : alts[i]? = some (.mk k c)) : readAlts cfg env alts i =
      (readKind cfg env k).andThen fun v => (RdE.checked c v).mapOk some := by
  induction alts generalizing i with
  | nil => simp at h
  | cons a alts ih =>
    cases i with
    | zero =>
      simp only [List.getElem?_cons_zero, Option.some.injEq] at h
      subst h
      rw [readAlts]
    | succ i =>
      obtain ⟨k2, c2⟩ := a
      rw [readAlts]
      exact ih (by simpa using h)

theorem pre_unique {pre post pre' post' : List Field} {f : Field} {seen : List String}
    (hu : uniqueFields seen (pre ++ f :: post) = true) (h : pre ++ f :: post = pre' ++ f :: post') :
    pre = pre' := by
  induction pre generalizing pre' seen with
  | nil =>
    cases pre' with
    | nil => rfl
    | cons g pre' =>
      simp only [List.nil_append, List.cons_append, List.cons.injEq] at h
      obtain ⟨rfl, h⟩ := h
      simp only [List.nil_append, uniqueFields, Bool.and_eq_true] at hu
      exact absurd (by rw [h]; simp) (uniqueFields_not_seen _ _ hu.2 f.id (by simp))
  | cons g pre ih =>
    cases pre' with
    | nil =>
      simp only [List.nil_append, List.cons_append, List.cons.injEq] at h
      obtain ⟨rfl, h⟩ := h
      simp only [List.cons_append, uniqueFields, Bool.and_eq_true] at hu
      exact absurd (by simp) (uniqueFields_not_seen _ _ hu.2 g.id (by simp))
    | cons g' pre' =>
      simp only [List.cons_append, List.cons.injEq] at h
      obtain ⟨rfl, h⟩ := h
      simp only [List.cons_append, uniqueFields, Bool.and_eq_true] at hu
      rw [ih hu.2 h]

/-- The schema with the alternative in place of the union. -/
theorem wf_alternative {pre : List Field} {id : String} {d : Deducer}
    {alts : List Alt} {c : Constraint} (hwf : WellFormed (pre ++ [.union id d alts c]))
    {i : Nat} {k : Kind} {c' : Constraint} (ha : alts[i]? = some (.mk k c')) :
    WellFormed (pre ++ [.plain id k c']) := by
  have hmem := List.mem_of_getElem? ha
  have h1 : ∀ {alts : List Alt}, Alt.mk k c' ∈ alts → saneAlts alts = true → saneKind k = true := by
    intro alts hm h
    induction alts with
    | nil => cases hm
    | cons a alts ih =>
      obtain ⟨k2, c2⟩ := a
      rw [saneAlts, Bool.and_eq_true] at h
      rcases List.mem_cons.1 hm with he | hm
      · cases he; exact h.1
      · exact ih hm h.2
  have h2 : ∀ {alts : List Alt}, Alt.mk k c' ∈ alts → uniqueAlts alts = true → uniqueKind k = true := by
    intro alts hm h
    induction alts with
    | nil => cases hm
    | cons a alts ih =>
      obtain ⟨k2, c2⟩ := a
      rw [uniqueAlts, Bool.and_eq_true] at h
      rcases List.mem_cons.1 hm with he | hm
      · cases he; exact h.1
      · exact ih hm h.2
  have h3 : ∀ {alts : List Alt}, Alt.mk k c' ∈ alts → earlierAlts alts = true → earlierKind k = true := by
    intro alts hm h
    induction alts with
    | nil => cases hm
    | cons a alts ih =>
      obtain ⟨k2, c2⟩ := a
      rw [earlierAlts, Bool.and_eq_true] at h
      rcases List.mem_cons.1 hm with he | hm
      · cases he; exact h.1
      · exact ih hm h.2
  obtain ⟨hs, hu, he⟩ := hwf
  refine ⟨?_, ?_, ?_⟩
  · clear hu he
    induction pre with
    | nil =>
      simp only [List.nil_append, saneFields, saneField, Bool.and_eq_true, Bool.and_true] at hs ⊢
      exact h1 hmem hs.2
    | cons f pre ih =>
      simp only [List.cons_append, saneFields, Bool.and_eq_true] at hs ⊢
      exact ⟨hs.1, ih hs.2⟩
  · clear hs he
    generalize ([] : List String) = seen at hu ⊢
    induction pre generalizing seen with
    | nil =>
      simp only [List.nil_append, uniqueFields, uniqueField, Bool.and_eq_true, Field.id,
        and_true] at hu ⊢
      exact ⟨hu.1, h2 hmem hu.2⟩
    | cons f pre ih =>
      simp only [List.cons_append, uniqueFields, Bool.and_eq_true] at hu ⊢
      exact ⟨hu.1, ih _ hu.2⟩
  · clear hs hu
    generalize ([] : List String) = seen at he ⊢
    induction pre generalizing seen with
    | nil =>
      simp only [List.nil_append, earlierFields, earlierField, Bool.and_eq_true, List.all_eq_true,
        fieldDeps, and_true] at he ⊢
      refine ⟨fun j hj => he.1 j ?_, h3 hmem he.2⟩
      rw [List.mem_append, List.mem_flatMap]
      exact .inr ⟨_, hmem, hj⟩
    | cons f pre ih =>
      simp only [List.cons_append, earlierFields, Bool.and_eq_true] at he ⊢
      exact ⟨he.1, ih _ he.2⟩

/-- Reading a union is reading its alternative as a plain field, wrapped, and then
checking the union's own constraint. -/
theorem union_as_plain {cfg : Cfg} {pre : List Field} {id : String} {d : Deducer}
    {alts : List Alt} {c : Constraint} (hwf : WellFormed (pre ++ [.union id d alts c]))
    {S : InStream} {s s1 : S.State} {vs : List Val}
    (h : (structCast cfg pre).runOn S s = (.done (.ok vs), s1)) {i : Nat} {k : Kind}
    {c' : Constraint} (hd : d.eval (envOf pre vs) = .ok (some i))
    (ha : alts[i]? = some (.mk k c')) :
    (∀ e s', (structCast cfg (pre ++ [.plain id k c'])).runOn S s = (.done (.error e), s') →
      (structCast cfg (pre ++ [.union id d alts c])).runOn S s = (.done (.error e), s')) ∧
    (∀ ws s', (structCast cfg (pre ++ [.plain id k c'])).runOn S s = (.done (.ok ws), s') →
      ∃ u, ws = vs ++ [u] ∧
        (c.check (.var i u) = .ok true → (structCast cfg (pre ++ [.union id d alts c])).runOn S s =
          (.done (.ok (vs ++ [.var i u])), s')) ∧
        (c.check (.var i u) = .ok false → (structCast cfg (pre ++ [.union id d alts c])).runOn S s =
          (.done (.error ⟨.validationFailure, id⟩), s'))) ∧
    (∀ w s', (structCast cfg (pre ++ [.plain id k c'])).runOn S s = (.stuck w, s') →
      (structCast cfg (pre ++ [.union id d alts c])).runOn S s = (.stuck w, s')) := by
  rw [runOn_append cfg pre _ hwf S s s1 vs h,
    runOn_append cfg pre _ (wf_alternative hwf ha) S s s1 vs h]
  simp only [readRest, readFields, readField, hd, readAlts_get ha,
    RdE.tag, RdE.runOn_andThen, RdE.runOn_mapErr, RdE.mapOk, RdE.checked, RdE.lift,
    RdE.ok_andThen, Field.constraint]
  cases Rd.runOn S (readKind cfg (envOf pre vs) k) s1 with
  | mk o s2 =>
    cases o with
    | stuck w =>
      exact ⟨fun e' s' h => by simp at h, fun ws s' h => by simp at h, fun w s' h => by simpa using h⟩
    | done a =>
      cases a with
      | error e =>
        simp only [Field.id]
        exact ⟨fun e' s' h => h, fun ws s' h => by simp at h, fun w s' h => by simp at h⟩
      | ok u =>
        simp only
        cases c'.check u with
        | error w =>
          simp only [Rd.runOn]
          exact ⟨fun e' s' h => by simp at h, fun ws s' h => by simp at h,
            fun w s' h => by simpa [RdE.andThen, Rd.bind, Rd.runOn] using h⟩
        | ok b =>
          cases b with
          | false =>
            simp only [Bool.false_eq_true, if_false, RdE.err, RdE.ok, Rd.runOn]
            exact ⟨fun e' s' h => h, fun ws s' h => by simp at h, fun w s' h => by simp at h⟩
          | true =>
            simp only [if_true, RdE.ok, Rd.runOn]
            refine ⟨fun e' s' h => by simp at h, fun ws s' h => ?_, fun w s' h => by simp at h⟩
            simp only [Prod.mk.injEq, Outcome.done.injEq, Except.ok.injEq] at h
            obtain ⟨rfl, rfl⟩ := h
            refine ⟨u, rfl, fun hc => ?_, fun hc => ?_⟩
            · rw [hc]; rfl
            · rw [hc]; rfl

end S2S
