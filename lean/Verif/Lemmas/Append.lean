import Verif.Lemmas.Fields
/-
Reading `pre ++ post` is reading `pre`, then `post` with the values of `pre`.
-/
namespace S2S
open Spec

theorem RdE.andThen_assoc (r : RdE ε α) (f : α → RdE ε β) (g : β → RdE ε γ) :
    (r.andThen f).andThen g = r.andThen fun a => (f a).andThen g := by
  unfold RdE.andThen
  rw [Rd.bind_assoc]
  congr 1
  funext a
  cases a <;> rfl

theorem RdE.ok_andThen (a : α) (f : α → RdE ε β) : (RdE.ok a : RdE ε α).andThen f = f a := rfl

theorem RdE.andThen_ok (r : RdE ε α) : r.andThen RdE.ok = r := by
  unfold RdE.andThen
  refine Eq.trans ?_ (Rd.bind_ret r)
  congr 1
  funext a
  cases a <;> rfl

/-- Assigning the fields of a list one after the other. -/
def setAll (env : Env) : List Field → List Val → Env
  | f :: fs, v :: vs => setAll (env.set f.id v) fs vs
  | _, _ => env

theorem readFields_append (cfg : Cfg) (pre post : List Field) (env : Env) :
    readFields cfg env (pre ++ post) = (readFields cfg env pre).andThen fun vs =>
      (readFields cfg (setAll env pre vs) post).andThen fun ws => RdE.ok (vs ++ ws) := by
  induction pre generalizing env with
  | nil =>
    rw [List.nil_append, readFields.eq_def cfg env []]
    simp only [RdE.ok_andThen, setAll, List.nil_append]
    exact (RdE.andThen_ok _).symm
  | cons f pre ih =>
    rw [List.cons_append, readFields_cons, readFields_cons, RdE.andThen_assoc]
    congr 1
    funext v
    rw [ih, RdE.andThen_assoc, RdE.andThen_assoc]
    congr 1
    funext vs
    rw [RdE.ok_andThen, RdE.andThen_assoc]
    rfl

theorem readFields_length (cfg : Cfg) (fs : List Field) (env : Env) :
    RdE.AllE (fun vs => vs.length = fs.length) Anything Anything Anything (readFields cfg env fs) := by
  induction fs generalizing env with
  | nil => rw [readFields]; rfl
  | cons f fs ih =>
    rw [readFields_cons]
    refine RdE.all_andThen (Q := Anything) ?_ fun v _ => ?_
    · refine Rd.All.mono (Rd.all_true _) ?_ (fun _ h => h) (fun _ h => h)
      intro a _
      cases a <;> trivial
    · refine RdE.all_andThen (ih _) fun vs hvs => ?_
      show (v :: vs).length = _
      simp [hvs]

theorem length_of_run {cfg : Cfg} {fs : List Field} {env : Env} {S : InStream} {s s' : S.State}
    {vs : List Val} (h : (readFields cfg env fs).runOn S s = (.done (.ok vs), s')) :
    vs.length = fs.length := by
  have := Rd.runOn_all S (readFields_length cfg fs env) s
  rw [h] at this
  exact this

theorem earlier_suffix (pre post : List Field) (seen : List String)
    (h : earlierFields seen (pre ++ post) = true) :
    earlierFields (seen ++ pre.map Field.id) post = true := by
  induction pre generalizing seen with
  | nil => simpa using h
  | cons f pre ih =>
    simp only [List.cons_append, earlierFields, Bool.and_eq_true] at h
    have := ih _ h.2
    simpa using this

theorem setAll_of_not_mem (env : Env) (fs : List Field) (vs : List Val) (i : String)
    (h : i ∉ fs.map Field.id) : setAll env fs vs i = env i := by
  induction fs generalizing env vs with
  | nil => cases vs <;> rfl
  | cons f fs ih =>
    cases vs with
    | nil => rfl
    | cons v vs =>
      simp only [List.map_cons, List.mem_cons, not_or] at h
      rw [setAll, ih _ _ h.2]
      simp [Env.set, h.1]

theorem envOf_of_not_mem (fs : List Field) (vs : List Val) (i : String)
    (h : i ∉ fs.map Field.id) : envOf fs vs i = none := by
  induction fs generalizing vs with
  | nil => cases vs <;> rfl
  | cons f fs ih =>
    cases vs with
    | nil => rfl
    | cons v vs =>
      simp only [List.map_cons, List.mem_cons, not_or] at h
      rw [envOf]
      simp [Env.set, h.1, ih vs h.2]

theorem setAll_agree (seen : List String) (fs : List Field) (vs : List Val) (env : Env)
    (hu : uniqueFields seen fs = true) (hl : vs.length = fs.length) :
    Agree (fs.map Field.id) (setAll env fs vs) (envOf fs vs) := by
  induction fs generalizing vs env seen with
  | nil => simp [Agree]
  | cons f fs ih =>
    cases vs with
    | nil => simp at hl
    | cons v vs =>
      simp only [uniqueFields, Bool.and_eq_true] at hu
      intro i hi
      rw [setAll, envOf]
      by_cases hm : i ∈ fs.map Field.id
      · rw [ih _ vs _ hu.2 (by simpa using hl) i hm]
        have : i ≠ f.id := by
          rintro rfl
          exact uniqueFields_not_seen _ _ hu.2 f.id (by simp) hm
        simp [Env.set, this]
      · rw [setAll_of_not_mem _ _ _ _ hm]
        simp only [List.map_cons, List.mem_cons] at hi
        rcases hi with rfl | hi
        · simp [Env.set]
        · exact absurd hi hm

theorem Rd.allocsOn_bind (S : InStream) (r : Rd α) (f : α → Rd β) (s : S.State) :
    (r.bind f).allocsOn S s =
      match r.runOn S s with
      | (.done a, s') => r.allocsOn S s ++ (f a).allocsOn S s'
      | (.stuck _, _) => r.allocsOn S s := by
  induction r generalizing s with
  | ret a => rfl
  | stuck w => rfl
  | read n k ih => simp only [bind, runOn, allocsOn, ih]
  | alloc b k ih =>
    simp only [bind, runOn, allocsOn, ih]
    split <;> simp_all

theorem Rd.callsOn_bind (S : InStream) (r : Rd α) (f : α → Rd β) (s : S.State) :
    (r.bind f).callsOn S s =
      match r.runOn S s with
      | (.done a, s') => r.callsOn S s ++ (f a).callsOn S s'
      | (.stuck _, _) => r.callsOn S s := by
  induction r generalizing s with
  | ret a => rfl
  | stuck w => rfl
  | read n k ih =>
    simp only [bind, runOn, callsOn, ih]
    split <;> simp_all
  | alloc b k ih => simp only [bind, runOn, callsOn, ih]

/-- What is left to do once `pre` has been read with result `vs`. -/
abbrev readRest (cfg : Cfg) (pre post : List Field) (vs : List Val) : RdE CastError (List Val) :=
  (readFields cfg (envOf pre vs) post).andThen fun ws => RdE.ok (vs ++ ws)

theorem readRest_eq (cfg : Cfg) (pre post : List Field) (hwf : WellFormed (pre ++ post)) (env : Env)
    (vs : List Val) (hl : vs.length = pre.length) :
    ((readFields cfg (setAll env pre vs) post).andThen fun ws => RdE.ok (vs ++ ws)) =
      readRest cfg pre post vs := by
  rw [readRest, readFields_congr cfg post (pre.map Field.id)
    (by simpa using earlier_suffix pre post [] hwf.2.2)
    (setAll_agree [] pre vs env (wf_prefix hwf).2.1 hl)]

theorem structCast_append (cfg : Cfg) (pre post : List Field) (hwf : WellFormed (pre ++ post)) :
    structCast cfg (pre ++ post) = (structCast cfg pre).andThen fun vs =>
      (readFields cfg (setAll (dfltEnv (pre ++ post)) pre vs) post).andThen
        fun ws => RdE.ok (vs ++ ws) := by
  rw [structCast, readFields_append, structCast_prefix cfg _ pre post hwf]

theorem runOn_append (cfg : Cfg) (pre post : List Field) (hwf : WellFormed (pre ++ post))
    (S : InStream) (s s1 : S.State) (vs : List Val)
    (h : (structCast cfg pre).runOn S s = (.done (.ok vs), s1)) :
    (structCast cfg (pre ++ post)).runOn S s = (readRest cfg pre post vs).runOn S s1 := by
  rw [structCast_append cfg pre post hwf, RdE.runOn_andThen, h]
  simp only
  rw [readRest_eq cfg pre post hwf _ vs (length_of_run h)]

theorem allocsOn_append (cfg : Cfg) (pre post : List Field) (hwf : WellFormed (pre ++ post))
    (S : InStream) (s s1 : S.State) (vs : List Val)
    (h : (structCast cfg pre).runOn S s = (.done (.ok vs), s1)) :
    (structCast cfg (pre ++ post)).allocsOn S s =
      (structCast cfg pre).allocsOn S s ++ (readRest cfg pre post vs).allocsOn S s1 := by
  rw [structCast_append cfg pre post hwf, RdE.andThen, Rd.allocsOn_bind, h]
  simp only
  rw [readRest_eq cfg pre post hwf _ vs (length_of_run h)]

theorem callsOn_append (cfg : Cfg) (pre post : List Field) (hwf : WellFormed (pre ++ post))
    (S : InStream) (s s1 : S.State) (vs : List Val)
    (h : (structCast cfg pre).runOn S s = (.done (.ok vs), s1)) :
    (structCast cfg (pre ++ post)).callsOn S s =
      (structCast cfg pre).callsOn S s ++ (readRest cfg pre post vs).callsOn S s1 := by
  rw [structCast_append cfg pre post hwf, RdE.andThen, Rd.callsOn_bind, h]
  simp only
  rw [readRest_eq cfg pre post hwf _ vs (length_of_run h)]

end S2S
