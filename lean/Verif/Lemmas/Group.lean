import Verif.Spec.Group
import Verif.Lemmas.Append
import Verif.Lemmas.WriteFields
import Verif.Lemmas.Rename
/-
Lists of fields cut where nothing refers across: what the casts do with the parts.
-/
namespace S2S
open Spec

/-! ### Leaves of trees -/

/-- All results, whatever the stream delivers. -/
def Rd.Every (Q : α → Prop) : Rd α → Prop
  | .ret a => Q a
  | .stuck _ => True
  | .read _ k => ∀ o, (k o).Every Q
  | .alloc _ k => k.Every Q

theorem Rd.every_bind {Q : α → Prop} {R : β → Prop} {r : Rd α} {f : α → Rd β} (h : r.Every Q)
    (hf : ∀ a, Q a → (f a).Every R) : (r.bind f).Every R := by
  induction r with
  | ret a => exact hf a h
  | stuck w => trivial
  | read n k ih => exact fun o => ih o (h o)
  | alloc b k ih => exact ih h

theorem Rd.every_true (r : Rd α) : r.Every fun _ => True := by
  induction r with
  | ret a => trivial
  | stuck w => trivial
  | read n k ih => exact ih
  | alloc b k ih => exact ih

theorem Rd.bind_congr_every {Q : α → Prop} {r : Rd α} {f g : α → Rd β} (h : r.Every Q)
    (hf : ∀ a, Q a → f a = g a) : r.bind f = r.bind g := by
  induction r with
  | ret a => exact hf a h
  | stuck w => rfl
  | read n k ih => simp only [Rd.bind]; congr 1; funext o; exact ih o (h o)
  | alloc b k ih => simp only [Rd.bind, ih h]

/-- `std::expected` holding what `P` is true of, if a value. -/
def OkOf (P : α → Prop) : Except ε α → Prop
  | .ok a => P a
  | .error _ => True

theorem RdE.every_andThen {P : α → Prop} {P' : β → Prop} {r : RdE ε α} {f : α → RdE ε β}
    (h : Rd.Every (OkOf P) r) (hf : ∀ a, P a → Rd.Every (OkOf P') (f a)) : Rd.Every (OkOf P') (r.andThen f) :=
  Rd.every_bind h fun a ha => by
    cases a with
    | ok a => exact hf a ha
    | error e => trivial

theorem RdE.andThen_congr_every {P : α → Prop} {r : RdE ε α} {f g : α → RdE ε β}
    (h : Rd.Every (OkOf P) r) (hf : ∀ a, P a → f a = g a) : r.andThen f = r.andThen g :=
  Rd.bind_congr_every h fun a ha => by
    cases a with
    | ok a => exact hf a ha
    | error e => rfl

theorem RdE.every_any (r : RdE ε α) : Rd.Every (OkOf fun _ => True) r := by
  induction r with
  | ret a => cases a <;> trivial
  | stuck w => trivial
  | read n k ih => exact ih
  | alloc b k ih => exact ih

theorem readFields_every (cfg : Cfg) (fs : List Field) (env : Env) :
    Rd.Every (OkOf fun vs => vs.length = fs.length) (readFields cfg env fs) := by
  induction fs generalizing env with
  | nil => rw [readFields]; rfl
  | cons f fs ih =>
    rw [readFields]
    refine RdE.every_andThen (RdE.every_any _) fun v _ => RdE.every_andThen (ih _) fun vs hvs => ?_
    show (v :: vs).length = _
    simp [hvs]

/-! ### Names in errors -/

theorem RdE.mapErr_self (r : RdE ε α) {g : ε → ε} (h : ∀ e, g e = e) : r.mapErr g = r := by
  unfold RdE.mapErr Rd.map
  refine Eq.trans ?_ (Rd.bind_ret r)
  congr 1
  funext a
  cases a with
  | ok a => rfl
  | error e => simp only [h]

theorem WrE.mapErr_self (r : WrE ε α) {g : ε → ε} (h : ∀ e, g e = e) : r.mapErr g = r := by
  unfold WrE.mapErr Wr.map
  induction r with
  | ret a => cases a with
    | ok a => rfl
    | error e => simp only [Wr.bind, h]
  | stuck w => rfl
  | write bs k ih => simp only [Wr.bind]; congr 1; funext b; exact ih b

theorem readFields_names (cfg : Cfg) (fs : List Field) (env : Env) {g h : CastError → CastError}
    (hg : ∀ f ∈ fs, ∀ r, g ⟨r, f.id⟩ = h ⟨r, f.id⟩) :
    (readFields cfg env fs).mapErr g = (readFields cfg env fs).mapErr h := by
  induction fs generalizing env with
  | nil => rw [readFields]; rfl
  | cons f fs ih =>
    rw [readFields, RdE.mapErr_andThen, RdE.mapErr_andThen, RdE.tag, RdE.mapErr_mapErr, RdE.mapErr_mapErr]
    have h1 : (g ∘ fun e => (⟨e, f.id⟩ : CastError)) = h ∘ fun e => ⟨e, f.id⟩ :=
      funext fun r => hg f (by simp) r
    rw [h1]
    congr 1; funext v
    rw [RdE.mapErr_andThen, RdE.mapErr_andThen, ih _ fun f hf => hg f (by simp [hf])]
    rfl

theorem writeFields_names (cfg : Cfg) (ctx : WCtx) (fs : List Field) (vs : List Val)
    {g h : CastError → CastError} (hg : ∀ f ∈ fs, ∀ r, g ⟨r, f.id⟩ = h ⟨r, f.id⟩) :
    (writeFields cfg ctx fs vs).mapErr g = (writeFields cfg ctx fs vs).mapErr h := by
  induction fs generalizing vs with
  | nil => cases vs <;> simp only [writeFields] <;> rfl
  | cons f fs ih =>
    cases vs with
    | nil => simp only [writeFields]; rfl
    | cons v vs =>
      rw [writeFields, WrE.mapErr_andThen, WrE.mapErr_andThen, WrE.tag, WrE.mapErr_mapErr, WrE.mapErr_mapErr]
      have h1 : (g ∘ fun e => (⟨e, f.id⟩ : CastError)) = h ∘ fun e => ⟨e, f.id⟩ :=
        funext fun r => hg f (by simp) r
      rw [h1, ih _ fun f hf => hg f (by simp [hf])]

/-! ### Siblings that do not matter to a write -/

theorem lenTarget_mem {k : Kind} {i : String} (h : k.lenTarget? = some i) : i ∈ kindDeps k := by
  cases k with
  | vec e len b => cases len <;> simp_all [Kind.lenTarget?, Kind.lenSpec?, kindDeps, lenDeps]
  | vecRec fs len b sz => cases len <;> simp_all [Kind.lenTarget?, Kind.lenSpec?, kindDeps, lenDeps]
  | _ => simp [Kind.lenTarget?, Kind.lenSpec?] at h

theorem implies_unseen (cfg : Cfg) {f : Field} {i : String} (h : i ∉ fieldDeps f) (v : Val) :
    f.implies cfg i v = .ok none := by
  cases f with
  | plain id k c =>
    have : ¬ k.lenTarget? = some i := fun hk => h (lenTarget_mem hk)
    simp only [Field.implies, if_neg this]
  | maybe id k p => simp only [Field.implies]
  | union id d alts c =>
    cases d with
    | matchField j t ls =>
      have : ¬ j = i := fun hj => h (by simp [fieldDeps, deducerDeps, hj])
      cases v <;> simp only [Field.implies, if_neg this]
    | _ => cases v <;> simp only [Field.implies]

theorem anyAlt_unseen {alts : List Alt} {i : String} (h : i ∉ alts.flatMap fun a => kindDeps a.kind) :
    anyAltTargets i alts = false := by
  simp only [anyAltTargets, List.any_eq_false, decide_eq_true_eq]
  intro a ha hk
  exact h (List.mem_flatMap.2 ⟨a, ha, lenTarget_mem hk⟩)

theorem condTargets_unseen {f : Field} {i : String} (h : i ∉ fieldDeps f) : f.condTargets i = false := by
  cases f with
  | plain id k c => rfl
  | maybe id k p =>
    have : ¬ k.lenTarget? = some i := fun hk => h (by simp [fieldDeps, lenTarget_mem hk])
    simp [Field.condTargets, this]
  | union id d alts c =>
    exact anyAlt_unseen fun hm => h (by simp only [fieldDeps, List.mem_append]; exact .inr hm)

theorem condAgrees_unseen (env : Env) {f : Field} {i : String} (h : i ∉ fieldDeps f) (n : Nat) (v : Val) :
    f.condAgrees env i n v = .ok true := by
  cases f with
  | plain id k c => rfl
  | maybe id k p =>
    have : ¬ k.lenTarget? = some i := fun hk => h (by simp [fieldDeps, lenTarget_mem hk])
    simp only [Field.condAgrees, if_neg this]
  | union id d alts c =>
    have := anyAlt_unseen (alts := alts) fun hm => h (by simp only [fieldDeps, List.mem_append]; exact .inr hm)
    simp [Field.condAgrees, this]

theorem condAgrees_agree {env env' : Env} {f : Field} (h : Agree (fieldDeps f) env env') (i : String) (n : Nat)
    (v : Val) : f.condAgrees env i n v = f.condAgrees env' i n v := by
  cases f with
  | plain id k c => rfl
  | maybe id k p =>
    have := Pred.eval_congr (p := p) (h.mono (by simp +contextual [fieldDeps]))
    simp only [Field.condAgrees, this]
  | union id d alts c => rfl

theorem deriveScan_append (cfg : Cfg) (i : String) (A B : List Field) (as bs : List Val)
    (hl : as.length = A.length) (d : Derivation) : deriveScan cfg i (A ++ B) (as ++ bs) d =
      match deriveScan cfg i A as d with
      | .error w => .error w
      | .ok d => deriveScan cfg i B bs d := by
  induction A generalizing as d with
  | nil =>
    obtain rfl : as = [] := by simpa using hl
    simp only [List.nil_append]
    rw [deriveScan.eq_def cfg i [] []]
  | cons f A ih =>
    cases as with
    | nil => simp at hl
    | cons v as =>
      simp only [List.cons_append, deriveScan]
      have hl : as.length = A.length := by simpa using hl
      cases f.implies cfg i v with
      | error w => rfl
      | ok o => cases o with
        | none => exact ih as hl d
        | some n => exact ih as hl _

theorem deriveScan_unseen (cfg : Cfg) (i : String) (M : List Field) (ms : List Val)
    (h : ∀ f ∈ M, i ∉ fieldDeps f) (d : Derivation) : deriveScan cfg i M ms d = .ok d := by
  induction M generalizing ms with
  | nil => cases ms <;> rfl
  | cons f M ih =>
    cases ms with
    | nil => rfl
    | cons v ms =>
      simp only [deriveScan, implies_unseen cfg (h f (by simp))]
      exact ih ms fun f hf => h f (by simp [hf])

theorem deriveScan_drop (cfg : Cfg) (i : String) (A M B : List Field) (as ms bs : List Val)
    (ha : as.length = A.length) (hm : ms.length = M.length) (h : ∀ f ∈ M, i ∉ fieldDeps f) (d : Derivation) :
    deriveScan cfg i (A ++ (M ++ B)) (as ++ (ms ++ bs)) d = deriveScan cfg i (A ++ B) (as ++ bs) d := by
  rw [deriveScan_append _ _ _ _ _ _ ha, deriveScan_append _ _ _ _ _ _ ha]
  cases deriveScan cfg i A as d with
  | error w => rfl
  | ok d => simp only [deriveScan_append _ _ _ _ _ _ hm, deriveScan_unseen _ _ _ _ h]

/-- The other order of the same test. -/
theorem verifyScan_append (env : Env) (i : String) (n : Nat) (A B : List Field) (as bs : List Val)
    (hl : as.length = A.length) : verifyScan env i n (A ++ B) (as ++ bs) =
      match verifyScan env i n A as, verifyScan env i n B bs with
      | .ok a, .ok b => .ok (a && b)
      | .error w, _ => .error w
      | _, .error w => .error w := by
  induction A generalizing as with
  | nil =>
    obtain rfl : as = [] := by simpa using hl
    simp only [List.nil_append]
    rw [verifyScan.eq_def env i n [] []]
    cases verifyScan env i n B bs <;> simp
  | cons f A ih =>
    cases as with
    | nil => simp at hl
    | cons v as =>
      simp only [List.cons_append, verifyScan, ih as (by simpa using hl)]
      cases f.condAgrees env i n v <;> cases verifyScan env i n A as <;> cases verifyScan env i n B bs <;>
        simp [Bool.and_assoc]

theorem verifyScan_unseen (env : Env) (i : String) (n : Nat) (M : List Field) (ms : List Val)
    (h : ∀ f ∈ M, i ∉ fieldDeps f) : verifyScan env i n M ms = .ok true := by
  induction M generalizing ms with
  | nil => cases ms <;> rfl
  | cons f M ih =>
    cases ms with
    | nil => rfl
    | cons v ms =>
      simp only [verifyScan, condAgrees_unseen env (h f (by simp)), ih ms fun f hf => h f (by simp [hf])]
      rfl

theorem verifyScan_drop (env : Env) (i : String) (n : Nat) (A M B : List Field) (as ms bs : List Val)
    (ha : as.length = A.length) (hm : ms.length = M.length) (h : ∀ f ∈ M, i ∉ fieldDeps f) :
    verifyScan env i n (A ++ (M ++ B)) (as ++ (ms ++ bs)) = verifyScan env i n (A ++ B) (as ++ bs) := by
  rw [verifyScan_append _ _ _ _ _ _ _ ha, verifyScan_append _ _ _ _ _ _ _ ha,
    verifyScan_append _ _ _ _ _ _ _ hm, verifyScan_unseen _ _ _ _ _ h]
  cases verifyScan env i n A as <;> cases verifyScan env i n B bs <;> simp

theorem verifyScan_congr {env env' : Env} (i : String) (n : Nat) (fs : List Field) (vs : List Val)
    (h : ∀ f ∈ fs, i ∉ fieldDeps f ∨ Agree (fieldDeps f) env env') :
    verifyScan env i n fs vs = verifyScan env' i n fs vs := by
  induction fs generalizing vs with
  | nil => cases vs <;> rfl
  | cons f fs ih =>
    cases vs with
    | nil => rfl
    | cons v vs =>
      have hf : f.condAgrees env i n v = f.condAgrees env' i n v := by
        rcases h f (by simp) with h | h
        · rw [condAgrees_unseen env h, condAgrees_unseen env' h]
        · exact condAgrees_agree h i n v
      simp only [verifyScan, hf, ih vs fun f hf => h f (by simp [hf])]

theorem isDerived_drop (i : String) (A M B : List Field) (h : ∀ f ∈ M, i ∉ fieldDeps f) :
    isDerived (A ++ (M ++ B)) i = isDerived (A ++ B) i := by
  have h1 : (lenDerivedIds M).contains i = false := by
    simp only [List.contains_eq_mem, decide_eq_false_iff_not, lenDerivedIds, List.mem_filterMap, not_exists, not_and]
    intro f hf hm
    cases f with
    | plain id k c => exact h _ hf (lenTarget_mem hm)
    | _ => cases hm
  have h2 : (discDerivedIds M).contains i = false := by
    simp only [List.contains_eq_mem, decide_eq_false_iff_not, discDerivedIds, List.mem_filterMap, not_exists, not_and]
    intro f hf hm
    cases f with
    | union id d alts c =>
      cases d with
      | matchField j t ls =>
        simp only [Option.some.injEq] at hm
        exact h _ hf (by simp [fieldDeps, deducerDeps, hm])
      | _ => cases hm
    | _ => cases hm
  have e1 : ∀ A B, (lenDerivedIds (A ++ B)).contains i = ((lenDerivedIds A).contains i || (lenDerivedIds B).contains i) := by
    intro A B
    simp only [lenDerivedIds, List.filterMap_append, List.contains_eq_mem, List.mem_append, Bool.decide_or]
  have e2 : ∀ A B, (discDerivedIds (A ++ B)).contains i = ((discDerivedIds A).contains i || (discDerivedIds B).contains i) := by
    intro A B
    simp only [discDerivedIds, List.filterMap_append, List.contains_eq_mem, List.mem_append, Bool.decide_or]
  simp only [isDerived, e1, e2, h1, h2, Bool.false_or]

theorem hasConditional_drop (i : String) (A M B : List Field) (h : ∀ f ∈ M, i ∉ fieldDeps f) :
    hasConditional (A ++ (M ++ B)) i = hasConditional (A ++ B) i := by
  have h1 : M.any (fun f => f.condTargets i) = false := by
    simp only [List.any_eq_false]
    intro f hf
    simp [condTargets_unseen (h f hf)]
  simp only [hasConditional, List.any_append, h1, Bool.false_or]

/-! ### Lists that say the same to a field -/

/-- To whom is written next to `fs`, the one list is as the other. -/
structure SameTo (cfg : Cfg) (fs : List Field) (ctx ctx' : WCtx) : Prop where
  env : ∀ f ∈ fs, Agree (fieldDeps f) ctx.env ctx'.env
  derived : ∀ f ∈ fs, isDerived ctx.fs f.id = isDerived ctx'.fs f.id
  value : ∀ f ∈ fs, ∀ t w, deriveValue cfg ctx.fs ctx.vs f.id t w = deriveValue cfg ctx'.fs ctx'.vs f.id t w
  cond : ∀ f ∈ fs, hasConditional ctx.fs f.id = hasConditional ctx'.fs f.id
  verify : ∀ f ∈ fs, ∀ n, verifyScan ctx.env f.id n ctx.fs ctx.vs = verifyScan ctx'.env f.id n ctx'.fs ctx'.vs

theorem SameTo.kind {cfg : Cfg} {fs : List Field} {ctx ctx' : WCtx} (h : SameTo cfg fs ctx ctx') {f : Field}
    (hf : f ∈ fs) (member : Bool) (c : Constraint) (k : Kind) (hk : ∀ i ∈ kindDeps k, i ∈ fieldDeps f) (v : Val) :
    writeKind cfg ctx member f.id c k v = writeKind cfg ctx' member f.id c k v := by
  have hv : ∀ k v, verifyThenWrite cfg ctx f.id k v = verifyThenWrite cfg ctx' f.id k v := by
    intro k v
    simp only [verifyThenWrite, h.cond f hf, h.verify f hf]
  have hfix : ∀ k v, writeFixed cfg ctx member f.id k c v = writeFixed cfg ctx' member f.id k c v := by
    intro k v
    simp only [writeFixed, h.derived f hf, h.value f hf, hv]
  have hcomp : ∀ len n w, (∀ i ∈ lenDeps len, i ∈ fieldDeps f) →
      verifyComputed cfg ctx.env len n w = verifyComputed cfg ctx'.env len n w := by
    intro len n w hl
    cases len with
    | fromField j => rfl
    | computed cc => simp only [verifyComputed, LenSpec.eval_congr ((h.env f hf).mono hl)]
  cases k with
  | num t w => simp only [writeKind, hfix]
  | fbuf e n => simp only [writeKind, hfix]
  | fstr n => simp only [writeKind, hfix]
  | vec e len b => cases v <;> simp only [writeKind]; exact hcomp _ _ _ hk
  | record gs => cases v <;> simp only [writeKind]
  | arrRec gs n => cases v <;> simp only [writeKind]
  | vecRec gs len b sz => cases v <;> simp only [writeKind]; exact hcomp _ _ _ hk

theorem SameTo.alts {cfg : Cfg} {fs : List Field} {ctx ctx' : WCtx} (h : SameTo cfg fs ctx ctx') {f : Field}
    (hf : f ∈ fs) (alts : List Alt) (ha : ∀ i ∈ alts.flatMap fun a => kindDeps a.kind, i ∈ fieldDeps f)
    (i : Nat) (v : Val) : writeAlts cfg ctx f.id alts i v = writeAlts cfg ctx' f.id alts i v := by
  induction alts generalizing i with
  | nil => simp only [writeAlts]
  | cons a alts ih =>
    obtain ⟨k, c⟩ := a
    cases i with
    | zero =>
      simp only [writeAlts, h.kind hf false c k (fun j hj => ha j (by simp [hj])) v]
    | succ i =>
      simp only [writeAlts]
      exact ih (fun j hj => ha j (by rw [List.flatMap_cons, List.mem_append]; exact .inr hj)) i

theorem SameTo.field {cfg : Cfg} {fs : List Field} {ctx ctx' : WCtx} (h : SameTo cfg fs ctx ctx') {f : Field}
    (hf : f ∈ fs) (v : Val) : writeField cfg ctx f v = writeField cfg ctx' f v := by
  cases f with
  | plain id k c =>
    simp only [writeField]
    exact h.kind hf true c k (fun i hi => hi) v
  | maybe id k p =>
    have hp := Pred.eval_congr (p := p) ((h.env _ hf).mono (by simp +contextual [fieldDeps]))
    have hk := h.kind hf false .none k (by simp +contextual [fieldDeps])
    simp only [Field.id] at hk
    simp only [writeField, hp, hk]
  | union id d alts c =>
    have hd := Deducer.eval_congr (d := d) ((h.env _ hf).mono (by simp +contextual [fieldDeps]))
    have ha := h.alts hf alts (by
      intro j hj
      simp only [fieldDeps, List.mem_append]
      exact .inr hj)
    simp only [Field.id] at ha
    cases v with
    | var i w => cases d <;> simp only [writeField, hd, ha]
    | _ => simp only [writeField]

theorem SameTo.fields {cfg : Cfg} {fs : List Field} {ctx ctx' : WCtx} (h : SameTo cfg fs ctx ctx')
    {ps : List Field} (hp : ∀ f ∈ ps, f ∈ fs) (vs : List Val) :
    writeFields cfg ctx ps vs = writeFields cfg ctx' ps vs := by
  induction ps generalizing vs with
  | nil => cases vs <;> simp only [writeFields]
  | cons f ps ih =>
    cases vs with
    | nil => simp only [writeFields]
    | cons v vs =>
      have hf : f ∈ fs := hp f (by simp)
      rw [writeFields, writeFields, h.derived f hf, h.field hf, ih fun f hf => hp f (by simp [hf])]

theorem envOf_drop (A M B : List Field) (as ms bs : List Val) (ha : as.length = A.length)
    (hm : ms.length = M.length) (i : String) (hi : i ∉ M.map Field.id) :
    envOf (A ++ (M ++ B)) (as ++ (ms ++ bs)) i = envOf (A ++ B) (as ++ bs) i := by
  induction A generalizing as with
  | nil =>
    obtain rfl : as = [] := by simpa using ha
    simp only [List.nil_append]
    induction M generalizing ms with
    | nil =>
      obtain rfl : ms = [] := by simpa using hm
      rfl
    | cons f M ih =>
      cases ms with
      | nil => simp at hm
      | cons v ms =>
        simp only [List.map_cons, List.mem_cons, not_or] at hi
        simp only [List.cons_append, envOf, Env.set, hi.1, if_false]
        exact ih ms (by simpa using hm) hi.2
  | cons f A ih =>
    cases as with
    | nil => simp at ha
    | cons v as =>
      simp only [List.cons_append, envOf, Env.set]
      split
      · rfl
      · exact ih as (by simpa using ha)

/-- A run of fields that refers to none of `fs`, and to which none of `fs` refers, is nothing to
`fs`, if the same holds of whoever refers to `fs`. -/
theorem sameTo_drop (cfg : Cfg) (A M B : List Field) (as ms bs : List Val) (ha : as.length = A.length)
    (hm : ms.length = M.length) (fs : List Field)
    (h1 : ∀ f ∈ fs, ∀ g ∈ M, f.id ∉ fieldDeps g) (h2 : ∀ f ∈ fs, ∀ i ∈ fieldDeps f, i ∉ M.map Field.id)
    (h3 : ∀ f ∈ fs, ∀ g ∈ A ++ B, f.id ∉ fieldDeps g ∨ ∀ i ∈ fieldDeps g, i ∉ M.map Field.id) :
    SameTo cfg fs ⟨A ++ (M ++ B), as ++ (ms ++ bs)⟩ ⟨A ++ B, as ++ bs⟩ where
  env f hf i hi := envOf_drop A M B as ms bs ha hm i (h2 f hf i hi)
  derived f hf := isDerived_drop f.id A M B (h1 f hf)
  value f hf t w := by
    simp only [deriveValue, deriveScan_drop cfg f.id A M B as ms bs ha hm (h1 f hf)]
  cond f hf := hasConditional_drop f.id A M B (h1 f hf)
  verify f hf n := by
    simp only [verifyScan_drop _ f.id n A M B as ms bs ha hm (h1 f hf)]
    refine verifyScan_congr f.id n _ _ fun g hg => (h3 f hf g hg).imp (fun h => h) fun h i hi => ?_
    exact envOf_drop A M B as ms bs ha hm i (h i hi)

end S2S
