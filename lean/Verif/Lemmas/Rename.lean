import Verif.Lemmas.Wr
import Verif.Lemmas.RunOn
import Verif.Lemmas.Rd
import Verif.Model.Write
import Verif.Spec.Rename
/-
Renaming commutes with reading and writing.
-/
namespace S2S
open Spec

/-! ### Evaluation -/

def EnvRen (ρ : String → String) (env env' : Env) : Prop := ∀ id, env' (ρ id) = env id

theorem EnvRen.empty (ρ : String → String) : EnvRen ρ Env.empty Env.empty := fun _ => rfl

theorem EnvRen.set {ρ : String → String} (hρ : Injective ρ) {env env' : Env} (h : EnvRen ρ env env')
    (id : String) (v : Val) : EnvRen ρ (env.set id v) (env'.set (ρ id) v) := by
  intro x
  simp only [Env.set]
  by_cases hx : x = id
  · subst hx; simp
  · have : ρ x ≠ ρ id := fun he => hx (hρ _ _ he)
    simp [hx, this, h x]

theorem EnvRen.getAll {ρ : String → String} {env env' : Env} (h : EnvRen ρ env env') :
    ∀ ids : List String, env'.getAll (ids.map ρ) = env.getAll ids
  | [] => rfl
  | id :: ids => by
    rw [List.map_cons, Env.getAll, Env.getAll, h id, h.getAll ids]

theorem EnvRen.pred {ρ : String → String} {env env' : Env} (h : EnvRen ρ env env') (p : Pred) :
    (renPred ρ p).eval env' = p.eval env := by
  rw [Pred.eval, Pred.eval, renPred, h.getAll]

theorem EnvRen.calc {ρ : String → String} {env env' : Env} (h : EnvRen ρ env env') (c : Calc) :
    (renCalc ρ c).eval env' = c.eval env := by
  rw [Calc.eval, Calc.eval, renCalc, h.getAll]

theorem EnvRen.len {ρ : String → String} {env env' : Env} (h : EnvRen ρ env env') (cfg : Cfg) :
    ∀ len : LenSpec, (renLen ρ len).eval cfg env' = len.eval cfg env
  | .fromField id => by rw [renLen, LenSpec.eval, LenSpec.eval, h id]
  | .computed c => by rw [renLen, LenSpec.eval, LenSpec.eval, h.calc c]

theorem EnvRen.ladder {ρ : String → String} {env env' : Env} (h : EnvRen ρ env env') :
    ∀ ps : List Pred, ladderIdx env' (ps.map (renPred ρ)) = ladderIdx env ps
  | [] => rfl
  | p :: ps => by rw [List.map_cons, ladderIdx, ladderIdx, h.pred p, h.ladder ps]

theorem EnvRen.deducer {ρ : String → String} {env env' : Env} (h : EnvRen ρ env env') :
    ∀ d : Deducer, (renDeducer ρ d).eval env' = d.eval env
  | .matchField id t ls => by rw [renDeducer, Deducer.eval, Deducer.eval, h id]
  | .matchCompute c t ls => by rw [renDeducer, Deducer.eval, Deducer.eval, h.calc c]
  | .ladder ps => by rw [renDeducer, Deducer.eval, Deducer.eval, h.ladder ps]

theorem Spec.RenField.id_eq {ρ f g} (h : RenField ρ f g) : g.id = ρ f.id := by
  cases h <;> rfl

theorem Spec.RenField.constraint_eq {ρ f g} (h : RenField ρ f g) : g.constraint = f.constraint := by
  cases h <;> rfl

mutual
theorem ren_dfltKind : ∀ {ρ k k'}, RenKind ρ k k' → k'.dflt = k.dflt
  | _, _, _, .num => rfl
  | _, _, _, .fbuf => rfl
  | _, _, _, .fstr => rfl
  | _, _, _, .vec => by rw [Kind.dflt, Kind.dflt]
  | _, _, _, .record _ h => by rw [Kind.dflt, Kind.dflt, ren_dflts h]
  | _, _, _, .arrRec _ h => by rw [Kind.dflt, Kind.dflt, ren_dflts h]
  | _, _, _, .vecRec _ h => by rw [Kind.dflt, Kind.dflt]
theorem ren_dflt : ∀ {ρ f g}, RenField ρ f g → g.dflt = f.dflt
  | _, _, _, .plain h => by rw [Field.dflt, Field.dflt, ren_dfltKind h]
  | _, _, _, .maybe h => by rw [Field.dflt, Field.dflt]
  | _, _, _, .union h => by rw [Field.dflt, Field.dflt, ren_dfltFirst h]
theorem ren_dfltFirst : ∀ {ρ a b}, RenAlts ρ a b → Alt.dfltFirst b = Alt.dfltFirst a
  | _, _, _, .nil => rfl
  | _, _, _, .cons h _ => by rw [Alt.dfltFirst, Alt.dfltFirst, ren_dfltKind h]
theorem ren_dflts : ∀ {ρ fs gs}, RenFields ρ fs gs → Field.dflts gs = Field.dflts fs
  | _, _, _, .nil => rfl
  | _, _, _, .cons h h' => by rw [Field.dflts, Field.dflts, ren_dflt h, ren_dflts h']
end

theorem ren_envOf {ρ} (hρ : Injective ρ) : ∀ {fs gs}, RenFields ρ fs gs → ∀ vs,
    EnvRen ρ (envOf fs vs) (envOf gs vs)
  | _, _, .nil, _ => by rw [envOf.eq_def]; exact .empty ρ
  | _, _, .cons h h', [] => by rw [envOf.eq_def, envOf.eq_def]; exact .empty ρ
  | _, _, .cons h h', v :: vs => by
    rw [envOf, envOf, h.id_eq]
    exact (ren_envOf hρ h' vs).set hρ _ v

theorem ren_dfltEnv {ρ fs gs} (hρ : Injective ρ) (h : RenFields ρ fs gs) :
    EnvRen ρ (dfltEnv fs) (dfltEnv gs) := by
  rw [dfltEnv, dfltEnv, ren_dflts h]
  exact ren_envOf hρ h _

/-! ### Reading -/

theorem Rd.bind_assoc' (r : Rd α) (f : α → Rd β) (g : β → Rd γ) :
    (r.bind f).bind g = r.bind fun a => (f a).bind g := by
  induction r with
  | ret a => rfl
  | stuck w => rfl
  | read n k ih => simp only [Rd.bind]; congr 1; funext o; exact ih o
  | alloc b k ih => simp only [Rd.bind, ih]

theorem RdE.mapErr_andThen (g : ε → ε') (r : RdE ε α) (f : α → RdE ε β) :
    (r.andThen f).mapErr g = (r.mapErr g).andThen fun a => (f a).mapErr g := by
  simp only [RdE.mapErr, RdE.andThen, Rd.map, Rd.bind_assoc']
  congr 1; funext x
  cases x <;> rfl

theorem RdE.mapErr_mapErr (g : ε → ε') (g' : ε' → ε'') (r : RdE ε α) :
    (r.mapErr g).mapErr g' = r.mapErr (g' ∘ g) := by
  simp only [RdE.mapErr, Rd.map, Rd.bind_assoc']
  congr 1; funext x
  cases x <;> rfl

theorem RdE.untag_ren (ρ : String → String) (r : RdE CastError α) :
    (r.mapErr (renError ρ)).untag = r.untag := by
  rw [RdE.untag, RdE.untag, RdE.mapErr_mapErr]; rfl

theorem RdE.tag_ren (ρ : String → String) (id : String) (r : RdE Reason α) :
    r.tag (ρ id) = (r.tag id).mapErr (renError ρ) := by
  rw [RdE.tag, RdE.tag, RdE.mapErr_mapErr]; rfl

mutual
theorem ren_readKind {cfg : Cfg} : ∀ {ρ k k'}, RenKind ρ k k' → ∀ {env env'}, EnvRen ρ env env' →
    readKind cfg env' k' = readKind cfg env k
  | _, _, _, .num, _, _, _ => by rw [readKind, readKind]
  | _, _, _, .fbuf, _, _, _ => by rw [readKind, readKind]
  | _, _, _, .fstr, _, _, _ => by rw [readKind, readKind]
  | _, _, _, .vec, _, _, he => by rw [readKind, readKind, he.len]
  | _, _, _, .record hρ h, _, _, _ => by
    rw [readKind, readKind, ren_readFields hρ h (ren_dfltEnv hρ h), RdE.untag_ren]
  | _, _, _, .arrRec hρ h, _, _, _ => by
    rw [readKind, readKind, ren_readFields hρ h (ren_dfltEnv hρ h), RdE.untag_ren]
  | _, _, _, .vecRec hρ h, _, _, he => by
    rw [readKind, readKind, ren_readFields hρ h (ren_dfltEnv hρ h), RdE.untag_ren, he.len]
theorem ren_readField {cfg : Cfg} : ∀ {ρ f g}, RenField ρ f g → ∀ {env env'}, EnvRen ρ env env' →
    readField cfg env' g = readField cfg env f
  | _, _, _, .plain h, _, _, he => by rw [readField, readField, ren_readKind h he]
  | _, _, _, .maybe h, _, _, he => by rw [readField, readField, ren_readKind h he, he.pred]
  | _, _, _, .union h, _, _, he => by
    rw [readField, readField, he.deducer, ren_dfltFirst h]
    congr 1; funext o
    cases o with
    | none => rfl
    | some i => simp only [ren_readAlts h he i]
theorem ren_readAlts {cfg : Cfg} : ∀ {ρ a b}, RenAlts ρ a b → ∀ {env env'}, EnvRen ρ env env' →
    ∀ i, readAlts cfg env' b i = readAlts cfg env a i
  | _, _, _, .nil, _, _, _, _ => by rw [readAlts, readAlts]
  | _, _, _, .cons h _, _, _, he, 0 => by rw [readAlts, readAlts, ren_readKind h he]
  | _, _, _, .cons _ h, _, _, he, i + 1 => by rw [readAlts, readAlts, ren_readAlts h he i]
theorem ren_readFields {cfg : Cfg} : ∀ {ρ fs gs}, Injective ρ → RenFields ρ fs gs →
    ∀ {env env'}, EnvRen ρ env env' →
    readFields cfg env' gs = (readFields cfg env fs).mapErr (renError ρ)
  | _, _, _, _, .nil, _, _, _ => by rw [readFields, readFields]; rfl
  | ρ, _, _, hρ, .cons (f := f) h h', env, env', he => by
    rw [readFields, readFields, RdE.mapErr_andThen, ren_readField h he, h.constraint_eq, h.id_eq, RdE.tag_ren]
    congr 1; funext v
    rw [RdE.mapErr_andThen, ren_readFields hρ h' (he.set hρ f.id v)]
    rfl
end

/-! ### Writing -/

theorem WrE.mapErr_andThen (g : ε → ε') (r : WrE ε α) (f : α → WrE ε β) :
    (r.andThen f).mapErr g = (r.mapErr g).andThen fun a => (f a).mapErr g := by
  simp only [WrE.mapErr, WrE.andThen, Wr.map, Wr.bind_assoc]
  congr 1; funext x
  cases x <;> rfl

theorem WrE.mapErr_mapErr (g : ε → ε') (g' : ε' → ε'') (r : WrE ε α) :
    (r.mapErr g).mapErr g' = r.mapErr (g' ∘ g) := by
  simp only [WrE.mapErr, Wr.map, Wr.bind_assoc]
  congr 1; funext x
  cases x <;> rfl

theorem WrE.untag_ren (ρ : String → String) (r : WrE CastError α) :
    (r.mapErr (renError ρ)).untag = r.untag := by
  rw [WrE.untag, WrE.untag, WrE.mapErr_mapErr]; rfl

theorem WrE.tag_ren (ρ : String → String) (id : String) (r : WrE Reason α) :
    r.tag (ρ id) = (r.tag id).mapErr (renError ρ) := by
  rw [WrE.tag, WrE.tag, WrE.mapErr_mapErr]; rfl

theorem ren_lenTarget {ρ k k'} (h : RenKind ρ k k') : k'.lenTarget? = k.lenTarget?.map ρ := by
  cases h with
  | vec => rename_i len _; cases len <;> rfl
  | vecRec => rename_i len _ _ _ _; cases len <;> rfl
  | _ => rfl

theorem lenTarget_iff {ρ k k'} (hρ : Injective ρ) (h : RenKind ρ k k') (t : String) :
    k'.lenTarget? = some (ρ t) ↔ k.lenTarget? = some t := by
  rw [ren_lenTarget h]
  cases hk : k.lenTarget? with
  | none => simp
  | some x =>
    simp only [Option.map_some, Option.some.injEq]
    exact ⟨hρ x t, fun h => by rw [h]⟩

theorem ren_lenDerived {ρ} : ∀ {fs gs}, RenFields ρ fs gs → lenDerivedIds gs = (lenDerivedIds fs).map ρ
  | _, _, .nil => rfl
  | _, _, .cons h h' => by
    have ih := ren_lenDerived h'
    rw [lenDerivedIds, lenDerivedIds] at ih ⊢
    cases h with
    | plain hk =>
      simp only [List.filterMap_cons, ren_lenTarget hk]
      cases Kind.lenTarget? _ <;> simp [ih]
    | maybe hk => simpa using ih
    | union _ => simpa using ih

theorem ren_discDerived {ρ} : ∀ {fs gs}, RenFields ρ fs gs → discDerivedIds gs = (discDerivedIds fs).map ρ
  | _, _, .nil => rfl
  | _, _, .cons h h' => by
    have ih := ren_discDerived h'
    rw [discDerivedIds, discDerivedIds] at ih ⊢
    cases h with
    | plain hk => simpa using ih
    | maybe hk => simpa using ih
    | union _ =>
      rename_i d _ _ _ _
      cases d <;> simpa [renDeducer] using ih

theorem contains_ren {ρ : String → String} (hρ : Injective ρ) (ids : List String) (id : String) :
    (ids.map ρ).contains (ρ id) = ids.contains id := by
  rw [Bool.eq_iff_iff, List.contains_iff_mem, List.contains_iff_mem, List.mem_map]
  exact ⟨fun ⟨x, hx, he⟩ => hρ x id he ▸ hx, fun h => ⟨id, h, rfl⟩⟩

theorem ren_isDerived {ρ fs gs} (hρ : Injective ρ) (h : RenFields ρ fs gs) (id : String) :
    isDerived gs (ρ id) = isDerived fs id := by
  rw [isDerived, isDerived, ren_lenDerived h, ren_discDerived h, contains_ren hρ, contains_ren hρ]

theorem ren_implies {ρ f g} (hρ : Injective ρ) (h : RenField ρ f g) (cfg : Cfg) (t : String) (v : Val) :
    g.implies cfg (ρ t) v = f.implies cfg t v := by
  cases h with
  | plain hk => simp only [Field.implies, propext (lenTarget_iff hρ hk t)]
  | maybe hk => cases v <;> simp only [Field.implies]
  | union _ =>
    rename_i d _ _ _ _
    cases d with
    | matchField id _ _ =>
      have : (ρ id = ρ t) = (id = t) := propext ⟨hρ _ _, fun h => by rw [h]⟩
      cases v <;> simp only [renDeducer, Field.implies, this]
    | matchCompute _ _ _ => cases v <;> simp only [renDeducer, Field.implies]
    | ladder _ => cases v <;> simp only [renDeducer, Field.implies]

theorem ren_deriveScan {ρ} (hρ : Injective ρ) (cfg : Cfg) (t : String) : ∀ {fs gs}, RenFields ρ fs gs →
    ∀ vs d, deriveScan cfg (ρ t) gs vs d = deriveScan cfg t fs vs d
  | _, _, .nil, _, _ => by rw [deriveScan.eq_def, deriveScan.eq_def]
  | _, _, .cons _ _, [], _ => by rw [deriveScan.eq_def, deriveScan.eq_def]
  | _, _, .cons h h', v :: vs, d => by
    rw [deriveScan, deriveScan, ren_implies hρ h]
    rcases Field.implies cfg t _ v with w | (_ | n)
    · rfl
    · exact ren_deriveScan hρ cfg t h' vs d
    · exact ren_deriveScan hρ cfg t h' vs (d.record n)

theorem ren_deriveValue {ρ fs gs} (hρ : Injective ρ) (h : RenFields ρ fs gs) (cfg : Cfg) (vs : List Val)
    (id : String) (t : ScalarTy) (w : Nat) :
    deriveValue cfg gs vs (ρ id) t w = deriveValue cfg fs vs id t w := by
  rw [deriveValue, deriveValue, ren_deriveScan hρ cfg id h]

theorem ren_anyAlt {ρ} (hρ : Injective ρ) (t : String) : ∀ {a b}, RenAlts ρ a b →
    anyAltTargets (ρ t) b = anyAltTargets t a
  | _, _, .nil => rfl
  | _, _, .cons h h' => by
    have ih := ren_anyAlt hρ t h'
    rw [anyAltTargets, anyAltTargets] at ih ⊢
    rw [List.any_cons, List.any_cons, ih]
    congr 1
    exact decide_eq_decide.2 (lenTarget_iff hρ h t)

theorem ren_condTargets {ρ f g} (hρ : Injective ρ) (h : RenField ρ f g) (t : String) :
    g.condTargets (ρ t) = f.condTargets t := by
  cases h with
  | plain _ => rfl
  | maybe hk => exact decide_eq_decide.2 (lenTarget_iff hρ hk t)
  | union ha => exact ren_anyAlt hρ t ha

theorem ren_hasConditional {ρ} (hρ : Injective ρ) (t : String) : ∀ {fs gs}, RenFields ρ fs gs →
    hasConditional gs (ρ t) = hasConditional fs t
  | _, _, .nil => rfl
  | _, _, .cons h h' => by
    have ih := ren_hasConditional hρ t h'
    rw [hasConditional, hasConditional] at ih ⊢
    rw [List.any_cons, List.any_cons, ih, ren_condTargets hρ h]

theorem ren_altAt {ρ} : ∀ {a b}, RenAlts ρ a b → ∀ i : Nat,
    (a[i]? = none ∧ b[i]? = none) ∨ ∃ x y, a[i]? = some x ∧ b[i]? = some y ∧ RenKind ρ x.kind y.kind
  | _, _, .nil, i => .inl ⟨by simp, by simp⟩
  | _, _, .cons h _, 0 => .inr ⟨_, _, rfl, rfl, h⟩
  | _, _, .cons _ h, i + 1 => by
    rw [List.getElem?_cons_succ, List.getElem?_cons_succ]
    exact ren_altAt h i

theorem ren_condAgrees {ρ f g} (hρ : Injective ρ) (h : RenField ρ f g) {env env' : Env}
    (he : EnvRen ρ env env') (t : String) (n : Nat) (v : Val) :
    g.condAgrees env' (ρ t) n v = f.condAgrees env t n v := by
  cases h with
  | plain _ => cases v <;> simp only [Field.condAgrees]
  | maybe hk =>
    have hi : (Kind.lenTarget? _ = some (ρ t)) = (Kind.lenTarget? _ = some t) := propext (lenTarget_iff hρ hk t)
    cases v <;> simp only [Field.condAgrees, hi, he.pred]
  | union ha =>
    rename_i d _ _ _ _
    cases v with
    | var i w =>
      simp only [Field.condAgrees, ren_anyAlt hρ t ha]
      rcases ren_altAt ha i with ⟨h1, h2⟩ | ⟨x, y, h1, h2, h3⟩
      · simp only [h1, h2]
      · have hi : (y.kind.lenTarget? = some (ρ t)) = (x.kind.lenTarget? = some t) :=
          propext (lenTarget_iff hρ h3 t)
        simp only [h1, h2, hi]
    | _ => simp only [Field.condAgrees, ren_anyAlt hρ t ha]

theorem ren_verifyScan {ρ} (hρ : Injective ρ) {env env' : Env} (he : EnvRen ρ env env') (t : String) (n : Nat) :
    ∀ {fs gs}, RenFields ρ fs gs → ∀ vs, verifyScan env' (ρ t) n gs vs = verifyScan env t n fs vs
  | _, _, .nil, _ => by rw [verifyScan.eq_def, verifyScan.eq_def]
  | _, _, .cons _ _, [] => by rw [verifyScan.eq_def, verifyScan.eq_def]
  | _, _, .cons h h', v :: vs => by
    rw [verifyScan, verifyScan, ren_condAgrees hρ h he, ren_verifyScan hρ he t n h' vs]

theorem ren_emitFixed {ρ k k'} (h : RenKind ρ k k') (cfg : Cfg) (v : Val) :
    emitFixed cfg k' v = emitFixed cfg k v := by
  cases h <;> cases v <;> simp only [emitFixed]

theorem ren_frozenVal {ρ k k'} (h : RenKind ρ k k') (c : Constraint) : frozenVal k' c = frozenVal k c := by
  cases h with
  | num => rfl
  | fbuf => rfl
  | fstr => rfl
  | _ => simp only [frozenVal]

theorem ren_verifyThenWrite {ρ fs gs} (hρ : Injective ρ) (h : RenFields ρ fs gs) (cfg : Cfg) (vs : List Val)
    (id : String) {k k'} (hk : RenKind ρ k k') (v : Val) :
    verifyThenWrite cfg ⟨gs, vs⟩ (ρ id) k' v = verifyThenWrite cfg ⟨fs, vs⟩ id k v := by
  have he : EnvRen ρ (WCtx.env ⟨fs, vs⟩) (WCtx.env ⟨gs, vs⟩) := ren_envOf hρ h vs
  cases v with
  | int x =>
    simp only [verifyThenWrite, ren_hasConditional hρ id h, ren_emitFixed hk, ren_verifyScan hρ he id _ h]
  | _ => simp only [verifyThenWrite, ren_hasConditional hρ id h, ren_emitFixed hk]

theorem ren_writeFixed {ρ fs gs} (hρ : Injective ρ) (h : RenFields ρ fs gs) (cfg : Cfg) (vs : List Val)
    (member : Bool) (id : String) {k k'} (hk : RenKind ρ k k') (c : Constraint) (v : Val) :
    writeFixed cfg ⟨gs, vs⟩ member (ρ id) k' c v = writeFixed cfg ⟨fs, vs⟩ member id k c v := by
  have hv := ren_verifyThenWrite hρ h cfg vs id hk
  cases hk with
  | num => simp only [writeFixed, ren_isDerived hρ h, ren_deriveValue hρ h, hv]
  | _ => simp only [writeFixed, ren_isDerived hρ h, frozenVal, hv]

theorem ren_verifyComputed {ρ : String → String} {env env' : Env} (he : EnvRen ρ env env') (cfg : Cfg)
    (len : LenSpec) (n : Nat) (r : WrE Reason Unit) :
    verifyComputed cfg env' (renLen ρ len) n r = verifyComputed cfg env len n r := by
  cases len with
  | fromField id => rfl
  | computed c =>
    have := he.len cfg (.computed c)
    rw [renLen] at this ⊢
    rw [verifyComputed, verifyComputed, this]

theorem ren_writeRecs {ρ : String → String} {one one' : List Val → WrE CastError Unit}
    (h : ∀ ws, one' ws = (one ws).mapErr (renError ρ)) : ∀ vs, writeRecs one' vs = writeRecs one vs
  | [] => rfl
  | v :: vs => by
    cases v with
    | seq ws => rw [writeRecs, writeRecs, h ws, WrE.untag_ren, ren_writeRecs h vs]
    | _ => simp only [writeRecs]

mutual
theorem ren_writeKind {cfg : Cfg} : ∀ {ρ k k'}, RenKind ρ k k' → ∀ {fs gs}, Injective ρ → RenFields ρ fs gs →
    ∀ vs member id c v,
    writeKind cfg ⟨gs, vs⟩ member (ρ id) c k' v = writeKind cfg ⟨fs, vs⟩ member id c k v
  | _, _, _, .num, _, _, hρ, h, vs, m, id, c, v => by
    rw [writeKind, writeKind, ren_writeFixed hρ h cfg vs m id .num]
  | _, _, _, .fbuf, _, _, hρ, h, vs, m, id, c, v => by
    rw [writeKind, writeKind, ren_writeFixed hρ h cfg vs m id .fbuf]
  | _, _, _, .fstr, _, _, hρ, h, vs, m, id, c, v => by
    rw [writeKind, writeKind, ren_writeFixed hρ h cfg vs m id .fstr]
  | ρ, _, _, .vec, fs, gs, hρ, h, vs, m, id, c, v => by
    have he : EnvRen ρ (WCtx.env ⟨fs, vs⟩) (WCtx.env ⟨gs, vs⟩) := ren_envOf hρ h vs
    cases v <;> simp only [writeKind, ren_verifyComputed he]
  | _, _, _, .record hρ' h', _, _, hρ, h, vs, m, id, c, v => by
    cases v with
    | seq ws =>
      rw [writeKind, writeKind, ren_writeFields h' hρ' h' ws ws, WrE.untag_ren]
    | _ => simp only [writeKind]
  | _, _, _, .arrRec hρ' h', _, _, hρ, h, vs, m, id, c, v => by
    cases v with
    | seq ws =>
      rw [writeKind, writeKind, ren_writeRecs (fun us => ren_writeFields h' hρ' h' us us) ws]
    | _ => simp only [writeKind]
  | ρ, _, _, .vecRec hρ' h', fs, gs, hρ, h, vs, m, id, c, v => by
    have he : EnvRen ρ (WCtx.env ⟨fs, vs⟩) (WCtx.env ⟨gs, vs⟩) := ren_envOf hρ h vs
    cases v with
    | seq ws =>
      rw [writeKind, writeKind, ren_writeRecs (fun us => ren_writeFields h' hρ' h' us us) ws,
        ren_verifyComputed he]
    | _ => simp only [writeKind]
theorem ren_writeField {cfg : Cfg} : ∀ {ρ f g}, RenField ρ f g → ∀ {fs gs}, Injective ρ → RenFields ρ fs gs →
    ∀ vs v, writeField cfg ⟨gs, vs⟩ g v = writeField cfg ⟨fs, vs⟩ f v
  | _, _, _, .plain (id := id) hk, _, _, hρ, h, vs, v => by
    rw [writeField, writeField, ren_writeKind hk hρ h vs true id]
  | ρ, _, _, .maybe (id := id) hk, fs, gs, hρ, h, vs, v => by
    have he : EnvRen ρ (WCtx.env ⟨fs, vs⟩) (WCtx.env ⟨gs, vs⟩) := ren_envOf hρ h vs
    rw [writeField, writeField, he.pred]
    cases v <;> simp only [ren_writeKind hk hρ h vs false id]
  | ρ, _, _, .union (id := id) (d := d) ha, fs, gs, hρ, h, vs, v => by
    have he : EnvRen ρ (WCtx.env ⟨fs, vs⟩) (WCtx.env ⟨gs, vs⟩) := ren_envOf hρ h vs
    have hd := he.deducer d
    cases v with
    | var i w =>
      cases d with
      | matchField _ _ _ => simp only [writeField, renDeducer, ren_writeAlts ha hρ h vs id]
      | matchCompute _ _ _ =>
        simp only [renDeducer] at hd
        simp only [writeField, renDeducer, ren_writeAlts ha hρ h vs id, hd]
      | ladder _ =>
        simp only [renDeducer] at hd
        simp only [writeField, renDeducer, ren_writeAlts ha hρ h vs id, hd]
    | _ => simp only [writeField]
theorem ren_writeAlts {cfg : Cfg} : ∀ {ρ a b}, RenAlts ρ a b → ∀ {fs gs}, Injective ρ → RenFields ρ fs gs →
    ∀ vs id i w, writeAlts cfg ⟨gs, vs⟩ (ρ id) b i w = writeAlts cfg ⟨fs, vs⟩ id a i w
  | _, _, _, .nil, _, _, _, _, _, _, _, _ => by rw [writeAlts, writeAlts]
  | _, _, _, .cons hk _, _, _, hρ, h, vs, id, 0, w => by
    rw [writeAlts, writeAlts, ren_writeKind hk hρ h vs false id]
  | _, _, _, .cons _ ha, _, _, hρ, h, vs, id, i + 1, w => by
    rw [writeAlts, writeAlts, ren_writeAlts ha hρ h vs id i w]
theorem ren_writeFields {cfg : Cfg} : ∀ {ρ fs' gs'}, RenFields ρ fs' gs' → ∀ {fs gs}, Injective ρ →
    RenFields ρ fs gs → ∀ vs us,
    writeFields cfg ⟨gs, vs⟩ gs' us = (writeFields cfg ⟨fs, vs⟩ fs' us).mapErr (renError ρ)
  | _, _, _, .nil, _, _, _, _, _, [] => by rw [writeFields, writeFields]; rfl
  | _, _, _, .nil, _, _, _, _, _, _ :: _ => by simp only [writeFields]; rfl
  | _, _, _, .cons _ _, _, _, _, _, _, [] => by simp only [writeFields]; rfl
  | ρ, _, _, .cons (f := f) (g := g) hf hfs, fs, gs, hρ, h, vs, v :: us => by
    have hz : g.isFrozen = f.isFrozen := by
      cases hf with
      | plain hk => rw [Field.isFrozen, Field.isFrozen, ren_frozenVal hk]
      | maybe _ => rfl
      | union _ => rfl
    rw [writeFields, writeFields, WrE.mapErr_andThen, ren_writeField hf hρ h vs v, hf.constraint_eq,
      hf.id_eq, WrE.tag_ren, hz]
    simp only [ren_isDerived hρ h]
    congr 1; funext _
    exact ren_writeFields hfs hρ h vs us
end

end S2S
