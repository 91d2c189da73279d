import Verif.Spec.Alike
/-
Alike schemas are the same programs.
-/
namespace S2S
open Spec

theorem Spec.AlikeField.id_eq {keep cfg f g} (h : AlikeField keep cfg f g) : f.id = g.id := by
  cases h <;> rfl

theorem Spec.AlikeField.check_eq {keep cfg f g} (h : AlikeField keep cfg f g) (v : Val) :
    f.constraint.check v = g.constraint.check v := by
  cases h with
  | plain _ h _ => exact h v
  | maybe _ _ => rfl
  | union _ _ h => exact h v

mutual
theorem alike_dfltKind {keep cfg} : ∀ {k k'}, AlikeKind keep cfg k k' → k.dflt = k'.dflt
  | _, _, .num => rfl
  | _, _, .fbuf => rfl
  | _, _, .fstr => rfl
  | _, _, .vec _ _ => rfl
  | _, _, .record h => by rw [Kind.dflt, Kind.dflt, alike_dflts h]
  | _, _, .arrRec h => by rw [Kind.dflt, Kind.dflt, alike_dflts h]
  | _, _, .vecRec _ _ _ => rfl
theorem alike_dflt {keep cfg} : ∀ {f g}, AlikeField keep cfg f g → f.dflt = g.dflt
  | _, _, .plain h _ _ => by rw [Field.dflt, Field.dflt, alike_dfltKind h]
  | _, _, .maybe _ _ => rfl
  | _, _, .union _ h _ => by rw [Field.dflt, Field.dflt, alike_dfltFirst h]
theorem alike_dfltFirst {keep cfg} : ∀ {a b}, AlikeAlts keep cfg a b →
    Alt.dfltFirst a = Alt.dfltFirst b
  | _, _, .nil => rfl
  | _, _, .cons h _ _ => by rw [Alt.dfltFirst, Alt.dfltFirst, alike_dfltKind h]
theorem alike_dflts {keep cfg} : ∀ {fs gs}, AlikeFields keep cfg fs gs → Field.dflts fs = Field.dflts gs
  | _, _, .nil => rfl
  | _, _, .cons h1 h2 => by rw [Field.dflts, Field.dflts, alike_dflt h1, alike_dflts h2]
end

theorem alike_envOf {keep cfg} : ∀ {fs gs}, AlikeFields keep cfg fs gs → ∀ vs, envOf fs vs = envOf gs vs
  | _, _, .nil, _ => rfl
  | _, _, .cons _ _, [] => rfl
  | _, _, .cons h1 h2, v :: vs => by rw [envOf, envOf, h1.id_eq, alike_envOf h2]

theorem alike_dfltEnv {keep cfg fs gs} (h : AlikeFields keep cfg fs gs) : dfltEnv fs = dfltEnv gs := by
  rw [dfltEnv, dfltEnv, alike_dflts h, alike_envOf h]

theorem checked_congr {c c' : Constraint} (h : ∀ v, c.check v = c'.check v) (v : Val) :
    RdE.checked c v = RdE.checked c' v := by
  rw [RdE.checked, RdE.checked, h]

mutual
theorem alike_readKind {keep cfg} : ∀ {k k'}, AlikeKind keep cfg k k' → ∀ env,
    readKind cfg env k = readKind cfg env k'
  | _, _, .num, _ => rfl
  | _, _, .fbuf, _ => rfl
  | _, _, .fstr, _ => rfl
  | _, _, .vec hl hb, env => by simp only [readKind, hl env, ceilingOf, hb]
  | _, _, .record h, env => by
      simp only [readKind, alike_dfltEnv h, alike_readFields h]
  | _, _, .arrRec h, env => by
      simp only [readKind, alike_dfltEnv h, alike_readFields h]
  | _, _, .vecRec h hl hb, env => by
      simp only [readKind, alike_dfltEnv h, alike_readFields h, hl env, ceilingOf, hb]
theorem alike_readField {keep cfg} : ∀ {f g}, AlikeField keep cfg f g → ∀ env,
    readField cfg env f = readField cfg env g
  | _, _, .plain h _ _, env => by simp only [readField, alike_readKind h]
  | _, _, .maybe h hp, env => by simp only [readField, alike_readKind h, hp env]
  | _, _, .union hd h _, env => by
      simp only [readField, hd.1 env, alike_readAlts h, alike_dfltFirst h]
theorem alike_readAlts {keep cfg} : ∀ {a b}, AlikeAlts keep cfg a b → ∀ env i,
    readAlts cfg env a i = readAlts cfg env b i
  | _, _, .nil, _, _ => rfl
  | _, _, .cons h hc _, env, 0 => by simp only [readAlts, alike_readKind h, checked_congr hc]
  | _, _, .cons _ _ h, env, i + 1 => by simp only [readAlts, alike_readAlts h]
theorem alike_readFields {keep cfg} : ∀ {fs gs}, AlikeFields keep cfg fs gs → ∀ env,
    readFields cfg env fs = readFields cfg env gs
  | _, _, .nil, _ => rfl
  | _, _, .cons h1 h2, env => by
      simp only [readFields, alike_readField h1, checked_congr h1.check_eq, h1.id_eq,
        alike_readFields h2]
end

/-! ### Writing -/

theorem getAll_const (v : Val) : ∀ ids : List String, ∃ vs, Env.getAll (fun _ => some v) ids = some vs
  | [] => ⟨_, rfl⟩
  | i :: is => by
    obtain ⟨vs, h⟩ := getAll_const v is
    exact ⟨v :: vs, by simp [Env.getAll, h]⟩

theorem computed_ok (cfg : Cfg) (c : Calc) : ∃ n, (LenSpec.computed c).eval cfg (fun _ => some (.seq [])) = .ok n := by
  obtain ⟨vs, h⟩ := getAll_const (.seq []) c.ids
  exact ⟨_, by simp only [LenSpec.eval, Calc.eval, h]; rfl⟩

theorem alike_len {cfg : Cfg} {l l' : LenSpec} (h : AlikeLen cfg l l') :
    l = l' ∨ ∃ c c', l = .computed c ∧ l' = .computed c' := by
  cases l with
  | fromField a =>
    left
    cases l' with
    | fromField b =>
      have h1 := h fun i => if i = a then some (.int 0) else none
      simp only [LenSpec.eval, if_true] at h1
      by_cases hb : b = a
      · rw [hb]
      · rw [if_neg hb] at h1; cases h1
    | computed c =>
      obtain ⟨n, hn⟩ := computed_ok cfg c
      have h1 := h fun _ => some (.seq [])
      rw [hn] at h1
      cases h1
  | computed c =>
    cases l' with
    | fromField b =>
      obtain ⟨n, hn⟩ := computed_ok cfg c
      have h1 := h fun _ => some (.seq [])
      rw [hn] at h1
      cases h1
    | computed c' => exact .inr ⟨c, c', rfl, rfl⟩

theorem choice_ok (d : Deducer) (h : ∀ i t ls, d ≠ .matchField i t ls) :
    ∃ o, d.eval (fun _ => some (.seq [])) = .ok o := by
  cases d with
  | matchField i t ls => exact absurd rfl (h i t ls)
  | matchCompute c t ls =>
    obtain ⟨vs, h⟩ := getAll_const (.seq []) c.ids
    exact ⟨_, by simp only [Deducer.eval, Calc.eval, h]; rfl⟩
  | ladder ps =>
    clear h
    simp only [Deducer.eval]
    induction ps with
    | nil => exact ⟨_, rfl⟩
    | cons p ps ih =>
      obtain ⟨o, ho⟩ := ih
      obtain ⟨vs, h⟩ := getAll_const (.seq []) p.ids
      simp only [ladderIdx, Pred.eval, h, ho]
      cases p.fn vs <;> exact ⟨_, rfl⟩

theorem alike_choice {d d' : Deducer} (h : AlikeChoice true d d') :
    d = d' ∨ (∀ i t ls, d ≠ .matchField i t ls) ∧ ∀ i t ls, d' ≠ .matchField i t ls := by
  by_cases hd : ∃ i t ls, d = .matchField i t ls
  · obtain ⟨i, t, ls, hd⟩ := hd
    exact .inl (h.2 rfl i t ls hd).symm
  · refine .inr ⟨fun i t ls he => hd ⟨i, t, ls, he⟩, fun i t ls he => ?_⟩
    obtain ⟨o, ho⟩ := choice_ok d fun i t ls he => hd ⟨i, t, ls, he⟩
    have h1 := h.1 fun _ => some (.seq [])
    rw [ho, he] at h1
    cases h1

theorem alike_lenTarget {keep cfg} {k k' : Kind} (h : AlikeKind keep cfg k k') :
    k.lenTarget? = k'.lenTarget? := by
  have hl : ∀ {l l'}, AlikeLen cfg l l' →
      (match some l with | some (.fromField id) => some id | _ => Option.none) =
      (match some l' with | some (.fromField id) => some id | _ => Option.none) := by
    intro l l' h
    rcases alike_len h with rfl | ⟨c, c', rfl, rfl⟩ <;> rfl
  cases h with
  | vec h _ => exact hl h
  | vecRec _ h _ => exact hl h
  | _ => rfl

theorem alike_verifyComputed {cfg} {l l' : LenSpec} (h : AlikeLen cfg l l') (env : Env)
    (n : Nat) (k : WrE Reason Unit) :
    verifyComputed cfg env l n k = verifyComputed cfg env l' n k := by
  rcases alike_len h with rfl | ⟨c, c', rfl, rfl⟩
  · rfl
  · simp only [verifyComputed, h env]

theorem alike_lenDerived {cfg} : ∀ {fs gs}, AlikeFields true cfg fs gs → lenDerivedIds fs = lenDerivedIds gs
  | _, _, .nil => rfl
  | _, _, .cons h1 h2 => by
      have ih := alike_lenDerived h2
      simp only [lenDerivedIds] at ih ⊢
      cases h1 with
      | plain h _ _ => simp only [List.filterMap_cons, alike_lenTarget h, ih]
      | maybe _ _ => simpa only [List.filterMap_cons] using ih
      | union _ _ _ => simpa only [List.filterMap_cons] using ih

theorem alike_discDerived {cfg} : ∀ {fs gs}, AlikeFields true cfg fs gs → discDerivedIds fs = discDerivedIds gs
  | _, _, .nil => rfl
  | _, _, .cons h1 h2 => by
      have ih := alike_discDerived h2
      simp only [discDerivedIds] at ih ⊢
      cases h1 with
      | plain h _ _ => simpa only [List.filterMap_cons] using ih
      | maybe _ _ => simpa only [List.filterMap_cons] using ih
      | @union id d d' _ _ _ _ hd _ _ =>
        rcases alike_choice hd with rfl | ⟨h1, h2⟩
        · simp only [List.filterMap_cons, ih]
          cases d <;> rfl
        · cases d <;> cases d' <;>
            first
              | exact absurd rfl (h1 _ _ _)
              | exact absurd rfl (h2 _ _ _)
              | simpa only [List.filterMap_cons] using ih

theorem alike_isDerived {cfg fs gs} (h : AlikeFields true cfg fs gs) (id : String) :
    isDerived fs id = isDerived gs id := by
  rw [isDerived, isDerived, alike_lenDerived h, alike_discDerived h]

theorem alike_implies {cfg} {f g : Field} (h : AlikeField true cfg f g) (target : String) (v : Val) :
    f.implies cfg target v = g.implies cfg target v := by
  cases h with
  | plain h _ _ => simp only [Field.implies, alike_lenTarget h]
  | maybe _ _ => rfl
  | @union id d d' _ _ _ _ hd _ _ =>
    rcases alike_choice hd with rfl | ⟨h1, h2⟩
    · cases d <;> cases v <;> rfl
    · cases d <;> cases d' <;>
        first
          | exact absurd rfl (h1 _ _ _)
          | exact absurd rfl (h2 _ _ _)
          | (cases v <;> rfl)

theorem alike_deriveScan {cfg} (target : String) : ∀ {fs gs}, AlikeFields true cfg fs gs →
    ∀ vs d, deriveScan cfg target fs vs d = deriveScan cfg target gs vs d
  | _, _, .nil, _, _ => rfl
  | _, _, .cons _ _, [], _ => rfl
  | _, _, .cons h1 h2, v :: vs, d => by
      simp only [deriveScan, alike_implies h1, alike_deriveScan target h2]

theorem alike_deriveValue {cfg fs gs} (h : AlikeFields true cfg fs gs) (vs : List Val)
    (target : String) (t : ScalarTy) (w : Nat) :
    deriveValue cfg fs vs target t w = deriveValue cfg gs vs target t w := by
  simp only [deriveValue, alike_deriveScan target h]

theorem alike_anyAlt {cfg} (target : String) : ∀ {a b}, AlikeAlts true cfg a b →
    anyAltTargets target a = anyAltTargets target b
  | _, _, .nil => rfl
  | _, _, .cons h _ h2 => by
      have ih := alike_anyAlt target h2
      simp only [anyAltTargets] at ih ⊢
      simp only [List.any_cons, ih, Alt.kind, alike_lenTarget h]

theorem alike_altAt {cfg} : ∀ {a b}, AlikeAlts true cfg a b → ∀ i : Nat,
    (a[i]?).map (fun x => x.kind.lenTarget?) = (b[i]?).map (fun x => x.kind.lenTarget?)
  | _, _, .nil, _ => rfl
  | _, _, .cons h _ _, 0 => by simp [Alt.kind, alike_lenTarget h]
  | _, _, .cons _ _ h, i + 1 => by simpa using alike_altAt h i

theorem alike_condTargets {cfg} {f g : Field} (h : AlikeField true cfg f g) (target : String) :
    f.condTargets target = g.condTargets target := by
  cases h with
  | plain _ _ _ => rfl
  | maybe h _ => simp only [Field.condTargets, alike_lenTarget h]
  | union _ h _ => simp only [Field.condTargets, alike_anyAlt target h]

theorem alike_hasConditional {cfg} (target : String) : ∀ {fs gs}, AlikeFields true cfg fs gs →
    hasConditional fs target = hasConditional gs target
  | _, _, .nil => rfl
  | _, _, .cons h1 h2 => by
      have ih := alike_hasConditional target h2
      simp only [hasConditional] at ih ⊢
      simp only [List.any_cons, alike_condTargets h1, ih]

theorem alike_condAgrees {cfg} {f g : Field} (h : AlikeField true cfg f g) (env : Env)
    (target : String) (n : Nat) (v : Val) :
    f.condAgrees env target n v = g.condAgrees env target n v := by
  cases h with
  | plain _ _ _ => rfl
  | maybe h hp => simp only [Field.condAgrees, alike_lenTarget h, hp env]
  | @union id d d' alts alts' _ _ _ h _ =>
    simp only [Field.condAgrees, alike_anyAlt target h]
    cases v with
    | var i w =>
      have h1 := alike_altAt h i
      cases ha : alts[i]? <;> cases hb : alts'[i]? <;> simp_all
    | _ => rfl

theorem alike_verifyScan {cfg} (env : Env) (target : String) (n : Nat) : ∀ {fs gs},
    AlikeFields true cfg fs gs → ∀ vs, verifyScan env target n fs vs = verifyScan env target n gs vs
  | _, _, .nil, _ => rfl
  | _, _, .cons _ _, [] => rfl
  | _, _, .cons h1 h2, v :: vs => by
      simp only [verifyScan, alike_condAgrees h1, alike_verifyScan env target n h2]

theorem alike_verifyThenWrite {cfg fs gs} (h : AlikeFields true cfg fs gs) (vs : List Val)
    (id : String) (k : Kind) (v : Val) :
    verifyThenWrite cfg ⟨fs, vs⟩ id k v = verifyThenWrite cfg ⟨gs, vs⟩ id k v := by
  simp only [verifyThenWrite, alike_hasConditional id h, WCtx.env, alike_envOf h,
    alike_verifyScan _ id _ h]

theorem alike_writeFixed {cfg fs gs} (h : AlikeFields true cfg fs gs) (vs : List Val) (member : Bool)
    (id : String) (k : Kind) {c c' : Constraint} (hc : ∀ v, c.check v = c'.check v)
    (hf : member = true → frozenVal k c = frozenVal k c') (v : Val) :
    writeFixed cfg ⟨fs, vs⟩ member id k c v = writeFixed cfg ⟨gs, vs⟩ member id k c' v := by
  have hm : (if member = true then frozenVal k c else none) =
      if member = true then frozenVal k c' else none := by
    split
    · rename_i hm; exact hf hm
    · rfl
  simp only [writeFixed, alike_isDerived h, alike_deriveValue h, hc, alike_verifyThenWrite h, hm]

theorem wchecked_congr {c c' : Constraint} (h : ∀ v, c.check v = c'.check v) (v : Val)
    (k : WrE Reason Unit) : WrE.checked c v k = WrE.checked c' v k := by
  rw [WrE.checked, WrE.checked, h]

theorem alike_isFrozen {cfg} {f g : Field} (h : AlikeField true cfg f g) : f.isFrozen = g.isFrozen := by
  cases h with
  | plain _ _ hf => simp only [Field.isFrozen, hf rfl]
  | maybe _ _ => rfl
  | union _ _ _ => rfl

mutual
theorem alike_writeKind {cfg} : ∀ {k k'}, AlikeKind true cfg k k' → ∀ {fs gs},
    AlikeFields true cfg fs gs → ∀ (vs : List Val) (member : Bool) (id : String)
    {c c' : Constraint}, (∀ v, c.check v = c'.check v) →
    (member = true → frozenVal k c = frozenVal k' c') → ∀ v,
    writeKind cfg ⟨fs, vs⟩ member id c k v = writeKind cfg ⟨gs, vs⟩ member id c' k' v
  | _, _, .num, _, _, h, vs, member, id, _, _, hc, hf, v => by
      simp only [writeKind, alike_writeFixed h vs member id _ hc hf]
  | _, _, .fbuf, _, _, h, vs, member, id, _, _, hc, hf, v => by
      simp only [writeKind, alike_writeFixed h vs member id _ hc hf]
  | _, _, .fstr, _, _, h, vs, member, id, _, _, hc, hf, v => by
      simp only [writeKind, alike_writeFixed h vs member id _ hc hf]
  | _, _, .vec hl _, _, _, h, vs, _, _, _, _, _, _, v => by
      cases v <;> simp only [writeKind, WCtx.env, alike_envOf h, alike_verifyComputed hl]
  | _, _, .record hr, _, _, _, _, _, _, _, _, _, _, v => by
      cases v <;> simp only [writeKind, alike_writeFields hr hr]
  | _, _, .arrRec hr, _, _, _, _, _, _, _, _, _, _, v => by
      cases v <;> simp only [writeKind, alike_writeFields hr hr]
  | _, _, .vecRec hr hl _, _, _, h, _, _, _, _, _, _, _, v => by
      cases v <;> simp only [writeKind, WCtx.env, alike_envOf h, alike_verifyComputed hl,
        alike_writeFields hr hr]
theorem alike_writeField {cfg} : ∀ {f g}, AlikeField true cfg f g → ∀ {fs gs},
    AlikeFields true cfg fs gs → ∀ vs v,
    writeField cfg ⟨fs, vs⟩ f v = writeField cfg ⟨gs, vs⟩ g v
  | _, _, .plain hk hc hf, _, _, h, vs, v => by
      simp only [writeField]
      exact alike_writeKind hk h vs true _ hc (fun _ => hf rfl) v
  | _, _, .maybe hk hp, _, _, h, vs, v => by
      have h1 := fun id w => alike_writeKind hk h vs false id (c := .none) (c' := .none)
        (fun _ => rfl) nofun w
      cases v <;> simp only [writeField, WCtx.env, alike_envOf h, hp, h1]
  | _, _, .union (d := d) (d' := d') hd ha _, _, _, h, vs, v => by
      cases v with
      | var i w =>
        have h1 := fun id => alike_writeAlts ha h vs id i w
        rcases alike_choice hd with rfl | ⟨h2, h3⟩
        · cases d <;> simp only [writeField, WCtx.env, alike_envOf h, h1]
        · have h4 := hd.1
          cases d <;> cases d' <;>
            first
              | exact absurd rfl (h2 _ _ _)
              | exact absurd rfl (h3 _ _ _)
              | simp only [writeField, WCtx.env, alike_envOf h, h1, h4]
      | _ => simp only [writeField]
theorem alike_writeAlts {cfg} : ∀ {a b}, AlikeAlts true cfg a b → ∀ {fs gs},
    AlikeFields true cfg fs gs → ∀ vs id i v,
    writeAlts cfg ⟨fs, vs⟩ id a i v = writeAlts cfg ⟨gs, vs⟩ id b i v
  | _, _, .nil, _, _, _, _, _, _, _ => rfl
  | _, _, .cons hk hc _, _, _, h, vs, id, 0, v => by
      simp only [writeAlts, wchecked_congr hc, alike_writeKind hk h vs false id hc nofun]
  | _, _, .cons _ _ ha, _, _, h, vs, id, i + 1, v => by
      simp only [writeAlts, alike_writeAlts ha h]
theorem alike_writeFields {cfg} : ∀ {fs' gs'}, AlikeFields true cfg fs' gs' → ∀ {fs gs},
    AlikeFields true cfg fs gs → ∀ vs vs',
    writeFields cfg ⟨fs, vs⟩ fs' vs' = writeFields cfg ⟨gs, vs⟩ gs' vs'
  | _, _, .nil, _, _, _, _, vs' => by cases vs' <;> rfl
  | _, _, .cons _ _, _, _, _, _, [] => rfl
  | _, _, .cons h1 h2, _, _, h, vs, v :: vs' => by
      simp only [writeFields, alike_isDerived h, alike_isFrozen h1, h1.id_eq,
        wchecked_congr h1.check_eq, alike_writeField h1 h, alike_writeFields h2 h]
end

theorem switchOn_eval {α : Type} (ids : List String) (fn : List Val → α) (eqs : List (α → Bool))
    {env : Env} {vs : List Val} (h : env.getAll ids = some vs) (o : Option Nat) :
    (switchOn ids fn eqs).eval env = .ok o ↔
      match o with
      | some i => FirstEqual (fn vs) eqs i
      | none => ∀ e ∈ eqs, e (fn vs) = false := by
  simp only [switchOn, Deducer.eval]
  induction eqs generalizing o with
  | nil => cases o <;> simp [ladderIdx, FirstEqual]
  | cons e es ih =>
    simp only [List.map_cons, ladderIdx, Pred.eval, h]
    cases he : e (fn vs) with
    | true =>
      cases o with
      | none => simp [he]
      | some i =>
        cases i with
        | zero => simp [FirstEqual, he]
        | succ i => 
          simp only [Except.ok.injEq, Option.some.injEq, Nat.right_eq_add]
          constructor
          · nofun
          · intro h1
            have := h1.2 0 e (by omega) rfl
            rw [he] at this; cases this
    | false =>
      cases hl : ladderIdx env (es.map fun e => ⟨ids, fun vs => e (fn vs)⟩) with
      | error w =>
        rw [hl] at ih
        simp only [reduceCtorEq, false_iff] at ih ⊢
        cases o with
        | none =>
          have := ih none
          simpa [he] using this
        | some i =>
          cases i with
          | zero => rintro ⟨⟨e', h1, h2⟩, _⟩; cases h1; rw [he] at h2; cases h2
          | succ i =>
            intro h1
            refine ih (some i) ⟨by simpa using h1.1, fun j e' hj h2 => h1.2 (j + 1) e' (by omega) (by simpa using h2)⟩
      | ok o' =>
        rw [hl] at ih
        simp only [Except.ok.injEq] at ih ⊢
        cases o with
        | none =>
          rw [Option.map_eq_none_iff, ih none]
          simp [he]
        | some i =>
          rw [Option.map_eq_some_iff]
          cases i with
          | zero =>
            constructor
            · rintro ⟨a, _, h⟩; omega
            · rintro ⟨⟨e', h1, h2⟩, _⟩; cases h1; rw [he] at h2; cases h2
          | succ i =>
            constructor
            · rintro ⟨a, h1, h2⟩
              obtain rfl : a = i := by omega
              have h3 := (ih (some a)).1 h1
              refine ⟨by simpa using h3.1, fun j e' hj h4 => ?_⟩
              cases j with
              | zero => cases h4; exact he
              | succ j => exact h3.2 j e' (by omega) (by simpa using h4)
            · intro h1
              exact ⟨i, (ih (some i)).2 ⟨by simpa using h1.1, fun j e' hj h2 =>
                h1.2 (j + 1) e' (by omega) (by simpa using h2)⟩, rfl⟩

/-- A switch over a computed integer is the ladder of its comparisons. -/
theorem alike_switchOn (keep : Bool) (comp : Calc) (t : ScalarTy) (labels : List (ScalarTy × Int))
    (hne : labels ≠ []) :
    AlikeChoice keep (.matchCompute comp t labels)
      (switchOn comp.ids (fun vs => t.conv (comp.fn vs)) (labels.map fun l x => labelMatches t x l)) := by
  refine ⟨fun env => ?_, fun _ => nofun⟩
  cases hg : env.getAll comp.ids with
  | none =>
    cases labels with
    | nil => exact absurd rfl hne
    | cons l ls => simp [switchOn, Deducer.eval, Calc.eval, ladderIdx, Pred.eval, hg]
  | some vs =>
    clear hne
    simp only [switchOn, Deducer.eval, Calc.eval, hg]
    induction labels with
    | nil => rfl
    | cons l ls ih =>
      simp only [List.map_cons, ladderIdx, Pred.eval, hg, switchIdx]
      cases labelMatches t (t.conv (comp.fn vs)) l with
      | true => rfl
      | false =>
        rw [← ih]
        simp

end S2S
