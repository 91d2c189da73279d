import Verif.Lemmas.WriteSound
/-
Writing a struct is writing the settled struct, when nothing user-defined looks
at the slots the library fills.
-/
namespace S2S
open Spec

/-! ### clean parts are left alone -/

theorem clean_mem {fs : List Field} (h : Clean fs) {id : String} {k : Kind} {c : Constraint}
    (hm : Field.plain id k c ∈ fs) : isSlot fs id = false ∧ constOf k c = none := h _ hm

theorem map_id {f : Val → Val} {vs : List Val} (h : ∀ v, f v = v) : vs.map f = vs := by
  induction vs with
  | nil => rfl
  | cons v vs ih => rw [List.map_cons, h, ih]

theorem mapRecord_id {f : List Val → List Val} (h : ∀ ws, f ws = ws) (v : Val) :
    mapRecord f v = v := by
  cases v <;> simp [mapRecord, h]

mutual
theorem settle_clean_kind : (k : Kind) → EveryKind Clean k → ∀ v, settleKind k v = v
  | .num _ _, _, v => by cases v <;> simp [settleKind]
  | .fbuf _ _, _, v => by cases v <;> simp [settleKind]
  | .fstr _, _, v => by cases v <;> simp [settleKind]
  | .vec _ _ _, _, v => by cases v <;> simp [settleKind]
  | .record fs, h, v => by
      rw [EveryKind] at h
      cases v <;> simp only [settleKind, Val.seq.injEq]
      exact settle_clean_fields fs h.2 _ _ _ (fun f hf => h.1 f hf)
  | .arrRec fs n, h, v => by
      rw [EveryKind] at h
      cases v <;> simp only [settleKind, Val.seq.injEq]
      exact map_id (mapRecord_id fun ws => settle_clean_fields fs h.2 _ _ _ (fun f hf => h.1 f hf))
  | .vecRec fs len b sz, h, v => by
      rw [EveryKind] at h
      cases v <;> simp only [settleKind, Val.seq.injEq]
      exact map_id (mapRecord_id fun ws => settle_clean_fields fs h.2 _ _ _ (fun f hf => h.1 f hf))
theorem settle_clean_field : (f : Field) → EveryField Clean f → ∀ all vals v,
    (match f with
      | .plain id k c => isSlot all id = false ∧ constOf k c = none
      | _ => True) → settleField all vals f v = v
  | .plain id k c, h, all, vals, v, hc => by
      rw [EveryField] at h
      simp only at hc
      rw [settleField, hc.1, hc.2]
      simp only [Bool.false_eq_true, if_false]
      exact settle_clean_kind k h v
  | .maybe id k p, h, all, vals, v, hc => by
      rw [EveryField] at h
      cases v <;> simp only [settleField]
      rw [settle_clean_kind k h]
  | .union id d alts c, h, all, vals, v, hc => by
      rw [EveryField] at h
      cases v <;> simp only [settleField]
      rw [settle_clean_alts alts h]
theorem settle_clean_alts : (alts : List Alt) → EveryAlts Clean alts → ∀ i v,
    settleAlts alts i v = v
  | [], _, i, v => by simp [settleAlts]
  | .mk k c :: alts, h, 0, v => by
      rw [EveryAlts] at h; rw [settleAlts]; exact settle_clean_kind k h.1 v
  | .mk k c :: alts, h, i + 1, v => by
      rw [EveryAlts] at h; rw [settleAlts]; exact settle_clean_alts alts h.2 i v
theorem settle_clean_fields : (fs : List Field) → EveryFields Clean fs → ∀ all vals vs,
    (∀ f ∈ fs, match f with
      | .plain id k c => isSlot all id = false ∧ constOf k c = none
      | _ => True) → settleFields all vals fs vs = vs
  | [], _, all, vals, vs, _ => by simp [settleFields]
  | f :: fs, h, all, vals, [], hc => by simp [settleFields]
  | f :: fs, h, all, vals, v :: vs, hc => by
      rw [EveryFields] at h
      rw [settleFields, settle_clean_field f h.1 all vals v (hc f (by simp)),
        settle_clean_fields fs h.2 all vals vs fun g hg => hc g (by simp [hg])]
end

theorem settle_cleanField {fs : List Field} {f : Field} (h : CleanField fs f) (vals : List Val)
    (v : Val) : settleField fs vals f v = v :=
  settle_clean_field f h.1 fs vals v h.2

/-! ### sizes and alternatives are kept -/

theorem settleKind_size (k : Kind) (v : Val) : (settleKind k v).size? = v.size? := by
  cases k <;> cases v <;> simp only [settleKind, Val.size?]
  case record.seq fs vs =>
    have : ∀ (fs : List Field) (vs : List Val) all vals,
        (settleFields all vals fs vs).length = vs.length := by
      intro fs
      induction fs with
      | nil => intro vs all vals; simp [settleFields]
      | cons f fs ih => intro vs all vals; cases vs <;> simp [settleFields, ih]
    rw [this]
  all_goals simp

theorem settleFields_length (all : List Field) (vals : List Val) (fs : List Field) (vs : List Val) :
    (settleFields all vals fs vs).length = vs.length := by
  induction fs generalizing vs with
  | nil => simp [settleFields]
  | cons f fs ih => cases vs <;> simp [settleFields, ih]

theorem settleAlts_get (alts : List Alt) (i : Nat) (v : Val) :
    settleAlts alts i v = match alts[i]? with
      | some a => settleKind a.kind v
      | none => v := by
  induction alts generalizing i with
  | nil => simp [settleAlts]
  | cons a alts ih =>
    cases a
    cases i with
    | zero => simp [settleAlts]
    | succ i => rw [settleAlts, ih]; simp

/-- A field keeps its shape: a slot or constant is no container. -/
theorem settleField_plain {all : List Field} (hu : uniqueFields [] all = true)
    (hres : Resolves all) {id : String} {k : Kind} {c : Constraint}
    (hm : Field.plain id k c ∈ all) (hk : k.isFixed = false) (vals : List Val) (v : Val) :
    settleField all vals (.plain id k c) v = settleKind k v := by
  have hns : isSlot all id = false := by
    rw [← Bool.not_eq_true]
    intro hc
    obtain ⟨t, w, c', hf⟩ := slot_plain hu hres hm hc
    cases hf
    cases hk
  have hnc : constOf k c = none := by
    cases k <;> simp_all [Kind.isFixed, constOf]
  rw [settleField, hns, hnc]
  simp

theorem implies_settle {cfg : Cfg} {all : List Field} (hu : uniqueFields [] all = true)
    (hres : Resolves all) (vals : List Val) (target : String) {f : Field} (hm : f ∈ all) (v : Val) :
    f.implies cfg target (settleField all vals f v) = f.implies cfg target v := by
  cases f with
  | plain id k c =>
    cases hk : k.isFixed with
    | true =>
      have := lenTarget_of_fixed hk
      simp [Field.implies, this]
    | false =>
      rw [settleField_plain hu hres hm hk]
      simp only [Field.implies, settleKind_size]
  | maybe id k p => simp [Field.implies]
  | union id d alts c =>
    cases v <;> simp only [settleField]
    cases d <;> simp [Field.implies]

theorem deriveScan_settle {cfg : Cfg} {all : List Field} (hu : uniqueFields [] all = true)
    (hres : Resolves all) (vals : List Val) (target : String) (fs : List Field)
    (hsub : ∀ f ∈ fs, f ∈ all) (vs : List Val) (d : Derivation) :
    deriveScan cfg target fs (settleFields all vals fs vs) d = deriveScan cfg target fs vs d := by
  induction fs generalizing vs d with
  | nil => simp [settleFields]
  | cons f fs ih =>
    cases vs with
    | nil => simp [settleFields]
    | cons v vs =>
      rw [settleFields, deriveScan, deriveScan, implies_settle hu hres vals target (hsub f (by simp))]
      simp only [ih fun g hg => hsub g (by simp [hg])]

theorem condAgrees_settle {env env' : Env} {all : List Field} (vals : List Val) (target : String) (n : Nat) {f : Field}
    (hp : ∀ i ∈ callableReads f, env i = env' i) (v : Val) :
    f.condAgrees env target n v = f.condAgrees env' target n (settleField all vals f v) := by
  cases f with
  | plain id k c => simp [Field.condAgrees]
  | maybe id k p =>
    have he : p.eval env = p.eval env' :=
      Pred.eval_congr fun i hi => hp i (by simp [callableReads, hi])
    cases v <;> simp only [settleField, Field.condAgrees, he, settleKind_size]
  | union id d alts c =>
    cases v <;> simp only [settleField]
    case var i w =>
      simp only [Field.condAgrees, settleAlts_get]
      cases ha : alts[i]? with
      | none => rfl
      | some a => simp only [settleKind_size]
    all_goals rfl

theorem verifyScan_settle {env env' : Env} {all : List Field} (vals : List Val) (target : String) (n : Nat) (fs : List Field)
    (hp : ∀ f ∈ fs, ∀ i ∈ callableReads f, env i = env' i) (vs : List Val) :
    verifyScan env target n fs vs = verifyScan env' target n fs (settleFields all vals fs vs) := by
  induction fs generalizing vs with
  | nil => cases vs <;> simp [verifyScan]
  | cons f fs ih =>
    cases vs with
    | nil => simp [settleFields, verifyScan]
    | cons v vs =>
      rw [settleFields, verifyScan, verifyScan,
        condAgrees_settle vals target n (hp f (by simp)),
        ih fun g hg => hp g (by simp [hg])]

theorem envOf_settle (all : List Field) (vals : List Val) (fs : List Field) (vs : List Val)
    (id : String) (h : ∀ g ∈ fs, g.id = id → ∀ v, settleField all vals g v = v) :
    envOf fs vs id = envOf fs (settleFields all vals fs vs) id := by
  induction fs generalizing vs with
  | nil => cases vs <;> simp [envOf]
  | cons f fs ih =>
    cases vs with
    | nil => simp [settleFields]
    | cons v vs =>
      rw [settleFields, envOf, envOf]
      by_cases hid : id = f.id
      · simp only [Env.set, hid, if_true]
        rw [h f (by simp) hid.symm]
      · simp only [Env.set, hid, if_false]
        exact ih _ fun g hg => h g (by simp [hg])

/-! ### the writer -/

/-- Two lists of values the writer does not tell apart in its scans and callables. -/
structure SameCtx (cfg : Cfg) (ctx ctx' : WCtx) : Prop where
  fs : ctx'.fs = ctx.fs
  derive : ∀ target d, deriveScan cfg target ctx.fs ctx'.vs d = deriveScan cfg target ctx.fs ctx.vs d
  verify : ∀ target n, verifyScan ctx.env target n ctx.fs ctx.vs =
    verifyScan ctx'.env target n ctx.fs ctx'.vs
  env : ∀ f ∈ ctx.fs, ∀ i ∈ callableReads f, ctx.env i = ctx'.env i

theorem sameCtx {cfg : Cfg} {fs : List Field} (hu : uniqueFields [] fs = true)
    (hres : Resolves fs) (hns : NoStale fs) (vs : List Val) :
    SameCtx cfg ⟨fs, vs⟩ ⟨fs, settleFields fs vs fs vs⟩ := by
  have henv : ∀ f ∈ fs, ∀ i ∈ callableReads f,
      envOf fs vs i = envOf fs (settleFields fs vs fs vs) i := by
    intro f hf i hi
    exact envOf_settle fs vs fs vs i fun g hg hid v =>
      settle_cleanField ((hns f hf).1 i hi g hg hid) vs v
  exact ⟨rfl, fun t d => deriveScan_settle hu hres vs t fs (fun _ h => h) vs d,
    fun t n => verifyScan_settle vs t n fs henv vs, henv⟩

theorem verifyThenWrite_same {cfg : Cfg} {ctx ctx' : WCtx} (h : SameCtx cfg ctx ctx') (id : String)
    (k : Kind) (v : Val) : verifyThenWrite cfg ctx id k v = verifyThenWrite cfg ctx' id k v := by
  unfold verifyThenWrite
  rw [h.fs]
  split
  · cases v with
    | int x => simp only [h.verify]
    | _ => rfl
  · rfl

theorem deriveValue_same {cfg : Cfg} {ctx ctx' : WCtx} (h : SameCtx cfg ctx ctx') (id : String)
    (t : ScalarTy) (w : Nat) :
    deriveValue cfg ctx.fs ctx.vs id t w = deriveValue cfg ctx.fs ctx'.vs id t w := by
  unfold deriveValue
  rw [h.derive]

theorem writeFixed_same {cfg : Cfg} {ctx ctx' : WCtx} (h : SameCtx cfg ctx ctx') (m : Bool)
    (id : String) (k : Kind) (c : Constraint) (v : Val) :
    writeFixed cfg ctx m id k c v = writeFixed cfg ctx' m id k c v := by
  unfold writeFixed
  rw [h.fs]
  split
  · cases k with
    | num t w =>
      simp only [deriveValue_same h, verifyThenWrite_same h]
    | _ => rfl
  · simp only [verifyThenWrite_same h]

theorem verifyComputed_same {cfg : Cfg} {env env' : Env} {len : LenSpec} {n : Nat}
    {k : WrE Reason Unit} (h : ∀ c, len = .computed c → ∀ i ∈ c.ids, env i = env' i) :
    verifyComputed cfg env len n k = verifyComputed cfg env' len n k := by
  cases len with
  | fromField id => rfl
  | computed c =>
    have : (LenSpec.computed c).eval cfg env = (LenSpec.computed c).eval cfg env' :=
      LenSpec.eval_congr (h c rfl)
    simp only [verifyComputed, this]

/-- A fixed-size field whose stored value the writer does not look at. -/
theorem writeFixed_ignores {cfg : Cfg} {ctx : WCtx} {id : String} {k : Kind} {c : Constraint}
    (h : isSlot ctx.fs id = true ∨ (frozenVal k c).isSome = true) (v v' : Val) :
    writeFixed cfg ctx true id k c v = writeFixed cfg ctx true id k c v' := by
  unfold writeFixed
  rw [isDerived_eq]
  by_cases hs : isSlot ctx.fs id = true
  · rw [if_pos hs, if_pos hs]
  · rw [if_neg hs, if_neg hs]
    have hf := h.resolve_left hs
    rw [Option.isSome_iff_exists] at hf
    obtain ⟨u, hu⟩ := hf
    simp only [if_true, hu]

theorem writeKind_fixed {cfg : Cfg} {ctx : WCtx} {m : Bool} {id : String} {c : Constraint}
    {k : Kind} (h : k.isFixed = true) (v : Val) :
    writeKind cfg ctx m id c k v = writeFixed cfg ctx m id k c v := by
  cases k <;> simp only [Kind.isFixed, Bool.false_eq_true] at h <;> rw [writeKind]

/-- Checking a constraint that does not see settled parts. -/
theorem checked_same {c : Constraint} {v v' : Val} {k k' : WrE Reason Unit} (hk : k = k')
    (h : c = .none ∨ v = v') : WrE.checked c v k = WrE.checked c v' k' := by
  subst hk
  rcases h with rfl | rfl <;> rfl

theorem writeRecs_map {one : List Val → WrE CastError Unit} {f : List Val → List Val}
    (h : ∀ ws, one ws = one (f ws)) (vs : List Val) :
    writeRecs one vs = writeRecs one (vs.map (mapRecord f)) := by
  induction vs with
  | nil => rfl
  | cons v vs ih =>
    cases v with
    | seq ws => rw [List.map_cons, mapRecord, writeRecs, writeRecs, ← h ws, ih]
    | _ => simp only [List.map_cons, mapRecord, writeRecs]

theorem writeStep_pos {cfg : Cfg} {ctx : WCtx} {f : Field} (v : Val)
    (h : isSlot ctx.fs f.id = true ∨ f.isFrozen = true) :
    writeStep cfg ctx f v = (writeField cfg ctx f v).tag f.id := by
  unfold writeStep
  rw [isDerived_eq, if_pos (by simpa using h)]

theorem writeStep_neg {cfg : Cfg} {ctx : WCtx} {f : Field} (v : Val)
    (h : ¬ (isSlot ctx.fs f.id = true ∨ f.isFrozen = true)) :
    writeStep cfg ctx f v = (WrE.checked f.constraint v (writeField cfg ctx f v)).tag f.id := by
  unfold writeStep
  rw [isDerived_eq, if_neg (by simpa using h)]

abbrev Fresh (fs : List Field) : Prop := Resolves fs ∧ NoStale fs

mutual
theorem settle_kind (cfg : Cfg) : (k : Kind) → uniqueKind k = true → EveryKind Fresh k →
    ∀ ctx ctx' m id c v, SameCtx cfg ctx ctx' →
    (∀ i ∈ callableReads.computedIds k, ctx.env i = ctx'.env i) →
    writeKind cfg ctx m id c k v = writeKind cfg ctx' m id c k (settleKind k v)
  | .num t w, hu, he, ctx, ctx', m, id, c, v, hsame, henv => by
      have : settleKind (.num t w) v = v := by cases v <;> simp [settleKind]
      rw [this, writeKind, writeKind, writeFixed_same hsame]
  | .fbuf e n, hu, he, ctx, ctx', m, id, c, v, hsame, henv => by
      have : settleKind (.fbuf e n) v = v := by cases v <;> simp [settleKind]
      rw [this, writeKind, writeKind, writeFixed_same hsame]
  | .fstr n, hu, he, ctx, ctx', m, id, c, v, hsame, henv => by
      have : settleKind (.fstr n) v = v := by cases v <;> simp [settleKind]
      rw [this, writeKind, writeKind, writeFixed_same hsame]
  | .vec e len b, hu, he, ctx, ctx', m, id, c, v, hsame, henv => by
      have : settleKind (.vec e len b) v = v := by cases v <;> simp [settleKind]
      rw [this]
      cases v <;> simp only [writeKind]
      exact verifyComputed_same fun c hc i hi => henv i (by
        subst hc; simpa [callableReads.computedIds, Kind.lenSpec?] using hi)
  | .record fs, hu, he, ctx, ctx', m, id, c, v, hsame, henv => by
      rw [uniqueKind] at hu
      rw [EveryKind] at he
      cases v <;> simp only [settleKind, writeKind]
      rename_i vs
      congr 1
      exact settle_fields cfg fs _ hu he.2 ⟨fs, vs⟩ ⟨fs, settleFields fs vs fs vs⟩ vs
        (sameCtx hu he.1.1 he.1.2 vs) hu he.1 (fun _ h => h)
  | .arrRec fs n, hu, he, ctx, ctx', m, id, c, v, hsame, henv => by
      rw [uniqueKind] at hu
      rw [EveryKind] at he
      cases v <;> simp only [settleKind, writeKind]
      rename_i vs
      rw [List.length_map, ← writeRecs_map (fun ws =>
        settle_fields cfg fs _ hu he.2 ⟨fs, ws⟩ ⟨fs, settleFields fs ws fs ws⟩ ws
          (sameCtx hu he.1.1 he.1.2 ws) hu he.1 (fun _ h => h))]
  | .vecRec fs len b sz, hu, he, ctx, ctx', m, id, c, v, hsame, henv => by
      rw [uniqueKind] at hu
      rw [EveryKind] at he
      cases v <;> simp only [settleKind, writeKind]
      rename_i vs
      rw [List.length_map, ← writeRecs_map (fun ws =>
        settle_fields cfg fs _ hu he.2 ⟨fs, ws⟩ ⟨fs, settleFields fs ws fs ws⟩ ws
          (sameCtx hu he.1.1 he.1.2 ws) hu he.1 (fun _ h => h))]
      exact verifyComputed_same fun c hc i hi => henv i (by
        subst hc; simpa [callableReads.computedIds, Kind.lenSpec?] using hi)
theorem settle_field (cfg : Cfg) : (f : Field) → uniqueField f = true → EveryField Fresh f →
    ∀ ctx ctx' v, SameCtx cfg ctx ctx' → uniqueFields [] ctx.fs = true → Fresh ctx.fs →
    f ∈ ctx.fs →
    writeStep cfg ctx f v = writeStep cfg ctx' f (settleField ctx.fs ctx.vs f v)
  | .plain id k c, hu, he, ctx, ctx', v, hsame, huc, hfr, hm => by
      rw [uniqueField] at hu
      rw [EveryField] at he
      by_cases hig : isSlot ctx.fs id = true ∨ (frozenVal k c).isSome = true
      · rw [writeStep_pos (f := .plain id k c) v hig,
          writeStep_pos (f := .plain id k c) _ (by rw [hsame.fs]; exact hig), writeField, writeField]
        have hk : k.isFixed = true := by
          rcases hig with hs | hf
          · obtain ⟨t, w, c', hf⟩ := slot_plain huc hfr.1 hm hs
            cases hf; rfl
          · unfold frozenVal at hf
            split at hf <;> first | rfl | cases hf
        rw [writeKind_fixed hk, writeKind_fixed hk, writeFixed_same hsame]
        rw [writeFixed_ignores (by rw [hsame.fs]; exact hig) v]
      · rw [writeStep_neg (f := .plain id k c) v hig,
          writeStep_neg (f := .plain id k c) _ (by rw [hsame.fs]; exact hig), writeField, writeField]
        have h1 : isSlot ctx.fs id = false := by simp_all
        have h2 : constOf k c = none := by
          have := frozen_of_const (k := k) (c := c)
          simp_all
        have hset : settleField ctx.fs ctx.vs (.plain id k c) v = settleKind k v := by
          rw [settleField, h1, h2]; simp
        rw [hset]
        congr 1
        have hns := (hfr.2 _ hm)
        refine checked_same ?_ ?_
        · exact settle_kind cfg k hu he ctx ctx' true id c v hsame
            (fun i hi => hsame.env _ hm i hi)
        · have hc := hns.2
          simp only at hc
          cases c with
          | none => exact .inl rfl
          | _ => exact .inr (settle_clean_kind k hc v).symm
  | .maybe id k p, hu, he, ctx, ctx', v, hsame, huc, hfr, hm => by
      rw [uniqueField] at hu
      rw [EveryField] at he
      unfold writeStep
      rw [hsame.fs]
      simp only [Field.isFrozen, Field.constraint]
      have hw : writeField cfg ctx (.maybe id k p) v =
          writeField cfg ctx' (.maybe id k p) (settleField ctx.fs ctx.vs (.maybe id k p) v) := by
        have hp : p.eval ctx.env = p.eval ctx'.env :=
          Pred.eval_congr fun i hi => hsame.env _ hm i (by simp [callableReads, hi])
        cases v <;> simp only [settleField, writeField, hp]
        rename_i w
        rw [settle_kind cfg k hu he ctx ctx' false id .none w hsame
          (fun i hi => hsame.env _ hm i (by simp [callableReads, hi]))]
      rw [hw]
      rfl
  | .union id d alts c, hu, he, ctx, ctx', v, hsame, huc, hfr, hm => by
      rw [uniqueField] at hu
      rw [EveryField] at he
      have hns := (hfr.2 _ hm).2
      simp only at hns
      have hw : writeField cfg ctx (.union id d alts c) v =
          writeField cfg ctx' (.union id d alts c)
            (settleField ctx.fs ctx.vs (.union id d alts c) v) := by
        cases v with
        | var i w =>
          have ha := settle_alts cfg alts hu he ctx ctx' id i w hsame hns.2
            (fun a hal j hj => hsame.env _ hm j (by
              simp only [callableReads, List.mem_append, List.mem_flatMap]
              exact .inr ⟨a, hal, hj⟩))
          cases d with
          | matchField tgt t ls => simp only [settleField, writeField, ha]
          | matchCompute comp t ls =>
            have hd : Deducer.eval ctx.env (.matchCompute comp t ls) =
                Deducer.eval ctx'.env (.matchCompute comp t ls) :=
              Deducer.eval_congr fun j hj => hsame.env _ hm j (by
                simp only [callableReads, List.mem_append]; exact .inl hj)
            simp only [settleField, writeField, ha, hd]
          | ladder ps =>
            have hd : Deducer.eval ctx.env (.ladder ps) = Deducer.eval ctx'.env (.ladder ps) :=
              Deducer.eval_congr fun j hj => hsame.env _ hm j (by
                simp only [callableReads, List.mem_append]; exact .inl hj)
            simp only [settleField, writeField, ha, hd]
        | _ => simp only [settleField, writeField]
      by_cases hig : isSlot ctx.fs id = true ∨ (Field.union id d alts c).isFrozen = true
      · rw [writeStep_pos (f := .union id d alts c) v hig,
          writeStep_pos (f := .union id d alts c) _ (by rw [hsame.fs]; exact hig), hw]
      · rw [writeStep_neg (f := .union id d alts c) v hig,
          writeStep_neg (f := .union id d alts c) _ (by rw [hsame.fs]; exact hig), hw]
        congr 1
        refine checked_same rfl ?_
        cases c with
        | none => exact .inl rfl
        | _ =>
          refine .inr ?_
          cases v <;> simp only [settleField]
          rw [settle_clean_alts alts hns.1]
theorem settle_alts (cfg : Cfg) : (alts : List Alt) → uniqueAlts alts = true →
    EveryAlts Fresh alts → ∀ ctx ctx' id i v, SameCtx cfg ctx ctx' →
    (∀ a ∈ alts, match a.constraint with | .none => True | _ => EveryKind Clean a.kind) →
    (∀ a ∈ alts, ∀ j ∈ callableReads.computedIds a.kind, ctx.env j = ctx'.env j) →
    writeAlts cfg ctx id alts i v = writeAlts cfg ctx' id alts i (settleAlts alts i v)
  | [], hu, he, ctx, ctx', id, i, v, hsame, hc, henv => by rw [writeAlts, writeAlts]
  | .mk k c :: alts, hu, he, ctx, ctx', id, 0, v, hsame, hc, henv => by
      simp only [uniqueAlts, Bool.and_eq_true] at hu
      rw [EveryAlts] at he
      rw [writeAlts, writeAlts, settleAlts]
      refine checked_same ?_ ?_
      · exact settle_kind cfg k hu.1 he.1 ctx ctx' false id c v hsame (henv (.mk k c) (by simp))
      · have h := hc (.mk k c) (by simp)
        cases c with
        | none => exact .inl rfl
        | _ => exact .inr (settle_clean_kind k h v).symm
  | .mk k c :: alts, hu, he, ctx, ctx', id, i + 1, v, hsame, hc, henv => by
      simp only [uniqueAlts, Bool.and_eq_true] at hu
      rw [EveryAlts] at he
      rw [writeAlts, writeAlts, settleAlts]
      exact settle_alts cfg alts hu.2 he.2 ctx ctx' id i v hsame
        (fun a ha => hc a (by simp [ha])) (fun a ha => henv a (by simp [ha]))
theorem settle_fields (cfg : Cfg) : (fs : List Field) → ∀ seen, uniqueFields seen fs = true →
    EveryFields Fresh fs → ∀ ctx ctx' vs, SameCtx cfg ctx ctx' → uniqueFields [] ctx.fs = true →
    Fresh ctx.fs → (∀ f ∈ fs, f ∈ ctx.fs) →
    writeFields cfg ctx fs vs = writeFields cfg ctx' fs (settleFields ctx.fs ctx.vs fs vs)
  | [], seen, hu, he, ctx, ctx', vs, hsame, huc, hfr, hsub => by
      cases vs <;> simp only [settleFields, writeFields]
  | f :: fs, seen, hu, he, ctx, ctx', [], hsame, huc, hfr, hsub => by
      simp only [settleFields, writeFields]
  | f :: fs, seen, hu, he, ctx, ctx', v :: vs, hsame, huc, hfr, hsub => by
      simp only [uniqueFields, Bool.and_eq_true] at hu
      rw [EveryFields] at he
      rw [settleFields, writeFields_cons, writeFields_cons,
        settle_field cfg f hu.1.2 he.1 ctx ctx' v hsame huc hfr (hsub f (by simp)),
        settle_fields cfg fs _ hu.2 he.2 ctx ctx' vs hsame huc hfr fun g hg => hsub g (by simp [hg])]
end

/-- Writing a struct is writing the settled struct. -/
theorem streamCast_settle (cfg : Cfg) (fs : List Field) (hu : uniqueFields [] fs = true)
    (hfr : Everywhere Fresh fs) (vs : List Val) :
    streamCast cfg fs vs = streamCast cfg fs (settle fs vs) :=
  settle_fields cfg fs [] hu hfr.2 ⟨fs, vs⟩ ⟨fs, settleFields fs vs fs vs⟩ vs
    (sameCtx hu hfr.1.1 hfr.1.2 vs) hu hfr.1 (fun _ h => h)

end S2S
