import Verif.Lemmas.WriteFields
/-
Writing a typed struct never leaves defined behaviour.
-/
namespace S2S
open Spec

/-- Every write accepted, the computation comes to an end. -/
def Runs (w : WrE ε α) : Prop := ∃ a p, Wr.out w = (.done a, p)

theorem runs_ok (a : α) : Runs (WrE.ok a : WrE ε α) := ⟨_, _, rfl⟩
theorem runs_err (e : ε) : Runs (WrE.err e : WrE ε α) := ⟨_, _, rfl⟩
theorem runs_emits {w : WrE ε α} {p : List Byte} {a : α} (h : w.Emits p a) : Runs w := ⟨_, _, h⟩

theorem runs_andThen {r : WrE ε α} {f : α → WrE ε β} (h : Runs r)
    (hf : ∀ a p, r.Emits p a → Runs (f a)) : Runs (r.andThen f) := by
  obtain ⟨o, p, h⟩ := h
  unfold Runs
  rw [WrE.out_andThen, h]
  cases o with
  | error e => exact ⟨_, _, rfl⟩
  | ok a =>
    obtain ⟨o, q, ho⟩ := hf a p h
    exact ⟨o, p ++ q, by simp only [ho]⟩

theorem runs_mapErr {r : WrE ε α} (g : ε → ε') (h : Runs r) : Runs (r.mapErr g) := by
  obtain ⟨o, p, h⟩ := h
  unfold Runs
  rw [WrE.out_mapErr, h]
  cases o <;> exact ⟨_, _, rfl⟩

theorem runs_lift {o : Except Stuck α} {a : α} (h : o = .ok a) : Runs (WrE.lift o : WrE ε α) := by
  rw [h]; exact runs_ok a

theorem runs_checked {c : Constraint} {v : Val} {k : WrE Reason Unit} (h : ∃ b, c.check v = .ok b)
    (hk : Runs k) : Runs (WrE.checked c v k) := by
  obtain ⟨b, hb⟩ := h
  refine runs_andThen (runs_lift hb) fun a p _ => ?_
  split
  · exact hk
  · exact runs_err _

theorem emits_typed {cfg : Cfg} {k : Kind} {v : Val} (hk : k.isFixed = true) (hw : WidthOk k)
    (h : TypedKind cfg k v) : ∃ p, (emitFixed cfg k v).Emits p () := by
  cases k <;> simp only [Kind.isFixed, Bool.false_eq_true] at hk
  · cases v <;> simp only [TypedKind] at h
    rw [WidthOk] at hw
    exact ⟨_, (emits_writeNum _ _ _ _ _).2 ⟨hw, rfl⟩⟩
  · cases v <;> simp only [TypedKind] at h
    exact ⟨_, emits_writeFixedBuf cfg _ _ _ h.1 h.2⟩
  · cases v <;> simp only [TypedKind] at h
    exact ⟨_, emits_writeFixedStr .little _ _ h.1 h.2⟩

theorem usable_check {cfg : Cfg} {k : Kind} {c : Constraint} {v : Val} (hu : UsableOn k c)
    (h : TypedKind cfg k v) : ∃ b, c.check v = .ok b := by
  cases c <;> cases k <;> simp only [UsableOn] at hu <;> cases v <;>
    simp only [TypedKind] at h <;> exact ⟨_, rfl⟩

/-- A list with all its values, as the writer gets it. -/
structure TypedList (cfg : Cfg) (fs : List Field) (vs : List Val) : Prop where
  wf : Acceptable fs
  resolves : Resolves fs
  safe : WriteSafe cfg fs
  typed : TypedFields cfg fs vs

theorem runs_verify {cfg : Cfg} {fs : List Field} {vs : List Val} (h : TypedList cfg fs vs)
    {id : String} {k : Kind} {v : Val} (hk : k.isFixed = true) (hw : WidthOk k)
    (hc : hasConditional fs id = true → ∃ t w, k = .num t w) (hv : TypedKind cfg k v) :
    Runs (verifyThenWrite cfg ⟨fs, vs⟩ id k v) := by
  obtain ⟨p, hp⟩ := emits_typed hk hw hv
  cases hcnd : hasConditional fs id with
  | true =>
    obtain ⟨t, w, rfl⟩ := hc hcnd
    cases v <;> simp only [TypedKind] at hv
    rename_i x
    rcases out_verifyThenWrite h.wf h.typed id t w x with ⟨-, h1⟩ | ⟨-, h1⟩
    · rw [h1]; exact runs_emits hp
    · rw [h1]; exact runs_err _
  | false =>
    unfold verifyThenWrite
    rw [hcnd]
    exact runs_emits hp

theorem runs_member {cfg : Cfg} {fs : List Field} {vs : List Val} (h : TypedList cfg fs vs)
    {id : String} {k : Kind} {c : Constraint} {v : Val} (hm : (Field.plain id k c, v) ∈ fs.zip vs)
    (hk : k.isFixed = true) : Runs (writeFixed cfg ⟨fs, vs⟩ true id k c v) := by
  have hv := typed_zip h.typed hm
  rw [TypedField] at hv
  have hsafe := h.safe _ (mem_of_zip hm)
  simp only at hsafe
  have hc : hasConditional fs id = true → ∃ t w, k = .num t w := by
    intro hc
    obtain ⟨t, w, c', he⟩ := conditional_plain h.wf.2.1 h.resolves (mem_of_zip hm) hc
    cases he
    exact ⟨t, w, rfl⟩
  unfold writeFixed
  rw [isDerived_eq]
  cases hs : isSlot fs id with
  | true =>
    obtain ⟨t, w, c', he⟩ := slot_plain h.wf.2.1 h.resolves (mem_of_zip hm) hs
    cases he
    simp only [if_true]
    rcases deriveValue_eq (t := t) (w := w) (counted_of_typed h.wf.1 h.typed) hs with
      ⟨-, h1⟩ | ⟨-, ⟨-, h1⟩ | ⟨-, h1⟩⟩
    · rw [h1]; exact runs_err _
    · rw [h1]
      have hty : TypedKind cfg (.num t w) (.int (t.conv (cfg.toSz (slotValue fs vs id)))) := by
        rw [TypedKind]; exact ScalarTy.conv_inRange _ _
      have hck : ∃ b, c.check (.int (t.conv (cfg.toSz (slotValue fs vs id)))) = .ok b := by
        cases c with
        | none => exact ⟨_, rfl⟩
        | cmp op t' k' => exact ⟨_, rfl⟩
        | anyOf t' ks => exact ⟨_, rfl⟩
        | arrCmp e u => exact hsafe.2.elim
        | strCmp e u => exact hsafe.2.elim
        | over u r f =>
          have hs2 := hsafe.2
          cases u with
          | none => exact hs2.elim
          | some u => exact (hs2.2 hs).elim
        | user f => exact ⟨_, rfl⟩
      refine runs_andThen (runs_lift rfl) fun a p ha => ?_
      cases ((WrE.emits_lift _ _ _).1 ha).2
      obtain ⟨b, hb⟩ := hck
      refine runs_andThen (runs_lift hb) fun b p _ => ?_
      split
      · exact runs_verify h rfl hsafe.1 (fun _ => ⟨t, w, rfl⟩) hty
      · exact runs_err _
    · rw [h1]; exact runs_err _
  | false =>
    simp only [Bool.false_eq_true, if_false, if_true]
    cases hfv : frozenVal k c with
    | none => exact runs_verify h hk hsafe.1 hc hv
    | some u =>
      refine runs_verify h hk hsafe.1 hc ?_
      have hs2 := hsafe.2
      rw [typedConst_eq, hfv] at hs2
      exact hs2.1

theorem runs_inner {cfg : Cfg} {fs : List Field} {vs : List Val} (h : TypedList cfg fs vs)
    {id : String} {k : Kind} {c : Constraint} {v : Val} (hs : isSlot fs id = false)
    (hc : hasConditional fs id = false) (hv : TypedKind cfg k v) (hw : WidthOk k)
    (hk : k.isFixed = true) : Runs (writeFixed cfg ⟨fs, vs⟩ false id k c v) := by
  unfold writeFixed
  rw [isDerived_eq, if_neg (by simp [hs])]
  exact runs_verify h hk hw (fun hh => by rw [hc] at hh; cases hh) hv

theorem runs_computed {cfg : Cfg} {env : Env} {len : LenSpec} {n : Nat} {k : WrE Reason Unit}
    (hd : ∀ i ∈ lenDeps len, ∃ v, env i = some v) (hk : Runs k) :
    Runs (verifyComputed cfg env len n k) := by
  cases len with
  | fromField id => exact hk
  | computed c =>
    obtain ⟨x, hx⟩ := Calc.eval_ok (c := c) hd
    refine runs_andThen (runs_lift (a := cfg.toSz x) (by simp [LenSpec.eval, hx])) fun a p _ => ?_
    split
    · exact runs_err _
    · exact hk

theorem runs_recs {one : List Val → WrE CastError Unit} {vs : List Val}
    (h : ∀ v ∈ vs, ∃ ws, v = .seq ws ∧ Runs (one ws)) : Runs (writeRecs one vs) := by
  induction vs with
  | nil => exact runs_ok _
  | cons v vs ih =>
    obtain ⟨ws, rfl, hw⟩ := h v (by simp)
    rw [writeRecs]
    exact runs_andThen (runs_mapErr _ hw) fun _ _ _ => ih fun u hu => h u (by simp [hu])

/-- What the library does not see to, for one list. -/
abbrev SafeList (cfg : Cfg) (fs : List Field) : Prop := Resolves fs ∧ WriteSafe cfg fs

mutual
theorem runs_kind (cfg : Cfg) : (k : Kind) → saneKind k = true → uniqueKind k = true →
    upToSelfKind k = true → EveryKind (SafeList cfg) k → ∀ ctx m id c v, TypedKind cfg k v →
    (∀ i ∈ kindDeps k, ∃ u, ctx.env i = some u) →
    (k.isFixed = true → Runs (writeFixed cfg ctx m id k c v)) →
    Runs (writeKind cfg ctx m id c k v)
  | .num t w, hs, hu, hr, he, ctx, m, id, c, v, hv, hd, hfix => by
      simpa only [writeKind] using hfix rfl
  | .fbuf e n, hs, hu, hr, he, ctx, m, id, c, v, hv, hd, hfix => by
      simpa only [writeKind] using hfix rfl
  | .fstr n, hs, hu, hr, he, ctx, m, id, c, v, hv, hd, hfix => by
      simpa only [writeKind] using hfix rfl
  | .vec e len b, hs, hu, hr, he, ctx, m, id, c, v, hv, hd, hfix => by
      cases v <;> simp only [TypedKind] at hv
      rw [writeKind]
      exact runs_computed hd (runs_emits (emits_writeVec cfg e _ (ptrdiff_lt _ _ hv.1) hv.2))
  | .record fs, hs, hu, hr, he, ctx, m, id, c, v, hv, hd, hfix => by
      cases v <;> simp only [TypedKind] at hv
      rename_i us
      rw [saneKind] at hs
      rw [uniqueKind] at hu
      rw [upToSelfKind] at hr
      rw [EveryKind] at he
      rw [writeKind]
      exact runs_mapErr _ (runs_fields cfg fs hs [] hu [] hr he.2 ⟨fs, us⟩ us
        ⟨⟨hs, hu, hr⟩, he.1.1, he.1.2, hv⟩ (fun _ _ h => h) hv)
  | .arrRec fs n, hs, hu, hr, he, ctx, m, id, c, v, hv, hd, hfix => by
      cases v <;> simp only [TypedKind] at hv
      rw [saneKind] at hs
      rw [uniqueKind] at hu
      rw [upToSelfKind] at hr
      rw [EveryKind] at he
      rw [writeKind, if_neg (by simp [hv.1])]
      refine runs_recs fun u hm => ?_
      obtain ⟨ws, rfl, hw⟩ := hv.2 u hm
      exact ⟨ws, rfl, runs_fields cfg fs hs [] hu [] hr he.2 ⟨fs, ws⟩ ws
        ⟨⟨hs, hu, hr⟩, he.1.1, he.1.2, hw⟩ (fun _ _ h => h) hw⟩
  | .vecRec fs len b sz, hs, hu, hr, he, ctx, m, id, c, v, hv, hd, hfix => by
      cases v <;> simp only [TypedKind] at hv
      simp only [saneKind, Bool.and_eq_true] at hs
      rw [uniqueKind] at hu
      rw [upToSelfKind] at hr
      rw [EveryKind] at he
      rw [writeKind]
      refine runs_computed hd (runs_recs fun u hm => ?_)
      obtain ⟨ws, rfl, hw⟩ := hv.2 u hm
      exact ⟨ws, rfl, runs_fields cfg fs hs.2 [] hu [] hr he.2 ⟨fs, ws⟩ ws
        ⟨⟨hs.2, hu, hr⟩, he.1.1, he.1.2, hw⟩ (fun _ _ h => h) hw⟩
theorem runs_field (cfg : Cfg) : (f : Field) → saneField f = true → uniqueField f = true →
    upToSelfField f = true → EveryField (SafeList cfg) f → ∀ ctx v, TypedList cfg ctx.fs ctx.vs →
    (f, v) ∈ ctx.fs.zip ctx.vs → Runs (writeStep cfg ctx f v)
  | .plain id k c, hs, hu, hr, he, ctx, v, hin, hm => by
      rw [saneField] at hs
      rw [uniqueField] at hu
      rw [upToSelfField] at hr
      rw [EveryField] at he
      have hv := typed_zip hin.typed hm
      rw [TypedField] at hv
      have hdeps := deps_some hin.wf (typed_length hin.typed) (mem_of_zip hm)
      have hk := runs_kind cfg k hs hu hr he ctx true id c v hv
        (fun i hi => hdeps i (by simpa [fieldDeps] using hi)) (fun hk => runs_member hin hm hk)
      refine runs_mapErr _ ?_
      split
      · rw [writeField]; exact hk
      · rename_i hns
        rw [writeField]
        refine runs_checked ?_ hk
        have hsafe := (hin.safe _ (mem_of_zip hm)).2
        simp only [Field.isFrozen, Bool.or_eq_true, not_or, Bool.not_eq_true] at hns
        have hnone : typedConst k c = none := by
          rw [typedConst_eq]
          simpa using hns.2
        rw [hnone] at hsafe
        exact usable_check hsafe hv
  | .maybe id k pr, hs, hu, hr, he, ctx, v, hin, hm => by
      rw [saneField] at hs
      rw [uniqueField] at hu
      rw [upToSelfField] at hr
      rw [EveryField] at he
      have hv := typed_zip hin.typed hm
      have hns : isSlot ctx.fs id = false := by
        rw [← Bool.not_eq_true]
        intro hc
        obtain ⟨t, w, c', hf⟩ := slot_plain hin.wf.2.1 hin.resolves (mem_of_zip hm) hc
        cases hf
      have hnc : hasConditional ctx.fs id = false := by
        rw [← Bool.not_eq_true]
        intro hc
        obtain ⟨t, w, c', hf⟩ := conditional_plain hin.wf.2.1 hin.resolves (mem_of_zip hm) hc
        cases hf
      have hdeps := deps_some hin.wf (typed_length hin.typed) (mem_of_zip hm)
      have hw : Runs (writeField cfg ctx (.maybe id k pr) v) := by
        obtain ⟨b, hb⟩ := Pred.eval_ok (env := ctx.env) (p := pr)
          (fun i hi => hdeps i (by simp [fieldDeps, hi]))
        rw [writeField]
        refine runs_andThen (runs_lift hb) fun b p _ => ?_
        cases v <;> simp only [TypedField] at hv
        · simp only; split
          · exact runs_err _
          · exact runs_ok _
        · simp only; split
          · exact runs_kind cfg k hs hu hr he ctx false id .none _ hv
              (fun i hi => hdeps i (by simp [fieldDeps, hi]))
              (fun hk => runs_inner hin hns hnc hv (hin.safe _ (mem_of_zip hm)) hk)
          · exact runs_err _
      refine runs_mapErr _ ?_
      split
      · exact hw
      · exact runs_checked ⟨true, rfl⟩ hw
  | .union id d alts c, hs, hu, hr, he, ctx, v, hin, hm => by
      simp only [saneField, Bool.and_eq_true] at hs
      rw [uniqueField] at hu
      rw [upToSelfField] at hr
      rw [EveryField] at he
      have hv := typed_zip hin.typed hm
      have hns : isSlot ctx.fs id = false := by
        rw [← Bool.not_eq_true]
        intro hc
        obtain ⟨t, w, c', hf⟩ := slot_plain hin.wf.2.1 hin.resolves (mem_of_zip hm) hc
        cases hf
      have hnc : hasConditional ctx.fs id = false := by
        rw [← Bool.not_eq_true]
        intro hc
        obtain ⟨t, w, c', hf⟩ := conditional_plain hin.wf.2.1 hin.resolves (mem_of_zip hm) hc
        cases hf
      have hdeps := deps_some hin.wf (typed_length hin.typed) (mem_of_zip hm)
      have hsafe := hin.safe _ (mem_of_zip hm)
      simp only at hsafe
      cases v <;> simp only [TypedField] at hv
      rename_i i w
      have ha := runs_alts cfg alts hs.2 hu hr he ctx id i w hin hns hnc hsafe.2
        (fun a ha i hi => hdeps i (by
          simp only [fieldDeps, List.mem_append, List.mem_flatMap]
          exact .inr ⟨a, ha, hi⟩)) hv
      have hw : Runs (writeField cfg ctx (.union id d alts c) (.var i w)) := by
        cases d with
        | matchField tgt t ls => simpa only [writeField] using ha
        | matchCompute comp t ls =>
          obtain ⟨x, hx⟩ := Calc.eval_ok (env := ctx.env) (c := comp)
            (fun i hi => hdeps i (by simp [fieldDeps, deducerDeps, hi]))
          simp only [writeField]
          refine runs_andThen (runs_lift (a := switchIdx t (t.conv x) ls)
            (by simp [Deducer.eval, hx])) fun o p _ => ?_
          cases o with
          | none => exact runs_err _
          | some j =>
            simp only
            split
            · exact runs_err _
            · exact ha
        | ladder ps =>
          obtain ⟨o, ho⟩ := ladderIdx_ok (env := ctx.env) (ps := ps)
            (fun p hp i hi => hdeps i (by
              simp only [fieldDeps, deducerDeps, List.mem_append, List.mem_flatMap]
              exact .inl ⟨p, hp, hi⟩))
          simp only [writeField]
          refine runs_andThen (runs_lift (a := o) (by simp [Deducer.eval, ho])) fun o p _ => ?_
          cases o with
          | none => exact runs_err _
          | some j =>
            simp only
            split
            · exact runs_err _
            · exact ha
      refine runs_mapErr _ ?_
      split
      · exact hw
      · refine runs_checked ?_ hw
        cases c <;> first | exact ⟨_, rfl⟩ | exact hsafe.1.elim
theorem runs_alts (cfg : Cfg) : (alts : List Alt) → saneAlts alts = true →
    uniqueAlts alts = true → upToSelfAlts alts = true → EveryAlts (SafeList cfg) alts →
    ∀ ctx id i v, TypedList cfg ctx.fs ctx.vs → isSlot ctx.fs id = false →
    hasConditional ctx.fs id = false →
    (∀ a ∈ alts, WidthOk a.kind ∧ UsableOn a.kind a.constraint) →
    (∀ a ∈ alts, ∀ i ∈ kindDeps a.kind, ∃ u, ctx.env i = some u) → TypedAlts cfg alts i v →
    Runs (writeAlts cfg ctx id alts i v)
  | [], hs, hu, hr, he, ctx, id, i, v, hin, hns, hnc, hsafe, hd, hv => by simp [TypedAlts] at hv
  | .mk k c :: alts, hs, hu, hr, he, ctx, id, 0, v, hin, hns, hnc, hsafe, hd, hv => by
      simp only [saneAlts, Bool.and_eq_true] at hs
      simp only [uniqueAlts, Bool.and_eq_true] at hu
      simp only [upToSelfAlts, Bool.and_eq_true] at hr
      rw [EveryAlts] at he
      rw [TypedAlts] at hv
      have h1 := hsafe (.mk k c) (by simp)
      rw [writeAlts]
      exact runs_checked (usable_check h1.2 hv) (runs_kind cfg k hs.1 hu.1 hr.1 he.1 ctx false id c
        v hv (hd (.mk k c) (by simp)) (fun hk => runs_inner hin hns hnc hv h1.1 hk))
  | .mk k c :: alts, hs, hu, hr, he, ctx, id, i + 1, v, hin, hns, hnc, hsafe, hd, hv => by
      simp only [saneAlts, Bool.and_eq_true] at hs
      simp only [uniqueAlts, Bool.and_eq_true] at hu
      simp only [upToSelfAlts, Bool.and_eq_true] at hr
      rw [EveryAlts] at he
      rw [TypedAlts] at hv
      rw [writeAlts]
      exact runs_alts cfg alts hs.2 hu.2 hr.2 he.2 ctx id i v hin hns hnc
        (fun a ha => hsafe a (by simp [ha])) (fun a ha => hd a (by simp [ha])) hv
theorem runs_fields (cfg : Cfg) : (fs : List Field) → saneFields fs = true →
    ∀ seen, uniqueFields seen fs = true → ∀ seen', upToSelf seen' fs = true →
    EveryFields (SafeList cfg) fs → ∀ ctx vs, TypedList cfg ctx.fs ctx.vs →
    (∀ f v, (f, v) ∈ fs.zip vs → (f, v) ∈ ctx.fs.zip ctx.vs) → TypedFields cfg fs vs →
    Runs (writeFields cfg ctx fs vs)
  | [], hs, seen, hu, seen', hr, he, ctx, vs, hin, hm, hv => by
      cases vs with
      | nil => simp only [writeFields]; exact runs_ok _
      | cons v vs => simp [TypedFields] at hv
  | f :: fs, hs, seen, hu, seen', hr, he, ctx, [], hin, hm, hv => by simp [TypedFields] at hv
  | f :: fs, hs, seen, hu, seen', hr, he, ctx, v :: vs, hin, hm, hv => by
      simp only [saneFields, Bool.and_eq_true] at hs
      simp only [uniqueFields, Bool.and_eq_true] at hu
      simp only [upToSelf, Bool.and_eq_true] at hr
      rw [EveryFields] at he
      rw [TypedFields] at hv
      rw [writeFields_cons]
      exact runs_andThen (runs_field cfg f hs.1 hu.1.2 hr.1.2 he.1 ctx v hin (hm f v (by simp)))
        fun _ _ _ => runs_fields cfg fs hs.2 _ hu.2 _ hr.2 he.2 ctx vs hin
          (fun g u hg => hm g u (by rw [List.zip_cons_cons]; exact List.mem_cons_of_mem _ hg)) hv.2
end

theorem runs_streamCast {cfg : Cfg} {fs : List Field} {vs : List Val} (hwf : Acceptable fs)
    (he : Everywhere (SafeList cfg) fs) (hv : Typed cfg fs vs) : Runs (streamCast cfg fs vs) :=
  runs_fields cfg fs hwf.1 [] hwf.2.1 [] hwf.2.2 he.2 ⟨fs, vs⟩ vs ⟨hwf, he.1.1, he.1.2, hv⟩
    (fun _ _ h => h) hv

end S2S
