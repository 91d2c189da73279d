import Verif.Lemmas.WriteMain
/-
The induction over the schema: a successful write of a settled struct emits its
encoding, and the struct satisfies its constraints and has its shape.
-/
namespace S2S
open Spec

theorem emits_verifyComputed {cfg : Cfg} {env : Env} {len : LenSpec} {n : Nat}
    {k : WrE Reason Unit} {p : List Byte}
    (hf : ∀ tgt, len = .fromField tgt → len.eval cfg env = .ok n) :
    (verifyComputed cfg env len n k).Emits p () ↔ len.eval cfg env = .ok n ∧ k.Emits p () := by
  unfold verifyComputed
  cases len with
  | fromField tgt => simp [hf tgt rfl]
  | computed c =>
    simp only [WrE.emits_andThen, WrE.emits_lift]
    constructor
    · rintro ⟨m, q, r, rfl, ⟨rfl, h1⟩, h2⟩
      split at h2
      · exact ((WrE.emits_err _ _ _).1 h2).elim
      · rename_i hn
        simp only [ne_eq, Decidable.not_not] at hn
        subst hn
        exact ⟨h1, by simpa using h2⟩
    · rintro ⟨h1, h2⟩
      refine ⟨n, [], p, rfl, ⟨rfl, h1⟩, ?_⟩
      rw [if_neg (by simp)]
      exact h2

theorem emits_untag {r : WrE CastError α} {p : List Byte} {a : α} :
    (WrE.untag r).Emits p a ↔ r.Emits p a := by
  unfold WrE.untag; exact WrE.emits_mapErr _ _ _ _

theorem emits_tag {r : WrE Reason α} {id : String} {p : List Byte} {a : α} :
    (WrE.tag id r).Emits p a ↔ r.Emits p a := by
  unfold WrE.tag; exact WrE.emits_mapErr _ _ _ _

/-- Two lists related element by element. -/
inductive Each2 {α β : Type} (R : α → β → Prop) : List α → List β → Prop
  | nil : Each2 R [] []
  | cons {a b as bs} : R a b → Each2 R as bs → Each2 R (a :: as) (b :: bs)

/-- Records one after the other. -/
theorem emits_writeRecs {one : List Val → WrE CastError Unit} {vs : List Val} {p : List Byte} :
    (writeRecs one vs).Emits p () ↔
      ∃ ps : List (List Byte), p = ps.flatten ∧
        Each2 (fun v q => ∃ ws, v = Val.seq ws ∧ (one ws).Emits q ()) vs ps := by
  induction vs generalizing p with
  | nil =>
    rw [writeRecs, WrE.emits_ok]
    constructor
    · rintro ⟨rfl, -⟩; exact ⟨[], rfl, .nil⟩
    · rintro ⟨ps, rfl, h⟩; cases h; exact ⟨rfl, rfl⟩
  | cons v vs ih =>
    cases v with
    | seq ws =>
      rw [writeRecs, WrE.emits_andThen]
      constructor
      · rintro ⟨_, q, r, rfl, h1, h2⟩
        obtain ⟨ps, rfl, h3⟩ := ih.1 h2
        exact ⟨q :: ps, by simp, .cons ⟨ws, rfl, emits_untag.1 h1⟩ h3⟩
      · rintro ⟨ps, rfl, h⟩
        cases h with
        | cons h1 h2 =>
          obtain ⟨ws', he, h1⟩ := h1
          cases he
          exact ⟨(), _, _, List.flatten_cons .., emits_untag.2 h1, ih.2 ⟨_, rfl, h2⟩⟩
    | _ =>
      simp only [writeRecs]
      constructor
      · intro h; exact ((WrE.emits_stuck _ _ _).1 h).elim
      · rintro ⟨ps, rfl, h⟩
        cases h with
        | cons h1 h2 => obtain ⟨ws', he, h1⟩ := h1; cases he

theorem forall2_flatMap {vs : List Val} {ps : List (List Byte)} {R : Val → List Byte → Prop}
    {W : Val → List Byte} {Q : Val → Prop} (h : Each2 R vs ps)
    (hR : ∀ v ∈ vs, ∀ q, R v q → q = W v ∧ Q v) : ps.flatten = vs.flatMap W ∧ ∀ v ∈ vs, Q v := by
  induction h with
  | nil => simp
  | cons h1 h2 ih =>
    obtain ⟨h3, h4⟩ := ih fun v hv q hq => hR v (by simp [hv]) q hq
    obtain ⟨h5, h6⟩ := hR _ (by simp) _ h1
    constructor
    · rw [List.flatten_cons, List.flatMap_cons, h3, h5]
    · intro v hv
      rcases List.mem_cons.1 hv with rfl | hv
      · exact h6
      · exact h4 v hv

theorem map_eq_self {f : Val → Val} {vs : List Val} (h : vs.map f = vs) : ∀ v ∈ vs, f v = v := by
  induction vs with
  | nil => simp
  | cons a vs ih =>
    rw [List.map_cons, List.cons.injEq] at h
    intro v hv
    rcases List.mem_cons.1 hv with rfl | hv
    · exact h.1
    · exact ih h.2 v hv

/-- The records of a container, given the theorem for one record. -/
theorem sound_recs {cfg : Cfg} {fs : List Field}
    (one : ∀ ws p, StorableFields cfg fs fs ws → settleFields fs ws fs ws = ws →
      (writeFields cfg ⟨fs, ws⟩ fs ws).Emits p () →
      p = wireFields cfg.wire fs ws ∧ FitsFields cfg fs ws ∧ OkFields fs ws ∧
      ShapedFields cfg (envOf fs ws) fs ws)
    {vs : List Val} {p : List Byte}
    (hfit : ∀ v ∈ vs, ∃ ws, v = .seq ws ∧ StorableFields cfg fs fs ws)
    (hset : vs.map (mapRecord fun ws => settleFields fs ws fs ws) = vs)
    (h : (writeRecs (fun ws => writeFields cfg ⟨fs, ws⟩ fs ws) vs).Emits p ()) :
    p = vs.flatMap (recordBytes fun ws => wireFields cfg.wire fs ws) ∧
    (∀ v ∈ vs, ∃ ws, v = .seq ws ∧ FitsFields cfg fs ws) ∧
    (∀ v ∈ vs, ∃ ws, v = .seq ws ∧ OkFields fs ws) ∧
    (∀ v ∈ vs, ∃ ws, v = .seq ws ∧ ShapedFields cfg (envOf fs ws) fs ws) := by
  rw [emits_writeRecs] at h
  obtain ⟨ps, rfl, h⟩ := h
  have hset' := map_eq_self hset
  have key := forall2_flatMap (W := recordBytes fun ws => wireFields cfg.wire fs ws)
    (Q := fun v => ∃ ws, v = .seq ws ∧ FitsFields cfg fs ws ∧ OkFields fs ws ∧ ShapedFields cfg (envOf fs ws) fs ws) h
    (by
      rintro v hv q ⟨ws, rfl, hq⟩
      obtain ⟨ws', he, hf⟩ := hfit _ hv
      cases he
      have hs := hset' _ hv
      simp only [mapRecord, Val.seq.injEq] at hs
      obtain ⟨h1, h2⟩ := one ws q hf hs hq
      exact ⟨h1, ws, rfl, h2⟩)
  refine ⟨key.1, fun v hv => ?_, fun v hv => ?_, fun v hv => ?_⟩
  · obtain ⟨ws, h1, h2, h3, h4⟩ := key.2 v hv; exact ⟨ws, h1, h2⟩
  · obtain ⟨ws, h1, h2, h3, h4⟩ := key.2 v hv; exact ⟨ws, h1, h3⟩
  · obtain ⟨ws, h1, h2, h3, h4⟩ := key.2 v hv; exact ⟨ws, h1, h4⟩

/-- What is known of a field written within its list. -/
structure InList (cfg : Cfg) (ctx : WCtx) : Prop where
  settled : Settled cfg ctx.fs ctx.vs
  facts : Facts cfg ctx.fs ctx.vs

theorem inList {cfg : Cfg} {fs : List Field} (hs : saneFields fs = true)
    (hu : uniqueFields [] fs = true) (hw : Writable cfg fs) {vs : List Val} {p : List Byte}
    (hf : StorableFields cfg fs fs vs) (hset : settleFields fs vs fs vs = vs)
    (h : (writeFields cfg ⟨fs, vs⟩ fs vs).Emits p ()) : InList cfg ⟨fs, vs⟩ :=
  have hst : Settled cfg fs vs := ⟨hw, hs, hu, hf, hset⟩
  ⟨hst, facts_of_steps hst (emits_steps h).2⟩

mutual
theorem sound_kind (cfg : Cfg) : (k : Kind) → saneKind k = true → uniqueKind k = true →
    EveryKind (Writable cfg) k → ∀ ctx m id c v p, StorableKind cfg k v → settleKind k v = v →
    (∀ tgt us, v = .seq us → k.lenTarget? = some tgt →
      (LenSpec.fromField tgt).eval cfg ctx.env = .ok us.length) →
    (k.isFixed = true → (verifyThenWrite cfg ctx id k v).Emits p ()) →
    (writeKind cfg ctx m id c k v).Emits p () →
    p = wireKind cfg.wire k v ∧ FitsKind cfg k v ∧ OkKind k v ∧ ShapedKind cfg ctx.env k v
  | .num t w, hs, hu, he, ctx, m, id, c, v, p, hf, hset, hlen, hfix, h => by
      have h1 := (emits_verifyThenWrite.1 (hfix rfl)).1
      rw [StorableKind] at hf
      have h2 := emits_emitFixed cfg (.num t w) v rfl hf
      refine ⟨(WrE.emits_inj h1 h2).1, hf, ?_, ?_⟩ <;> cases v <;> simp [OkKind, ShapedKind]
  | .fbuf e n, hs, hu, he, ctx, m, id, c, v, p, hf, hset, hlen, hfix, h => by
      have h1 := (emits_verifyThenWrite.1 (hfix rfl)).1
      rw [StorableKind] at hf
      have h2 := emits_emitFixed cfg (.fbuf e n) v rfl hf
      refine ⟨(WrE.emits_inj h1 h2).1, hf, ?_, ?_⟩ <;> cases v <;> simp [OkKind, ShapedKind]
  | .fstr n, hs, hu, he, ctx, m, id, c, v, p, hf, hset, hlen, hfix, h => by
      have h1 := (emits_verifyThenWrite.1 (hfix rfl)).1
      rw [StorableKind] at hf
      have h2 := emits_emitFixed cfg (.fstr n) v rfl hf
      refine ⟨(WrE.emits_inj h1 h2).1, hf, ?_, ?_⟩ <;> cases v <;> simp [OkKind, ShapedKind]
  | .vec e len b, hs, hu, he, ctx, m, id, c, v, p, hf, hset, hlen, hfix, h => by
      rw [StorableKind] at hf
      have hf' := hf
      cases v <;> simp only [FitsKind] at hf
      rename_i us
      rw [writeKind] at h
      rw [emits_verifyComputed (by
        rintro tgt rfl
        exact hlen tgt us rfl rfl)] at h
      have h2 := emits_writeVec cfg e us (ptrdiff_lt _ _ hf.1.2) hf.2
      refine ⟨?_, hf', ?_, ?_⟩
      · rw [wireKind]; exact (WrE.emits_inj h.2 h2).1
      · simp [OkKind]
      · rw [ShapedKind]; exact h.1
  | .record fs, hs, hu, he, ctx, m, id, c, v, p, hf, hset, hlen, hfix, h => by
      cases v <;> simp only [StorableKind] at hf
      rename_i us
      simp only [settleKind, Val.seq.injEq] at hset
      rw [writeKind, emits_untag] at h
      rw [saneKind] at hs
      rw [uniqueKind] at hu
      rw [EveryKind] at he
      have := sound_fields cfg fs hs [] hu he.2 ⟨fs, us⟩ us p (inList hs hu he.1 hf hset h) (fun _ _ hm => hm) h
      rw [wireKind, FitsKind, OkKind, ShapedKind]
      exact this
  | .arrRec fs n, hs, hu, he, ctx, m, id, c, v, p, hf, hset, hlen, hfix, h => by
      cases v <;> simp only [StorableKind] at hf
      rename_i us
      simp only [settleKind, Val.seq.injEq] at hset
      rw [writeKind, if_neg (by simp [hf.1])] at h
      rw [saneKind] at hs
      rw [uniqueKind] at hu
      rw [EveryKind] at he
      have := sound_recs (fun ws q hf hset h => sound_fields cfg fs hs [] hu he.2 ⟨fs, ws⟩ ws q
        (inList hs hu he.1 hf hset h) (fun _ _ hm => hm) h) hf.2 hset h
      rw [wireKind, FitsKind, OkKind, ShapedKind]
      exact ⟨this.1, ⟨hf.1, this.2.1⟩, this.2.2⟩
  | .vecRec fs len b sz, hs, hu, he, ctx, m, id, c, v, p, hf, hset, hlen, hfix, h => by
      cases v <;> simp only [StorableKind] at hf
      rename_i us
      simp only [settleKind, Val.seq.injEq] at hset
      rw [writeKind, emits_verifyComputed (by
        rintro tgt rfl
        exact hlen tgt us rfl rfl)] at h
      simp only [saneKind, Bool.and_eq_true] at hs
      rw [uniqueKind] at hu
      rw [EveryKind] at he
      have := sound_recs (fun ws q hf hset h => sound_fields cfg fs hs.2 [] hu he.2 ⟨fs, ws⟩ ws q
        (inList hs.2 hu he.1 hf hset h) (fun _ _ hm => hm) h) hf.2 hset h.2
      rw [wireKind, FitsKind, OkKind, ShapedKind]
      exact ⟨this.1, ⟨hf.1, this.2.1⟩, this.2.2.1, h.1, this.2.2.2⟩
theorem sound_field (cfg : Cfg) : (f : Field) → saneField f = true → uniqueField f = true →
    EveryField (Writable cfg) f → ∀ ctx v p, InList cfg ctx → (f, v) ∈ ctx.fs.zip ctx.vs →
    (writeStep cfg ctx f v).Emits p () →
    p = wireField cfg.wire f v ∧ FitsField cfg f v ∧ OkField f v ∧ ShapedField cfg ctx.env f v
  | .plain id k c, hs, hu, he, ctx, v, p, hin, hm, h => by
      rw [saneField] at hs
      rw [uniqueField] at hu
      rw [EveryField] at he
      have hset := settle_zip hin.settled.settled hm
      have hw := emits_writeStep.1 h
      rw [writeField] at hw
      have hlen : ∀ tgt us, v = .seq us → k.lenTarget? = some tgt →
          (LenSpec.fromField tgt).eval cfg ctx.env = .ok us.length := by
        rintro tgt us rfl ht
        exact hin.facts.len id k c us tgt hm ht
      by_cases hk : k.isFixed = true
      · obtain ⟨h1, h2, hfit, _⟩ := fixed_step hin.settled hm hk h
        replace hfit : StorableKind cfg k v := by
          cases k <;> simp only [Kind.isFixed, Bool.false_eq_true] at hk <;>
            simpa only [StorableKind] using hfit
        have hset' : settleKind k v = v := by
          cases k <;> simp_all [Kind.isFixed, settleKind]
        have := sound_kind cfg k hs hu he ctx true id c v p hfit hset' hlen (fun _ => h1) hw.1
        rw [wireField, FitsField, OkField, ShapedField]
        exact ⟨this.1, this.2.1, ⟨this.2.2.1, h2⟩, this.2.2.2⟩
      · have hns : isSlot ctx.fs id = false := by
          rw [← Bool.not_eq_true]
          intro hc
          obtain ⟨t, w, c', hf⟩ := slot_plain hin.settled.unique hin.settled.resolves
            (mem_of_zip hm) hc
          cases hf
          exact hk rfl
        have hnc : constOf k c = none := by
          cases k <;> simp_all [Kind.isFixed, constOf]
        have hnf : (Field.plain id k c).isFrozen = false := by
          simp [Field.isFrozen, frozenVal_none hnc]
        rw [settleField, hns, hnc] at hset
        simp only [Bool.false_eq_true, if_false] at hset
        have hfit := storable_plain hin.settled.unique hin.settled.resolves (mem_of_zip hm)
          (by simpa using hk) (storable_zip hin.settled.storable hm)
        have := sound_kind cfg k hs hu he ctx true id c v p hfit hset hlen
          (fun hc => absurd hc hk) hw.1
        rw [wireField, FitsField, OkField, ShapedField]
        exact ⟨this.1, this.2.1, ⟨this.2.2.1, hw.2 hns hnf⟩, this.2.2.2⟩
  | .maybe id k pr, hs, hu, he, ctx, v, p, hin, hm, h => by
      rw [saneField] at hs
      rw [uniqueField] at hu
      rw [EveryField] at he
      have hfit := storable_zip hin.settled.storable hm
      have hset := settle_zip hin.settled.settled hm
      have hw := (emits_writeStep.1 h).1
      rw [writeField, WrE.emits_andThen] at hw
      obtain ⟨b, q, r, rfl, h1, h2⟩ := hw
      rw [WrE.emits_lift] at h1
      obtain ⟨rfl, h1⟩ := h1
      rw [List.nil_append] at *
      cases v <;> simp only [StorableField] at hfit
      · cases b with
        | true => exact ((WrE.emits_err _ _ _).1 h2).elim
        | false =>
          simp only [Bool.false_eq_true, if_false, WrE.emits_ok] at h2
          rw [wireField, FitsField, OkField, ShapedField]
          · exact ⟨h2.1, trivial, trivial, h1⟩
          all_goals simp
      · rename_i w
        cases b with
        | false => exact ((WrE.emits_err _ _ _).1 h2).elim
        | true =>
          simp only [if_true] at h2
          rw [settleField, Val.present.injEq] at hset
          have hns : isSlot ctx.fs id = false := by
            rw [← Bool.not_eq_true]
            intro hc
            obtain ⟨t, w, c', hf⟩ := slot_plain hin.settled.unique hin.settled.resolves
              (mem_of_zip hm) hc
            cases hf
          have := sound_kind cfg k hs hu he ctx false id .none w r hfit hset
            (by
              rintro tgt us rfl ht
              exact hin.facts.opt id k pr us tgt hm h1 ht)
            (by
              intro hk
              have h3 : (writeFixed cfg ctx false id k .none w).Emits r () := by
                cases k <;> simp only [Kind.isFixed, Bool.false_eq_true] at hk <;>
                  simpa only [writeKind] using h2
              rw [emits_writeFixed] at h3
              rcases h3 with ⟨h3, _⟩ | ⟨_, h3⟩
              · rw [hns] at h3; cases h3
              · simpa using h3) h2
          rw [wireField, FitsField, OkField, ShapedField]
          exact ⟨this.1, this.2.1, this.2.2.1, h1, this.2.2.2⟩
  | .union id d alts c, hs, hu, he, ctx, v, p, hin, hm, h => by
      simp only [saneField, Bool.and_eq_true] at hs
      rw [uniqueField] at hu
      rw [EveryField] at he
      have hfit := storable_zip hin.settled.storable hm
      have hset := settle_zip hin.settled.settled hm
      have hns : isSlot ctx.fs id = false := by
        rw [← Bool.not_eq_true]
        intro hc
        obtain ⟨t, w, c', hf⟩ := slot_plain hin.settled.unique hin.settled.resolves
          (mem_of_zip hm) hc
        cases hf
      obtain ⟨hw, hc⟩ := emits_writeStep.1 h
      have hc' := hc hns rfl
      cases v <;> simp only [StorableField] at hfit
      rename_i i w
      rw [settleField, Val.var.injEq] at hset
      have hda : d.eval ctx.env = .ok (some i) ∧ (writeAlts cfg ctx id alts i w).Emits p () := by
        cases d with
        | matchField tgt t ls =>
          simp only [writeField] at hw
          exact ⟨hin.facts.sw id tgt t ls alts c i w hm, hw⟩
        | matchCompute comp t ls =>
          simp only [writeField, WrE.emits_andThen, WrE.emits_lift] at hw
          obtain ⟨o, q, r, rfl, ⟨rfl, h1⟩, h2⟩ := hw
          cases o with
          | none => exact ((WrE.emits_err _ _ _).1 h2).elim
          | some j =>
            simp only at h2
            split at h2
            · exact ((WrE.emits_err _ _ _).1 h2).elim
            · rename_i hj
              simp only [ne_eq, Decidable.not_not] at hj
              subst hj
              exact ⟨h1, h2⟩
        | ladder ps =>
          simp only [writeField, WrE.emits_andThen, WrE.emits_lift] at hw
          obtain ⟨o, q, r, rfl, ⟨rfl, h1⟩, h2⟩ := hw
          cases o with
          | none => exact ((WrE.emits_err _ _ _).1 h2).elim
          | some j =>
            simp only at h2
            split at h2
            · exact ((WrE.emits_err _ _ _).1 h2).elim
            · rename_i hj
              simp only [ne_eq, Decidable.not_not] at hj
              subst hj
              exact ⟨h1, h2⟩
      have := sound_alts cfg alts hs.2 hu he ctx id i w p hns hfit hset.2
        (by
          rintro a tgt us ha rfl ht
          exact hin.facts.alt id d alts c i us a tgt hm ha ht) hda.2
      rw [wireField, FitsField, OkField, ShapedField]
      exact ⟨this.1, this.2.1, ⟨this.2.2.1, hc'⟩, hda.1, this.2.2.2⟩
theorem sound_alts (cfg : Cfg) : (alts : List Alt) → saneAlts alts = true → uniqueAlts alts = true →
    EveryAlts (Writable cfg) alts → ∀ ctx id i v p, isSlot ctx.fs id = false →
    StorableAlts cfg alts i v → settleAlts alts i v = v →
    (∀ a tgt us, alts[i]? = some a → v = .seq us → a.kind.lenTarget? = some tgt →
      (LenSpec.fromField tgt).eval cfg ctx.env = .ok us.length) →
    (writeAlts cfg ctx id alts i v).Emits p () →
    p = wireAlts cfg.wire alts i v ∧ FitsAlts cfg alts i v ∧ OkAlts alts i v ∧
      ShapedAlts cfg ctx.env alts i v
  | [], hs, hu, he, ctx, id, i, v, p, hns, hf, hset, hlen, h => by simp [StorableAlts] at hf
  | .mk k c :: alts, hs, hu, he, ctx, id, 0, v, p, hns, hf, hset, hlen, h => by
      simp only [saneAlts, Bool.and_eq_true] at hs
      simp only [uniqueAlts, Bool.and_eq_true] at hu
      rw [EveryAlts] at he
      rw [StorableAlts] at hf
      rw [settleAlts] at hset
      rw [writeAlts, emits_checked] at h
      have := sound_kind cfg k hs.1 hu.1 he.1 ctx false id c v p hf hset
        (by
          rintro tgt us rfl ht
          exact hlen (.mk k c) tgt us rfl rfl ht)
        (by
          intro hk
          have h3 : (writeFixed cfg ctx false id k c v).Emits p () := by
            have h2 := h.2
            cases k <;> simp only [Kind.isFixed, Bool.false_eq_true] at hk <;>
              simpa only [writeKind] using h2
          rw [emits_writeFixed] at h3
          rcases h3 with ⟨h3, _⟩ | ⟨_, h3⟩
          · rw [hns] at h3; cases h3
          · simpa using h3) h.2
      rw [wireAlts, FitsAlts, OkAlts, ShapedAlts]
      exact ⟨this.1, this.2.1, ⟨this.2.2.1, h.1⟩, this.2.2.2⟩
  | .mk k c :: alts, hs, hu, he, ctx, id, i + 1, v, p, hns, hf, hset, hlen, h => by
      simp only [saneAlts, Bool.and_eq_true] at hs
      simp only [uniqueAlts, Bool.and_eq_true] at hu
      rw [EveryAlts] at he
      rw [StorableAlts] at hf
      rw [settleAlts] at hset
      rw [writeAlts] at h
      rw [wireAlts, FitsAlts, OkAlts, ShapedAlts]
      exact sound_alts cfg alts hs.2 hu.2 he.2 ctx id i v p hns hf hset
        (fun a tgt us ha => hlen a tgt us (by simpa using ha)) h
theorem sound_fields (cfg : Cfg) : (fs : List Field) → saneFields fs = true →
    ∀ seen, uniqueFields seen fs = true →
    EveryFields (Writable cfg) fs → ∀ ctx vs p, InList cfg ctx →
    (∀ f v, (f, v) ∈ fs.zip vs → (f, v) ∈ ctx.fs.zip ctx.vs) →
    (writeFields cfg ctx fs vs).Emits p () →
    p = wireFields cfg.wire fs vs ∧ FitsFields cfg fs vs ∧ OkFields fs vs ∧
      ShapedFields cfg ctx.env fs vs
  | [], hs, seen, hu, he, ctx, vs, p, hin, hm, h => by
      cases vs with
      | nil =>
        rw [writeFields, WrE.emits_ok] at h
        rw [wireFields, FitsFields, OkFields, ShapedFields]
        · exact ⟨h.1, trivial, trivial, trivial⟩
        all_goals simp
      | cons v vs => simp only [writeFields] at h; exact ((WrE.emits_stuck _ _ _).1 h).elim
  | f :: fs, hs, seen, hu, he, ctx, [], p, hin, hm, h => by
      simp only [writeFields] at h; exact ((WrE.emits_stuck _ _ _).1 h).elim
  | f :: fs, hs, seen, hu, he, ctx, v :: vs, p, hin, hm, h => by
      simp only [saneFields, Bool.and_eq_true] at hs
      simp only [uniqueFields, Bool.and_eq_true] at hu
      rw [EveryFields] at he
      rw [emits_writeFields_cons] at h
      obtain ⟨q, r, rfl, h1, h2⟩ := h
      have a := sound_field cfg f hs.1 hu.1.2 he.1 ctx v q hin (hm f v (by simp)) h1
      have b := sound_fields cfg fs hs.2 _ hu.2 he.2 ctx vs r hin
        (fun g u hg => hm g u (by rw [List.zip_cons_cons]; exact List.mem_cons_of_mem _ hg)) h2
      rw [wireFields, FitsFields, OkFields, ShapedFields, a.1, b.1]
      exact ⟨rfl, ⟨a.2.1, b.2.1⟩, ⟨a.2.2.1, b.2.2.1⟩, a.2.2.2, b.2.2.2⟩
end

/-- A whole list. -/
theorem sound_list (cfg : Cfg) : (fs : List Field) → saneFields fs = true →
    uniqueFields [] fs = true → Writable cfg fs →
    EveryFields (Writable cfg) fs → ∀ vs p, StorableFields cfg fs fs vs →
    settleFields fs vs fs vs = vs →
    (writeFields cfg ⟨fs, vs⟩ fs vs).Emits p () →
    p = wireFields cfg.wire fs vs ∧ FitsFields cfg fs vs ∧ OkFields fs vs ∧
      ShapedFields cfg (envOf fs vs) fs vs
  | fs, hs, hu, hw, he, vs, p, hf, hset, h => by
      exact sound_fields cfg fs hs [] hu he ⟨fs, vs⟩ vs p (inList hs hu hw hf hset h) (fun _ _ hm => hm) h

end S2S
