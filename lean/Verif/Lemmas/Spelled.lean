import Verif.Spec.Spelled
import Verif.Props.HandList
import Verif.Props.Vacant
/-
Lists with fields spelled by hand at any depth: the readers and writers against Spec/Spelled.
-/
namespace S2S
open Spec Props

/-! ### Reading -/

theorem gives_fixedSp (cfg : Cfg) (t : FixedTy) (k : Nat) (env : Env) (p : List Byte) (v : Val) :
    RdE.Gives (readCount cfg k t) p v ↔
      (FitsKind cfg (SpKind.fixed t k).usual v ∧ OkKind (SpKind.fixed t k).usual v ∧
        StepKind cfg env (SpKind.fixed t k).usual v) ∧ RestZeroKind cfg (.fixed t k) v ∧
        p = readBytesKind cfg.wire (.fixed t k) v := by
  have h := gives_hand cfg env "" t k .none p v
  have hn : Holds .none v := rfl
  rw [and_iff_left hn] at h
  rw [h]
  cases t <;>
    simp only [HField.usual, SpKind.usual, FitsField, OkField, StepField, ZeroTail, cutWire, wireField,
      RestZeroKind, readBytesKind, and_iff_left hn]

theorem hollow_size (size : Nat) : (ElemTy.arr (.scalar u8) size).size = size := by
  simp [ElemTy.size, ScalarTy.size]

theorem gives_hollowArr (cfg : Cfg) (n size : Nat) (env : Env) (p : List Byte) (v : Val) :
    RdE.Gives (readVacant cfg env (.array "" n size)) p v ↔
      (FitsKind cfg (SpKind.hollowArr n size).usual v ∧ OkKind (SpKind.hollowArr n size).usual v ∧
        StepKind cfg env (SpKind.hollowArr n size).usual v) ∧ RestZeroKind cfg (.hollowArr n size) v ∧
        p = readBytesKind cfg.wire (.hollowArr n size) v := by
  simp only [RestZeroKind, readBytesKind]
  cases hc : cfg.constexprStream with
  | true => simp [readVacant, hc]
  | false =>
    rw [readVacant_eq cfg hc]
    simp only [VField.asBytes, readField]
    rw [gives_readKind cfg _ (by simp [saneKind])]
    simp [SpKind.usual]

theorem gives_hollowVec (cfg : Cfg) (size : Nat) (hs : 0 < size) (len : LenSpec) (bound : Option Nat) (env : Env)
    (p : List Byte) (v : Val) :
    RdE.Gives (readVacant cfg env (.vector "" size len bound)) p v ↔
      (FitsKind cfg (SpKind.hollowVec size len bound).usual v ∧ OkKind (SpKind.hollowVec size len bound).usual v ∧
        StepKind cfg env (SpKind.hollowVec size len bound).usual v) ∧ RestZeroKind cfg (.hollowVec size len bound) v ∧
        p = readBytesKind cfg.wire (.hollowVec size len bound) v := by
  simp only [RestZeroKind, readBytesKind]
  cases hc : cfg.constexprStream with
  | false =>
    rw [readVacant_eq cfg hc]
    simp only [VField.asBytes, readField]
    rw [gives_readKind cfg _ (by simp [saneKind, hollow_size, hs])]
    simp [SpKind.usual]
  | true =>
    simp only [readVacant, hc, if_true, RdE.gives_andThen, gives_lift, reduceCtorEq, false_or, SpKind.usual]
    constructor
    · rintro ⟨n, q, s, rfl, ⟨rfl, hn⟩, h⟩
      cases hb : checkedByteCount cfg size (ceilingOf cfg bound) n with
      | error r => simp [hb] at h
      | ok m =>
        simp only [hb, gives_resize] at h
        obtain ⟨h1, h2⟩ := h
        split at h2
        · rename_i h0
          subst h0
          rw [RdE.gives_ok] at h2
          obtain ⟨rfl, rfl⟩ := h2
          simp only [FitsKind, OkKind, StepKind, wireKind]
          refine ⟨⟨⟨?_, by simp⟩, trivial, hn⟩, trivial, by simp⟩
          rw [hollow_size]
          exact ⟨((checkedByteCount_ok _ _ _ _ _ hs).mp hb).1, h1⟩
        · simp at h2
    · rintro ⟨⟨h1, -, h3⟩, rfl, rfl⟩
      simp only [FitsKind, StepKind, hollow_size] at h1 h3
      refine ⟨0, [], [], by simp [wireKind], ⟨rfl, h3⟩, ?_⟩
      have hb := (checkedByteCount_ok cfg size (ceilingOf cfg bound) 0 _ hs).mpr ⟨h1.1.1, rfl⟩
      simp only [hb, gives_resize, if_true, RdE.gives_ok]
      exact ⟨h1.1.2, trivial, trivial⟩

theorem recs_and (P Q : List Val → Prop) (vs : List Val) :
    (∀ v ∈ vs, ∃ ws, v = .seq ws ∧ (P ws ∧ Q ws)) ↔
      (∀ v ∈ vs, ∃ ws, v = .seq ws ∧ P ws) ∧ ∀ v ∈ vs, ∃ ws, v = .seq ws ∧ Q ws := by
  constructor
  · intro h
    refine ⟨fun v hv => ?_, fun v hv => ?_⟩ <;>
    · obtain ⟨ws, rfl, h1, h2⟩ := h v hv
      exact ⟨ws, rfl, by assumption⟩
  · rintro ⟨h1, h2⟩ v hv
    obtain ⟨ws, rfl, a⟩ := h1 v hv
    obtain ⟨ws', e, b⟩ := h2 _ hv
    cases e
    exact ⟨ws, rfl, a, b⟩

theorem gives_recsSp {r : RdE CastError (List Val)} {F O S Z : List Val → Prop} {W : List Val → List Byte}
    (hr : ∀ p ws, RdE.Gives r p ws ↔ (F ws ∧ O ws ∧ S ws) ∧ Z ws ∧ p = W ws) (n : Nat) (p : List Byte) (v : Val) :
    RdE.Gives ((repeatE ((r.untag).mapOk .seq) n).mapOk .seq) p v ↔
      ∃ vs, v = .seq vs ∧ vs.length = n ∧
        ((∀ v ∈ vs, ∃ ws, v = .seq ws ∧ F ws) ∧ (∀ v ∈ vs, ∃ ws, v = .seq ws ∧ O ws) ∧
         (∀ v ∈ vs, ∃ ws, v = .seq ws ∧ S ws)) ∧ (∀ v ∈ vs, ∃ ws, v = .seq ws ∧ Z ws) ∧
        p = vs.flatMap (recordBytes W) := by
  rw [RdE.gives_mapOk]
  have h1 : ∀ (p : List Byte) (v : Val), RdE.Gives ((r.untag).mapOk Val.seq) p v ↔
      (∃ ws, v = .seq ws ∧ ((F ws ∧ O ws ∧ S ws) ∧ Z ws)) ∧ p = recordBytes W v := by
    intro p v
    simp only [RdE.gives_mapOk, gives_untag, hr]
    constructor
    · rintro ⟨ws, rfl, h, h', rfl⟩; exact ⟨⟨ws, rfl, h, h'⟩, rfl⟩
    · rintro ⟨⟨ws, rfl, h, h'⟩, rfl⟩; exact ⟨ws, rfl, h, h', rfl⟩
  simp only [gives_repeatE _ _ _ h1, recs_and, and_assoc]

mutual
theorem gives_spKind (cfg : Cfg) : (k : SpKind) → saneKind k.usual = true →
    ∀ env p v, RdE.Gives (readSpKind cfg env k) p v ↔
      (FitsKind cfg k.usual v ∧ OkKind k.usual v ∧ StepKind cfg env k.usual v) ∧ RestZeroKind cfg k v ∧
        p = readBytesKind cfg.wire k v
  | .fixed t k, _, env, p, v => by
      simp only [readSpKind]
      exact gives_fixedSp cfg t k env p v
  | .hollowArr n size, _, env, p, v => by
      simp only [readSpKind]
      exact gives_hollowArr cfg n size env p v
  | .hollowVec size len bound, hs, env, p, v => by
      simp only [SpKind.usual, saneKind, hollow_size, decide_eq_true_eq] at hs
      simp only [readSpKind]
      exact gives_hollowVec cfg size hs len bound env p v
  | .vec e len bound, hs, env, p, v => by
      have h := gives_readKind cfg (.vec e len bound) hs env p v
      simp only [readKind] at h
      simp only [readSpKind, h, SpKind.usual, RestZeroKind, readBytesKind, true_and]
  | .record fs, hs, env, p, v => by
      simp only [SpKind.usual, saneKind] at hs
      simp only [readSpKind, RdE.gives_mapOk, gives_untag, gives_spFields cfg fs hs, SpKind.usual]
      cases v <;> simp [FitsKind, OkKind, StepKind, readBytesKind, RestZeroKind]
  | .arrRec fs n, hs, env, p, v => by
      simp only [SpKind.usual, saneKind] at hs
      simp only [readSpKind, gives_recsSp (gives_spFields cfg fs hs (dfltEnv (usualFields fs))), SpKind.usual]
      constructor
      · rintro ⟨vs, rfl, hl, ⟨h1, h2, h3⟩, h4, rfl⟩
        simp only [FitsKind, OkKind, StepKind, RestZeroKind, readBytesKind]
        exact ⟨⟨⟨hl, h1⟩, h2, h3⟩, h4, trivial⟩
      · rintro ⟨⟨h1, h2, h3⟩, h4, rfl⟩
        cases v with
        | seq vs =>
          simp only [FitsKind, OkKind, StepKind, RestZeroKind] at h1 h2 h3 h4
          exact ⟨vs, rfl, h1.1, ⟨h1.2, h2, h3⟩, h4, by rw [readBytesKind]⟩
        | _ => simp [FitsKind] at h1
  | .vecRec fs len bound sz, hs, env, p, v => by
      simp only [SpKind.usual, saneKind, Bool.and_eq_true, decide_eq_true_eq] at hs
      simp only [readSpKind, RdE.gives_andThen, gives_lift, SpKind.usual]
      constructor
      · rintro ⟨n, q, s, rfl, ⟨rfl, hn⟩, h⟩
        simp only [List.nil_append]
        cases hc : checkedByteCount cfg sz (ceilingOf cfg bound) n with
        | error r => simp [hc] at h
        | ok m =>
          simp only [hc, gives_resize,
            gives_recsSp (gives_spFields cfg fs hs.2 (dfltEnv (usualFields fs)))] at h
          obtain ⟨hp, vs, rfl, hl, ⟨h1, h2, h3⟩, h4, rfl⟩ := h
          subst hl
          simp only [FitsKind, OkKind, StepKind, RestZeroKind, readBytesKind]
          exact ⟨⟨⟨⟨((checkedByteCount_ok _ _ _ _ _ hs.1).mp hc).1, hp⟩, h1⟩, h2, hn, h3⟩, h4, trivial⟩
      · rintro ⟨⟨h1, h2, h3⟩, h4, rfl⟩
        cases v with
        | seq vs =>
          simp only [FitsKind, OkKind, StepKind, RestZeroKind] at h1 h2 h3 h4
          refine ⟨vs.length, [], _, rfl, ⟨rfl, h3.1⟩, ?_⟩
          have hc := (checkedByteCount_ok cfg sz (ceilingOf cfg bound) vs.length _ hs.1).mpr
            ⟨h1.1.1, rfl⟩
          simp only [hc, gives_resize,
            gives_recsSp (gives_spFields cfg fs hs.2 (dfltEnv (usualFields fs)))]
          exact ⟨h1.1.2, vs, rfl, rfl, ⟨h1.2, h2, h3.2⟩, h4, rfl⟩
        | _ => simp [FitsKind] at h1
termination_by structural k => k
theorem gives_spField (cfg : Cfg) : (f : SpField) → saneField f.usual = true →
    ∀ env p v, (RdE.Gives (readSpField cfg env f) p v ∧ Holds f.usual.constraint v) ↔
      (FitsField cfg f.usual v ∧ OkField f.usual v ∧ StepField cfg env f.usual v) ∧ RestZeroField cfg f v ∧
        p = readBytesField cfg.wire f v
  | .plain id k c, hs, env, p, v => by
      simp only [SpField.usual, saneField] at hs
      simp only [readSpField, gives_spKind cfg k hs, SpField.usual, FitsField, OkField, StepField, readBytesField,
        RestZeroField, Field.constraint]
      constructor
      · rintro ⟨⟨⟨a, b, c⟩, e, rfl⟩, d⟩; exact ⟨⟨a, ⟨b, d⟩, c⟩, e, rfl⟩
      · rintro ⟨⟨a, ⟨b, d⟩, c⟩, e, rfl⟩; exact ⟨⟨⟨a, b, c⟩, e, rfl⟩, d⟩
  | .maybe id k c pr, hs, env, p, v => by
      simp only [SpField.usual, saneField] at hs
      simp only [readSpField, RdE.gives_andThen, gives_lift, Field.constraint, SpField.usual]
      constructor
      · rintro ⟨⟨b, q, s, rfl, ⟨rfl, hb⟩, h⟩, _⟩
        simp only [List.nil_append]
        cases b with
        | true =>
          simp only [if_true, RdE.gives_mapOk, gives_spKind cfg k hs] at h
          obtain ⟨u, rfl, ⟨h1, h2, h3⟩, h4, rfl⟩ := h
          exact ⟨⟨h1, h2, hb, h3⟩, h4, by rw [readBytesField]⟩
        | false =>
          simp only [if_false, RdE.gives_ok, Bool.false_eq_true] at h
          obtain ⟨rfl, rfl⟩ := h
          exact ⟨⟨trivial, trivial, hb⟩, by simp only [RestZeroField], by simp only [readBytesField]⟩
      · rintro ⟨⟨h1, h2, h3⟩, h4, rfl⟩
        refine ⟨?_, rfl⟩
        cases v with
        | present u =>
          simp only [FitsField, OkField, StepField, RestZeroField] at h1 h2 h3 h4
          refine ⟨true, [], _, rfl, ⟨rfl, h3.1⟩, ?_⟩
          simp only [if_true, RdE.gives_mapOk, gives_spKind cfg k hs]
          exact ⟨u, rfl, ⟨h1, h2, h3.2⟩, h4, rfl⟩
        | absent =>
          simp only [StepField] at h3
          refine ⟨false, [], _, rfl, ⟨rfl, h3⟩, ?_⟩
          simp
        | _ => simp [FitsField] at h1
  | .union id d alts c, hs, env, p, v => by
      simp only [SpField.usual, saneField, Bool.and_eq_true, decide_eq_true_eq] at hs
      simp only [readSpField, RdE.gives_andThen, gives_lift, Field.constraint, SpField.usual]
      constructor
      · rintro ⟨⟨o, q, s, rfl, ⟨rfl, hb⟩, h⟩, hc⟩
        simp only [List.nil_append]
        cases o with
        | none => simp at h
        | some i =>
          have hi := Deducer.eval_lt env d i hb
          rw [hs.1] at hi
          simp only [RdE.gives_mapOk] at h
          obtain ⟨a, rfl, h⟩ := h
          rw [gives_spAlts cfg alts hs.2 env i hi] at h
          obtain ⟨u, rfl, ⟨h1, h2, h3⟩, h4, rfl⟩ := h
          exact ⟨⟨h1, ⟨h2, hc⟩, hb, h3⟩, h4, by rw [readBytesField]⟩
      · rintro ⟨⟨h1, h2, h3⟩, h4, rfl⟩
        cases v with
        | var i u =>
          simp only [FitsField, OkField, StepField, RestZeroField] at h1 h2 h3 h4
          have hi := Deducer.eval_lt env d i h3.1
          rw [hs.1] at hi
          refine ⟨⟨some i, [], _, rfl, ⟨rfl, h3.1⟩, ?_⟩, h2.2⟩
          simp only [RdE.gives_mapOk]
          refine ⟨some u, rfl, ?_⟩
          rw [gives_spAlts cfg alts hs.2 env i hi]
          exact ⟨u, rfl, ⟨h1, h2.1, h3.2⟩, h4, rfl⟩
        | _ => simp [FitsField] at h1
termination_by structural f => f
theorem gives_spAlts (cfg : Cfg) : (alts : List SpAlt) → saneAlts (usualAlts alts) = true →
    ∀ env i, i < (usualAlts alts).length → ∀ p o, RdE.Gives (readSpAlts cfg env alts i) p o ↔
      ∃ v, o = some v ∧ (FitsAlts cfg (usualAlts alts) i v ∧ OkAlts (usualAlts alts) i v ∧
        StepAlts cfg env (usualAlts alts) i v) ∧ RestZeroAlts cfg alts i v ∧
        p = readBytesAlts cfg.wire alts i v
  | [], _, env, i, hi, p, o => by simp [usualAlts] at hi
  | .mk k c :: alts, hs, env, 0, hi, p, o => by
      simp only [usualAlts, saneAlts, Bool.and_eq_true] at hs
      simp only [readSpAlts, RdE.gives_andThen, RdE.gives_mapOk, gives_checked, usualAlts,
        gives_spKind cfg k hs.1, FitsAlts, OkAlts, StepAlts, readBytesAlts, RestZeroAlts]
      constructor
      · rintro ⟨v, q, s, rfl, ⟨⟨a, b, c⟩, d, rfl⟩, u, rfl, rfl, rfl, hc⟩
        exact ⟨_, rfl, ⟨a, ⟨b, hc⟩, c⟩, d, by simp⟩
      · rintro ⟨v, rfl, ⟨a, ⟨b, hc⟩, c⟩, d, rfl⟩
        exact ⟨v, _, [], by simp, ⟨⟨a, b, c⟩, d, rfl⟩, v, rfl, rfl, rfl, hc⟩
  | .mk k c :: alts, hs, env, i + 1, hi, p, o => by
      simp only [usualAlts, saneAlts, Bool.and_eq_true] at hs
      simp only [readSpAlts, usualAlts, FitsAlts, OkAlts, StepAlts, readBytesAlts, RestZeroAlts]
      exact gives_spAlts cfg alts hs.2 env i (by simpa [usualAlts] using hi) p o
termination_by structural alts => alts
theorem gives_spFields (cfg : Cfg) : (fs : List SpField) → saneFields (usualFields fs) = true →
    ∀ env p vs, RdE.Gives (readSpFields cfg env fs) p vs ↔
      (FitsFields cfg (usualFields fs) vs ∧ OkFields (usualFields fs) vs ∧
        StepFields cfg env (usualFields fs) vs) ∧ RestZero cfg fs vs ∧ p = readBytes cfg.wire fs vs
  | [], _, env, p, vs => by
      simp only [readSpFields, RdE.gives_ok, usualFields]
      cases vs <;> simp [FitsFields, OkFields, StepFields, RestZero, readBytes]
  | f :: fs, hs, env, p, vs => by
      simp only [usualFields, saneFields, Bool.and_eq_true] at hs
      simp only [readSpFields, RdE.gives_andThen, gives_tag, gives_checked, RdE.gives_ok,
        gives_spFields cfg fs hs.2, usualFields]
      constructor
      · rintro ⟨v, q, s, rfl, ⟨u, q', s', rfl, h1, rfl, rfl, h2⟩, ws, _, _, rfl,
          ⟨⟨h3, h4, h5⟩, h6, rfl⟩, rfl, rfl⟩
        obtain ⟨⟨a, b, c⟩, d, rfl⟩ := (gives_spField cfg f hs.1 env _ _).mp ⟨h1, h2⟩
        simp only [FitsFields, OkFields, StepFields, RestZero, readBytes, List.append_nil]
        exact ⟨⟨⟨a, h3⟩, ⟨b, h4⟩, c, h5⟩, ⟨d, h6⟩, trivial⟩
      · rintro ⟨⟨h1, h2, h3⟩, h0, rfl⟩
        cases vs with
        | nil => simp [FitsFields] at h1
        | cons v vs =>
          simp only [FitsFields, OkFields, StepFields, RestZero] at h1 h2 h3 h0
          obtain ⟨h4, h5⟩ := (gives_spField cfg f hs.1 env _ v).mpr ⟨⟨h1.1, h2.1, h3.1⟩, h0.1, rfl⟩
          exact ⟨v, _, _, by rw [readBytes], ⟨v, _, [], (List.append_nil _).symm, h4, rfl, rfl, h5⟩,
            vs, _, [], (List.append_nil _).symm, ⟨⟨h1.2, h2.2, h3.2⟩, h0.2, rfl⟩, rfl, rfl⟩
termination_by structural fs => fs
end

theorem short_readVacant (cfg : Cfg) (env : Env) (h : VField) : ShortR (readVacant cfg env h) := by
  cases h with
  | std f => exact short_readField cfg f env
  | array id n size =>
    rw [readVacant]
    split
    · trivial
    · exact RdE.short_andThen (short_readNativeImpl _ _) fun _ => trivial
  | vector id size len bound =>
    rw [readVacant]
    refine RdE.short_andThen (short_lift _ _) fun n => ?_
    split
    · trivial
    · refine short_resize _ _ ?_
      split
      · split <;> trivial
      · exact RdE.short_andThen (short_readNativeImpl _ _) fun _ => trivial

mutual
theorem short_spKind (cfg : Cfg) : (k : SpKind) → ∀ env, ShortR (readSpKind cfg env k)
  | .fixed t k, env => by simp only [readSpKind]; exact short_readCount _ _ _
  | .hollowArr n size, env => by simp only [readSpKind]; exact short_readVacant _ _ _
  | .hollowVec size len bound, env => by simp only [readSpKind]; exact short_readVacant _ _ _
  | .vec e len b, env => by
      simp only [readSpKind]
      exact RdE.short_andThen (short_lift _ _) fun _ => short_readVec _ _ _ _
  | .record fs, env => by
      simp only [readSpKind]
      exact RdE.short_mapOk (RdE.short_mapErr (short_spFields cfg fs _) fun _ h => h)
  | .arrRec fs n, env => by
      simp only [readSpKind]
      exact RdE.short_mapOk (short_repeatE (RdE.short_mapOk
        (RdE.short_mapErr (short_spFields cfg fs _) fun _ h => h)) _)
  | .vecRec fs len b sz, env => by
      simp only [readSpKind]
      refine RdE.short_andThen (short_lift _ _) fun n => ?_
      split
      · trivial
      · exact short_resize _ _ (RdE.short_mapOk (short_repeatE (RdE.short_mapOk
          (RdE.short_mapErr (short_spFields cfg fs _) fun _ h => h)) _))
termination_by structural k => k
theorem short_spField (cfg : Cfg) : (f : SpField) → ∀ env, ShortR (readSpField cfg env f)
  | .plain id k c, env => by rw [readSpField]; exact short_spKind cfg k env
  | .maybe id k c p, env => by
      rw [readSpField]
      refine RdE.short_andThen (short_lift _ _) fun b => ?_
      split
      · exact RdE.short_mapOk (short_spKind cfg k env)
      · trivial
  | .union id d alts c, env => by
      rw [readSpField]
      refine RdE.short_andThen (short_lift _ _) fun o => ?_
      cases o with
      | none => trivial
      | some i => exact RdE.short_mapOk (short_spAlts cfg alts env i)
termination_by structural f => f
theorem short_spAlts (cfg : Cfg) : (alts : List SpAlt) → ∀ env i, ShortR (readSpAlts cfg env alts i)
  | [], env, i => by rw [readSpAlts]; trivial
  | .mk k c :: alts, env, 0 => by
      rw [readSpAlts]
      exact RdE.short_andThen (short_spKind cfg k env) fun _ =>
        RdE.short_mapOk (short_checked _ _)
  | .mk k c :: alts, env, i + 1 => by
      rw [readSpAlts]
      exact short_spAlts cfg alts env i
termination_by structural alts => alts
theorem short_spFields (cfg : Cfg) : (fs : List SpField) → ∀ env, ShortC (readSpFields cfg env fs)
  | [], env => by rw [readSpFields]; trivial
  | f :: fs, env => by
      rw [readSpFields]
      refine RdE.short_andThen (RdE.short_mapErr (RdE.short_andThen (short_spField cfg f env)
        fun _ => short_checked _ _) fun _ h => h) fun _ => ?_
      exact RdE.short_andThen (short_spFields cfg fs _) fun _ => trivial
termination_by structural fs => fs
end

/-! ### Writing -/

theorem writeSpFixed_eq (cfg : Cfg) (ctx : WCtx) (m : Bool) (id : String) (k : Kind) (c : Constraint) (v : Val) :
    writeSpFixed cfg ctx m id k c (emitFixed cfg k) v = writeFixed cfg ctx m id k c v := by
  have hv : ∀ v, verifyThenEmit cfg ctx id (emitFixed cfg k) v = verifyThenWrite cfg ctx id k v := by
    intro v
    unfold verifyThenEmit verifyThenWrite
    cases v <;> rfl
  unfold writeSpFixed writeFixed
  simp only [hv]
  congr 1

theorem writeSpFixed_num (cfg : Cfg) (ctx : WCtx) (m : Bool) (id : String) (s : ScalarTy) (k : Nat) (c : Constraint)
    (v : Val) : writeSpFixed cfg ctx m id (.num s k) c (writeCount cfg k (.num s)) v =
      writeFixed cfg ctx m id (.num s k) c v := by
  have he : writeCount cfg k (.num s) = emitFixed cfg (.num s k) := by
    funext v; cases v <;> rfl
  rw [he, writeSpFixed_eq]

theorem emits_spOther {cfg : Cfg} {ctx : WCtx} {m : Bool} {id : String} {k : Kind} {c : Constraint}
    {emit : Val → WrE Reason Unit} {v : Val} (hk : k.isFixed = true) (hn : ∀ t w, k ≠ .num t w)
    (hv : TypedKind cfg k ((if m then frozenVal k c else none).getD v)) {p : List Byte} :
    (writeSpFixed cfg ctx m id k c emit v).Emits p () ↔
      (isSlot ctx.fs id = false ∧ ∀ f ∈ ctx.fs, id ∉ lengthTargets f) ∧
        (emit ((if m then frozenVal k c else none).getD v)).Emits p () := by
  have h0 : writeSpFixed cfg ctx m id k c emit v =
      if isDerived ctx.fs id then Wr.stuck .illTyped
      else verifyThenEmit cfg ctx id emit ((if m then frozenVal k c else none).getD v) := by
    unfold writeSpFixed
    cases isDerived ctx.fs id with
    | true =>
      cases k with
      | num t w => exact (hn t w rfl).elim
      | _ => rfl
    | false =>
      simp only [Bool.false_eq_true, if_false]
      cases (if m then frozenVal k c else none) <;> rfl
  rw [h0, isDerived_eq]
  generalize (if m then frozenVal k c else none).getD v = v' at hv ⊢
  cases hs : isSlot ctx.fs id with
  | true => simp
  | false =>
    have hci := conditional_iff (fs := ctx.fs) (id := id)
    simp only [hs, Bool.false_eq_true, or_false] at hci
    simp only [Bool.false_eq_true, if_false, true_and]
    unfold verifyThenEmit
    cases hc : hasConditional ctx.fs id with
    | true =>
      obtain ⟨f, hf, hm⟩ := hci.1 hc
      have : ¬ ∀ f ∈ ctx.fs, id ∉ lengthTargets f := fun h => h f hf hm
      simp only [if_true, this, false_and, iff_false]
      cases v' with
      | int x => cases k <;> first | exact (hn _ _ rfl).elim | simp [TypedKind] at hv
      | _ => simp
    | false =>
      have : ∀ f ∈ ctx.fs, id ∉ lengthTargets f := fun f hf hm => by
        rw [hci.2 ⟨f, hf, hm⟩] at hc; cases hc
      simp only [Bool.false_eq_true, if_false]
      exact (and_iff_right this).symm

theorem all_stuck {ε : Type} (w : Stuck) (vs : List Val) (p : List Byte) :
    (WrE.all (vs.map fun _ => (Wr.stuck w : WrE ε Unit))).Emits p () ↔ vs = [] ∧ p = [] := by
  cases vs with
  | nil => simp [WrE.all, WrE.emits_ok]
  | cons v vs =>
    simp only [List.map_cons, WrE.all, reduceCtorEq, false_and, iff_false, WrE.emits_andThen]
    rintro ⟨_, _, _, -, h, -⟩
    exact (WrE.emits_stuck _ _ _).1 h

theorem emits_hollow {cfg : Cfg} {n size : Nat} {v : Val} (hv : TypedKind cfg (.fbuf (.arr (.scalar u8) size) n) v)
    {p : List Byte} : (emitHollow cfg n size v).Emits p () ↔
      (cfg.foreign = true ∨ cfg.constexprStream = false) ∧
        p = if cfg.foreign then [] else wireKind cfg.wire (.fbuf (.arr (.scalar u8) size) n) v := by
  cases v <;> simp only [TypedKind] at hv
  rename_i vs
  simp only [emitHollow, ne_eq, hv.1, not_true_eq_false, if_false]
  unfold writeStorage
  cases hf : cfg.foreign with
  | true => simp [all_nothing, WrE.emits_ok]
  | false =>
    simp only [Bool.false_eq_true, if_false, false_or]
    cases hc : cfg.constexprStream with
    | true => simp
    | false =>
      simp only [Bool.false_eq_true, if_false, true_and]
      have h1 := emits_writeFixedBuf cfg (.arr (.scalar u8) size) n vs hv.1 hv.2
      unfold writeFixedBuf at h1
      simp only [ne_eq, hv.1, not_true_eq_false, if_false, hf, Bool.false_eq_true, storageBytes_eq, hollow_size] at h1
      rw [wireKind]
      constructor
      · intro h2; exact (WrE.emits_inj h2 h1).1
      · rintro rfl; exact h1

theorem emits_hollowVec {cfg : Cfg} {size : Nat} {len : LenSpec} {b : Option Nat} {vs : List Val}
    (hv : TypedKind cfg (.vec (.arr (.scalar u8) size) len b) (.seq vs)) {p : List Byte} :
    (writeHollowVec cfg size vs).Emits p () ↔
      (cfg.foreign = true ∨ cfg.constexprStream = false ∨ vs = []) ∧
        p = if cfg.foreign then [] else wireKind cfg.wire (.vec (.arr (.scalar u8) size) len b) (.seq vs) := by
  simp only [TypedKind] at hv
  unfold writeHollowVec
  cases hf : cfg.foreign with
  | true => simp [all_nothing, WrE.emits_ok]
  | false =>
    simp only [Bool.false_eq_true, if_false, false_or]
    cases hc : cfg.constexprStream with
    | true =>
      simp only [if_true, all_stuck, reduceCtorEq, false_or]
      refine and_congr_right fun h => ?_
      subst h
      simp [wireKind]
    | false =>
      simp only [Bool.false_eq_true, if_false, true_or, true_and]
      have h1 := emits_writeVec cfg (.arr (.scalar u8) size) vs (ptrdiff_lt _ _ hv.1) hv.2
      unfold writeVec at h1
      simp only [hf, hc, if_false, Bool.false_eq_true, storageBytes_eq, hollow_size] at h1
      rw [wireKind]
      constructor
      · intro h2; exact (WrE.emits_inj h2 h1).1
      · rintro rfl; exact h1

theorem oneByOne_and {R S : List Val → List Val → Prop} {vs us : List Val} :
    OneByOne (fun ws xs => R ws xs ∧ S ws xs) vs us ↔ OneByOne R vs us ∧ OneByOne S vs us := by
  induction vs generalizing us with
  | nil => simp [OneByOne]
  | cons v vs ih =>
    simp only [OneByOne, ih]
    constructor
    · rintro ⟨ws, xs, us', rfl, rfl, ⟨h1, h2⟩, h3, h4⟩
      exact ⟨⟨ws, xs, us', rfl, rfl, h1, h3⟩, ⟨ws, xs, us', rfl, rfl, h2, h4⟩⟩
    · rintro ⟨⟨ws, xs, us', rfl, rfl, h1, h3⟩, ⟨ws', xs', us'', h0, h5, h2, h4⟩⟩
      cases h0
      cases h5
      exact ⟨_, _, _, rfl, rfl, ⟨h1, h2⟩, h3, h4⟩

/-- Only numbers that are filled in are checked against the constraint. -/
theorem sentKind_bare {cfg : Cfg} {all : List Field} {vals : List Val} {id : String} {c : Constraint} {k : SpKind}
    {v u : Val} : (SentKind cfg all vals id c k.usual v u ∧ AllowedKind cfg all id c k v u) ↔
      (SentKind cfg all vals id .none k.usual v u ∧ AllowedKind cfg all id c k v u) := by
  cases k with
  | fixed t k =>
    cases t with
    | num s =>
      have hn : Holds .none u := rfl
      simp only [SpKind.usual, SentKind, AllowedKind]
      refine and_congr_left fun ⟨h0, h1⟩ => and_congr_right fun _ => exists_congr fun y =>
        and_congr_right fun _ => and_congr_right fun _ => ?_
      split
      · rename_i hs; simp [h1 hs, hn]
      · rfl
    | buf e n => simp only [SpKind.usual, FixedTy.kind, SentKind]
    | str n => simp only [SpKind.usual, FixedTy.kind, SentKind]
  | _ => simp only [SpKind.usual, SentKind]

theorem emits_spOther' {cfg : Cfg} {ctx : WCtx} {m : Bool} {id : String} {k : SpKind} {c : Constraint}
    {emit : Val → WrE Reason Unit} {v : Val} (hk : k.usual.isFixed = true) (hn : ∀ t w, k.usual ≠ .num t w)
    (hv : TypedKind cfg k.usual ((if m then frozenVal k.usual c else none).getD v)) {p : List Byte}
    (he : isSlot ctx.fs id = false → ∀ v, TypedKind cfg k.usual v → ((emit v).Emits p () ↔
      AllowedKind cfg ctx.fs id c k v v ∧ p = sentBytesKind cfg k v)) :
    (writeSpFixed cfg ctx m id k.usual c emit v).Emits p () ↔
      ∃ u, (SentKind cfg ctx.fs ctx.vs id .none k.usual ((if m then frozenVal k.usual c else none).getD v) u ∧
        AllowedKind cfg ctx.fs id c k ((if m then frozenVal k.usual c else none).getD v) u) ∧
        p = sentBytesKind cfg k u := by
  rw [emits_spOther hk hn hv]
  have hsk : ∀ w u, SentKind cfg ctx.fs ctx.vs id .none k.usual w u ↔
      u = w ∧ isSlot ctx.fs id = false ∧ ∀ f ∈ ctx.fs, id ∉ lengthTargets f := by
    intro w u
    cases hku : k.usual with
    | num s k' => exact (hn _ _ hku).elim
    | fbuf e n => simp only [SentKind]
    | fstr n => simp only [SentKind]
    | _ => simp [hku, Kind.isFixed] at hk
  simp only [hsk]
  constructor
  · rintro ⟨h1, h2⟩
    obtain ⟨h3, h4⟩ := (he h1.1 _ hv).1 h2
    exact ⟨_, ⟨⟨rfl, h1⟩, h3⟩, h4⟩
  · rintro ⟨_, ⟨⟨rfl, h1⟩, h2⟩, h3⟩
    exact ⟨h1, (he h1.1 _ hv).2 ⟨h2, h3⟩⟩

theorem sent_spFixed {cfg : Cfg} {ctx : WCtx} (hin : Given cfg ctx.fs ctx.vs) {m : Bool} {id : String}
    {t : FixedTy} {k : Nat} {c : Constraint} {v : Val} {p : List Byte}
    (hv : TypedKind cfg (SpKind.fixed t k).usual ((if m then frozenVal (SpKind.fixed t k).usual c else none).getD v)) :
    (writeSpFixed cfg ctx m id (SpKind.fixed t k).usual c (writeCount cfg k t) v).Emits p () ↔
      ∃ u, (SentKind cfg ctx.fs ctx.vs id .none (SpKind.fixed t k).usual
          ((if m then frozenVal (SpKind.fixed t k).usual c else none).getD v) u ∧
        AllowedKind cfg ctx.fs id c (.fixed t k)
          ((if m then frozenVal (SpKind.fixed t k).usual c else none).getD v) u) ∧
        p = sentBytesKind cfg (.fixed t k) u := by
  cases t with
  | num s =>
    simp only [← sentKind_bare]
    simp only [SpKind.usual] at hv ⊢
    rw [writeSpFixed_num, sent_fixed hin.wf hin.typed rfl hv]
    refine exists_congr fun u => ?_
    simp only [SentKind, AllowedKind, sentBytesKind, FixedTy.isBuf, Bool.and_false, Bool.false_eq_true, if_false,
      or_false, FixedTy.size, SpKind.usual]
    constructor
    · rintro ⟨⟨h1, y, rfl, h2, h3⟩, rfl⟩
      refine ⟨⟨⟨h1, y, rfl, h2, h3⟩, h1, fun hs => ?_⟩, ?_⟩
      · rw [if_pos hs] at h3; exact h3.2
      · rw [wireKind, List.take_of_length_le (by simp)]
    · rintro ⟨⟨⟨h1, y, rfl, h2, h3⟩, -⟩, rfl⟩
      refine ⟨⟨h1, y, rfl, h2, h3⟩, ?_⟩
      rw [wireKind, List.take_of_length_le (by simp)]
  | buf e n =>
    refine emits_spOther' rfl (fun _ _ h => by cases h) hv fun hs v hv => ?_
    simp only [SpKind.usual, FixedTy.kind] at hv
    have hf : FitsKind cfg (FixedTy.buf e n).kind v := by
      cases v <;> simp only [FixedTy.kind, TypedKind, FitsKind] at hv ⊢; exact hv
    rw [emits_count hf]
    simp only [AllowedKind, sentBytesKind, SpKind.usual, hs, Bool.false_eq_true, false_imp_iff, and_true]
  | str n =>
    refine emits_spOther' rfl (fun _ _ h => by cases h) hv fun hs v hv => ?_
    simp only [SpKind.usual, FixedTy.kind] at hv
    have hf : FitsKind cfg (FixedTy.str n).kind v := by
      cases v <;> simp only [FixedTy.kind, TypedKind, FitsKind] at hv ⊢; exact hv
    rw [emits_count hf]
    simp only [AllowedKind, sentBytesKind, SpKind.usual, hs, Bool.false_eq_true, false_imp_iff, and_true]

theorem sent_spHollow {cfg : Cfg} {ctx : WCtx} {m : Bool} {id : String}
    {n size : Nat} {c : Constraint} {v : Val} {p : List Byte}
    (hv : TypedKind cfg (SpKind.hollowArr n size).usual
      ((if m then frozenVal (SpKind.hollowArr n size).usual c else none).getD v)) :
    (writeSpFixed cfg ctx m id (SpKind.hollowArr n size).usual c (emitHollow cfg n size) v).Emits p () ↔
      ∃ u, (SentKind cfg ctx.fs ctx.vs id .none (SpKind.hollowArr n size).usual
          ((if m then frozenVal (SpKind.hollowArr n size).usual c else none).getD v) u ∧
        AllowedKind cfg ctx.fs id c (.hollowArr n size)
          ((if m then frozenVal (SpKind.hollowArr n size).usual c else none).getD v) u) ∧
        p = sentBytesKind cfg (.hollowArr n size) u := by
  refine emits_spOther' rfl (fun _ _ h => by cases h) hv fun hs v hv => ?_
  rw [emits_hollow hv]
  simp only [AllowedKind, sentBytesKind, SpKind.usual]

theorem getD_record {k : Kind} {c : Constraint} {m : Bool} {v : Val} (hk : k.isFixed = false) :
    (if m then frozenVal k c else none).getD v = v := by
  cases m
  · rfl
  · cases k <;> simp only [Kind.isFixed, reduceCtorEq] at hk <;> simp [frozenVal]

/-- The step of the fold for one field. -/
def spStep (cfg : Cfg) (ctx : WCtx) (f : SpField) (v : Val) : WrE CastError Unit :=
  (if isDerived ctx.fs f.usual.id || f.usual.isFrozen then writeSpField cfg ctx f v
    else WrE.checked f.usual.constraint v (writeSpField cfg ctx f v)).tag f.usual.id

theorem emits_spStep {cfg : Cfg} {ctx : WCtx} {f : SpField} {v : Val} {p : List Byte} :
    (spStep cfg ctx f v).Emits p () ↔
      (writeSpField cfg ctx f v).Emits p () ∧
      (isSlot ctx.fs f.usual.id = false → f.usual.isFrozen = false → Holds f.usual.constraint v) := by
  unfold spStep WrE.tag
  rw [WrE.emits_mapErr, isDerived_eq]
  cases h1 : isSlot ctx.fs f.usual.id <;> cases h2 : f.usual.isFrozen <;> simp [emits_checked, and_comm]

mutual
theorem sent_spKind (cfg : Cfg) : (k : SpKind) → saneKind k.usual = true → uniqueKind k.usual = true →
    earlierKind k.usual = true → EveryKind (TypedConsts cfg) k.usual → ∀ ctx m id c v p,
    Given cfg ctx.fs ctx.vs → TypedKind cfg k.usual ((if m then frozenVal k.usual c else none).getD v) →
    ((writeSpKind cfg ctx m id c k v).Emits p () ↔
      ∃ u, (SentKind cfg ctx.fs ctx.vs id .none k.usual ((if m then frozenVal k.usual c else none).getD v) u ∧
        AllowedKind cfg ctx.fs id c k ((if m then frozenVal k.usual c else none).getD v) u) ∧
        p = sentBytesKind cfg k u)
  | .fixed t k, hs, hu, hr, he, ctx, m, id, c, v, p, hin, hv => by
      simp only [writeSpKind]
      exact sent_spFixed hin hv
  | .hollowArr n size, hs, hu, hr, he, ctx, m, id, c, v, p, hin, hv => by
      simp only [writeSpKind]
      exact sent_spHollow hv
  | .vec e len b, hs, hu, hr, he, ctx, m, id, c, v, p, hin, hv => by
      rw [getD_record rfl] at hv ⊢
      simp only [SpKind.usual] at hv ⊢
      cases v <;> simp only [TypedKind] at hv
      rename_i us
      simp only [writeSpKind, emits_computed]
      have hw := emits_writeVec cfg e us (ptrdiff_lt _ _ hv.1) hv.2
      simp only [SentKind, AllowedKind, sentBytesKind, and_true]
      constructor
      · rintro ⟨h1, h2⟩
        exact ⟨_, ⟨rfl, us, rfl, h1⟩, by rw [wireKind]; exact (WrE.emits_inj h2 hw).1⟩
      · rintro ⟨_, ⟨rfl, us', h0, h1⟩, rfl⟩
        cases h0
        exact ⟨h1, by rw [wireKind]; exact hw⟩
  | .hollowVec size len b, hs, hu, hr, he, ctx, m, id, c, v, p, hin, hv => by
      rw [getD_record rfl] at hv ⊢
      simp only [SpKind.usual] at hv ⊢
      have hv0 := hv
      cases v <;> simp only [TypedKind] at hv
      rename_i us
      simp only [writeSpKind, emits_computed, emits_hollowVec hv0]
      simp only [SentKind, AllowedKind, sentBytesKind, SpKind.usual, Val.seq.injEq]
      constructor
      · rintro ⟨h1, h2, rfl⟩
        exact ⟨_, ⟨⟨rfl, us, rfl, h1⟩, h2⟩, rfl⟩
      · rintro ⟨_, ⟨⟨rfl, us', rfl, h1⟩, h2⟩, rfl⟩
        exact ⟨h1, h2, rfl⟩
  | .record fs, hs, hu, hr, he, ctx, m, id, c, v, p, hin, hv => by
      rw [getD_record rfl] at hv ⊢
      simp only [SpKind.usual] at hv hs hu hr he ⊢
      cases v <;> simp only [TypedKind] at hv
      rename_i us
      rw [saneKind] at hs
      rw [uniqueKind] at hu
      rw [earlierKind] at hr
      rw [EveryKind] at he
      simp only [writeSpKind, WrE.untag, WrE.emits_mapErr]
      rw [sent_spFields cfg fs hs [] hu [] hr he.2 ⟨usualFields fs, us⟩ us p ⟨⟨hs, hu, earlier_upToSelf _ _ hu hr⟩, he.1, hv⟩
          (fun _ h => h) hv]
      simp only [SentKind, AllowedKind]
      constructor
      · rintro ⟨xs, ⟨h1, h2⟩, rfl⟩
        exact ⟨_, ⟨⟨us, xs, rfl, rfl, h1⟩, us, xs, rfl, rfl, h2⟩, by rw [sentBytesKind]⟩
      · rintro ⟨_, ⟨⟨us', xs, h0, rfl, h1⟩, us'', xs', h3, h4, h2⟩, rfl⟩
        cases h0
        cases h3
        cases h4
        exact ⟨xs, ⟨h1, h2⟩, by rw [sentBytesKind]⟩
  | .arrRec fs n, hs, hu, hr, he, ctx, m, id, c, v, p, hin, hv => by
      rw [getD_record rfl] at hv ⊢
      simp only [SpKind.usual] at hv hs hu hr he ⊢
      cases v <;> simp only [TypedKind] at hv
      rename_i us
      rw [saneKind] at hs
      rw [uniqueKind] at hu
      rw [earlierKind] at hr
      rw [EveryKind] at he
      simp only [writeSpKind]
      rw [if_neg (by simp [hv.1]),
        emits_recs (R := fun ws xs => SentFields cfg (usualFields fs) ws (usualFields fs) ws xs ∧
            AllowedFields cfg (usualFields fs) fs ws xs)
          (W := fun ws => sentBytes cfg fs ws) (fun ws hw p => by
            obtain ⟨ws', h0, hw⟩ := hv.2 _ hw
            cases h0
            exact sent_spFields cfg fs hs [] hu [] hr he.2 ⟨usualFields fs, ws⟩ ws p ⟨⟨hs, hu, earlier_upToSelf _ _ hu hr⟩, he.1, hw⟩
              (fun _ h => h) hw)]
      simp only [SentKind, AllowedKind, oneByOne_and]
      constructor
      · rintro ⟨xs, ⟨h1, h2⟩, rfl⟩
        exact ⟨_, ⟨⟨us, xs, rfl, rfl, hv.1, h1⟩, us, xs, rfl, rfl, h2⟩, by rw [sentBytesKind]⟩
      · rintro ⟨_, ⟨⟨us', xs, h0, rfl, -, h1⟩, us'', xs', h3, h4, h2⟩, rfl⟩
        cases h0
        cases h3
        cases h4
        exact ⟨xs, ⟨h1, h2⟩, by rw [sentBytesKind]⟩
  | .vecRec fs len b sz, hs, hu, hr, he, ctx, m, id, c, v, p, hin, hv => by
      rw [getD_record rfl] at hv ⊢
      simp only [SpKind.usual] at hv hs hu hr he ⊢
      cases v <;> simp only [TypedKind] at hv
      rename_i us
      simp only [saneKind, Bool.and_eq_true] at hs
      rw [uniqueKind] at hu
      rw [earlierKind] at hr
      rw [EveryKind] at he
      simp only [writeSpKind]
      rw [emits_computed,
        emits_recs (R := fun ws xs => SentFields cfg (usualFields fs) ws (usualFields fs) ws xs ∧
            AllowedFields cfg (usualFields fs) fs ws xs)
          (W := fun ws => sentBytes cfg fs ws) (fun ws hw p => by
            obtain ⟨ws', h0, hw⟩ := hv.2 _ hw
            cases h0
            exact sent_spFields cfg fs hs.2 [] hu [] hr he.2 ⟨usualFields fs, ws⟩ ws p
              ⟨⟨hs.2, hu, earlier_upToSelf _ _ hu hr⟩, he.1, hw⟩ (fun _ h => h) hw)]
      simp only [SentKind, AllowedKind, oneByOne_and]
      constructor
      · rintro ⟨h5, xs, ⟨h1, h2⟩, rfl⟩
        exact ⟨_, ⟨⟨us, xs, rfl, rfl, h5, h1⟩, us, xs, rfl, rfl, h2⟩, by rw [sentBytesKind]⟩
      · rintro ⟨_, ⟨⟨us', xs, h0, rfl, h5, h1⟩, us'', xs', h3, h4, h2⟩, rfl⟩
        cases h0
        cases h3
        cases h4
        exact ⟨h5, xs, ⟨h1, h2⟩, by rw [sentBytesKind]⟩
termination_by structural k => k
theorem sent_spField (cfg : Cfg) : (f : SpField) → saneField f.usual = true → uniqueField f.usual = true →
    earlierField f.usual = true → EveryField (TypedConsts cfg) f.usual → ∀ ctx v p,
    Given cfg ctx.fs ctx.vs → f.usual ∈ ctx.fs → TypedField cfg f.usual v →
    ((spStep cfg ctx f v).Emits p () ↔
      ∃ u, (SentField cfg ctx.fs ctx.vs f.usual v u ∧ AllowedField cfg ctx.fs f v u) ∧
        p = sentBytesField cfg f u)
  | .plain id k c, hs, hu, hr, he, ctx, v, p, hin, hm, hv => by
      rw [emits_spStep]
      simp only [SpField.usual] at hs hu hr he hm hv ⊢
      rw [saneField] at hs
      rw [uniqueField] at hu
      rw [earlierField] at hr
      rw [EveryField] at he
      rw [TypedField] at hv
      have hcon := hin.consts _ hm
      simp only at hcon
      have hv' : TypedKind cfg k.usual ((if true then frozenVal k.usual c else none).getD v) := by
        simp only [if_true]
        rw [typedConst_eq] at hcon
        cases hfv : frozenVal k.usual c with
        | none => exact hv
        | some u => exact hcon u (by simp [hfv])
      simp only [writeSpField]
      rw [sent_spKind cfg k hs hu hr he ctx true id c v p hin hv']
      simp only [← sentKind_bare]
      simp only [SentField, Field.id, Field.isFrozen, Field.constraint, if_true, typedConst_eq,
        sentBytesField, AllowedField]
      have hall : ∀ x w, (frozenVal k.usual c).isSome = true →
          AllowedKind cfg ctx.fs id c k x w = AllowedKind cfg ctx.fs id c k v w := by
        intro x w h
        cases k <;> simp only [SpKind.usual, frozenVal, Option.isSome_none, Bool.false_eq_true] at h <;>
          simp only [AllowedKind]
      cases hslot : isSlot ctx.fs id with
      | true =>
        simp only [if_true, reduceCtorEq, false_imp_iff, and_true]
        cases hfv : frozenVal k.usual c with
        | none => rfl
        | some u =>
          have hnum : SentKind cfg ctx.fs ctx.vs id c k.usual u = SentKind cfg ctx.fs ctx.vs id c k.usual v := by
            funext x
            cases hk : k.usual <;> simp only [hk, frozenVal, reduceCtorEq] at hfv <;>
              simp [SentKind, hslot]
          have h2 := fun x => hall u x (by simp [hfv])
          simp only [Option.getD_some, hnum, h2]
      | false =>
        simp only [Bool.false_eq_true, if_false, true_imp_iff]
        cases hfv : frozenVal k.usual c with
        | none =>
          simp only [Option.isSome_none, true_imp_iff, Option.getD_none]
          constructor
          · rintro ⟨⟨u, ⟨h1, h3⟩, rfl⟩, h2⟩; exact ⟨u, ⟨⟨h2, h1⟩, h3⟩, rfl⟩
          · rintro ⟨u, ⟨⟨h2, h1⟩, h3⟩, rfl⟩; exact ⟨⟨u, ⟨h1, h3⟩, rfl⟩, h2⟩
        | some u =>
          have h2 := fun x => hall u x (by simp [hfv])
          simp only [Option.isSome_some, reduceCtorEq, false_imp_iff, and_true, Option.getD_some, h2]
  | .maybe id k c pr, hs, hu, hr, he, ctx, v, p, hin, hm, hv => by
      rw [emits_spStep]
      simp only [SpField.usual] at hs hu hr he hm hv ⊢
      rw [saneField] at hs
      rw [uniqueField] at hu
      rw [earlierField] at hr
      rw [EveryField] at he
      simp only [writeSpField, WrE.emits_andThen]
      simp only [Field.constraint, SentField, WrE.emits_lift, AllowedField]
      have hnone : ∀ v, Holds .none v := fun _ => rfl
      simp only [hnone, implies_true, and_true]
      show (∃ b q r, p = q ++ r ∧ (q = [] ∧ pr.eval (envOf ctx.fs ctx.vs) = .ok b) ∧ _) ↔ _
      cases v <;> simp only [TypedField] at hv
      · constructor
        · rintro ⟨b, q, r, rfl, ⟨rfl, h1⟩, h2⟩
          cases b
          · rw [if_neg (by simp), WrE.emits_ok] at h2
            exact ⟨.absent, ⟨.inl ⟨rfl, rfl, h1⟩, by simp⟩, by simp [sentBytesField, h2.1]⟩
          · rw [if_pos rfl, WrE.emits_err] at h2
            exact h2.elim
        · rintro ⟨u, ⟨⟨-, rfl, h1⟩ | ⟨w, x, h0, -⟩, -⟩, rfl⟩
          · exact ⟨false, [], _, rfl, ⟨rfl, h1⟩, by
              rw [if_neg (by simp), WrE.emits_ok]; exact ⟨by simp, rfl⟩⟩
          · cases h0
      · rename_i w
        have hk := fun p => sent_spKind cfg k hs hu hr he ctx false id c w p hin
          (by simpa using hv)
        simp only [Bool.false_eq_true, if_false, Option.getD_none] at hk
        constructor
        · rintro ⟨b, q, r, rfl, ⟨rfl, h1⟩, h2⟩
          cases b
          · simp only [Bool.false_eq_true, if_false, WrE.emits_err] at h2
          · simp only [if_true, emits_checked, hk] at h2
            obtain ⟨h3, x, ⟨h2, h4⟩, rfl⟩ := h2
            refine ⟨.present x, ⟨.inr ⟨w, x, rfl, rfl, h1, h2⟩, ?_⟩, by simp [sentBytesField]⟩
            intro w' x' h5 h6
            cases h5
            cases h6
            exact ⟨h3, h4⟩
        · rintro ⟨u, ⟨⟨h0, -⟩ | ⟨w', x, h0, rfl, h1, h2⟩, h3⟩, rfl⟩
          · cases h0
          · cases h0
            obtain ⟨h3, h4⟩ := h3 _ _ rfl rfl
            exact ⟨true, [], _, rfl, ⟨rfl, h1⟩, by
              simp only [if_true, emits_checked, hk]; exact ⟨h3, x, ⟨h2, h4⟩, by simp⟩⟩
  | .union id d alts c, hs, hu, hr, he, ctx, v, p, hin, hm, hv => by
      rw [emits_spStep]
      simp only [SpField.usual] at hs hu hr he hm hv ⊢
      simp only [saneField, Bool.and_eq_true] at hs
      rw [uniqueField] at hu
      rw [earlierField] at hr
      rw [EveryField] at he
      cases v <;> simp only [TypedField] at hv
      rename_i i w
      have ha := fun p => sent_spAlts cfg alts hs.2 hu hr he ctx id i w p hin hv
      simp only [Field.constraint, SentField, Field.isFrozen, Field.id, true_imp_iff]
      have hd : (writeSpField cfg ctx (.union id d alts c) (.var i w)).Emits p () ↔
          Chosen (envOf ctx.fs ctx.vs) i d ∧
          (writeSpAlts cfg ctx id alts i w).Emits p () := by
        have key : ∀ (o : Except Stuck (Option Nat)),
            ((WrE.lift o : WrE Reason _).andThen fun
              | none => WrE.err .typeDeductionFailure
              | some j => if j ≠ i then WrE.err .validationFailure
                  else writeSpAlts cfg ctx id alts i w).Emits p () ↔
            o = .ok (some i) ∧ (writeSpAlts cfg ctx id alts i w).Emits p () := by
          intro o
          rw [WrE.emits_andThen]
          constructor
          · rintro ⟨x, q, r, rfl, h1, h2⟩
            rw [WrE.emits_lift] at h1
            obtain ⟨rfl, rfl⟩ := h1
            cases x with
            | none => exact ((WrE.emits_err _ _ _).1 h2).elim
            | some j =>
              by_cases hj : j = i
              · subst hj
                refine ⟨rfl, ?_⟩
                simpa using h2
              · simp only [ne_eq, hj, not_false_eq_true, if_true] at h2
                exact ((WrE.emits_err _ _ _).1 h2).elim
          · rintro ⟨rfl, h2⟩
            exact ⟨some i, [], p, rfl, (WrE.emits_lift _ _ _).2 ⟨rfl, rfl⟩, by simpa using h2⟩
        cases d with
        | matchField tgt t ls => simp only [writeSpField, Chosen, true_and]
        | matchCompute comp t ls => simp only [writeSpField, Chosen]; exact key _
        | ladder ps => simp only [writeSpField, Chosen]; exact key _
      rw [hd, ha]
      simp only [AllowedField]
      constructor
      · rintro ⟨⟨h1, x, ⟨h2, h4⟩, rfl⟩, h3⟩
        refine ⟨_, ⟨⟨i, w, x, rfl, rfl, h3, h1, h2⟩, ?_⟩, by rw [sentBytesField]⟩
        intro i' w' x' h5 h6
        cases h5
        cases h6
        exact h4
      · rintro ⟨_, ⟨⟨i', w', x, h0, rfl, h3, h1, h2⟩, h4⟩, rfl⟩
        cases h0
        exact ⟨⟨h1, x, ⟨h2, h4 _ _ _ rfl rfl⟩, by rw [sentBytesField]⟩, h3⟩
termination_by structural f => f
theorem sent_spAlts (cfg : Cfg) : (alts : List SpAlt) → saneAlts (usualAlts alts) = true →
    uniqueAlts (usualAlts alts) = true → earlierAlts (usualAlts alts) = true →
    EveryAlts (TypedConsts cfg) (usualAlts alts) →
    ∀ ctx id i v p, Given cfg ctx.fs ctx.vs → TypedAlts cfg (usualAlts alts) i v →
    ((writeSpAlts cfg ctx id alts i v).Emits p () ↔
      ∃ u, (SentAlts cfg ctx.fs ctx.vs id (usualAlts alts) i v u ∧ AllowedAlts cfg ctx.fs id alts i v u) ∧
        p = sentBytesAlts cfg alts i u)
  | [], hs, hu, hr, he, ctx, id, i, v, p, hin, hv => by simp [usualAlts, TypedAlts] at hv
  | .mk k c :: alts, hs, hu, hr, he, ctx, id, 0, v, p, hin, hv => by
      simp only [usualAlts] at hs hu hr he hv ⊢
      simp only [saneAlts, Bool.and_eq_true] at hs
      simp only [uniqueAlts, Bool.and_eq_true] at hu
      simp only [earlierAlts, Bool.and_eq_true] at hr
      rw [EveryAlts] at he
      rw [TypedAlts] at hv
      have hk := sent_spKind cfg k hs.1 hu.1 hr.1 he.1 ctx false id c v p hin (by simpa using hv)
      simp only [Bool.false_eq_true, if_false, Option.getD_none] at hk
      simp only [← sentKind_bare] at hk
      simp only [writeSpAlts, emits_checked, hk]
      simp only [SentAlts, sentBytesAlts, AllowedAlts]
      constructor
      · rintro ⟨h1, u, ⟨h2, h4⟩, h3⟩; exact ⟨u, ⟨⟨h1, h2⟩, h4⟩, h3⟩
      · rintro ⟨u, ⟨⟨h1, h2⟩, h4⟩, h3⟩; exact ⟨h1, u, ⟨h2, h4⟩, h3⟩
  | .mk k c :: alts, hs, hu, hr, he, ctx, id, i + 1, v, p, hin, hv => by
      simp only [usualAlts] at hs hu hr he hv ⊢
      simp only [saneAlts, Bool.and_eq_true] at hs
      simp only [uniqueAlts, Bool.and_eq_true] at hu
      simp only [earlierAlts, Bool.and_eq_true] at hr
      rw [EveryAlts] at he
      rw [TypedAlts] at hv
      simp only [writeSpAlts, SentAlts, sentBytesAlts, AllowedAlts]
      exact sent_spAlts cfg alts hs.2 hu.2 hr.2 he.2 ctx id i v p hin hv
termination_by structural alts => alts
theorem sent_spFields (cfg : Cfg) : (fs : List SpField) → saneFields (usualFields fs) = true →
    ∀ seen, uniqueFields seen (usualFields fs) = true → ∀ seen', earlierFields seen' (usualFields fs) = true →
    EveryFields (TypedConsts cfg) (usualFields fs) → ∀ ctx vs p, Given cfg ctx.fs ctx.vs →
    (∀ f ∈ usualFields fs, f ∈ ctx.fs) → TypedFields cfg (usualFields fs) vs →
    ((writeSpFields cfg ctx fs vs).Emits p () ↔
      ∃ us, (SentFields cfg ctx.fs ctx.vs (usualFields fs) vs us ∧ AllowedFields cfg ctx.fs fs vs us) ∧
        p = sentBytes cfg fs us)
  | [], hs, seen, hu, seen', hr, he, ctx, vs, p, hin, hm, hv => by
      cases vs with
      | cons v vs => simp [usualFields, TypedFields] at hv
      | nil =>
        simp only [usualFields, writeSpFields, WrE.emits_ok, SentFields]
        constructor
        · rintro ⟨rfl, -⟩; exact ⟨[], ⟨⟨trivial, rfl⟩, by simp [AllowedFields]⟩, by simp [sentBytes]⟩
        · rintro ⟨_, ⟨⟨-, rfl⟩, -⟩, rfl⟩; exact ⟨by simp [sentBytes], trivial⟩
  | f :: fs, hs, seen, hu, seen', hr, he, ctx, [], p, hin, hm, hv => by simp [usualFields, TypedFields] at hv
  | f :: fs, hs, seen, hu, seen', hr, he, ctx, v :: vs, p, hin, hm, hv => by
      simp only [usualFields] at hs hu hr he hm hv ⊢
      simp only [saneFields, Bool.and_eq_true] at hs
      simp only [uniqueFields, Bool.and_eq_true] at hu
      simp only [earlierFields, Bool.and_eq_true] at hr
      rw [EveryFields] at he
      rw [TypedFields] at hv
      have h1 := fun p => sent_spField cfg f hs.1 hu.1.2 hr.1.2 he.1 ctx v p hin (hm f.usual (by simp)) hv.1
      have h2 := fun p => sent_spFields cfg fs hs.2 _ hu.2 _ hr.2 he.2 ctx vs p hin
        (fun g hg => hm g (by simp [hg])) hv.2
      have h3 : writeSpFields cfg ctx (f :: fs) (v :: vs) =
          (spStep cfg ctx f v).andThen fun _ => writeSpFields cfg ctx fs vs := by
        simp only [writeSpFields, spStep]
      rw [h3, WrE.emits_andThen]
      simp only [SentFields]
      constructor
      · rintro ⟨_, q, r, rfl, ha, hb⟩
        obtain ⟨u, ⟨hc, hc'⟩, rfl⟩ := (h1 q).1 ha
        obtain ⟨us, ⟨hd, hd'⟩, rfl⟩ := (h2 r).1 hb
        exact ⟨_, ⟨⟨v, vs, u, us, rfl, rfl, hc, hd⟩, by simp only [AllowedFields]; exact ⟨hc', hd'⟩⟩,
          by rw [sentBytes]⟩
      · rintro ⟨_, ⟨⟨v', vs', u, us, h0, rfl, ha, hb⟩, hc⟩, rfl⟩
        cases h0
        simp only [AllowedFields] at hc
        exact ⟨(), _, _, by rw [sentBytes], (h1 _).2 ⟨u, ⟨ha, hc.1⟩, rfl⟩, (h2 _).2 ⟨us, ⟨hb, hc.2⟩, rfl⟩⟩
termination_by structural fs => fs
end

/-! ### The descriptors -/

mutual
theorem usual_spellKind : (k : Kind) → (spellKind k).usual = k
  | .num t w => rfl
  | .fbuf e n => rfl
  | .fstr n => rfl
  | .vec e len b => rfl
  | .record fs => by simp only [spellKind, SpKind.usual, usual_spell fs]
  | .arrRec fs n => by simp only [spellKind, SpKind.usual, usual_spell fs]
  | .vecRec fs len b sz => by simp only [spellKind, SpKind.usual, usual_spell fs]
termination_by structural k => k
theorem usual_spellField : (f : Field) → (spellField f).usual = f
  | .plain id k c => by simp only [spellField, SpField.usual, usual_spellKind k]
  | .maybe id k p => by simp only [spellField, SpField.usual, usual_spellKind k]
  | .union id d alts c => by simp only [spellField, SpField.usual, usual_spellAlts alts]
termination_by structural f => f
theorem usual_spellAlts : (alts : List Alt) → usualAlts (spellAlts alts) = alts
  | [] => rfl
  | .mk k c :: alts => by simp only [spellAlts, usualAlts, usual_spellKind k, usual_spellAlts alts]
termination_by structural alts => alts
theorem usual_spell : (fs : List Field) → usualFields (spell fs) = fs
  | [] => rfl
  | f :: fs => by simp only [spell, usualFields, usual_spellField f, usual_spell fs]
termination_by structural fs => fs
end

mutual
theorem read_spellKind (cfg : Cfg) : (k : Kind) → ∀ env, readSpKind cfg env (spellKind k) = readKind cfg env k
  | .num t w, env => by simp only [spellKind, readSpKind, readKind, readCount]
  | .fbuf e n, env => by simp only [spellKind, readSpKind, readKind]; rfl
  | .fstr n, env => by simp only [spellKind, readSpKind, readKind]; rfl
  | .vec e len b, env => by simp only [spellKind, readSpKind, readKind]
  | .record fs, env => by simp only [spellKind, readSpKind, readKind, usual_spell, read_spellFields cfg fs]
  | .arrRec fs n, env => by simp only [spellKind, readSpKind, readKind, usual_spell, read_spellFields cfg fs]
  | .vecRec fs len b sz, env => by
      simp only [spellKind, readSpKind, readKind, usual_spell, read_spellFields cfg fs]
      congr 1
termination_by structural k => k
theorem read_spellField (cfg : Cfg) : (f : Field) → ∀ env, readSpField cfg env (spellField f) = readField cfg env f
  | .plain id k c, env => by simp only [spellField, readSpField, readField, read_spellKind cfg k]
  | .maybe id k p, env => by simp only [spellField, readSpField, readField, read_spellKind cfg k]
  | .union id d alts c, env => by
      simp only [spellField, readSpField, readField, read_spellAlts cfg alts, usual_spellAlts]
      congr 1
termination_by structural f => f
theorem read_spellAlts (cfg : Cfg) : (alts : List Alt) → ∀ env i,
    readSpAlts cfg env (spellAlts alts) i = readAlts cfg env alts i
  | [], env, i => by simp only [spellAlts, readSpAlts, readAlts]
  | .mk k c :: alts, env, 0 => by simp only [spellAlts, readSpAlts, readAlts, read_spellKind cfg k]
  | .mk k c :: alts, env, i + 1 => by simp only [spellAlts, readSpAlts, readAlts, read_spellAlts cfg alts]
termination_by structural alts => alts
theorem read_spellFields (cfg : Cfg) : (fs : List Field) → ∀ env,
    readSpFields cfg env (spell fs) = readFields cfg env fs
  | [], env => by simp only [spell, readSpFields, readFields]
  | f :: fs, env => by
      simp only [spell, readSpFields, readFields, usual_spellField, read_spellField cfg f, read_spellFields cfg fs]
termination_by structural fs => fs
end

mutual
theorem write_spellKind (cfg : Cfg) : (k : Kind) → ∀ ctx m id c v,
    writeSpKind cfg ctx m id c (spellKind k) v = writeKind cfg ctx m id c k v
  | .num t w, ctx, m, id, c, v => by
      simp only [spellKind, writeSpKind, writeKind, SpKind.usual, writeSpFixed_num]
  | .fbuf e n, ctx, m, id, c, v => by
      have he : writeCount cfg (n * e.size) (.buf e n) = emitFixed cfg (.fbuf e n) := by
        funext v; cases v <;> rfl
      simp only [spellKind, writeSpKind, writeKind, SpKind.usual, he, FixedTy.kind, writeSpFixed_eq]
  | .fstr n, ctx, m, id, c, v => by
      have he : writeCount cfg (n + 1) (.str n) = emitFixed cfg (.fstr n) := by
        funext v; cases v <;> rfl
      simp only [spellKind, writeSpKind, writeKind, SpKind.usual, he, FixedTy.kind, writeSpFixed_eq]
  | .vec e len b, ctx, m, id, c, v => by
      cases v <;> simp only [spellKind, writeSpKind, writeKind]
  | .record fs, ctx, m, id, c, v => by
      cases v <;> simp only [spellKind, writeSpKind, writeKind, usual_spell, write_spellFields cfg fs]
  | .arrRec fs n, ctx, m, id, c, v => by
      cases v <;> simp only [spellKind, writeSpKind, writeKind, usual_spell, write_spellFields cfg fs]
  | .vecRec fs len b sz, ctx, m, id, c, v => by
      cases v <;> simp only [spellKind, writeSpKind, writeKind, usual_spell, write_spellFields cfg fs]
termination_by structural k => k
theorem write_spellField (cfg : Cfg) : (f : Field) → ∀ ctx v,
    writeSpField cfg ctx (spellField f) v = writeField cfg ctx f v
  | .plain id k c, ctx, v => by simp only [spellField, writeSpField, writeField, write_spellKind cfg k]
  | .maybe id k p, ctx, v => by
      have h : ∀ w, WrE.checked .none w (writeKind cfg ctx false id .none k w) =
          writeKind cfg ctx false id .none k w := fun w => rfl
      simp only [spellField, writeSpField, writeField, write_spellKind cfg k, h]
      congr 1
  | .union id d alts c, ctx, v => by
      simp only [spellField, writeSpField, writeField, write_spellAlts cfg alts]
      cases v <;> cases d <;> rfl
termination_by structural f => f
theorem write_spellAlts (cfg : Cfg) : (alts : List Alt) → ∀ ctx id i v,
    writeSpAlts cfg ctx id (spellAlts alts) i v = writeAlts cfg ctx id alts i v
  | [], ctx, id, i, v => by simp only [spellAlts, writeSpAlts, writeAlts]
  | .mk k c :: alts, ctx, id, 0, v => by simp only [spellAlts, writeSpAlts, writeAlts, write_spellKind cfg k]
  | .mk k c :: alts, ctx, id, i + 1, v => by
      simp only [spellAlts, writeSpAlts, writeAlts, write_spellAlts cfg alts]
termination_by structural alts => alts
theorem write_spellFields (cfg : Cfg) : (fs : List Field) → ∀ ctx vs,
    writeSpFields cfg ctx (spell fs) vs = writeFields cfg ctx fs vs
  | [], ctx, vs => by cases vs <;> simp only [spell, writeSpFields, writeFields]
  | f :: fs, ctx, vs => by
      cases vs <;> simp only [spell, writeSpFields, writeFields, usual_spellField, write_spellField cfg f,
        write_spellFields cfg fs]
termination_by structural fs => fs
end

end S2S
