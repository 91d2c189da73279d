import Verif.Spec.HandList
import Verif.Props.Hand
import Verif.Props.Sent
/-
C139: lists with fields of fixed size spelled by hand.
-/
namespace S2S.Props
open Spec Demo

/-! ### Reading -/

theorem gives_hand (cfg : Cfg) (env : Env) (id : String) (t : FixedTy) (k : Nat) (c : Constraint)
    (p : List Byte) (v : Val) :
    RdE.Gives (readCount cfg k t) p v ∧ Holds c v ↔
      (FitsField cfg (HField.hand id t k c).usual v ∧ OkField (HField.hand id t k c).usual v ∧
        StepField cfg env (HField.hand id t k c).usual v) ∧
      ZeroTail cfg (.hand id t k c) v ∧ p = cutWire cfg (.hand id t k c) v := by
  cases t with
  | num s =>
    show RdE.Gives (readNum cfg s k) p v ∧ _ ↔ _
    rw [gives_readNum]
    simp only [HField.usual, FitsField, OkField, StepField, ZeroTail, cutWire, wireField, FixedTy.size]
    constructor
    · rintro ⟨⟨x, rfl, h1, rfl⟩, h2⟩
      have hl : (wireScalar cfg.wire s.size k x).length = k := wireScalar_length _ _ _ _
      simp only [FitsKind, OkKind, StepKind, wireKind]
      refine ⟨⟨h1, ⟨trivial, h2⟩, trivial⟩, ⟨by rcases h1.2 with h | h <;> omega, ?_⟩, ?_⟩
      · rw [List.drop_of_length_le (by omega)]; simp
      · rw [List.take_of_length_le (by omega)]
    · rintro ⟨⟨h1, ⟨-, h2⟩, -⟩, -, rfl⟩
      cases v <;> simp only [FitsKind] at h1
      rename_i x
      have hl : (wireScalar cfg.wire s.size k x).length = k := wireScalar_length _ _ _ _
      exact ⟨⟨x, rfl, h1, by rw [wireKind, List.take_of_length_le (by omega)]⟩, h2⟩
  | buf e n =>
    rw [gives_count]
    simp only [HField.usual, FitsField, OkField, StepField, ZeroTail, cutWire, wireField]
    constructor
    · rintro ⟨⟨h1, h2, rfl, h3⟩, h4⟩
      exact ⟨⟨h2, ⟨by simp [FixedTy.kind, OkKind], h4⟩, by simp [FixedTy.kind, StepKind]⟩, ⟨h1, h3⟩, rfl⟩
    · rintro ⟨⟨h2, ⟨-, h4⟩, -⟩, ⟨h1, h3⟩, rfl⟩
      exact ⟨⟨h1, h2, rfl, h3⟩, h4⟩
  | str n =>
    rw [gives_count]
    simp only [HField.usual, FitsField, OkField, StepField, ZeroTail, cutWire, wireField]
    constructor
    · rintro ⟨⟨h1, h2, rfl, h3⟩, h4⟩
      exact ⟨⟨h2, ⟨by simp [FixedTy.kind, OkKind], h4⟩, by simp [FixedTy.kind, StepKind]⟩, ⟨h1, h3⟩, rfl⟩
    · rintro ⟨⟨h2, ⟨-, h4⟩, -⟩, ⟨h1, h3⟩, rfl⟩
      exact ⟨⟨h1, h2, rfl, h3⟩, h4⟩

theorem usual_hand_id (id : String) (t : FixedTy) (k : Nat) (c : Constraint) :
    (HField.hand id t k c).usual.id = id := by cases t <;> rfl

theorem gives_readHands (cfg : Cfg) (hs : List HField) (hsane : saneFields (hs.map HField.usual) = true)
    (env : Env) (p : List Byte) (vs : List Val) :
    RdE.Gives (readHands cfg env hs) p vs ↔
      (FitsFields cfg (hs.map HField.usual) vs ∧ OkFields (hs.map HField.usual) vs ∧
        StepFields cfg env (hs.map HField.usual) vs) ∧ ZeroTails cfg hs vs ∧ p = cutWires cfg hs vs := by
  induction hs generalizing env p vs with
  | nil =>
    simp only [readHands, RdE.gives_ok, List.map_nil]
    cases vs <;> simp [FitsFields, OkFields, StepFields, ZeroTails, cutWires]
  | cons h hs ih =>
    simp only [List.map_cons, saneFields, Bool.and_eq_true] at hsane
    have key : ∀ (r : RdE Reason Val), (∀ p v, (RdE.Gives r p v ∧ Holds h.usual.constraint v) ↔
        (FitsField cfg h.usual v ∧ OkField h.usual v ∧ StepField cfg env h.usual v) ∧
          ZeroTail cfg h v ∧ p = cutWire cfg h v) →
        (RdE.Gives (((r.andThen fun v => RdE.checked h.usual.constraint v).tag h.usual.id).andThen fun v =>
          (readHands cfg (env.set h.usual.id v) hs).andThen fun vs => RdE.ok (v :: vs)) p vs ↔
        (FitsFields cfg ((h :: hs).map HField.usual) vs ∧ OkFields ((h :: hs).map HField.usual) vs ∧
          StepFields cfg env ((h :: hs).map HField.usual) vs) ∧ ZeroTails cfg (h :: hs) vs ∧
          p = cutWires cfg (h :: hs) vs) := by
      intro r hr
      simp only [RdE.gives_andThen, gives_tag, gives_checked, RdE.gives_ok, ih hsane.2, List.map_cons]
      constructor
      · rintro ⟨v, q, s, rfl, ⟨u, q', s', rfl, h1, rfl, rfl, h2⟩, ws, _, _, rfl,
          ⟨⟨h3, h4, h5⟩, h6, rfl⟩, rfl, rfl⟩
        obtain ⟨⟨a, b, c⟩, d, rfl⟩ := (hr _ _).mp ⟨h1, h2⟩
        simp only [FitsFields, OkFields, StepFields, ZeroTails, cutWires, List.append_nil]
        exact ⟨⟨⟨a, h3⟩, ⟨b, h4⟩, c, h5⟩, ⟨d, h6⟩, trivial⟩
      · rintro ⟨⟨h1, h2, h3⟩, h0, rfl⟩
        cases vs with
        | nil => simp [FitsFields] at h1
        | cons v vs =>
          simp only [FitsFields, OkFields, StepFields, ZeroTails] at h1 h2 h3 h0
          obtain ⟨h4, h5⟩ := (hr _ v).mpr ⟨⟨h1.1, h2.1, h3.1⟩, h0.1, rfl⟩
          exact ⟨v, _, _, rfl, ⟨v, _, [], (List.append_nil _).symm, h4, rfl, rfl, h5⟩,
            vs, _, [], (List.append_nil _).symm, ⟨⟨h1.2, h2.2, h3.2⟩, h0.2, rfl⟩, rfl, rfl⟩
    cases h with
    | std f =>
      refine key (readField cfg env f) fun p v => ?_
      rw [show (HField.std f).usual = f from rfl, gives_readField cfg f hsane.1]
      simp [ZeroTail, cutWire]
    | hand id t k c =>
      have := key (readCount cfg k t) fun p v => by
        rw [show (HField.hand id t k c).usual.constraint = c by cases t <;> rfl]
        exact gives_hand cfg env id t k c p v
      rw [show (HField.hand id t k c).usual.constraint = c by cases t <;> rfl, usual_hand_id] at this
      exact this

theorem short_readCount (cfg : Cfg) (k : Nat) (t : FixedTy) : ShortR (readCount cfg k t) := by
  cases t with
  | num s => exact short_readNum cfg s k
  | buf e n =>
    exact RdE.short_andThen (short_readNativeImpl _ _) fun _ =>
      RdE.short_andThen (short_value _) fun _ => trivial
  | str n => exact RdE.short_andThen (short_readNativeImpl _ _) fun _ => trivial

theorem short_readHands (cfg : Cfg) (hs : List HField) (env : Env) : ShortC (readHands cfg env hs) := by
  induction hs generalizing env with
  | nil => rw [readHands]; trivial
  | cons h hs ih =>
    cases h with
    | std f =>
      rw [readHands]
      refine RdE.short_andThen (RdE.short_mapErr (RdE.short_andThen (short_readField cfg f env)
        fun _ => short_checked _ _) fun _ h => h) fun _ => ?_
      exact RdE.short_andThen (ih _) fun _ => trivial
    | hand id t k c =>
      rw [readHands]
      refine RdE.short_andThen (RdE.short_mapErr (RdE.short_andThen (short_readCount cfg k t)
        fun _ => short_checked _ _) fun _ h => h) fun _ => ?_
      exact RdE.short_andThen (ih _) fun _ => trivial

/-! ### Writing -/

theorem frozen_width (s : ScalarTy) (k l : Nat) (c : Constraint) :
    frozenVal (.num s k) c = frozenVal (.num s l) c := by
  cases c <;> simp only [frozenVal]
  rename_i o _ _
  cases o <;> rfl

/-- The program of one field. -/
def handStep (cfg : Cfg) (ctx : WCtx) (id : String) (t : FixedTy) (k : Nat) (c : Constraint) (v : Val) :
    WrE CastError Unit :=
  (if isDerived ctx.fs id || (frozenVal t.kind c).isSome then writeHand cfg ctx id t k c v
    else WrE.checked c v (writeHand cfg ctx id t k c v)).tag id

theorem handStep_num (cfg : Cfg) (ctx : WCtx) (id : String) (s : ScalarTy) (k : Nat) (c : Constraint)
    (v : Val) : handStep cfg ctx id (.num s) k c v = writeStep cfg ctx (.plain id (.num s k) c) v := by
  unfold handStep writeStep
  rw [show frozenVal (FixedTy.num s).kind c = frozenVal (.num s k) c from frozen_width s _ _ c]
  simp only [writeHand, writeField, writeKind, Field.id, Field.isFrozen, Field.constraint]
  rfl

theorem emits_handStep {cfg : Cfg} {ctx : WCtx} {id : String} {t : FixedTy} {k : Nat} {c : Constraint}
    {v : Val} {p : List Byte} : (handStep cfg ctx id t k c v).Emits p () ↔
      (writeHand cfg ctx id t k c v).Emits p () ∧
      (isSlot ctx.fs id = false → (frozenVal t.kind c).isSome = false → Holds c v) := by
  unfold handStep WrE.tag
  rw [WrE.emits_mapErr, isDerived_eq]
  cases h1 : isSlot ctx.fs id <;> cases h2 : (frozenVal t.kind c).isSome <;> simp [emits_checked, and_comm]

theorem emits_count {cfg : Cfg} {k : Nat} {t : FixedTy} {v : Val} (h : FitsKind cfg t.kind v) {p : List Byte} :
    (writeCount cfg k t v).Emits p () ↔
      (k ≤ t.size ∨ (cfg.foreign && t.isBuf) = true) ∧
      p = if (cfg.foreign && t.isBuf) = true then wireKind cfg.wire t.kind v
        else (wireKind cfg.wire t.kind v).take k := by
  have hw := C135_write cfg k t v h
  rw [Wr.run_eq] at hw
  unfold WrE.Emits
  rw [hw]
  split
  · rename_i hb; simp [hb, eq_comm]
  · rename_i hb
    split
    · rename_i hk; simp [hb, hk, eq_comm]
    · rename_i hk; simp [hb, hk]

theorem sent_other {cfg : Cfg} {ctx : WCtx} (hin : Given cfg ctx.fs ctx.vs) {id : String} {t : FixedTy}
    (ht : ∀ s, t ≠ .num s) {k : Nat} {c : Constraint} (hm : Field.plain id t.kind c ∈ ctx.fs) {v : Val}
    (hv : TypedKind cfg t.kind v) {p : List Byte} :
    (handStep cfg ctx id t k c v).Emits p () ↔
      ∃ u, SentField cfg ctx.fs ctx.vs (.plain id t.kind c) v u ∧
        (k ≤ t.size ∨ (cfg.foreign && t.isBuf) = true) ∧
        p = if (cfg.foreign && t.isBuf) = true then wireKind cfg.wire t.kind u
          else (wireKind cfg.wire t.kind u).take k := by
  have hcon := hin.consts _ hm
  simp only [typedConst_eq] at hcon
  have hv' : TypedKind cfg t.kind ((frozenVal t.kind c).getD v) := by
    cases hfv : frozenVal t.kind c with
    | none => exact hv
    | some u => exact hcon u (by simp [hfv])
  have hf : FitsKind cfg t.kind ((frozenVal t.kind c).getD v) := by
    revert hv'
    generalize (frozenVal t.kind c).getD v = w
    intro hv'
    cases t with
    | num s => exact (ht s rfl).elim
    | buf e n => cases w <;> simp only [FixedTy.kind, TypedKind, FitsKind] at hv' ⊢; exact hv'
    | str n => cases w <;> simp only [FixedTy.kind, TypedKind, FitsKind] at hv' ⊢; exact hv'
  have hw : writeHand cfg ctx id t k c v =
      if isDerived ctx.fs id || hasConditional ctx.fs id then Wr.stuck .illTyped
      else writeCount cfg k t ((frozenVal t.kind c).getD v) := by
    cases t with
    | num s => exact (ht s rfl).elim
    | buf e n => rfl
    | str n => rfl
  have hsk : ∀ w u, SentKind cfg ctx.fs ctx.vs id c t.kind w u ↔
      u = w ∧ isSlot ctx.fs id = false ∧ ∀ f ∈ ctx.fs, id ∉ lengthTargets f := by
    intro w u
    cases t with
    | num s => exact (ht s rfl).elim
    | buf e n => simp only [FixedTy.kind, SentKind]
    | str n => simp only [FixedTy.kind, SentKind]
  have hci := conditional_iff (fs := ctx.fs) (id := id)
  rw [emits_handStep, hw, isDerived_eq]
  simp only [SentField, hsk, typedConst_eq]
  cases hs : isSlot ctx.fs id with
  | true => simp
  | false =>
    simp only [hs, Bool.false_eq_true, or_false] at hci
    cases hc : hasConditional ctx.fs id with
    | true =>
      obtain ⟨f, hf1, hf2⟩ := hci.1 hc
      have hno : ¬ ∀ f ∈ ctx.fs, id ∉ lengthTargets f := fun h => h f hf1 hf2
      simp only [Bool.or_true, if_true, WrE.emits_stuck, false_and, false_iff]
      rintro ⟨u, hu, -⟩
      rw [if_neg (by simp)] at hu
      split at hu
      · exact hno hu.2.2
      · exact hno hu.2.2.2
    | false =>
      have hall : ∀ f ∈ ctx.fs, id ∉ lengthTargets f := fun f h1 h2 => by
        rw [hci.2 ⟨f, h1, h2⟩] at hc; cases hc
      simp only [Bool.or_self, Bool.false_eq_true, if_false, true_imp_iff, emits_count hf]
      cases hfv : frozenVal t.kind c with
      | none =>
        simp only [Option.isSome_none, true_imp_iff, Option.getD_none]
        constructor
        · rintro ⟨⟨h1, h2⟩, h3⟩; exact ⟨v, ⟨h3, rfl, trivial, hall⟩, h1, h2⟩
        · rintro ⟨_, ⟨h3, rfl, -, -⟩, h1, h2⟩; exact ⟨⟨h1, h2⟩, h3⟩
      | some u =>
        simp only [Option.isSome_some, reduceCtorEq, false_imp_iff, and_true, Option.getD_some]
        constructor
        · rintro ⟨h1, h2⟩; exact ⟨u, ⟨rfl, trivial, hall⟩, h1, h2⟩
        · rintro ⟨_, ⟨rfl, -, -⟩, h1, h2⟩; exact ⟨h1, h2⟩

theorem sent_hand {cfg : Cfg} {ctx : WCtx} (hin : Given cfg ctx.fs ctx.vs) {id : String} {t : FixedTy}
    {k : Nat} {c : Constraint} (hm : (HField.hand id t k c).usual ∈ ctx.fs) {v : Val}
    (hs : saneField (HField.hand id t k c).usual = true)
    (hv : TypedField cfg (HField.hand id t k c).usual v) {p : List Byte} :
    (handStep cfg ctx id t k c v).Emits p () ↔
      ∃ u, SentField cfg ctx.fs ctx.vs (HField.hand id t k c).usual v u ∧
        (CountFits (.hand id t k c) ∨ whole cfg (.hand id t k c) = true) ∧
        p = sentWire cfg (.hand id t k c) u := by
  cases t with
  | num s =>
    rw [handStep_num]
    simp only [HField.usual] at hs hv hm ⊢
    rw [sent_field cfg _ hs (by simp [uniqueField, uniqueKind]) (by simp [upToSelfField, upToSelfKind])
      (by simp [EveryField, EveryKind]) ctx v p hin hm hv]
    simp only [whole, FixedTy.isBuf, Bool.and_false, Bool.false_eq_true, or_false, sentWire, if_false, cutWire,
      HField.usual, CountFits, FixedTy.size]
    refine exists_congr fun u => and_congr_right fun hu => ?_
    have hk : k ≤ s.size ∧ ∃ y, u = .int y := by
      simp only [SentField] at hu
      split at hu
      · obtain ⟨h1, y, h2, -⟩ := hu; exact ⟨h1, y, h2⟩
      · split at hu
        · obtain ⟨h1, y, h2, -⟩ := hu; exact ⟨h1, y, h2⟩
        · obtain ⟨-, h1, y, h2, -⟩ := hu; exact ⟨h1, y, h2⟩
    obtain ⟨hk, y, rfl⟩ := hk
    rw [and_iff_right hk, wireField, wireKind, List.take_of_length_le (by simp)]
  | buf e n =>
    rw [sent_other hin (fun s h => by cases h) hm (by simpa only [HField.usual, TypedField] using hv)]
    rfl
  | str n =>
    rw [sent_other hin (fun s h => by cases h) hm (by simpa only [HField.usual, TypedField] using hv)]
    rfl

theorem sent_hands {cfg : Cfg} {ctx : WCtx} (hin : Given cfg ctx.fs ctx.vs) :
    ∀ (hs : List HField) (vs : List Val) (p : List Byte) (seen seen' : List String),
    saneFields (hs.map HField.usual) = true → uniqueFields seen (hs.map HField.usual) = true →
    earlierFields seen' (hs.map HField.usual) = true → EveryFields (TypedConsts cfg) (hs.map HField.usual) →
    (∀ h ∈ hs, h.usual ∈ ctx.fs) → TypedFields cfg (hs.map HField.usual) vs →
    ((writeHands cfg ctx hs vs).Emits p () ↔
      ∃ us, SentFields cfg ctx.fs ctx.vs (hs.map HField.usual) vs us ∧
        (∀ h ∈ hs, CountFits h ∨ whole cfg h = true) ∧ p = sentWires cfg hs us)
  | [], vs, p, _, _, _, _, _, _, _, hv => by
      cases vs with
      | cons v vs => simp [TypedFields] at hv
      | nil =>
        simp only [writeHands, WrE.emits_ok, List.map_nil, SentFields]
        constructor
        · rintro ⟨rfl, -⟩; exact ⟨[], ⟨trivial, rfl⟩, by simp, rfl⟩
        · rintro ⟨_, ⟨-, rfl⟩, -, rfl⟩; exact ⟨rfl, trivial⟩
  | h :: hs, [], p, _, _, _, _, _, _, _, hv => by simp [TypedFields] at hv
  | h :: hs, v :: vs, p, seen, seen', h1, h2, h3, h4, h5, hv => by
      simp only [List.map_cons, saneFields, Bool.and_eq_true] at h1
      simp only [List.map_cons, uniqueFields, Bool.and_eq_true] at h2
      simp only [List.map_cons, earlierFields, Bool.and_eq_true] at h3
      rw [List.map_cons, EveryFields] at h4
      rw [List.map_cons, TypedFields] at hv
      have ih := fun p => sent_hands hin hs vs p _ _ h1.2 h2.2 h3.2 h4.2
        (fun g hg => h5 g (by simp [hg])) hv.2
      have key : ∀ w : WrE CastError Unit, (∀ p, w.Emits p () ↔
          ∃ u, SentField cfg ctx.fs ctx.vs h.usual v u ∧ (CountFits h ∨ whole cfg h = true) ∧
            p = sentWire cfg h u) →
          ((w.andThen fun _ => writeHands cfg ctx hs vs).Emits p () ↔
            ∃ us, SentFields cfg ctx.fs ctx.vs ((h :: hs).map HField.usual) (v :: vs) us ∧
              (∀ g ∈ h :: hs, CountFits g ∨ whole cfg g = true) ∧ p = sentWires cfg (h :: hs) us) := by
        intro w hw
        rw [WrE.emits_andThen]
        simp only [List.map_cons, SentFields]
        constructor
        · rintro ⟨_, q, r, rfl, ha, hb⟩
          obtain ⟨u, hc, hd, rfl⟩ := (hw q).1 ha
          obtain ⟨us, he, hf, rfl⟩ := (ih r).1 hb
          refine ⟨_, ⟨v, vs, u, us, rfl, rfl, hc, he⟩, ?_, by rw [sentWires]⟩
          intro g hg
          rcases List.mem_cons.1 hg with rfl | hg
          · exact hd
          · exact hf g hg
        · rintro ⟨_, ⟨v', vs', u, us, h0, rfl, ha, hb⟩, hd, rfl⟩
          cases h0
          exact ⟨(), _, _, by rw [sentWires], (hw _).2 ⟨u, ha, hd h (by simp), rfl⟩,
            (ih _).2 ⟨us, hb, fun g hg => hd g (by simp [hg]), rfl⟩⟩
      cases h with
      | std f =>
        refine key (writeStep cfg ctx f v) fun p => ?_
        rw [show (HField.std f).usual = f from rfl] at h1 h2 h3 h4 hv ⊢
        rw [sent_field cfg f h1.1 h2.1.2 (earlier_upToSelfField f h2.1.2 h3.1.2) h4.1 ctx v p hin (h5 (.std f) (by simp)) hv.1]
        simp [CountFits, sentWire, whole, HField.usual]
      | hand id t k c =>
        exact key (handStep cfg ctx id t k c v) fun p =>
          sent_hand hin (h5 _ (by simp)) h1.1 hv.1

/-! ## C139 -/

/-- C139, reading: the values a list with such fields is read as are those of a valid struct of
the usual list in which what the byte counts leave out of the encoding is zero; it is read from
the encoding without that. No byte count is above the size of its type. -/
theorem C139_read (cfg : Cfg) (hs : List HField) (hwf : WellFormed (hs.map HField.usual))
    (inp rest : List Byte) (vs : List Val) :
    (structCastHand cfg hs).run inp = (.done (.ok vs), rest) ↔
      Valid cfg (hs.map HField.usual) vs ∧ ZeroTails cfg hs vs ∧ inp = cutWires cfg hs vs ++ rest := by
  obtain ⟨h1, h2, h3⟩ := hwf
  have hg : ∀ p, RdE.Gives (structCastHand cfg hs) p vs ↔
      Valid cfg (hs.map HField.usual) vs ∧ ZeroTails cfg hs vs ∧ p = cutWires cfg hs vs := by
    intro p
    unfold structCastHand Valid
    rw [gives_readHands cfg hs h1,
      step_iff_fields cfg _ [] h2 h3 (dfltEnv _) (envOf _ vs) vs (by simp [Agree]) (maps_envOf [] _ vs h2)]
  constructor
  · intro h
    rcases Rd.run_cases (short_readHands cfg hs _) inp with ⟨p, rest', o, rfl, hp, hr⟩ | ⟨a, rest', hP, hr, _⟩
    · rw [show readHands cfg _ hs = structCastHand cfg hs from rfl, h] at hr
      cases hr
      obtain ⟨h4, h5, rfl⟩ := (hg p).1 hp
      exact ⟨h4, h5, rfl⟩
    · rw [show readHands cfg _ hs = structCastHand cfg hs from rfl, h] at hr
      cases hr
      exact hP.elim
  · rintro ⟨h4, h5, rfl⟩
    exact Rd.run_of_path ((hg _).2 ⟨h4, h5, rfl⟩) rest

/-- C139, writing: what is sent is what the usual list sends, cut to the byte counts; of arrays in
the other byte order than the host's nothing is cut. -/
theorem C139_write (cfg : Cfg) (hs : List HField) (hwf : WellFormed (hs.map HField.usual))
    (hc : Everywhere (TypedConsts cfg) (hs.map HField.usual)) (vs : List Val)
    (hv : Typed cfg (hs.map HField.usual) vs) (p : List Byte) :
    (streamCastHand cfg hs vs).run = (.done (.ok ()), p) ↔
      ∃ us, Sent cfg (hs.map HField.usual) vs us ∧
        (∀ h ∈ hs, CountFits h ∨ whole cfg h = true) ∧ p = sentWires cfg hs us := by
  rw [Wr.run_eq]
  exact sent_hands ⟨hwf.acceptable, hc.1, hv⟩ hs vs p [] [] hwf.1 hwf.2.1 hwf.2.2 hc.2
    (fun h hh => List.mem_map_of_mem hh) hv

/-- C139, back again: what was written is read as the struct sent exactly if that is a valid one,
what was left out is zero, and nothing was written that is not read. -/
theorem C139_round (cfg : Cfg) (hs : List HField) (hwf : WellFormed (hs.map HField.usual))
    (hc : Everywhere (TypedConsts cfg) (hs.map HField.usual)) (vs us : List Val)
    (hv : Typed cfg (hs.map HField.usual) vs) (hs' : Sent cfg (hs.map HField.usual) vs us) (p rest : List Byte)
    (h : (streamCastHand cfg hs vs).run = (.done (.ok ()), p)) :
    (structCastHand cfg hs).run (p ++ rest) = (.done (.ok us), rest) ↔
      Valid cfg (hs.map HField.usual) us ∧ ZeroTails cfg hs us ∧ p = cutWires cfg hs us := by
  obtain ⟨us', h1, -, rfl⟩ := (C139_write cfg hs hwf hc vs hv p).1 h
  obtain rfl := sent_unique hwf.acceptable hv hs' h1
  rw [C139_read cfg hs hwf, List.append_cancel_right_eq]

/-- A record with the name of a file in eight characters that are not terminated, a number, and an
array of which two of the three elements are on the wire. -/
def filed : List HField :=
  [.std (.plain "len" (.num u8 1) .none),
   .hand "name" (.str 8) 8 .none,
   .std (.plain "data" (.vec (.scalar u16) (.fromField "len") (some 64)) .none),
   .hand "tail" (.buf (.scalar u16) 3) 4 .none,
   .std (.plain "end" (.num u8 1) (.cmp .eq u8 9))]

/-- C139 fails to be a round trip in the other byte order: `tail` is written in full, and the
field after it is read from the rest of it. -/
theorem C139_fails_foreign :
    let vs : List Val := [.int 0, ofBytes [82, 69, 65, 68, 77, 69, 0, 0, 0], .seq [.int 5],
      .seq [.int 1, .int 2, .int 0], .int 0]
    let us : List Val := [.int 1, ofBytes [82, 69, 65, 68, 77, 69, 0, 0, 0], .seq [.int 5],
      .seq [.int 1, .int 2, .int 0], .int 9]
    (streamCastHand le64 filed vs).run =
      (.done (.ok ()), [1, 82, 69, 65, 68, 77, 69, 0, 0, 5, 0, 1, 0, 2, 0, 9]) ∧
    (structCastHand le64 filed).run [1, 82, 69, 65, 68, 77, 69, 0, 0, 5, 0, 1, 0, 2, 0, 9] =
      (.done (.ok us), []) ∧
    (streamCastHand be64 filed vs).run =
      (.done (.ok ()), [1, 82, 69, 65, 68, 77, 69, 0, 0, 0, 5, 0, 1, 0, 2, 0, 0, 9]) ∧
    (structCastHand be64 filed).run [1, 82, 69, 65, 68, 77, 69, 0, 0, 0, 5, 0, 1, 0, 2, 0, 0, 9] =
      (.done (.error ⟨.validationFailure, "end"⟩), [0, 9]) :=
  ⟨rfl, rfl, rfl, rfl⟩

/-! ### Examples -/

example : WellFormed (filed.map HField.usual) := by decide
example : Everywhere (TypedConsts be64) (filed.map HField.usual) := by decide

/-- What is read leaves no choice of what the string ends with. -/
example (vs : List Val) (inp rest : List Byte)
    (h : (structCastHand be64 filed).run inp = (.done (.ok vs), rest)) : inp = cutWires be64 filed vs ++ rest :=
  ((C139_read be64 filed (by decide) inp rest vs).1 h).2.2

/-- A byte count above the size: no bytes are read as such a list. -/
example (inp rest : List Byte) (vs : List Val) :
    (structCastHand be64 [.hand "a" (.str 2) 4 .none]).run inp ≠ (.done (.ok vs), rest) := by
  intro h
  obtain ⟨h1, h2, -⟩ := (C139_read be64 _ (by decide) inp rest vs).1 h
  cases vs with
  | nil => simp [Valid, FitsFields] at h1
  | cons v vs => exact absurd h2.1.1 (by decide)

example (p : List Byte) := C139_write be64 filed (by decide) (by decide)
  [.int 0, .seq ("s2s".toList.map (fun c => .int c.toNat) ++ List.replicate 6 (.int 0)), .seq [.int 5], .seq [.int 1, .int 2, .int 3], .int 0]
  (by decide +kernel) p
example (us : List Val) (hs : Sent le64 (filed.map HField.usual)
      [.int 0, .seq (List.replicate 9 (.int 0)), .seq [.int 5], .seq [.int 1, .int 2, .int 3], .int 0] us)
    (p rest : List Byte) (h : (streamCastHand le64 filed
      [.int 0, .seq (List.replicate 9 (.int 0)), .seq [.int 5], .seq [.int 1, .int 2, .int 3], .int 0]).run = (.done (.ok ()), p)) :=
  C139_round le64 filed (by decide) (by decide) _ us (by decide +kernel) hs p rest h

end S2S.Props
