import Verif.Lemmas.CallsUnder
import Verif.Spec.Settle
/-
What is said of a schema apart from its callables stays true when they are replaced.
-/
namespace S2S
open Spec

/-! ### WellFormed -/

theorem under_lenDeps (A : Answers) (len : LenSpec) : lenDeps (lenUnder A len) = lenDeps len := by
  cases len <;> rfl

theorem under_kindDeps (A : Answers) (k : Kind) : kindDeps (kindUnder A k) = kindDeps k := by
  cases k <;> rw [kindUnder] <;> first | rfl | exact under_lenDeps A _

theorem under_deducerDeps (A : Answers) (d : Deducer) : deducerDeps (deducerUnder A d) = deducerDeps d := by
  cases d with
  | ladder ps =>
    simp only [deducerUnder, deducerDeps, List.flatMap_map]
    rfl
  | _ => rfl

theorem under_arity (A : Answers) (d : Deducer) : arity (deducerUnder A d) = arity d := by
  cases d with
  | ladder ps => simp only [deducerUnder, arity, List.length_map]
  | _ => rfl

theorem under_altsLength (A : Answers) : ∀ alts, (altsUnder A alts).length = alts.length
  | [] => by rw [altsUnder]
  | .mk k c :: alts => by rw [altsUnder, List.length_cons, List.length_cons, under_altsLength A alts]

theorem under_altsDeps (A : Answers) : ∀ alts,
    (altsUnder A alts).flatMap (fun a => kindDeps a.kind) = alts.flatMap fun a => kindDeps a.kind
  | [] => by rw [altsUnder]
  | .mk k c :: alts => by
    rw [altsUnder, List.flatMap_cons, List.flatMap_cons, under_altsDeps A alts]
    simp only [Alt.kind, under_kindDeps]

theorem under_fieldDeps (A : Answers) (f : Field) : fieldDeps (fieldUnder A f) = fieldDeps f := by
  cases f with
  | plain id k c => simp only [fieldUnder, fieldDeps, under_kindDeps]
  | maybe id k p => simp only [fieldUnder, fieldDeps, under_kindDeps, predUnder]
  | union id d alts c => simp only [fieldUnder, fieldDeps, under_deducerDeps, under_altsDeps]

mutual
theorem under_saneKind (A : Answers) : ∀ k, saneKind (kindUnder A k) = saneKind k
  | .num _ _ => by rw [kindUnder]
  | .fbuf _ _ => by rw [kindUnder]
  | .fstr _ => by rw [kindUnder]
  | .vec _ _ _ => by simp only [kindUnder, saneKind]
  | .record fs => by simp only [kindUnder, saneKind, under_saneFields A fs]
  | .arrRec fs n => by simp only [kindUnder, saneKind, under_saneFields A fs]
  | .vecRec fs _ _ _ => by simp only [kindUnder, saneKind, under_saneFields A fs]
theorem under_saneField (A : Answers) : ∀ f, saneField (fieldUnder A f) = saneField f
  | .plain _ k _ => by simp only [fieldUnder, saneField, under_saneKind A k]
  | .maybe _ k _ => by simp only [fieldUnder, saneField, under_saneKind A k]
  | .union _ d alts _ => by
      simp only [fieldUnder, saneField, under_saneAlts A alts, under_arity, under_altsLength]
theorem under_saneAlts (A : Answers) : ∀ alts, saneAlts (altsUnder A alts) = saneAlts alts
  | [] => by rw [altsUnder]
  | .mk k _ :: alts => by simp only [altsUnder, saneAlts, under_saneKind A k, under_saneAlts A alts]
theorem under_saneFields (A : Answers) : ∀ fs, saneFields (fieldsUnder A fs) = saneFields fs
  | [] => by rw [fieldsUnder]
  | f :: fs => by simp only [fieldsUnder, saneFields, under_saneField A f, under_saneFields A fs]
end

mutual
theorem under_uniqueKind (A : Answers) : ∀ k, uniqueKind (kindUnder A k) = uniqueKind k
  | .num _ _ => by rw [kindUnder]
  | .fbuf _ _ => by rw [kindUnder]
  | .fstr _ => by rw [kindUnder]
  | .vec _ _ _ => by simp only [kindUnder, uniqueKind]
  | .record fs => by simp only [kindUnder, uniqueKind, under_uniqueFields A fs]
  | .arrRec fs n => by simp only [kindUnder, uniqueKind, under_uniqueFields A fs]
  | .vecRec fs _ _ _ => by simp only [kindUnder, uniqueKind, under_uniqueFields A fs]
theorem under_uniqueField (A : Answers) : ∀ f, uniqueField (fieldUnder A f) = uniqueField f
  | .plain _ k _ => by simp only [fieldUnder, uniqueField, under_uniqueKind A k]
  | .maybe _ k _ => by simp only [fieldUnder, uniqueField, under_uniqueKind A k]
  | .union _ d alts _ => by simp only [fieldUnder, uniqueField, under_uniqueAlts A alts]
theorem under_uniqueAlts (A : Answers) : ∀ alts, uniqueAlts (altsUnder A alts) = uniqueAlts alts
  | [] => by rw [altsUnder]
  | .mk k _ :: alts => by simp only [altsUnder, uniqueAlts, under_uniqueKind A k, under_uniqueAlts A alts]
theorem under_uniqueFields (A : Answers) : ∀ fs seen, uniqueFields seen (fieldsUnder A fs) = uniqueFields seen fs
  | [], _ => by rw [fieldsUnder]
  | f :: fs, _ => by
      simp only [fieldsUnder, uniqueFields, under_uniqueField A f, under_uniqueFields A fs, fieldUnder_id]
end

mutual
theorem under_earlierKind (A : Answers) : ∀ k, earlierKind (kindUnder A k) = earlierKind k
  | .num _ _ => by rw [kindUnder]
  | .fbuf _ _ => by rw [kindUnder]
  | .fstr _ => by rw [kindUnder]
  | .vec _ _ _ => by simp only [kindUnder, earlierKind]
  | .record fs => by simp only [kindUnder, earlierKind, under_earlierFields A fs]
  | .arrRec fs n => by simp only [kindUnder, earlierKind, under_earlierFields A fs]
  | .vecRec fs _ _ _ => by simp only [kindUnder, earlierKind, under_earlierFields A fs]
theorem under_earlierField (A : Answers) : ∀ f, earlierField (fieldUnder A f) = earlierField f
  | .plain _ k _ => by simp only [fieldUnder, earlierField, under_earlierKind A k]
  | .maybe _ k _ => by simp only [fieldUnder, earlierField, under_earlierKind A k]
  | .union _ d alts _ => by simp only [fieldUnder, earlierField, under_earlierAlts A alts]
theorem under_earlierAlts (A : Answers) : ∀ alts, earlierAlts (altsUnder A alts) = earlierAlts alts
  | [] => by rw [altsUnder]
  | .mk k _ :: alts => by simp only [altsUnder, earlierAlts, under_earlierKind A k, under_earlierAlts A alts]
theorem under_earlierFields (A : Answers) : ∀ fs seen, earlierFields seen (fieldsUnder A fs) = earlierFields seen fs
  | [], _ => by rw [fieldsUnder]
  | f :: fs, _ => by
      simp only [fieldsUnder, earlierFields, under_earlierField A f, under_earlierFields A fs, fieldUnder_id,
        under_fieldDeps]
end

theorem under_wellFormed (A : Answers) (fs : List Field) : WellFormed (fieldsUnder A fs) ↔ WellFormed fs := by
  simp only [WellFormed, under_saneFields, under_uniqueFields, under_earlierFields]

/-! ### Encodings, values that fit -/

mutual
theorem under_wireKind (A : Answers) (o : Endian) : ∀ k v, wireKind o (kindUnder A k) v = wireKind o k v
  | .num _ _, _ => by rw [kindUnder]
  | .fbuf _ _, _ => by rw [kindUnder]
  | .fstr _, _ => by rw [kindUnder]
  | .vec _ _ _, v => by cases v <;> simp only [kindUnder, wireKind]
  | .record fs, v => by cases v <;> simp only [kindUnder, wireKind, under_wireFields A o fs]
  | .arrRec fs n, v => by cases v <;> simp only [kindUnder, wireKind, under_wireFields A o fs]
  | .vecRec fs _ _ _, v => by cases v <;> simp only [kindUnder, wireKind, under_wireFields A o fs]
theorem under_wireField (A : Answers) (o : Endian) : ∀ f v, wireField o (fieldUnder A f) v = wireField o f v
  | .plain _ k _, v => by simp only [fieldUnder, wireField, under_wireKind A o k]
  | .maybe _ k _, v => by cases v <;> simp only [fieldUnder, wireField, under_wireKind A o k]
  | .union _ _ alts _, v => by cases v <;> simp only [fieldUnder, wireField, under_wireAlts A o alts]
theorem under_wireAlts (A : Answers) (o : Endian) : ∀ alts i v, wireAlts o (altsUnder A alts) i v = wireAlts o alts i v
  | [], _, _ => by rw [altsUnder]
  | .mk k _ :: _, 0, v => by simp only [altsUnder, wireAlts, under_wireKind A o k]
  | .mk _ _ :: alts, i + 1, v => by simp only [altsUnder, wireAlts, under_wireAlts A o alts i v]
theorem under_wireFields (A : Answers) (o : Endian) : ∀ fs vs, wireFields o (fieldsUnder A fs) vs = wireFields o fs vs
  | [], _ => by rw [fieldsUnder]
  | f :: fs, [] => by simp only [fieldsUnder, wireFields]
  | f :: fs, v :: vs => by simp only [fieldsUnder, wireFields, under_wireField A o f, under_wireFields A o fs]
end

mutual
theorem under_fitsKind (A : Answers) (cfg : Cfg) : ∀ k v, FitsKind cfg (kindUnder A k) v ↔ FitsKind cfg k v
  | .num _ _, _ => by rw [kindUnder]
  | .fbuf _ _, _ => by rw [kindUnder]
  | .fstr _, _ => by rw [kindUnder]
  | .vec _ _ _, v => by cases v <;> simp only [kindUnder, FitsKind]
  | .record fs, v => by cases v <;> simp only [kindUnder, FitsKind, under_fitsFields A cfg fs]
  | .arrRec fs n, v => by cases v <;> simp only [kindUnder, FitsKind, under_fitsFields A cfg fs]
  | .vecRec fs _ _ _, v => by cases v <;> simp only [kindUnder, FitsKind, under_fitsFields A cfg fs]
theorem under_fitsField (A : Answers) (cfg : Cfg) : ∀ f v, FitsField cfg (fieldUnder A f) v ↔ FitsField cfg f v
  | .plain _ k _, v => by simp only [fieldUnder, FitsField, under_fitsKind A cfg k]
  | .maybe _ k _, v => by cases v <;> simp only [fieldUnder, FitsField, under_fitsKind A cfg k]
  | .union _ _ alts _, v => by cases v <;> simp only [fieldUnder, FitsField, under_fitsAlts A cfg alts]
theorem under_fitsAlts (A : Answers) (cfg : Cfg) : ∀ alts i v,
    FitsAlts cfg (altsUnder A alts) i v ↔ FitsAlts cfg alts i v
  | [], _, _ => by rw [altsUnder]
  | .mk k _ :: _, 0, v => by simp only [altsUnder, FitsAlts, under_fitsKind A cfg k]
  | .mk _ _ :: alts, i + 1, v => by simp only [altsUnder, FitsAlts, under_fitsAlts A cfg alts i v]
theorem under_fitsFields (A : Answers) (cfg : Cfg) : ∀ fs vs,
    FitsFields cfg (fieldsUnder A fs) vs ↔ FitsFields cfg fs vs
  | [], _ => by rw [fieldsUnder]
  | f :: fs, [] => by simp only [fieldsUnder, FitsFields]
  | f :: fs, v :: vs => by simp only [fieldsUnder, FitsFields, under_fitsField A cfg f, under_fitsFields A cfg fs]
end

/-! ### Settling -/

theorem under_isSlot (A : Answers) (id : String) : ∀ fs, isSlot (fieldsUnder A fs) id = isSlot fs id
  | [] => by rw [fieldsUnder]
  | f :: fs => by
    have ih := under_isSlot A id fs
    rw [fieldsUnder]
    unfold isSlot at ih ⊢
    rw [List.any_cons, List.any_cons, ih]
    congr 1
    cases f with
    | plain i k c => simp only [fieldUnder, under_lenTarget]
    | maybe i k p => rw [fieldUnder]
    | union i d alts c => cases d <;> simp only [fieldUnder, deducerUnder]

theorem under_produced (A : Answers) (t : String) (f : Field) (v : Val) :
    produced t (fieldUnder A f) v = produced t f v := by
  cases f with
  | plain id k c => cases v <;> simp only [fieldUnder, produced, under_lenTarget]
  | maybe id k p => cases v <;> simp only [fieldUnder, produced]
  | union id d alts c => cases d <;> cases v <;> simp only [fieldUnder, deducerUnder, produced]

theorem under_producers (A : Answers) (t : String) : ∀ fs vs, producers t (fieldsUnder A fs) vs = producers t fs vs
  | [], _ => by rw [fieldsUnder]
  | f :: fs, [] => by simp only [fieldsUnder, producers]
  | f :: fs, v :: vs => by simp only [fieldsUnder, producers, under_produced, under_producers A t fs vs]

theorem under_slotValue (A : Answers) (fs : List Field) (vs : List Val) (t : String) :
    slotValue (fieldsUnder A fs) vs t = slotValue fs vs t := by
  rw [slotValue, slotValue, under_producers]

theorem under_constOf (A : Answers) (k : Kind) (c : Constraint) :
    constOf (kindUnder A k) (constraintUnder A c) = constOf k c := by
  cases k <;> cases c <;> simp only [kindUnder, constraintUnder, constOf]

mutual
theorem under_settleKind (A : Answers) : ∀ k v, settleKind (kindUnder A k) v = settleKind k v
  | .num _ _, _ => by rw [kindUnder]
  | .fbuf _ _, _ => by rw [kindUnder]
  | .fstr _, _ => by rw [kindUnder]
  | .vec _ _ _, v => by cases v <;> simp only [kindUnder, settleKind]
  | .record fs, v => by cases v <;> simp only [kindUnder, settleKind, under_settleFields A fs fs]
  | .arrRec fs n, v => by cases v <;> simp only [kindUnder, settleKind, under_settleFields A fs fs]
  | .vecRec fs _ _ _, v => by cases v <;> simp only [kindUnder, settleKind, under_settleFields A fs fs]
theorem under_settleField (A : Answers) : ∀ f all vals v,
    settleField (fieldsUnder A all) vals (fieldUnder A f) v = settleField all vals f v
  | .plain _ k _, all, vals, v => by
      simp only [fieldUnder, settleField, under_isSlot, under_slotValue, under_constOf, under_settleKind A k]
  | .maybe _ k _, all, vals, v => by cases v <;> simp only [fieldUnder, settleField, under_settleKind A k]
  | .union _ _ alts _, all, vals, v => by cases v <;> simp only [fieldUnder, settleField, under_settleAlts A alts]
theorem under_settleAlts (A : Answers) : ∀ alts i v, settleAlts (altsUnder A alts) i v = settleAlts alts i v
  | [], _, _ => by rw [altsUnder]
  | .mk k _ :: _, 0, v => by simp only [altsUnder, settleAlts, under_settleKind A k]
  | .mk _ _ :: alts, i + 1, v => by simp only [altsUnder, settleAlts, under_settleAlts A alts i v]
theorem under_settleFields (A : Answers) : ∀ fs all vals vs,
    settleFields (fieldsUnder A all) vals (fieldsUnder A fs) vs = settleFields all vals fs vs
  | [], _, _, _ => by simp only [fieldsUnder, settleFields]
  | f :: fs, _, _, [] => by simp only [fieldsUnder, settleFields]
  | f :: fs, all, vals, v :: vs => by
      simp only [fieldsUnder, settleFields, under_settleField A f, under_settleFields A fs]
end

theorem under_settle (A : Answers) (fs : List Field) (vs : List Val) : settle (fieldsUnder A fs) vs = settle fs vs :=
  under_settleFields A fs fs vs vs

mutual
theorem under_storableKind (A : Answers) (cfg : Cfg) : ∀ k v,
    StorableKind cfg (kindUnder A k) v ↔ StorableKind cfg k v
  | .num _ _, _ => by rw [kindUnder]
  | .fbuf _ _, _ => by rw [kindUnder]
  | .fstr _, _ => by rw [kindUnder]
  | .vec _ _ _, v => by cases v <;> simp only [kindUnder, StorableKind, FitsKind]
  | .record fs, v => by cases v <;> simp only [kindUnder, StorableKind, under_storableFields A cfg fs fs]
  | .arrRec fs n, v => by cases v <;> simp only [kindUnder, StorableKind, under_storableFields A cfg fs fs]
  | .vecRec fs _ _ _, v => by cases v <;> simp only [kindUnder, StorableKind, under_storableFields A cfg fs fs]
theorem under_storableField (A : Answers) (cfg : Cfg) : ∀ f all v,
    StorableField cfg (fieldsUnder A all) (fieldUnder A f) v ↔ StorableField cfg all f v
  | .plain _ k _, all, v => by
      simp only [fieldUnder, StorableField, under_isSlot, under_constOf, under_storableKind A cfg k]
  | .maybe _ k _, all, v => by cases v <;> simp only [fieldUnder, StorableField, under_storableKind A cfg k]
  | .union _ _ alts _, all, v => by cases v <;> simp only [fieldUnder, StorableField, under_storableAlts A cfg alts]
theorem under_storableAlts (A : Answers) (cfg : Cfg) : ∀ alts i v,
    StorableAlts cfg (altsUnder A alts) i v ↔ StorableAlts cfg alts i v
  | [], _, _ => by rw [altsUnder]
  | .mk k _ :: _, 0, v => by simp only [altsUnder, StorableAlts, under_storableKind A cfg k]
  | .mk _ _ :: alts, i + 1, v => by simp only [altsUnder, StorableAlts, under_storableAlts A cfg alts i v]
theorem under_storableFields (A : Answers) (cfg : Cfg) : ∀ fs all vs,
    StorableFields cfg (fieldsUnder A all) (fieldsUnder A fs) vs ↔ StorableFields cfg all fs vs
  | [], _, vs => by cases vs <;> simp only [fieldsUnder, StorableFields]
  | f :: fs, _, [] => by simp only [fieldsUnder, StorableFields]
  | f :: fs, all, v :: vs => by
      simp only [fieldsUnder, StorableFields, under_storableField A cfg f, under_storableFields A cfg fs]
end

theorem under_storable (A : Answers) (cfg : Cfg) (fs : List Field) (vs : List Val) :
    Storable cfg (fieldsUnder A fs) vs ↔ Storable cfg fs vs := under_storableFields A cfg fs fs vs

/-! ### Conditions on every list -/

mutual
theorem under_everyKind (A : Answers) {P Q : List Field → Prop} (h : ∀ fs, P fs → Q (fieldsUnder A fs)) : ∀ k,
    EveryKind P k → EveryKind Q (kindUnder A k)
  | .num _ _, _ => by simp only [kindUnder, EveryKind]
  | .fbuf _ _, _ => by simp only [kindUnder, EveryKind]
  | .fstr _, _ => by simp only [kindUnder, EveryKind]
  | .vec _ _ _, _ => by simp only [kindUnder, EveryKind]
  | .record fs, hk => by
      simp only [kindUnder, EveryKind] at hk ⊢
      exact ⟨h _ hk.1, under_everyFields A h fs hk.2⟩
  | .arrRec fs n, hk => by
      simp only [kindUnder, EveryKind] at hk ⊢
      exact ⟨h _ hk.1, under_everyFields A h fs hk.2⟩
  | .vecRec fs _ _ _, hk => by
      simp only [kindUnder, EveryKind] at hk ⊢
      exact ⟨h _ hk.1, under_everyFields A h fs hk.2⟩
theorem under_everyField (A : Answers) {P Q : List Field → Prop} (h : ∀ fs, P fs → Q (fieldsUnder A fs)) : ∀ f,
    EveryField P f → EveryField Q (fieldUnder A f)
  | .plain _ k _, hk => by
      simp only [fieldUnder, EveryField] at hk ⊢
      exact under_everyKind A h k hk
  | .maybe _ k _, hk => by
      simp only [fieldUnder, EveryField] at hk ⊢
      exact under_everyKind A h k hk
  | .union _ _ alts _, hk => by
      simp only [fieldUnder, EveryField] at hk ⊢
      exact under_everyAlts A h alts hk
theorem under_everyAlts (A : Answers) {P Q : List Field → Prop} (h : ∀ fs, P fs → Q (fieldsUnder A fs)) : ∀ alts,
    EveryAlts P alts → EveryAlts Q (altsUnder A alts)
  | [], _ => by simp only [altsUnder, EveryAlts]
  | .mk k _ :: alts, hk => by
      simp only [altsUnder, EveryAlts] at hk ⊢
      exact ⟨under_everyKind A h k hk.1, under_everyAlts A h alts hk.2⟩
theorem under_everyFields (A : Answers) {P Q : List Field → Prop} (h : ∀ fs, P fs → Q (fieldsUnder A fs)) : ∀ fs,
    EveryFields P fs → EveryFields Q (fieldsUnder A fs)
  | [], _ => by simp only [fieldsUnder, EveryFields]
  | f :: fs, hk => by
      simp only [fieldsUnder, EveryFields] at hk ⊢
      exact ⟨under_everyField A h f hk.1, under_everyFields A h fs hk.2⟩
end

theorem mem_fieldsUnder {A : Answers} {g : Field} : ∀ {fs : List Field}, g ∈ fieldsUnder A fs ↔
    ∃ f ∈ fs, g = fieldUnder A f
  | [] => by simp [fieldsUnder]
  | f :: fs => by
    rw [fieldsUnder, List.mem_cons, mem_fieldsUnder]
    simp

theorem mem_altsUnder {A : Answers} {b : Alt} : ∀ {alts : List Alt}, b ∈ altsUnder A alts ↔
    ∃ a ∈ alts, b = .mk (kindUnder A a.kind) (constraintUnder A a.constraint)
  | [] => by simp [altsUnder]
  | .mk k c :: alts => by
    rw [altsUnder, List.mem_cons, mem_altsUnder]
    simp

theorem under_hasScalar (A : Answers) {fs : List Field} {id : String} {p : ScalarTy → Nat → Prop}
    (h : HasScalar fs id p) : HasScalar (fieldsUnder A fs) id p := by
  obtain ⟨f, hf, hp⟩ := h
  refine ⟨fieldUnder A f, mem_fieldsUnder.2 ⟨f, hf, rfl⟩, ?_⟩
  cases f with
  | plain i k c =>
    cases k with
    | num t w => simp only [fieldUnder, kindUnder]; exact hp
    | _ => exact hp.elim
  | _ => exact hp.elim

theorem under_lengthTargets (A : Answers) (f : Field) : lengthTargets (fieldUnder A f) = lengthTargets f := by
  cases f with
  | plain i k c => simp only [fieldUnder, lengthTargets, under_lenTarget]
  | maybe i k p => simp only [fieldUnder, lengthTargets, under_lenTarget]
  | union i d alts c =>
    simp only [fieldUnder, lengthTargets]
    induction alts with
    | nil => rw [altsUnder]
    | cons a alts ih =>
      obtain ⟨k, c'⟩ := a
      rw [altsUnder, List.flatMap_cons, List.flatMap_cons, ih]
      simp only [Alt.kind, under_lenTarget]

theorem under_resolves (A : Answers) {fs : List Field} (h : Resolves fs) : Resolves (fieldsUnder A fs) := by
  intro g hg
  obtain ⟨f, hf, rfl⟩ := mem_fieldsUnder.1 hg
  have hf' := h f hf
  refine ⟨fun id hid => under_hasScalar A (hf'.1 id (by rwa [under_lengthTargets] at hid)), ?_⟩
  cases f with
  | plain i k c => simp only [fieldUnder]
  | maybe i k p => simp only [fieldUnder]
  | union i d alts c =>
    cases d with
    | matchField j t ls => simp only [fieldUnder, deducerUnder]; exact under_hasScalar A hf'.2
    | _ => simp only [fieldUnder, deducerUnder]

theorem under_goodLabels (A : Answers) {cfg : Cfg} {fs : List Field} (h : GoodLabels cfg fs) :
    GoodLabels cfg (fieldsUnder A fs) := by
  intro g hg
  obtain ⟨f, hf, rfl⟩ := mem_fieldsUnder.1 hg
  have hf' := h f hf
  cases f with
  | plain i k c => simp only [fieldUnder]
  | maybe i k p => simp only [fieldUnder]
  | union i d alts c =>
    cases d with
    | matchField j t ls => simp only [fieldUnder, deducerUnder]; exact hf'
    | _ => simp only [fieldUnder, deducerUnder]

theorem under_goodConsts (A : Answers) {cfg : Cfg} {fs : List Field} (h : GoodConsts cfg fs) :
    GoodConsts cfg (fieldsUnder A fs) := by
  intro g hg
  obtain ⟨f, hf, rfl⟩ := mem_fieldsUnder.1 hg
  have hf' := h f hf
  cases f with
  | plain i k c =>
    simp only [fieldUnder, under_constOf]
    intro u hu
    refine ⟨(under_fitsKind A cfg k u).2 (hf' u hu).1, ?_⟩
    have := (hf' u hu).2
    cases c with
    | user f => cases k <;> simp [constOf] at hu
    | _ => exact this
  | maybe i k p => simp only [fieldUnder]
  | union i d alts c => simp only [fieldUnder]

theorem under_wideSlots (A : Answers) {cfg : Cfg} {fs : List Field} (h : WideSlots cfg fs) :
    WideSlots cfg (fieldsUnder A fs) := by
  intro g hg
  obtain ⟨f, hf, rfl⟩ := mem_fieldsUnder.1 hg
  have hf' := h f hf
  cases f with
  | plain i k c =>
    cases k with
    | num t w => simp only [fieldUnder, kindUnder, under_isSlot]; exact hf'
    | _ => simp only [fieldUnder, kindUnder]
  | maybe i k p => simp only [fieldUnder]
  | union i d alts c => simp only [fieldUnder]

theorem under_clean (A : Answers) (fs : List Field) (h : Clean fs) : Clean (fieldsUnder A fs) := by
  intro g hg
  obtain ⟨f, hf, rfl⟩ := mem_fieldsUnder.1 hg
  have hf' := h f hf
  cases f with
  | plain i k c => simp only [fieldUnder, under_isSlot, under_constOf]; exact hf'
  | maybe i k p => simp only [fieldUnder]
  | union i d alts c => simp only [fieldUnder]

theorem under_cleanField (A : Answers) {fs : List Field} {f : Field} (h : CleanField fs f) :
    CleanField (fieldsUnder A fs) (fieldUnder A f) := by
  refine ⟨under_everyField A (under_clean A) f h.1, ?_⟩
  have h2 := h.2
  cases f with
  | plain i k c => simp only [fieldUnder, under_isSlot, under_constOf]; exact h2
  | maybe i k p => simp only [fieldUnder]
  | union i d alts c => simp only [fieldUnder]

theorem under_computedIds (A : Answers) (k : Kind) :
    callableReads.computedIds (kindUnder A k) = callableReads.computedIds k := by
  cases k with
  | vec e len b => rw [kindUnder]; cases len <;> rfl
  | vecRec fs len b sz => rw [kindUnder]; cases len <;> rfl
  | _ => rw [kindUnder] <;> rfl

theorem under_callableReads (A : Answers) (f : Field) : callableReads (fieldUnder A f) = callableReads f := by
  cases f with
  | plain i k c => simp only [fieldUnder, callableReads, under_computedIds]
  | maybe i k p => simp only [fieldUnder, callableReads, under_computedIds, predUnder]
  | union i d alts c =>
    have ha : (altsUnder A alts).flatMap (fun a => callableReads.computedIds a.kind) =
        alts.flatMap fun a => callableReads.computedIds a.kind := by
      induction alts with
      | nil => rw [altsUnder]
      | cons a alts ih =>
        obtain ⟨k, c'⟩ := a
        rw [altsUnder, List.flatMap_cons, List.flatMap_cons, ih]
        simp only [Alt.kind, under_computedIds]
    simp only [fieldUnder, callableReads, ha]
    congr 1
    cases d with
    | ladder ps => simp only [deducerUnder, List.flatMap_map]; rfl
    | _ => rfl

theorem under_noStale (A : Answers) {fs : List Field} (h : NoStale fs) : NoStale (fieldsUnder A fs) := by
  intro g hg
  obtain ⟨f, hf, rfl⟩ := mem_fieldsUnder.1 hg
  have hf' := h f hf
  refine ⟨?_, ?_⟩
  · intro id hid g' hg' hgi
    rw [under_callableReads] at hid
    obtain ⟨f', hff, rfl⟩ := mem_fieldsUnder.1 hg'
    exact under_cleanField A (hf'.1 id hid f' hff (by rwa [fieldUnder_id] at hgi))
  · have h2 := hf'.2
    cases f with
    | plain i k c =>
      simp only [fieldUnder]
      cases c with
      | none => trivial
      | _ => exact under_everyKind A (under_clean A) k h2
    | maybe i k p => simp only [fieldUnder]
    | union i d alts c =>
      simp only [fieldUnder]
      refine ⟨?_, ?_⟩
      · have h3 := h2.1
        cases c with
        | none => trivial
        | _ => exact under_everyAlts A (under_clean A) alts h3
      · intro b hb
        obtain ⟨a, ha, rfl⟩ := mem_altsUnder.1 hb
        have h3 := h2.2 a ha
        obtain ⟨k, c'⟩ := a
        simp only [Alt.constraint, Alt.kind] at h3 ⊢
        cases c' with
        | none => trivial
        | _ => exact under_everyKind A (under_clean A) k h3

theorem under_selfConsistent (A : Answers) {cfg : Cfg} {fs : List Field} (h : SelfConsistent cfg fs) :
    SelfConsistent cfg (fieldsUnder A fs) := by
  have hp : ∀ gs, (Resolves gs ∧ GoodLabels cfg gs ∧ GoodConsts cfg gs ∧ WideSlots cfg gs ∧ NoStale gs) →
      (Resolves (fieldsUnder A gs) ∧ GoodLabels cfg (fieldsUnder A gs) ∧ GoodConsts cfg (fieldsUnder A gs) ∧
        WideSlots cfg (fieldsUnder A gs) ∧ NoStale (fieldsUnder A gs)) := by
    rintro gs ⟨h1, h2, h3, h4, h5⟩
    exact ⟨under_resolves A h1, under_goodLabels A h2, under_goodConsts A h3, under_wideSlots A h4,
      under_noStale A h5⟩
  exact ⟨(under_wellFormed A fs).2 h.1, hp _ h.2.1, under_everyFields A hp fs h.2.2⟩

end S2S
