import Verif.Spec.Settle
/-
The conditions of `Verif/Spec/Format.lean` and `Verif/Spec/Settle.lean` can be decided
on concrete schemas and values; the examples beside the theorems use this.
-/
namespace S2S.Spec

deriving instance DecidableEq for Except

instance (o : Endian) (t : ScalarTy) (w : Nat) (x : Int) : Decidable (ScalarFits o t w x) := by
  unfold ScalarFits
  cases o <;> infer_instance

def decElemFits : (e : ElemTy) → (v : Val) → Decidable (ElemFits e v)
  | .scalar t, .int x => decidable_of_iff (t.InRange x) (by rw [ElemFits])
  | .arr e n, .seq vs =>
      have : DecidablePred (ElemFits e) := decElemFits e
      decidable_of_iff (vs.length = n ∧ ∀ v ∈ vs, ElemFits e v) (by rw [ElemFits])
  | .scalar _, .seq _ => .isFalse (by simp [ElemFits])
  | .scalar _, .absent => .isFalse (by simp [ElemFits])
  | .scalar _, .present _ => .isFalse (by simp [ElemFits])
  | .scalar _, .var _ _ => .isFalse (by simp [ElemFits])
  | .arr _ _, .int _ => .isFalse (by simp [ElemFits])
  | .arr _ _, .absent => .isFalse (by simp [ElemFits])
  | .arr _ _, .present _ => .isFalse (by simp [ElemFits])
  | .arr _ _, .var _ _ => .isFalse (by simp [ElemFits])

instance (e : ElemTy) : DecidablePred (ElemFits e) := decElemFits e

instance (cfg : Cfg) (b : Option Nat) (s n : Nat) : Decidable (StorageFits cfg b s n) := by
  unfold StorageFits; infer_instance

instance (c : Constraint) (v : Val) : Decidable (Holds c v) := by
  unfold Holds; infer_instance

def decSeq (P : List Val → Prop) (h : ∀ ws, Decidable (P ws)) :
    (v : Val) → Decidable (∃ ws, v = .seq ws ∧ P ws)
  | .seq ws => @decidable_of_iff _ (P ws) (by simp) (h ws)
  | .int _ => .isFalse (by simp)
  | .absent => .isFalse (by simp)
  | .present _ => .isFalse (by simp)
  | .var _ _ => .isFalse (by simp)

def decSeqs (P : List Val → Prop) (h : ∀ ws, Decidable (P ws)) (vs : List Val) :
    Decidable (∀ v ∈ vs, ∃ ws, v = .seq ws ∧ P ws) :=
  have : DecidablePred fun v => ∃ ws, v = Val.seq ws ∧ P ws := decSeq P h
  inferInstance

/-! ### Fits -/

mutual
def decFitsKind (cfg : Cfg) : (k : Kind) → (v : Val) → Decidable (FitsKind cfg k v)
  | .num t w, v => match v with
      | .int x => decidable_of_iff (ScalarFits cfg.wire t w x) (by rw [FitsKind])
      | .seq _ => .isFalse (by simp [FitsKind])
      | .absent => .isFalse (by simp [FitsKind])
      | .present _ => .isFalse (by simp [FitsKind])
      | .var _ _ => .isFalse (by simp [FitsKind])
  | .fbuf e n, v => match v with
      | .seq vs => decidable_of_iff (vs.length = n ∧ ∀ v ∈ vs, ElemFits e v) (by rw [FitsKind])
      | .int _ => .isFalse (by simp [FitsKind])
      | .absent => .isFalse (by simp [FitsKind])
      | .present _ => .isFalse (by simp [FitsKind])
      | .var _ _ => .isFalse (by simp [FitsKind])
  | .fstr n, v => match v with
      | .seq vs => decidable_of_iff (vs.length = n + 1 ∧ ∀ v ∈ vs, ElemFits (.scalar u8) v)
          (by rw [FitsKind])
      | .int _ => .isFalse (by simp [FitsKind])
      | .absent => .isFalse (by simp [FitsKind])
      | .present _ => .isFalse (by simp [FitsKind])
      | .var _ _ => .isFalse (by simp [FitsKind])
  | .vec e len b, v => match v with
      | .seq vs => decidable_of_iff
          (StorageFits cfg b e.size vs.length ∧ ∀ v ∈ vs, ElemFits e v) (by rw [FitsKind])
      | .int _ => .isFalse (by simp [FitsKind])
      | .absent => .isFalse (by simp [FitsKind])
      | .present _ => .isFalse (by simp [FitsKind])
      | .var _ _ => .isFalse (by simp [FitsKind])
  | .record fs, v => match v with
      | .seq vs => @decidable_of_iff _ (FitsFields cfg fs vs) (by rw [FitsKind])
          (decFitsFields cfg fs vs)
      | .int _ => .isFalse (by simp [FitsKind])
      | .absent => .isFalse (by simp [FitsKind])
      | .present _ => .isFalse (by simp [FitsKind])
      | .var _ _ => .isFalse (by simp [FitsKind])
  | .arrRec fs n, v => match v with
      | .seq vs => @decidable_of_iff _
          (vs.length = n ∧ ∀ v ∈ vs, ∃ ws, v = .seq ws ∧ FitsFields cfg fs ws) (by rw [FitsKind])
          (@instDecidableAnd _ _ _ (decSeqs _ (fun ws => decFitsFields cfg fs ws) vs))
      | .int _ => .isFalse (by simp [FitsKind])
      | .absent => .isFalse (by simp [FitsKind])
      | .present _ => .isFalse (by simp [FitsKind])
      | .var _ _ => .isFalse (by simp [FitsKind])
  | .vecRec fs len b sz, v => match v with
      | .seq vs => @decidable_of_iff _
          (StorageFits cfg b sz vs.length ∧
            ∀ v ∈ vs, ∃ ws, v = .seq ws ∧ FitsFields cfg fs ws) (by rw [FitsKind])
          (@instDecidableAnd _ _ _ (decSeqs _ (fun ws => decFitsFields cfg fs ws) vs))
      | .int _ => .isFalse (by simp [FitsKind])
      | .absent => .isFalse (by simp [FitsKind])
      | .present _ => .isFalse (by simp [FitsKind])
      | .var _ _ => .isFalse (by simp [FitsKind])
def decFitsField (cfg : Cfg) : (f : Field) → (v : Val) → Decidable (FitsField cfg f v)
  | .plain _ k _, v => @decidable_of_iff _ (FitsKind cfg k v) (by rw [FitsField])
      (decFitsKind cfg k v)
  | .maybe _ k _, v => match v with
      | .absent => .isTrue (by rw [FitsField]; trivial)
      | .present v => @decidable_of_iff _ (FitsKind cfg k v) (by rw [FitsField])
          (decFitsKind cfg k v)
      | .int _ => .isFalse (by simp [FitsField])
      | .seq _ => .isFalse (by simp [FitsField])
      | .var _ _ => .isFalse (by simp [FitsField])
  | .union _ _ alts _, v => match v with
      | .var i v => @decidable_of_iff _ (FitsAlts cfg alts i v) (by rw [FitsField])
          (decFitsAlts cfg alts i v)
      | .int _ => .isFalse (by simp [FitsField])
      | .seq _ => .isFalse (by simp [FitsField])
      | .absent => .isFalse (by simp [FitsField])
      | .present _ => .isFalse (by simp [FitsField])
def decFitsAlts (cfg : Cfg) : (alts : List Alt) → (i : Nat) → (v : Val) →
    Decidable (FitsAlts cfg alts i v)
  | [], _, _ => .isFalse (by simp [FitsAlts])
  | .mk k _ :: _, 0, v => @decidable_of_iff _ (FitsKind cfg k v) (by rw [FitsAlts])
      (decFitsKind cfg k v)
  | .mk _ _ :: alts, i + 1, v => @decidable_of_iff _ (FitsAlts cfg alts i v) (by rw [FitsAlts])
      (decFitsAlts cfg alts i v)
def decFitsFields (cfg : Cfg) : (fs : List Field) → (vs : List Val) →
    Decidable (FitsFields cfg fs vs)
  | [], [] => .isTrue (by rw [FitsFields]; trivial)
  | f :: fs, v :: vs => @decidable_of_iff _ (FitsField cfg f v ∧ FitsFields cfg fs vs)
      (by rw [FitsFields]) (@instDecidableAnd _ _ (decFitsField cfg f v) (decFitsFields cfg fs vs))
  | [], _ :: _ => .isFalse (by simp [FitsFields])
  | _ :: _, [] => .isFalse (by simp [FitsFields])
end

instance (cfg : Cfg) (k : Kind) (v : Val) : Decidable (FitsKind cfg k v) := decFitsKind cfg k v
instance (cfg : Cfg) (fs : List Field) (vs : List Val) : Decidable (FitsFields cfg fs vs) :=
  decFitsFields cfg fs vs

/-! ### Storable -/

mutual
def decStorableKind (cfg : Cfg) : (k : Kind) → (v : Val) → Decidable (StorableKind cfg k v)
  | .num t w, v => decidable_of_iff (FitsKind cfg (.num t w) v) (by rw [StorableKind])
  | .fbuf e n, v => decidable_of_iff (FitsKind cfg (.fbuf e n) v) (by rw [StorableKind])
  | .fstr n, v => decidable_of_iff (FitsKind cfg (.fstr n) v) (by rw [StorableKind])
  | .vec e len b, v => decidable_of_iff (FitsKind cfg (.vec e len b) v) (by rw [StorableKind])
  | .record fs, v => match v with
      | .seq vs => @decidable_of_iff _ (StorableFields cfg fs fs vs) (by rw [StorableKind])
          (decStorableFields cfg fs fs vs)
      | .int _ => .isFalse (by simp [StorableKind])
      | .absent => .isFalse (by simp [StorableKind])
      | .present _ => .isFalse (by simp [StorableKind])
      | .var _ _ => .isFalse (by simp [StorableKind])
  | .arrRec fs n, v => match v with
      | .seq vs => @decidable_of_iff _
          (vs.length = n ∧ ∀ v ∈ vs, ∃ ws, v = .seq ws ∧ StorableFields cfg fs fs ws)
          (by rw [StorableKind])
          (@instDecidableAnd _ _ _ (decSeqs _ (fun ws => decStorableFields cfg fs fs ws) vs))
      | .int _ => .isFalse (by simp [StorableKind])
      | .absent => .isFalse (by simp [StorableKind])
      | .present _ => .isFalse (by simp [StorableKind])
      | .var _ _ => .isFalse (by simp [StorableKind])
  | .vecRec fs len b sz, v => match v with
      | .seq vs => @decidable_of_iff _
          (StorageFits cfg b sz vs.length ∧
            ∀ v ∈ vs, ∃ ws, v = .seq ws ∧ StorableFields cfg fs fs ws) (by rw [StorableKind])
          (@instDecidableAnd _ _ _ (decSeqs _ (fun ws => decStorableFields cfg fs fs ws) vs))
      | .int _ => .isFalse (by simp [StorableKind])
      | .absent => .isFalse (by simp [StorableKind])
      | .present _ => .isFalse (by simp [StorableKind])
      | .var _ _ => .isFalse (by simp [StorableKind])
def decStorableField (cfg : Cfg) (all : List Field) : (f : Field) → (v : Val) →
    Decidable (StorableField cfg all f v)
  | .plain id k c, v => @decidable_of_iff _
      (isSlot all id = true ∨ (constOf k c).isSome = true ∨ StorableKind cfg k v)
      (by rw [StorableField])
      (@instDecidableOr _ _ _ (@instDecidableOr _ _ _ (decStorableKind cfg k v)))
  | .maybe _ k _, v => match v with
      | .absent => .isTrue (by rw [StorableField]; trivial)
      | .present v => @decidable_of_iff _ (StorableKind cfg k v) (by rw [StorableField])
          (decStorableKind cfg k v)
      | .int _ => .isFalse (by simp [StorableField])
      | .seq _ => .isFalse (by simp [StorableField])
      | .var _ _ => .isFalse (by simp [StorableField])
  | .union _ _ alts _, v => match v with
      | .var i v => @decidable_of_iff _ (StorableAlts cfg alts i v) (by rw [StorableField])
          (decStorableAlts cfg alts i v)
      | .int _ => .isFalse (by simp [StorableField])
      | .seq _ => .isFalse (by simp [StorableField])
      | .absent => .isFalse (by simp [StorableField])
      | .present _ => .isFalse (by simp [StorableField])
def decStorableAlts (cfg : Cfg) : (alts : List Alt) → (i : Nat) → (v : Val) →
    Decidable (StorableAlts cfg alts i v)
  | [], _, _ => .isFalse (by simp [StorableAlts])
  | .mk k _ :: _, 0, v => @decidable_of_iff _ (StorableKind cfg k v) (by rw [StorableAlts])
      (decStorableKind cfg k v)
  | .mk _ _ :: alts, i + 1, v => @decidable_of_iff _ (StorableAlts cfg alts i v)
      (by rw [StorableAlts]) (decStorableAlts cfg alts i v)
def decStorableFields (cfg : Cfg) (all : List Field) : (fs : List Field) → (vs : List Val) →
    Decidable (StorableFields cfg all fs vs)
  | [], [] => .isTrue (by rw [StorableFields]; trivial)
  | f :: fs, v :: vs => @decidable_of_iff _
      (StorableField cfg all f v ∧ StorableFields cfg all fs vs)
      (by rw [StorableFields])
      (@instDecidableAnd _ _ (decStorableField cfg all f v) (decStorableFields cfg all fs vs))
  | [], _ :: _ => .isFalse (by simp [StorableFields])
  | _ :: _, [] => .isFalse (by simp [StorableFields])
end

instance (cfg : Cfg) (fs : List Field) (vs : List Val) : Decidable (Storable cfg fs vs) :=
  decStorableFields cfg fs fs vs

/-! ### Constraints and shape -/

mutual
def decOkKind : (k : Kind) → (v : Val) → Decidable (OkKind k v)
  | .num _ _, v => .isTrue (by cases v <;> simp [OkKind])
  | .fbuf _ _, v => .isTrue (by cases v <;> simp [OkKind])
  | .fstr _, v => .isTrue (by cases v <;> simp [OkKind])
  | .vec _ _ _, v => .isTrue (by cases v <;> simp [OkKind])
  | .record fs, v => match v with
      | .seq vs => @decidable_of_iff _ (OkFields fs vs) (by rw [OkKind]) (decOkFields fs vs)
      | .int _ => .isTrue (by simp [OkKind])
      | .absent => .isTrue (by simp [OkKind])
      | .present _ => .isTrue (by simp [OkKind])
      | .var _ _ => .isTrue (by simp [OkKind])
  | .arrRec fs n, v => match v with
      | .seq vs => @decidable_of_iff _ (∀ v ∈ vs, ∃ ws, v = .seq ws ∧ OkFields fs ws)
          (by rw [OkKind]) (decSeqs _ (fun ws => decOkFields fs ws) vs)
      | .int _ => .isTrue (by simp [OkKind])
      | .absent => .isTrue (by simp [OkKind])
      | .present _ => .isTrue (by simp [OkKind])
      | .var _ _ => .isTrue (by simp [OkKind])
  | .vecRec fs len b sz, v => match v with
      | .seq vs => @decidable_of_iff _ (∀ v ∈ vs, ∃ ws, v = .seq ws ∧ OkFields fs ws)
          (by rw [OkKind]) (decSeqs _ (fun ws => decOkFields fs ws) vs)
      | .int _ => .isTrue (by simp [OkKind])
      | .absent => .isTrue (by simp [OkKind])
      | .present _ => .isTrue (by simp [OkKind])
      | .var _ _ => .isTrue (by simp [OkKind])
def decOkField : (f : Field) → (v : Val) → Decidable (OkField f v)
  | .plain _ k c, v => @decidable_of_iff _ (OkKind k v ∧ Holds c v) (by rw [OkField])
      (@instDecidableAnd _ _ (decOkKind k v) _)
  | .maybe _ k _, v => match v with
      | .present v => @decidable_of_iff _ (OkKind k v) (by rw [OkField]) (decOkKind k v)
      | .absent => .isTrue (by simp [OkField])
      | .int _ => .isTrue (by simp [OkField])
      | .seq _ => .isTrue (by simp [OkField])
      | .var _ _ => .isTrue (by simp [OkField])
  | .union _ _ alts c, v => match v with
      | .var i v => @decidable_of_iff _ (OkAlts alts i v ∧ Holds c (.var i v)) (by rw [OkField])
          (@instDecidableAnd _ _ (decOkAlts alts i v) _)
      | .int _ => .isTrue (by simp [OkField])
      | .seq _ => .isTrue (by simp [OkField])
      | .absent => .isTrue (by simp [OkField])
      | .present _ => .isTrue (by simp [OkField])
def decOkAlts : (alts : List Alt) → (i : Nat) → (v : Val) → Decidable (OkAlts alts i v)
  | [], _, _ => .isFalse (by simp [OkAlts])
  | .mk k c :: _, 0, v => @decidable_of_iff _ (OkKind k v ∧ Holds c v) (by rw [OkAlts])
      (@instDecidableAnd _ _ (decOkKind k v) _)
  | .mk _ _ :: alts, i + 1, v => @decidable_of_iff _ (OkAlts alts i v) (by rw [OkAlts])
      (decOkAlts alts i v)
def decOkFields : (fs : List Field) → (vs : List Val) → Decidable (OkFields fs vs)
  | f :: fs, v :: vs => @decidable_of_iff _ (OkField f v ∧ OkFields fs vs)
      (by rw [OkFields]) (@instDecidableAnd _ _ (decOkField f v) (decOkFields fs vs))
  | [], _ => .isTrue (by simp [OkFields])
  | _ :: _, [] => .isTrue (by simp [OkFields])
end

mutual
def decShapedKind (cfg : Cfg) (env : Env) : (k : Kind) → (v : Val) →
    Decidable (ShapedKind cfg env k v)
  | .num _ _, v => .isTrue (by cases v <;> simp [ShapedKind])
  | .fbuf _ _, v => .isTrue (by cases v <;> simp [ShapedKind])
  | .fstr _, v => .isTrue (by cases v <;> simp [ShapedKind])
  | .vec _ len _, v => match v with
      | .seq vs => decidable_of_iff (len.eval cfg env = .ok vs.length) (by rw [ShapedKind])
      | .int _ => .isTrue (by simp [ShapedKind])
      | .absent => .isTrue (by simp [ShapedKind])
      | .present _ => .isTrue (by simp [ShapedKind])
      | .var _ _ => .isTrue (by simp [ShapedKind])
  | .record fs, v => match v with
      | .seq vs => @decidable_of_iff _ (ShapedFields cfg (envOf fs vs) fs vs)
          (by rw [ShapedKind]) (decShapedFields cfg (envOf fs vs) fs vs)
      | .int _ => .isTrue (by simp [ShapedKind])
      | .absent => .isTrue (by simp [ShapedKind])
      | .present _ => .isTrue (by simp [ShapedKind])
      | .var _ _ => .isTrue (by simp [ShapedKind])
  | .arrRec fs n, v => match v with
      | .seq vs => @decidable_of_iff _
          (∀ v ∈ vs, ∃ ws, v = .seq ws ∧ ShapedFields cfg (envOf fs ws) fs ws)
          (by rw [ShapedKind]) (decSeqs _ (fun ws => decShapedFields cfg (envOf fs ws) fs ws) vs)
      | .int _ => .isTrue (by simp [ShapedKind])
      | .absent => .isTrue (by simp [ShapedKind])
      | .present _ => .isTrue (by simp [ShapedKind])
      | .var _ _ => .isTrue (by simp [ShapedKind])
  | .vecRec fs len b sz, v => match v with
      | .seq vs => @decidable_of_iff _
          (len.eval cfg env = .ok vs.length ∧
            ∀ v ∈ vs, ∃ ws, v = .seq ws ∧ ShapedFields cfg (envOf fs ws) fs ws)
          (by rw [ShapedKind]) (@instDecidableAnd _ _ _
            (decSeqs _ (fun ws => decShapedFields cfg (envOf fs ws) fs ws) vs))
      | .int _ => .isTrue (by simp [ShapedKind])
      | .absent => .isTrue (by simp [ShapedKind])
      | .present _ => .isTrue (by simp [ShapedKind])
      | .var _ _ => .isTrue (by simp [ShapedKind])
def decShapedField (cfg : Cfg) (env : Env) : (f : Field) → (v : Val) →
    Decidable (ShapedField cfg env f v)
  | .plain _ k c, v => @decidable_of_iff _ (ShapedKind cfg env k v) (by rw [ShapedField])
      (decShapedKind cfg env k v)
  | .maybe _ k p, v => match v with
      | .present v => @decidable_of_iff _ (p.eval env = .ok true ∧ ShapedKind cfg env k v)
          (by rw [ShapedField]) (@instDecidableAnd _ _ _ (decShapedKind cfg env k v))
      | .absent => decidable_of_iff (p.eval env = .ok false) (by rw [ShapedField])
      | .int _ => .isTrue (by simp [ShapedField])
      | .seq _ => .isTrue (by simp [ShapedField])
      | .var _ _ => .isTrue (by simp [ShapedField])
  | .union _ d alts c, v => match v with
      | .var i v => @decidable_of_iff _ (d.eval env = .ok (some i) ∧ ShapedAlts cfg env alts i v)
          (by rw [ShapedField]) (@instDecidableAnd _ _ _ (decShapedAlts cfg env alts i v))
      | .int _ => .isTrue (by simp [ShapedField])
      | .seq _ => .isTrue (by simp [ShapedField])
      | .absent => .isTrue (by simp [ShapedField])
      | .present _ => .isTrue (by simp [ShapedField])
def decShapedAlts (cfg : Cfg) (env : Env) : (alts : List Alt) → (i : Nat) → (v : Val) →
    Decidable (ShapedAlts cfg env alts i v)
  | [], _, _ => .isTrue (by simp [ShapedAlts])
  | .mk k _ :: _, 0, v => @decidable_of_iff _ (ShapedKind cfg env k v) (by rw [ShapedAlts])
      (decShapedKind cfg env k v)
  | .mk _ _ :: alts, i + 1, v => @decidable_of_iff _ (ShapedAlts cfg env alts i v)
      (by rw [ShapedAlts]) (decShapedAlts cfg env alts i v)
def decShapedFields (cfg : Cfg) (env : Env) : (fs : List Field) → (vs : List Val) →
    Decidable (ShapedFields cfg env fs vs)
  | f :: fs, v :: vs => @decidable_of_iff _ (ShapedField cfg env f v ∧ ShapedFields cfg env fs vs)
      (by rw [ShapedFields])
      (@instDecidableAnd _ _ (decShapedField cfg env f v) (decShapedFields cfg env fs vs))
  | [], _ => .isTrue (by simp [ShapedFields])
  | _ :: _, [] => .isTrue (by simp [ShapedFields])
end

instance (cfg : Cfg) (fs : List Field) (vs : List Val) : Decidable (Valid cfg fs vs) :=
  @instDecidableAnd _ _ _ (@instDecidableAnd _ _ (decOkFields fs vs) (decShapedFields cfg _ fs vs))

/-! ### Conditions on schemas -/

instance (fs : List Field) (id : String) (p : ScalarTy → Nat → Prop) [∀ t w, Decidable (p t w)] :
    Decidable (HasScalar fs id p) := by
  unfold HasScalar
  refine @List.decidableBEx _ _ (fun f => ?_) fs
  split <;> infer_instance

instance : DecidablePred Resolves := fun fs => by
  unfold Resolves
  refine @List.decidableBAll _ _ (fun f => ?_) fs
  refine @instDecidableAnd _ _ _ ?_
  split <;> infer_instance

instance (cfg : Cfg) : DecidablePred (GoodLabels cfg) := fun fs => by
  unfold GoodLabels
  refine @List.decidableBAll _ _ (fun f => ?_) fs
  split <;> infer_instance

instance (cfg : Cfg) : DecidablePred (GoodConsts cfg) := fun fs => by
  unfold GoodConsts
  refine @List.decidableBAll _ _ (fun f => ?_) fs
  split <;> infer_instance

instance (cfg : Cfg) : DecidablePred (WideSlots cfg) := fun fs => by
  unfold WideSlots
  refine @List.decidableBAll _ _ (fun f => ?_) fs
  split <;> infer_instance

instance : DecidablePred Clean := fun fs => by
  unfold Clean
  refine @List.decidableBAll _ _ (fun f => ?_) fs
  split
  · have h (k : Kind) (c : Constraint) : Decidable (constOf k c = none) :=
      decidable_of_iff ((constOf k c).isNone = true) (by simp)
    infer_instance
  · infer_instance

instance (f : Field) : Decidable (EveryField Clean f) := decEveryField _ f
instance (as : List Alt) : Decidable (EveryAlts Clean as) := decEveryAlts _ as

instance (fs : List Field) (f : Field) : Decidable (CleanField fs f) := by
  unfold CleanField
  refine @instDecidableAnd _ _ _ ?_
  split
  · have h (k : Kind) (c : Constraint) : Decidable (constOf k c = none) :=
      decidable_of_iff ((constOf k c).isNone = true) (by simp)
    infer_instance
  · infer_instance

instance : DecidablePred NoStale := fun fs => by
  unfold NoStale
  refine @List.decidableBAll _ _ (fun f => ?_) fs
  refine @instDecidableAnd _ _ _ ?_
  split
  · split <;> infer_instance
  · infer_instance
  · refine @instDecidableAnd _ _ ?_ (@List.decidableBAll _ _ (fun a => ?_) _)
    · split <;> infer_instance
    · split <;> infer_instance

instance (cfg : Cfg) (fs : List Field) : Decidable (SelfConsistent cfg fs) := by
  unfold SelfConsistent; infer_instance

end S2S.Spec
