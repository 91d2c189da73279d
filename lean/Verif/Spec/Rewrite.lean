import Verif.Spec.Decide
/-
Schemas whose parsed structs can be written again.
-/
namespace S2S.Spec

/-- Labels are values of the slot's type, and non-negative unless the slot is as
wide as `std::size_t`. -/
def SafeLabels (cfg : Cfg) (fs : List Field) : Prop :=
  ∀ f ∈ fs, match f with
    | .union _ (.matchField _ t labels) _ _ =>
        ∀ l ∈ labels, t.InRange l.2 ∧ (0 ≤ l.2 ∨ cfg.szBytes ≤ t.size)
    | _ => True

/-- Slots are no wider than `std::size_t`, and the whole type is on the wire or its
low bytes are. -/
def SafeSlots (cfg : Cfg) (fs : List Field) : Prop :=
  ∀ f ∈ fs, match f with
    | .plain id (.num t w) _ =>
        isSlot fs id = true →
          t.size ≤ cfg.szBytes ∧ (w = t.size ∨ w < t.size ∧ cfg.wire = .little)
    | _ => True

/-- The constant of an `eq` constraint, as a value of the field's type. -/
def typedConst : Kind → Constraint → Option Val
  | .num t _, .cmp .eq _ v => some (.int (t.conv v))
  | .fbuf _ _, .arrCmp true v => some v
  | .fstr _, .strCmp true s => some (.seq (s.map .int))
  | .num _ _, .over u _ _ => u
  | .fbuf _ _, .over u _ _ => u
  | _, _ => none

/-- An `eq` constraint accepts its constant only. -/
def ExactConsts (cfg : Cfg) (fs : List Field) : Prop :=
  ∀ f ∈ fs, match f with
    | .plain _ k c => ∀ u ∈ typedConst k c, ∀ v, FitsKind cfg k v → Holds c v → v = u
    | _ => True

/-- When an `eq` constraint is sure to accept its constant only: the operand's
integer type is at least as large as the field's; a string has no NUL but the last
character. -/
def exactConst : Kind → Constraint → Bool
  | .num t _, .cmp .eq (.int b _) _ => decide (t.size ≤ b)
  | .num .bool _, .cmp .eq .bool _ => true
  | .num _ _, .cmp .eq _ _ => false
  | _, .over u _ _ => u.isNone
  | .fstr n, .strCmp true s => s.length == n + 1 && s.getLast? == some 0 && !s.dropLast.contains 0
  | _, _ => true

def ExactConstsChecked (fs : List Field) : Prop :=
  ∀ f ∈ fs, match f with
    | .plain _ k c => exactConst k c = true
    | _ => True

structure RewritableList (cfg : Cfg) (fs : List Field) : Prop where
  resolves : Resolves fs
  labels : SafeLabels cfg fs
  slots : SafeSlots cfg fs
  consts : ExactConsts cfg fs

/-- A schema whose parsed structs can be written again. -/
def Rewritable (cfg : Cfg) (fs : List Field) : Prop :=
  WellFormed fs ∧ Everywhere (RewritableList cfg) fs

instance (cfg : Cfg) : DecidablePred (SafeLabels cfg) := fun fs => by
  unfold SafeLabels
  refine @List.decidableBAll _ _ (fun f => ?_) fs
  split <;> infer_instance

instance (cfg : Cfg) : DecidablePred (SafeSlots cfg) := fun fs => by
  unfold SafeSlots
  refine @List.decidableBAll _ _ (fun f => ?_) fs
  split <;> infer_instance

instance : DecidablePred ExactConstsChecked := fun fs => by
  unfold ExactConstsChecked
  refine @List.decidableBAll _ _ (fun f => ?_) fs
  split <;> infer_instance

/-- The same with constants that are sure to be exact: decidable. -/
def RewritableChecked (cfg : Cfg) (fs : List Field) : Prop :=
  WellFormed fs ∧
    Everywhere (fun fs => Resolves fs ∧ SafeLabels cfg fs ∧ SafeSlots cfg fs ∧ ExactConstsChecked fs) fs

instance (cfg : Cfg) (fs : List Field) : Decidable (RewritableChecked cfg fs) := by
  unfold RewritableChecked; infer_instance

end S2S.Spec
