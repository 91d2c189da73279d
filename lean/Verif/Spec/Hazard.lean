import Verif.Spec.Settle
import Verif.Spec.Order
/-
What in a schema can make reading leave defined behaviour.
-/
namespace S2S.Spec

/-- Bytes that are no value of the type: `bool` only. -/
def hazardsTy : ScalarTy → List Stuck
  | .bool => [.invalidValue]
  | .int _ _ => []

/-- A ceiling above what can be allocated. -/
def hazardsBound (cfg : Cfg) (bound : Option Nat) : List Stuck :=
  if cfg.ptrdiffMax < bound.getD cfg.defaultMax then [.lengthError] else []

/-- `eq`/`neq` over a `fixed_string` looks for a terminator. -/
def hazardsConstraint : Constraint → List Stuck
  | .strCmp _ _ => [.unterminated]
  | .over _ w _ => [w]
  | _ => []

mutual
/-- The ways in which reading a value of that kind could leave defined behaviour:
`bool`s, widths above the size of the type, ceilings above what can be allocated,
constraints over strings. -/
def hazardsKind (cfg : Cfg) : Kind → List Stuck
  | .num t w => hazardsTy t ++ if t.size < w then [.outOfBounds] else []
  | .fbuf e _ => hazardsTy (baseTy e)
  | .fstr _ => []
  | .vec e _ b => hazardsTy (baseTy e) ++ hazardsBound cfg b
  | .record fs => hazardsFields cfg fs
  | .arrRec fs _ => hazardsFields cfg fs
  | .vecRec fs _ b _ => hazardsBound cfg b ++ hazardsFields cfg fs
def hazardsField (cfg : Cfg) : Field → List Stuck
  | .plain _ k c => hazardsKind cfg k ++ hazardsConstraint c
  | .maybe _ k _ => hazardsKind cfg k
  | .union _ _ alts _ => hazardsAlts cfg alts
def hazardsAlts (cfg : Cfg) : List Alt → List Stuck
  | [] => []
  | .mk k c :: alts => hazardsKind cfg k ++ hazardsConstraint c ++ hazardsAlts cfg alts
def hazardsFields (cfg : Cfg) : List Field → List Stuck
  | [] => []
  | f :: fs => hazardsField cfg f ++ hazardsFields cfg fs
end

/-- The constraint can be called with values of that kind, as C++ has it. -/
def Callable (k : Kind) : Constraint → Prop
  | .cmp _ _ _ => match k with | .num _ _ => True | _ => False
  | .anyOf _ _ => match k with | .num _ _ => True | _ => False
  | .strCmp _ _ => match k with | .fstr _ => True | _ => False
  | .over _ w _ => w ≠ .illTyped
  | _ => True

/-- Constraints can be called with what they are attached to, as C++ has it. -/
def CallableAll (fs : List Field) : Prop :=
  ∀ f ∈ fs, match f with
    | .plain _ k c => Callable k c
    | .maybe _ _ _ => True
    | .union _ _ alts c =>
        (match c with | .none => True | .user _ => True | _ => False) ∧
        ∀ a ∈ alts, Callable a.kind a.constraint

instance (k : Kind) (c : Constraint) : Decidable (Callable k c) := by
  cases c <;> cases k <;> simp only [Callable] <;> infer_instance
instance : DecidablePred CallableAll := fun fs =>
  @List.decidableBAll _ _ (fun f => by
    cases f with
    | plain id k c => infer_instance
    | maybe id k p => infer_instance
    | union id d alts c => cases c <;> infer_instance) fs

end S2S.Spec
