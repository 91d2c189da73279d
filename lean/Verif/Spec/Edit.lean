import Verif.Spec.Damage
import Verif.Spec.Settle
/-
Structs that were read, edited, and are written again.
-/
namespace S2S.Spec

/-- The slots whose values follow from the value of the field: the length a container is
written with, the discriminant a union switches on. -/
def fills : Field → List String
  | .plain _ k _ => k.lenTarget?.toList
  | .maybe _ _ _ => []
  | .union _ (.matchField i _ _) _ _ => [i]
  | .union _ (.matchCompute _ _ _) _ _ => []
  | .union _ (.ladder _) _ _ => []

/-- The field was assigned to (`hit`), or is a slot filled from one that was. -/
def Affected (fs : List Field) (hit : Field → Prop) (g : Field) : Prop :=
  hit g ∨ ∃ f ∈ fs, hit f ∧ g.id ∈ fills f

/-- The field is affected, or its length, presence or alternative follows from one that is. -/
def Rechecked (fs : List Field) (hit : Field → Prop) (g : Field) : Prop :=
  Affected fs hit g ∨ ∃ f ∈ fs, Affected fs hit f ∧ f.id ∈ fieldDeps g

end S2S.Spec
