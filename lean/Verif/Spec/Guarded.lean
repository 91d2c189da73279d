import Verif.Model.Guarded
import Verif.Spec.Format
/-
What the constraints of optionals spelled by hand ask of a struct.
-/
namespace S2S.Spec

/-- What is held satisfies its constraint. -/
def Kept : List GField → List Val → Prop
  | .guarded _ _ c _ :: gs, v :: vs => (∀ w, v = .present w → Holds c w) ∧ Kept gs vs
  | .std _ :: gs, _ :: vs => Kept gs vs
  | _, _ => True

/-- No union switches on one of them. -/
def Unswitched (gs : List GField) : Prop :=
  ∀ id k c p, GField.guarded id k c p ∈ gs → isDerived (gs.map GField.usual) id = false

end S2S.Spec
