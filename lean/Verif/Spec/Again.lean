import Verif.Spec.Edit
import Verif.Spec.Sent
/-
Structs that were written, edited, and are written again: which fields are looked at again.
-/
namespace S2S.Spec

/-- The field was assigned to (`hit`), or its length, presence or alternative follows from one that
was. -/
def Near (fs : List Field) (hit : Field → Prop) (g : Field) : Prop :=
  hit g ∨ ∃ f ∈ fs, hit f ∧ f.id ∈ fieldDeps g

/-- Such a field, or one that such a field looks at. -/
def Again (fs : List Field) (hit : Field → Prop) (g : Field) : Prop :=
  Near fs hit g ∨ ∃ f ∈ fs, Near fs hit f ∧ g.id ∈ fieldDeps f

/-- Of the fields those in `A` are sent (`S`) for the values `vs`, the others are as they were
(`us`). -/
inductive Resent (A : Field → Prop) (S : Field → Val → Val → Prop) :
    List Field → List Val → List Val → List Val → Prop
  | nil : Resent A S [] [] [] []
  | again {f fs v vs u us u' us'} : A f → S f v u' → Resent A S fs vs us us' →
      Resent A S (f :: fs) (v :: vs) (u :: us) (u' :: us')
  | kept {f fs v vs u us us'} : ¬ A f → Resent A S fs vs us us' →
      Resent A S (f :: fs) (v :: vs) (u :: us) (u :: us')

end S2S.Spec
