import Verif.Spec.Refused
import Verif.Spec.Sizes
/-
Bytes of a message that have been overwritten.
-/
namespace S2S.Spec

/-- No field of the list takes its length, its presence or its alternative from `id`. -/
def Unseen (fs : List Field) (id : String) : Prop := ∀ g ∈ fs, id ∉ fieldDeps g

instance (fs : List Field) (id : String) : Decidable (Unseen fs id) := by
  unfold Unseen; infer_instance

/-- How many bytes a value of the kind takes is settled by the siblings: it is for
everything but records with parts of varying size. -/
def rigidKind (cfg : Cfg) : Kind → Bool
  | .record fs => decide (minFields fs = maxFields cfg fs)
  | .arrRec fs _ => decide (minFields fs = maxFields cfg fs)
  | .vecRec fs _ _ _ => decide (minFields fs = maxFields cfg fs)
  | _ => true

/-- The same for a field. -/
def rigidField (cfg : Cfg) : Field → Bool
  | .plain _ k _ => rigidKind cfg k
  | .maybe _ k _ => rigidKind cfg k
  | .union _ _ alts _ => alts.all fun a => rigidKind cfg a.kind

/-- `p` is the encoding of the struct, except that the bytes of some of the fields in `hit`
have been overwritten by others, as many of them. -/
inductive Damaged (cfg : Cfg) (hit : Field → Prop) : List Field → List Val → List Byte → Prop
  | nil : Damaged cfg hit [] [] []
  | same {f fs v vs p} : Damaged cfg hit fs vs p →
      Damaged cfg hit (f :: fs) (v :: vs) (wireField cfg.wire f v ++ p)
  | other {f fs v vs p} (b : List Byte) : hit f → b.length = (wireField cfg.wire f v).length →
      Damaged cfg hit fs vs p → Damaged cfg hit (f :: fs) (v :: vs) (b ++ p)

/-- The values of the fields that are not in `hit` are the same. -/
inductive SameBut (hit : Field → Prop) : List Field → List Val → List Val → Prop
  | nil : SameBut hit [] [] []
  | same {f fs v vs vs'} : SameBut hit fs vs vs' → SameBut hit (f :: fs) (v :: vs) (v :: vs')
  | other {f fs v v' vs vs'} : hit f → SameBut hit fs vs vs' →
      SameBut hit (f :: fs) (v :: vs) (v' :: vs')

end S2S.Spec
