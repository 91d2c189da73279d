import Verif.Model.Counted
import Verif.Spec.Settle
/-
Structs of lists in which arrays of records are given a length.
-/
namespace S2S.Spec

mutual
def FullKind : CtKind → Val → Prop
  | .leaf _, _ => True
  | .record fs, v => ∀ vs, v = .seq vs → FullFields fs vs
  | .arrRec fs n _, v => ∃ vs, v = .seq vs ∧ vs.length = n ∧ ∀ ws, .seq ws ∈ vs → FullFields fs ws
  | .vecRec fs _ _ _, v => ∀ vs, v = .seq vs → ∀ ws, .seq ws ∈ vs → FullFields fs ws
def FullField : CtField → Val → Prop
  | .plain _ k _, v => FullKind k v
  | .maybe _ k _, v => ∀ w, v = .present w → FullKind k w
  | .union _ _ alts _, v => ∀ i w, v = .var i w → FullAlts alts i w
def FullAlts : List CtAlt → Nat → Val → Prop
  | .mk k _ :: _, 0, w => FullKind k w
  | _ :: alts, i + 1, w => FullAlts alts i w
  | [], _, _ => True
/-- Every array of records has as many records as its type says (which in C++ it cannot fail to
have). -/
def FullFields : List CtField → List Val → Prop
  | f :: fs, v :: vs => FullField f v ∧ FullFields fs vs
  | _, _ => True
end

abbrev Full (cs : List CtField) (vs : List Val) : Prop := FullFields cs vs

end S2S.Spec
