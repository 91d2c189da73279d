import Verif.Spec.Schema
/-
Structs in which some `std::variant` has no value: its index, `variant_npos`, is no
alternative. One such is what an assignment leaves that has thrown.
-/
namespace S2S.Spec

mutual
def HollowKind : Kind → Val → Prop
  | .record fs, .seq vs => HollowFields fs vs
  | .arrRec fs _, .seq vs => ∃ ws, .seq ws ∈ vs ∧ HollowFields fs ws
  | .vecRec fs _ _ _, .seq vs => ∃ ws, .seq ws ∈ vs ∧ HollowFields fs ws
  | _, _ => False
termination_by structural k => k
def HollowField : Field → Val → Prop
  | .plain _ k _, v => HollowKind k v
  | .maybe _ k _, .present v => HollowKind k v
  | .union _ _ alts _, .var i v => alts.length ≤ i ∨ HollowAlts alts i v
  | _, _ => False
termination_by structural f => f
def HollowAlts : List Alt → Nat → Val → Prop
  | .mk k _ :: _, 0, v => HollowKind k v
  | _ :: alts, i + 1, v => HollowAlts alts i v
  | [], _, _ => False
termination_by structural alts => alts
/-- Somewhere in the struct, in records and containers of records too, a variant has no
value. -/
def HollowFields : List Field → List Val → Prop
  | f :: fs, v :: vs => HollowField f v ∨ HollowFields fs vs
  | _, _ => False
termination_by structural fs => fs
end

end S2S.Spec
