import Verif.Model.Schema
/-
Conditions on schemas, all computable so that they can be checked on concrete
schemas by evaluation.
-/
namespace S2S.Spec

/-- Number of cases of a type deduction guide. -/
def arity : Deducer → Nat
  | .matchField _ _ ls => ls.length
  | .matchCompute _ _ ls => ls.length
  | .ladder ps => ps.length

mutual
/-- What every C++ schema satisfies by construction: types have at least one byte,
and a type deduction guide has one case per alternative of its union
(`type_condition_list`: a case carries its tag). -/
def saneKind : Kind → Bool
  | .vec e _ _ => decide (0 < e.size)
  | .record fs => saneFields fs
  | .arrRec fs _ => saneFields fs
  | .vecRec fs _ _ sz => decide (0 < sz) && saneFields fs
  | _ => true
def saneField : Field → Bool
  | .plain _ k _ => saneKind k
  | .maybe _ k _ => saneKind k
  | .union _ d alts _ => decide (arity d = alts.length) && saneAlts alts
def saneAlts : List Alt → Bool
  | [] => true
  | .mk k _ :: alts => saneKind k && saneAlts alts
def saneFields : List Field → Bool
  | [] => true
  | f :: fs => saneField f && saneFields fs
end

/-! ### Names -/

mutual
/-- No two fields of a list share a name, at every level
(`has_unique_field_ids`, /repo/include/field_list/field_list_metadata.hpp). -/
def uniqueKind : Kind → Bool
  | .record fs => uniqueFields [] fs
  | .arrRec fs _ => uniqueFields [] fs
  | .vecRec fs _ _ _ => uniqueFields [] fs
  | _ => true
def uniqueField : Field → Bool
  | .plain _ k _ => uniqueKind k
  | .maybe _ k _ => uniqueKind k
  | .union _ _ alts _ => uniqueAlts alts
def uniqueAlts : List Alt → Bool
  | [] => true
  | .mk k _ :: alts => uniqueKind k && uniqueAlts alts
/-- `seen`: the names of the fields before. -/
def uniqueFields (seen : List String) : List Field → Bool
  | [] => true
  | f :: fs => !seen.contains f.id && uniqueField f && uniqueFields (seen ++ [f.id]) fs
end

def lenDeps : LenSpec → List String
  | .fromField id => [id]
  | .computed c => c.ids

/-- The siblings a kind's extent depends on. -/
def kindDeps : Kind → List String
  | .vec _ len _ => lenDeps len
  | .vecRec _ len _ _ => lenDeps len
  | _ => []

def deducerDeps : Deducer → List String
  | .matchField id _ _ => [id]
  | .matchCompute c _ _ => c.ids
  | .ladder ps => ps.flatMap Pred.ids

/-- The siblings a field depends on. -/
def fieldDeps : Field → List String
  | .plain _ k _ => kindDeps k
  | .maybe _ k p => kindDeps k ++ p.ids
  | .union _ d alts _ => deducerDeps d ++ alts.flatMap fun a => kindDeps a.kind

mutual
/-- Every dependency names an earlier field of the same list, at every level. (The
library also accepts a field that depends on itself; see C29.) -/
def earlierKind : Kind → Bool
  | .record fs => earlierFields [] fs
  | .arrRec fs _ => earlierFields [] fs
  | .vecRec fs _ _ _ => earlierFields [] fs
  | _ => true
def earlierField : Field → Bool
  | .plain _ k _ => earlierKind k
  | .maybe _ k _ => earlierKind k
  | .union _ _ alts _ => earlierAlts alts
def earlierAlts : List Alt → Bool
  | [] => true
  | .mk k _ :: alts => earlierKind k && earlierAlts alts
def earlierFields (seen : List String) : List Field → Bool
  | [] => true
  | f :: fs =>
      (fieldDeps f).all (fun i => seen.contains i) && earlierField f &&
      earlierFields (seen ++ [f.id]) fs
end

/-- A schema as the library accepts it, dependencies strictly backwards. -/
def WellFormed (fs : List Field) : Prop :=
  saneFields fs = true ∧ uniqueFields [] fs = true ∧ earlierFields [] fs = true

instance (fs : List Field) : Decidable (WellFormed fs) := by
  unfold WellFormed; infer_instance

/-! ### What occurs in a schema -/

mutual
/-- Is there a union somewhere inside? -/
def unionInKind : Kind → Bool
  | .record fs => unionInFields fs
  | .arrRec fs _ => unionInFields fs
  | .vecRec fs _ _ _ => unionInFields fs
  | _ => false
def unionInField : Field → Bool
  | .plain _ k _ => unionInKind k
  | .maybe _ k _ => unionInKind k
  | .union _ _ _ _ => true
def unionInFields : List Field → Bool
  | [] => false
  | f :: fs => unionInField f || unionInFields fs
end

mutual
/-- The ceilings (in bytes) of the variable-size containers somewhere inside:
`max_bytes` if declared, the library default otherwise. -/
def ceilingsKind (cfg : Cfg) : Kind → List Nat
  | .vec _ _ bound => [bound.getD cfg.defaultMax]
  | .record fs => ceilingsFields cfg fs
  | .arrRec fs _ => ceilingsFields cfg fs
  | .vecRec fs _ bound _ => bound.getD cfg.defaultMax :: ceilingsFields cfg fs
  | _ => []
def ceilingsField (cfg : Cfg) : Field → List Nat
  | .plain _ k _ => ceilingsKind cfg k
  | .maybe _ k _ => ceilingsKind cfg k
  | .union _ _ alts _ => ceilingsAlts cfg alts
def ceilingsAlts (cfg : Cfg) : List Alt → List Nat
  | [] => []
  | .mk k _ :: alts => ceilingsKind cfg k ++ ceilingsAlts cfg alts
def ceilingsFields (cfg : Cfg) : List Field → List Nat
  | [] => []
  | f :: fs => ceilingsField cfg f ++ ceilingsFields cfg fs
end

end S2S.Spec
