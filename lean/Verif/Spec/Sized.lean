import Verif.Model.Sized
/-
Lists with records that are given a size and vectors of records that are given no length: which can
be read and which can be written.
-/
namespace S2S.Spec

mutual
def readsKind : SzKind → Bool
  | .leaf _ => true
  | .record fs _ => reads fs
  | .arrRec fs _ _ => reads fs
  | .vecRec fs _ _ _ => reads fs
  | .bare _ => false
def readsField : SzField → Bool
  | .plain _ k _ => readsKind k
  | .maybe _ k _ => readsKind k
  | .union _ _ alts _ => readsAlts alts
def readsAlts : List SzAlt → Bool
  | [] => true
  | .mk k _ :: alts => readsKind k && readsAlts alts
/-- Every vector of records, at any depth, has a length. -/
def reads : List SzField → Bool
  | [] => true
  | f :: fs => readsField f && reads fs
end

mutual
def evenKind : SzKind → Bool
  | .leaf _ => true
  | .record fs _ => even fs
  | .arrRec fs _ _ => reads fs
  | .vecRec fs _ _ _ => reads fs
  | .bare fs => reads fs
def evenField : SzField → Bool
  | .plain _ k _ => evenKind k
  | .maybe _ k _ => evenKind k
  | .union _ _ alts _ => evenAlts alts
def evenAlts : List SzAlt → Bool
  | [] => true
  | .mk k _ :: alts => evenKind k && evenAlts alts
/-- The records of arrays and vectors have no vectors without a length in them: those would be of
different lengths in each of them. -/
def even : List SzField → Bool
  | [] => true
  | f :: fs => evenField f && even fs
end

/-- Something of fixed size: as a field, in an optional, or as an alternative. -/
def SzField.fixedSized : SzField → Bool
  | .plain _ (.leaf k) _ => k.isFixedSized
  | .maybe _ (.leaf k) _ => k.isFixedSized
  | .union _ _ alts _ => alts.any fun | .mk (.leaf k) _ => k.isFixedSized | _ => false
  | _ => false

/-- No record is a field of its own with a length from a field, and nothing of fixed size is what the
length of a record in an optional or a union is taken from. -/
def writesHere (cs : List SzField) : Bool :=
  cs.all fun f =>
    !(SzField.fixedSized f && (recordLens cs).contains f.id) &&
      (match f with | .plain _ k _ => k.lenOfRecord.isNone | _ => true)

mutual
def writesKind : SzKind → Bool
  | .leaf _ => true
  | .record fs _ => writesHere fs && writesBelow fs
  | .arrRec fs _ _ => writesHere fs && writesBelow fs
  | .vecRec fs _ _ _ => writesHere fs && writesBelow fs
  | .bare fs => writesHere fs && writesBelow fs
def writesField : SzField → Bool
  | .plain _ k _ => writesKind k
  | .maybe _ k _ => writesKind k
  | .union _ _ alts _ => writesAlts alts
def writesAlts : List SzAlt → Bool
  | [] => true
  | .mk k _ :: alts => writesKind k && writesAlts alts
def writesBelow : List SzField → Bool
  | [] => true
  | f :: fs => writesField f && writesBelow fs
end

/-- At every depth. -/
def writes (cs : List SzField) : Bool := writesHere cs && writesBelow cs

end S2S.Spec
