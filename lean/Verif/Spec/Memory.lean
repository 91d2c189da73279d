import Verif.Model.Memory
/-
How often what a read brings in is copied on its way into the result.
-/
namespace S2S.Spec

mutual
def copiesKind : Kind → Nat
  | .record fs => copiesFields fs + 2
  | .arrRec fs _ => copiesFields fs + 2
  | .vecRec fs _ _ _ => copiesFields fs + 2
  | _ => 0
def copiesField : Field → Nat
  | .plain _ k _ => copiesKind k
  | .maybe _ k _ => copiesKind k + 1
  | .union _ _ alts _ => copiesAlts alts
def copiesAlts : List Alt → Nat
  | [] => 0
  | .mk k _ :: alts => max (copiesKind k) (copiesAlts alts)
/-- The most times a byte of a list is copied before the list is complete: twice for
every list it is nested in, once for every optional. -/
def copiesFields : List Field → Nat
  | [] => 0
  | f :: fs => max (copiesField f) (copiesFields fs)
end

mutual
def copiedKind : Kind → Val → Nat
  | .record fs, .seq vs => copiedFields fs vs + 2 * heapFields fs vs
  | .arrRec fs _, .seq rs =>
      (rs.map fun | .seq vs => copiedFields fs vs + 2 * heapFields fs vs | _ => 0).sum
  | .vecRec fs _ _ _, .seq rs =>
      (rs.map fun | .seq vs => copiedFields fs vs + 2 * heapFields fs vs | _ => 0).sum
  | _, _ => 0
def copiedField : Field → Val → Nat
  | .plain _ k _, v => copiedKind k v
  | .maybe _ k _, .present v => copiedKind k v + heapKind k v
  | .union _ _ alts _, .var i v => copiedAlts alts i v
  | _, _ => 0
def copiedAlts : List Alt → Nat → Val → Nat
  | .mk k _ :: _, 0, v => copiedKind k v
  | _ :: alts, i + 1, v => copiedAlts alts i v
  | [], _, _ => 0
/-- The bytes copied before a list with these values is complete. -/
def copiedFields : List Field → List Val → Nat
  | f :: fs, v :: vs => copiedField f v + copiedFields fs vs
  | _, _ => 0
end

end S2S.Spec
