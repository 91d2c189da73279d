import Verif.Model.Vacant
import Verif.Spec.Format
/-
What goes over the wire of lists with arrays and vectors whose elements have no elements.
-/
namespace S2S.Spec

/-- How many bytes of storage the elements of such a field have. -/
def VField.weight : VField → Val → Nat
  | .array _ n size, _ => n * size
  | .vector _ size _ _, .seq vs => vs.length * size
  | _, _ => 0

def weights : List VField → List Val → Nat
  | h :: hs, u :: us => VField.weight h u + weights hs us
  | _, _ => 0

/-- The bytes of the fields of the usual kinds, one after the other. -/
def usualBytes (o : Endian) : List VField → List Val → List Byte
  | .std f :: hs, u :: us => wireField o f u ++ usualBytes o hs us
  | _ :: hs, _ :: us => usualBytes o hs us
  | _, _ => []

/-- What a program can tell of a struct: not the storage of elements without elements. -/
def visible : List VField → List Val → List Val
  | .std _ :: hs, u :: us => u :: visible hs us
  | _ :: hs, .seq vs :: us => .seq (vs.map fun _ => .seq []) :: visible hs us
  | _ :: hs, u :: us => u :: visible hs us
  | _, _ => []

end S2S.Spec
