import Verif.Spec.Settle
/-
Numbers that take no more bytes than their type has.
-/
namespace S2S.Spec

/-- A number of that kind takes no more bytes than its type has. -/
def InBounds : Kind → Prop
  | .num t w => w ≤ t.size
  | _ => True

/-- So do the numbers of the field, unless it is one that has to be equal to a number. -/
def InBoundsField : Field → Prop
  | .plain _ _ (.cmp .eq _ _) => True
  | .plain _ k _ => InBounds k
  | .maybe _ k _ => InBounds k
  | .union _ _ alts _ => ∀ a ∈ alts, InBounds a.kind

end S2S.Spec
