import Verif.Model.Labels
import Verif.Spec.Compare
/-
What labels of any arithmetic type stand for.
-/
namespace S2S.Spec
open Compare

/-- The number a label is; objects are none. -/
def Label.number : Label → Real
  | .int _ v => .fin (v * one)
  | .float n k => real n k
  | .object _ _ => .nan

/-- The label is the whole number `z`. -/
def IsWhole (l : Label) (z : Int) : Prop := Label.number l = .fin (z * one)

/-- Comparing a field of type `t` with the label rounds nothing: the label is an integer of the
type, or a floating-point number with as many digits as the type has. -/
def Comparable (t : ScalarTy) : Label → Prop
  | .int _ v => t.InRange v
  | .float n _ => 8 * t.size ≤ if n = 4 then 24 else 53
  | .object _ _ => False

/-- The case selected for the value `x` of the field: the first that compares equal. -/
def Picks (R : Rounding) (t : ScalarTy) (x : Int) (ls : List Label) (i : Nat) : Prop :=
  (∃ l, ls[i]? = some l ∧ l.matched R t x = true) ∧
    ∀ j l, j < i → ls[j]? = some l → l.matched R t x = false

end S2S.Spec
