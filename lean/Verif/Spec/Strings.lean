import Verif.Model.Compare
import Verif.Model.Read
import Verif.Model.Write
/-
Fields that are strings of fixed size, and what may be asked of them.
-/
namespace S2S.Spec

/-- What a string has to be: one string, any other than that, or one of several. -/
inductive StringRule
  | is (s : List Int)
  | isNot (s : List Int)
  | oneOf (ss : List (List Int))

/-- `eq{..}`, `neq{..}`, `any_of{..}`. -/
def StringRule.constraint : StringRule → Constraint
  | .is s => .strCmp true s
  | .isNot s => .strCmp false s
  | .oneOf ss => Compare.constraintAnyString ss

/-- The strings it is about. There is at least one, and each is terminated. -/
def StringRule.operands : StringRule → List (List Int)
  | .is s => [s]
  | .isNot s => [s]
  | .oneOf ss => ss

/-- What is there up to the first NUL. -/
def text (cs : List Int) : List Int := cs.takeWhile (· ≠ 0)

def StringRule.Allows : StringRule → List Int → Prop
  | .is s, t => t = text s
  | .isNot s, t => t ≠ text s
  | .oneOf ss, t => ∃ s ∈ ss, t = text s

instance (r : StringRule) (t : List Int) : Decidable (r.Allows t) := by
  cases r <;> unfold StringRule.Allows <;> infer_instance

/-- The characters of a field that is one string, as they come from the wire. -/
def charsOf (p : List Byte) : List Int := p.map fun b => (b.toNat : Int)

end S2S.Spec
