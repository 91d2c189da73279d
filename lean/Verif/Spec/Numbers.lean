import Verif.Model.Schema
/-
What the comparison constraints are documented to mean
(/repo/docs/constraints.md, "The constructs").
-/
namespace S2S.Spec

/-- `value == v`, `value != v`, ... between mathematical integers. -/
def Compares : CmpOp → Int → Int → Prop
  | .eq, x, k => x = k
  | .ne, x, k => x ≠ k
  | .lt, x, k => x < k
  | .gt, x, k => k < x
  | .le, x, k => x < k ∨ x = k
  | .ge, x, k => k < x ∨ x = k

/-- `y` is what `x` becomes when it is handed over as a value of type `t`: the value of
`t` congruent to `x` modulo the number of values of `t`; for `bool`, whether `x` is
nonzero. -/
def PassedAs (t : ScalarTy) (x y : Int) : Prop :=
  t.InRange y ∧
  match t with
  | .int b _ => ((256 ^ b : Nat) : Int) ∣ x - y
  | .bool => y = 0 ↔ x = 0

instance (op : CmpOp) (x k : Int) : Decidable (Compares op x k) := by
  cases op <;> simp only [Compares] <;> infer_instance

end S2S.Spec
