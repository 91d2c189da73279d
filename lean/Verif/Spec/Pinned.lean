import Verif.Model.Write
import Verif.Spec.Format
/-
A vector whose count can only be one number, and the array of that many.
-/
namespace S2S.Spec

/-- Of the values of the type, the constraint lets through `N` and nothing else. -/
def LetsOnly (t : ScalarTy) (c : Constraint) (N : Nat) : Prop :=
  ∀ x, t.InRange x → c.check (.int x) = .ok (decide (x = N))

/-- `Pinned cfg n N k k'`: `k` is a vector with as many elements as the field `n` says, `k'` the array
of `N` of them; `N` of them are within the ceiling of the vector.
* `vec`: the elements of a vector are read one by one from a `constexpr` stream, those of an array are not. -/
inductive Pinned (cfg : Cfg) (n : String) (N : Nat) : Kind → Kind → Prop
  | vec (e : ElemTy) (bound : Option Nat) : cfg.constexprStream = false → 0 < e.size → StorageFits cfg bound e.size N →
      Pinned cfg n N (.vec e (.fromField n) bound) (.fbuf e N)
  | recs (gs : List Field) (bound : Option Nat) (sz : Nat) : 0 < sz → StorageFits cfg bound sz N →
      Pinned cfg n N (.vecRec gs (.fromField n) bound sz) (.arrRec gs N)

/-- The list with the count, and somewhere after it `f`. -/
def counted (n : String) (t : ScalarTy) (w : Nat) (c : Constraint) (pre mid post : List Field) (f : Field) : List Field :=
  pre ++ .plain n (.num t w) c :: (mid ++ f :: post)

end S2S.Spec
