import Verif.Model.Write
import Verif.Spec.Schema
/-
An optional spelled as a union of what it holds and an alternative that takes no bytes.
-/
namespace S2S.Spec

/-- `[](auto... xs) { return !pred(xs...); }` -/
def negated (p : Pred) : Pred := ⟨p.ids, fun vs => !p.fn vs⟩

/-- `as_fixed_arr<unsigned char, 0>` -/
def nothingAlt : Alt := .mk (.fbuf (.scalar (.int 1 false)) 0) .none

/-- The picked optionals as unions: `type_if_else<branch<pred, tag>, branch<!pred, as_fixed_arr<u8, 0>>>`. -/
def asUnion (pick : String → Bool) : Field → Field
  | .maybe id k p =>
      if pick id then .union id (.ladder [p, negated p]) [.mk k .none, nothingAlt] .none else .maybe id k p
  | f => f

/-- `std::optional` as `std::variant`. -/
def toVariant : Val → Val
  | .present w => .var 0 w
  | .absent => .var 1 (.seq [])
  | v => v

def asVariant (pick : String → Bool) : Field → Val → Val
  | .maybe id _ _, v => if pick id then toVariant v else v
  | _, v => v

/-- A struct of the one schema as a struct of the other. -/
def asVariants (pick : String → Bool) : List Field → List Val → List Val
  | f :: fs, v :: vs => asVariant pick f v :: asVariants pick fs vs
  | _, vs => vs

/-- No length, predicate, computation or choice looks at one of them. -/
def Unread (pick : String → Bool) (fs : List Field) : Prop :=
  ∀ f ∈ fs, ∀ i ∈ fieldDeps f, pick i = false

/-- The members that are optionals hold optionals. -/
def Optionals : List Field → List Val → Prop
  | .maybe _ _ _ :: fs, v :: vs => (v = .absent ∨ ∃ w, v = .present w) ∧ Optionals fs vs
  | _ :: fs, _ :: vs => Optionals fs vs
  | _, _ => True

/-- A picked optional whose length another member holds is not engaged against its predicate. -/
def NotHeldBack (pick : String → Bool) (env : Env) : List Field → List Val → Prop
  | .maybe id k p :: fs, v :: vs =>
      (pick id = true → k.lenTarget?.isSome = true → ∀ w, v = .present w → p.eval env = .ok true) ∧
      NotHeldBack pick env fs vs
  | _ :: fs, _ :: vs => NotHeldBack pick env fs vs
  | _, _ => True

/-- A stream that can always be asked for nothing. -/
def IdleIn (S : InStream) : Prop := ∀ s, S.read s 0 = (some [], s)
def IdleOut (S : OutStream) : Prop := ∀ s, S.write s [] = (true, s)

end S2S.Spec
