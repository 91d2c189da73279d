import Verif.Spec.Rewrite
import Verif.Model.Meta
/-
When a list of fields is accepted, stated over positions.
-/
namespace S2S.Spec

/-- The field at position `i` is `f`. -/
abbrev At (fs : List Field) (i : Nat) (f : Field) : Prop := fs[i]? = some f

/-- Some field at a position before `i` has that name. -/
def DeclaredBefore (fs : List Field) (i : Nat) (name : String) : Prop :=
  ∃ j g, j < i ∧ At fs j g ∧ g.id = name

/-- Some field at a position up to `i` has that name. -/
def DeclaredUpTo (fs : List Field) (i : Nat) (name : String) : Prop :=
  ∃ j g, j ≤ i ∧ At fs j g ∧ g.id = name

/-- No two fields have the same name. -/
def Distinct (fs : List Field) : Prop := (fs.map Field.id).Nodup

instance (fs : List Field) : Decidable (Distinct fs) := inferInstanceAs (Decidable (List.Nodup _))

/-- Every name a field refers to is declared before the field. -/
def Backward (fs : List Field) : Prop :=
  ∀ i f, At fs i f → ∀ d ∈ fieldDeps f, DeclaredBefore fs i d

/-- A container with a bound of its own. -/
def declaresBound : Kind → Bool
  | .vec _ _ (some _) => true
  | .vecRec _ _ (some _) _ => true
  | _ => false

/-- The limits of constant evaluation: 64 names per kind of dependency of a field, 64
alternatives or branches; and an optional field does not declare a bound. -/
def WithinLimits : Field → Prop
  | .plain _ k _ => (kindDeps k).length ≤ 64
  | .maybe _ k p => declaresBound k = false ∧ (kindDeps k).length ≤ 64 ∧ p.ids.length ≤ 64
  | .union _ d alts _ =>
      alts.length ≤ 64 ∧ (alts.flatMap fun a => kindDeps a.kind).length ≤ 64 ∧
      (deducerDeps d).length ≤ 64 ∧
      match d with
      | .ladder ps => ps.length ≤ 64
      | _ => True

instance (f : Field) : Decidable (WithinLimits f) := by
  cases f with
  | plain id k c => exact inferInstanceAs (Decidable (_ ≤ _))
  | maybe id k p => unfold WithinLimits; infer_instance
  | union id d alts c => cases d <;> unfold WithinLimits <;> infer_instance

/-! ### Access -/

/-- Some container of the list, not in an optional or a union, takes its length from
there. -/
def LengthTarget (fs : List Field) (id : String) : Prop :=
  ∃ j k c, Field.plain j k c ∈ fs ∧ k.lenTarget? = some id

/-- Some union of the list switches on it. -/
def SwitchedOn (fs : List Field) (id : String) : Prop :=
  ∃ j t ls alts c, Field.union j (.matchField id t ls) alts c ∈ fs

/-- The field is a constant: fixed size, constrained with `eq`. -/
def Frozen : Field → Prop
  | .plain _ k c => (typedConst k c).isSome = true
  | _ => False

end S2S.Spec
