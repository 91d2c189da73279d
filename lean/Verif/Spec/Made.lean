import Verif.Spec.Typed
import Verif.Spec.Names
import Verif.Model.Read
import Verif.Model.Write
/-
The structs a program can hold: default construction, parsing, and assignment through
`operator[]`.
-/
namespace S2S.Spec

/-- How `operator[]` looks a name up in a list: the field, and how it may be used. -/
abbrev Lookup := List Field → String → Option (Field × Meta.Access)

/-- `operator[]` with a name. The empty one stands for the field whose type has id 0
(`C28_fails_empty_name`). -/
def named (lt : String → String → Bool) (tid : Field → Nat) : Lookup := fun fs id =>
  if id = "" then none else Meta.subscript lt tid fs id

mutual
/-- A struct a program can hold. `acc` is what `operator[]` does
(/repo/include/field_list/field_list.hpp 56-106), `src` the structs that come from
elsewhere, such as `struct_cast`. Otherwise a struct is default-constructed
(`struct_field_list_impl() = default`, line 59; `field_type value{}`,
/repo/include/field/field.hpp 29), and changed by assigning, through a reference that is
not to const, a value of the field's type. Changing a part of a field in place is
assigning the changed field (`C107_inside`). -/
inductive Made (acc : Lookup) (src : List Field → List Val → Prop) (cfg : Cfg) :
    List Field → List Val → Prop
  | fresh {fs} : Made acc src cfg fs (Field.dflts fs)
  | given {fs vs} : src fs vs → Made acc src cfg fs vs
  | assign {fs vs id f i v} : Made acc src cfg fs vs → acc fs id = some (f, .mutable) → At fs i f →
      MadeField acc src cfg f v → Made acc src cfg fs (vs.set i v)
/-- A value of the type of a field. -/
inductive MadeField (acc : Lookup) (src : List Field → List Val → Prop) (cfg : Cfg) :
    Field → Val → Prop
  | plain {id k c v} : MadeKind acc src cfg k v → MadeField acc src cfg (.plain id k c) v
  | absent {id k p} : MadeField acc src cfg (.maybe id k p) .absent
  | present {id k p v} : MadeKind acc src cfg k v → MadeField acc src cfg (.maybe id k p) (.present v)
  | alternative {id d alts c j a v} : alts[j]? = some a → MadeKind acc src cfg a.kind v →
      MadeField acc src cfg (.union id d alts c) (.var j v)
inductive MadeKind (acc : Lookup) (src : List Field → List Val → Prop) (cfg : Cfg) :
    Kind → Val → Prop
  | num {t w x} : t.InRange x → MadeKind acc src cfg (.num t w) (.int x)
  | fbuf {e n vs} : vs.length = n → (∀ v ∈ vs, ElemFits e v) → MadeKind acc src cfg (.fbuf e n) (.seq vs)
  | fstr {n vs} : vs.length = n + 1 → (∀ v ∈ vs, ElemFits (.scalar u8) v) →
      MadeKind acc src cfg (.fstr n) (.seq vs)
  | vec {e len b vs} : vs.length * e.size ≤ cfg.ptrdiffMax → (∀ v ∈ vs, ElemFits e v) →
      MadeKind acc src cfg (.vec e len b) (.seq vs)
  | record {fs vs} : Made acc src cfg fs vs → MadeKind acc src cfg (.record fs) (.seq vs)
  | arrRec {fs n} {vs : List (List Val)} : vs.length = n → (∀ ws ∈ vs, Made acc src cfg fs ws) →
      MadeKind acc src cfg (.arrRec fs n) (.seq (vs.map .seq))
  | vecRec {fs len b sz} {vs : List (List Val)} : vs.length * sz ≤ cfg.ptrdiffMax →
      (∀ ws ∈ vs, Made acc src cfg fs ws) →
      MadeKind acc src cfg (.vecRec fs len b sz) (.seq (vs.map .seq))
end

/-- What `struct_cast` returned, from whatever stream. -/
def Parsed (cfg : Cfg) (fs : List Field) (vs : List Val) : Prop :=
  ∃ (S : InStream) (s s' : S.State), (structCast cfg fs).runOn S s = (.done (.ok vs), s')

/-- Nothing comes from elsewhere. -/
def Nowhere (_ : List Field) (_ : List Val) : Prop := False

/-- Every union has an alternative: there is no `std::variant` of none. -/
def SomeAlternative (fs : List Field) : Prop :=
  ∀ f ∈ fs, match f with
    | .union _ _ alts _ => alts ≠ []
    | _ => True

instance : DecidablePred SomeAlternative := fun fs => by
  unfold SomeAlternative
  refine @List.decidableBAll _ _ (fun f => ?_) fs
  split
  · rename_i alts _
    cases alts with
    | nil => exact .isFalse (by simp)
    | cons a as => exact .isTrue (by simp)
  · exact .isTrue trivial

/-- A list `operator[]` works on: within the limits of constant evaluation, field types
told apart, no field without a name. -/
def Addressable (tid : Field → Nat) (fs : List Field) : Prop :=
  fs.length ≤ 256 ∧ (∀ f ∈ fs, ∀ g ∈ fs, tid f = tid g → f = g) ∧
  (lenDerivedIds fs).length ≤ 64 ∧ (discDerivedIds fs).length ≤ 64 ∧
  ∀ f ∈ fs, f.id ≠ ""

end S2S.Spec
