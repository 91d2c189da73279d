import Verif.Spec.Names
/-
Option packs, orders, schema tables: notions the properties of the compile-time code
are stated with.
-/
namespace S2S.Spec

/-- The option a pack provides of one kind: the only one it has, or the default if it
has none. -/
def Provides (p : O → Bool) (dflt : O) (opts : List O) (o : O) : Prop :=
  opts.filter p = [o] ∨ opts.filter p = [] ∧ o = dflt

/-- A strict weak order. -/
structure StrictWeak (lt : α → α → Bool) : Prop where
  asymm : ∀ a b, lt a b = true → lt b a = false
  trans : ∀ a b c, lt b a = false → lt c b = false → lt c a = false

/-- Names that can be looked up unambiguously: not empty, and not the field's own. -/
def NamesOk (fs : List Field) : Prop :=
  ∀ f ∈ fs, f.id ≠ "" ∧ "" ∉ fieldDeps f ∧ f.id ∉ fieldDeps f

end S2S.Spec
