import Verif.Spec.Damage
/-
Runs of consecutive fields taken together into a record.
-/
namespace S2S.Spec

/-- `m` values from the `n`th on, taken together. -/
def regroup (n m : Nat) (vs : List Val) : List Val :=
  vs.take n ++ .seq ((vs.drop n).take m) :: vs.drop (n + m)

/-- An error at one of the fields `mid`, reported at the record they are taken into. -/
def relabel (mid : List Field) (id : String) (e : CastError) : CastError :=
  if e.failedAt ∈ mid.map Field.id then ⟨e.reason, id⟩ else e

end S2S.Spec
