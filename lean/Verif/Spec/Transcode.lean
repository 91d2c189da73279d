import Verif.Spec.Settle
/-
Numbers in full width: those both byte orders can carry.
-/
namespace S2S.Spec

/-- The kinds of a field: its own, or those of its alternatives. -/
def fieldKinds : Field → List Kind
  | .plain _ k _ => [k]
  | .maybe _ k _ => [k]
  | .union _ _ alts _ => alts.map Alt.kind

/-- Numbers are declared with all the bytes of their types. -/
def FullNums (fs : List Field) : Prop :=
  ∀ f ∈ fs, ∀ k ∈ fieldKinds f,
    match k with
    | .num t w => w = t.size
    | _ => True

instance : DecidablePred FullNums := fun fs => by
  unfold FullNums
  refine @List.decidableBAll _ _ (fun f => @List.decidableBAll _ _ (fun k => ?_) _) fs
  split <;> infer_instance

/-- The cast in the other byte order. -/
def inOrder (cfg : Cfg) (o : Endian) : Cfg := { cfg with wire := o }

end S2S.Spec
