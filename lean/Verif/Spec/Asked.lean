import Verif.Spec.Settle
/-
A schema with its lengths and discriminants asked for instead of taken: where it says
`len_from_field<"n">` the other says `len_from_fields<f, with_fields<"n">>`, where it switches on
`match_field<"t">` the other switches on `compute<f, T, fields_list<"t">>`, with an `f` that hands its
argument back.
-/
namespace S2S.Spec

/-- `[](auto x) { return x; }` of that field. -/
def itself (id : String) : Calc where
  ids := [id]
  fn
    | [.int x] => x
    | _ => 0

def askingLen : LenSpec → LenSpec
  | .fromField id => .computed (itself id)
  | .computed c => .computed c

def askingGuide : Deducer → Deducer
  | .matchField id t labels => .matchCompute (itself id) t labels
  | .matchCompute c t labels => .matchCompute c t labels
  | .ladder ps => .ladder ps

mutual
def askingKind : Kind → Kind
  | .num t w => .num t w
  | .fbuf e n => .fbuf e n
  | .fstr n => .fstr n
  | .vec e len b => .vec e (askingLen len) b
  | .record fs => .record (asking fs)
  | .arrRec fs n => .arrRec (asking fs) n
  | .vecRec fs len b sz => .vecRec (asking fs) (askingLen len) b sz
def askingField : Field → Field
  | .plain id k c => .plain id (askingKind k) c
  | .maybe id k p => .maybe id (askingKind k) p
  | .union id d alts c => .union id (askingGuide d) (askingAlts alts) c
def askingAlts : List Alt → List Alt
  | [] => []
  | .mk k c :: alts => .mk (askingKind k) c :: askingAlts alts
/-- The schema, at every level. -/
def asking : List Field → List Field
  | [] => []
  | f :: fs => askingField f :: asking fs
end

/-- The field a union switches on. -/
def switchedOn : Field → List String
  | .union _ (.matchField id _ _) _ _ => [id]
  | _ => []

/-- No length and no discriminant of the list is a constant. -/
def FreeNumbers (fs : List Field) : Prop :=
  ∀ f ∈ fs, ∀ id ∈ lengthTargets f ++ switchedOn f, ∀ g ∈ fs, g.id = id →
    match g with
    | .plain _ k c => constOf k c = none
    | _ => True

instance : DecidablePred FreeNumbers := fun fs => by
  unfold FreeNumbers
  refine @List.decidableBAll _ _ (fun f => ?_) fs
  refine @List.decidableBAll _ _ (fun id => ?_) _
  refine @List.decidableBAll _ _ (fun g => ?_) fs
  split <;> infer_instance

end S2S.Spec
