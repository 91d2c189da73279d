import Verif.Spec.Schema
/-
Schemas that differ in names only.
-/
namespace S2S.Spec

def Injective (ρ : String → String) : Prop := ∀ x y, ρ x = ρ y → x = y

def renPred (ρ : String → String) (p : Pred) : Pred := ⟨p.ids.map ρ, p.fn⟩
def renCalc (ρ : String → String) (c : Calc) : Calc := ⟨c.ids.map ρ, c.fn⟩

def renLen (ρ : String → String) : LenSpec → LenSpec
  | .fromField id => .fromField (ρ id)
  | .computed c => .computed (renCalc ρ c)

def renDeducer (ρ : String → String) : Deducer → Deducer
  | .matchField id t ls => .matchField (ρ id) t ls
  | .matchCompute c t ls => .matchCompute (renCalc ρ c) t ls
  | .ladder ps => .ladder (ps.map (renPred ρ))

mutual
inductive RenKind : (String → String) → Kind → Kind → Prop
  | num {ρ t w} : RenKind ρ (.num t w) (.num t w)
  | fbuf {ρ e n} : RenKind ρ (.fbuf e n) (.fbuf e n)
  | fstr {ρ n} : RenKind ρ (.fstr n) (.fstr n)
  | vec {ρ e len b} : RenKind ρ (.vec e len b) (.vec e (renLen ρ len) b)
  /-- The names of a nested list are its own. -/
  | record {ρ ρ' fs gs} : Injective ρ' → RenFields ρ' fs gs → RenKind ρ (.record fs) (.record gs)
  | arrRec {ρ ρ' fs gs n} : Injective ρ' → RenFields ρ' fs gs → RenKind ρ (.arrRec fs n) (.arrRec gs n)
  | vecRec {ρ ρ' fs gs len b sz} : Injective ρ' → RenFields ρ' fs gs →
      RenKind ρ (.vecRec fs len b sz) (.vecRec gs (renLen ρ len) b sz)
inductive RenField : (String → String) → Field → Field → Prop
  | plain {ρ id k k' c} : RenKind ρ k k' → RenField ρ (.plain id k c) (.plain (ρ id) k' c)
  | maybe {ρ id k k' p} : RenKind ρ k k' → RenField ρ (.maybe id k p) (.maybe (ρ id) k' (renPred ρ p))
  | union {ρ id d alts alts' c} : RenAlts ρ alts alts' →
      RenField ρ (.union id d alts c) (.union (ρ id) (renDeducer ρ d) alts' c)
inductive RenAlts : (String → String) → List Alt → List Alt → Prop
  | nil {ρ} : RenAlts ρ [] []
  | cons {ρ k k' c alts alts'} : RenKind ρ k k' → RenAlts ρ alts alts' →
      RenAlts ρ (.mk k c :: alts) (.mk k' c :: alts')
/-- The second schema is the first with its fields, and whatever refers to them, renamed by
`ρ`; nested lists are renamed each in its own way. -/
inductive RenFields : (String → String) → List Field → List Field → Prop
  | nil {ρ} : RenFields ρ [] []
  | cons {ρ f g fs gs} : RenField ρ f g → RenFields ρ fs gs → RenFields ρ (f :: fs) (g :: gs)
end

/-- An error at the renamed field. -/
def renError (ρ : String → String) (e : CastError) : CastError := ⟨e.reason, ρ e.failedAt⟩

end S2S.Spec
