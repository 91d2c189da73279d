import Verif.Spec.Rewrite
/-
Changes of a schema that are meant to be compatible: constraints are relaxed, ceilings
raised, and cases appended to unions.
-/
namespace S2S.Spec

/-- What one constraint accepts the other accepts. -/
def Weaker (c c' : Constraint) : Prop := ∀ v, Holds c v → Holds c' v

/-- Cases are appended to a type deduction guide. -/
inductive MoreCases : Deducer → Deducer → Prop
  | matchField {id t labels} (more) : MoreCases (.matchField id t labels) (.matchField id t (labels ++ more))
  | matchCompute {c t labels} (more) : MoreCases (.matchCompute c t labels) (.matchCompute c t (labels ++ more))
  | ladder {preds} (more) : MoreCases (.ladder preds) (.ladder (preds ++ more))

mutual
inductive LooserKind (keep : Bool) (cfg : Cfg) : Kind → Kind → Prop
  | num {t w} : LooserKind keep cfg (.num t w) (.num t w)
  | fbuf {e n} : LooserKind keep cfg (.fbuf e n) (.fbuf e n)
  | fstr {n} : LooserKind keep cfg (.fstr n) (.fstr n)
  | vec {e len b b'} : b.getD cfg.defaultMax ≤ b'.getD cfg.defaultMax →
      LooserKind keep cfg (.vec e len b) (.vec e len b')
  | record {fs gs} : LooserFields keep cfg fs gs → LooserKind keep cfg (.record fs) (.record gs)
  | arrRec {fs gs n} : LooserFields keep cfg fs gs → LooserKind keep cfg (.arrRec fs n) (.arrRec gs n)
  /-- Ceilings are in bytes of memory, which a record with more alternatives may have
  more of: so many records as were allowed still have to be. -/
  | vecRec {fs gs len b b' sz sz'} : LooserFields keep cfg fs gs →
      (∀ n, StorageFits cfg b sz n → StorageFits cfg b' sz' n) →
      LooserKind keep cfg (.vecRec fs len b sz) (.vecRec gs len b' sz')
inductive LooserField (keep : Bool) (cfg : Cfg) : Field → Field → Prop
  | plain {id k k' c c'} : LooserKind keep cfg k k' → Weaker c c' →
      (keep = true → typedConst k' c' = typedConst k c) →
      LooserField keep cfg (.plain id k c) (.plain id k' c')
  | maybe {id k k' p} : LooserKind keep cfg k k' → LooserField keep cfg (.maybe id k p) (.maybe id k' p)
  | union {id d d' alts alts' c c'} : MoreCases d d' → alts ≠ [] → LooserAlts keep cfg alts alts' →
      Weaker c c' → LooserField keep cfg (.union id d alts c) (.union id d' alts' c')
inductive LooserAlts (keep : Bool) (cfg : Cfg) : List Alt → List Alt → Prop
  | more {alts} : LooserAlts keep cfg [] alts
  | cons {k k' c c' alts alts'} : LooserKind keep cfg k k' → Weaker c c' → LooserAlts keep cfg alts alts' →
      LooserAlts keep cfg (.mk k c :: alts) (.mk k' c' :: alts')
/-- The second schema is the first with constraints relaxed, ceilings raised and cases
appended to unions, at any nesting level. `keep`: no field becomes or ceases to be a
constant. -/
inductive LooserFields (keep : Bool) (cfg : Cfg) : List Field → List Field → Prop
  | nil : LooserFields keep cfg [] []
  | cons {f g fs gs} : LooserField keep cfg f g → LooserFields keep cfg fs gs → LooserFields keep cfg (f :: fs) (g :: gs)
end

end S2S.Spec
