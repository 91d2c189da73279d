import Verif.Model.Write
/-
Schemas that differ in how they are spelled, not in what their parts say.
-/
namespace S2S.Spec

/-- Two lengths that say the same beside all fields. -/
def AlikeLen (cfg : Cfg) (l l' : LenSpec) : Prop := ∀ env, l.eval cfg env = l'.eval cfg env

/-- Two ways to decide between the same alternatives. `keep`: a switch over a field stays as it
is, labels included. -/
def AlikeChoice (keep : Bool) (d d' : Deducer) : Prop :=
  (∀ env, d.eval env = d'.eval env) ∧
    (keep = true → ∀ i t ls, d = .matchField i t ls → d' = d)

mutual
inductive AlikeKind (keep : Bool) (cfg : Cfg) : Kind → Kind → Prop
  | num {t w} : AlikeKind keep cfg (.num t w) (.num t w)
  | fbuf {e n} : AlikeKind keep cfg (.fbuf e n) (.fbuf e n)
  | fstr {n} : AlikeKind keep cfg (.fstr n) (.fstr n)
  | vec {e len len' b b'} : AlikeLen cfg len len' →
      b.getD cfg.defaultMax = b'.getD cfg.defaultMax →
      AlikeKind keep cfg (.vec e len b) (.vec e len' b')
  | record {fs gs} : AlikeFields keep cfg fs gs → AlikeKind keep cfg (.record fs) (.record gs)
  | arrRec {fs gs n} : AlikeFields keep cfg fs gs → AlikeKind keep cfg (.arrRec fs n) (.arrRec gs n)
  | vecRec {fs gs len len' b b' sz} : AlikeFields keep cfg fs gs → AlikeLen cfg len len' →
      b.getD cfg.defaultMax = b'.getD cfg.defaultMax →
      AlikeKind keep cfg (.vecRec fs len b sz) (.vecRec gs len' b' sz)
inductive AlikeField (keep : Bool) (cfg : Cfg) : Field → Field → Prop
  | plain {id k k' c c'} : AlikeKind keep cfg k k' → (∀ v, c.check v = c'.check v) →
      (keep = true → frozenVal k c = frozenVal k' c') →
      AlikeField keep cfg (.plain id k c) (.plain id k' c')
  | maybe {id k k' p p'} : AlikeKind keep cfg k k' → (∀ env, p.eval env = p'.eval env) →
      AlikeField keep cfg (.maybe id k p) (.maybe id k' p')
  | union {id d d' alts alts' c c'} : AlikeChoice keep d d' → AlikeAlts keep cfg alts alts' →
      (∀ v, c.check v = c'.check v) →
      AlikeField keep cfg (.union id d alts c) (.union id d' alts' c')
inductive AlikeAlts (keep : Bool) (cfg : Cfg) : List Alt → List Alt → Prop
  | nil : AlikeAlts keep cfg [] []
  | cons {k k' c c' alts alts'} : AlikeKind keep cfg k k' → (∀ v, c.check v = c'.check v) →
      AlikeAlts keep cfg alts alts' → AlikeAlts keep cfg (.mk k c :: alts) (.mk k' c' :: alts')
/-- The same fields, with lengths, conditions, choices and constraints that say the same, at
every nesting level. `keep`: with the same labels and constants. -/
inductive AlikeFields (keep : Bool) (cfg : Cfg) : List Field → List Field → Prop
  | nil : AlikeFields keep cfg [] []
  | cons {f g fs gs} : AlikeField keep cfg f g → AlikeFields keep cfg fs gs →
      AlikeFields keep cfg (f :: fs) (g :: gs)
end

/-- A switch over a computed value of any type: `type<compute<fn, R, ids...>,
type_switch<match_case<value, ..>...>>` computes the value (type_impl.hpp 20-27) and compares it
with one label after the other (switch_impl.hpp 14-53); `eqs` are the comparisons
`v == match_case::value`. -/
def switchOn {α : Type} (ids : List String) (fn : List Val → α) (eqs : List (α → Bool)) : Deducer :=
  .ladder (eqs.map fun e => ⟨ids, fun vs => e (fn vs)⟩)

/-- The alternative such a switch selects: the first whose label is equal to the value. -/
def FirstEqual {α : Type} (x : α) (eqs : List (α → Bool)) (i : Nat) : Prop :=
  (∃ e, eqs[i]? = some e ∧ e x = true) ∧ ∀ j e, j < i → eqs[j]? = some e → e x = false

end S2S.Spec
