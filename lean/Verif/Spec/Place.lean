import Verif.Spec.Settle
/-
The same place in two structs of one schema.
-/
namespace S2S.Spec

/-- A list of fields directly inside two values of a kind, in the same place, with its
values in either. -/
inductive SamePlaceKind : Kind → Val → Val → List Field → List Val → List Val → Prop
  | record {fs vs ws} : SamePlaceKind (.record fs) (.seq vs) (.seq ws) fs vs ws
  | arrRec {fs n us us' vs ws} {i : Nat} : us[i]? = some (.seq vs) → us'[i]? = some (.seq ws) →
      SamePlaceKind (.arrRec fs n) (.seq us) (.seq us') fs vs ws
  | vecRec {fs len b sz us us' vs ws} {i : Nat} : us[i]? = some (.seq vs) → us'[i]? = some (.seq ws) →
      SamePlaceKind (.vecRec fs len b sz) (.seq us) (.seq us') fs vs ws

/-- The same for a field. -/
inductive SamePlaceField : Field → Val → Val → List Field → List Val → List Val → Prop
  | plain {id k c v w gs vs ws} : SamePlaceKind k v w gs vs ws →
      SamePlaceField (.plain id k c) v w gs vs ws
  | maybe {id k p v w gs vs ws} : SamePlaceKind k v w gs vs ws →
      SamePlaceField (.maybe id k p) (.present v) (.present w) gs vs ws
  | union {id d alts c a v w gs vs ws} {i : Nat} : alts[i]? = some a →
      SamePlaceKind a.kind v w gs vs ws →
      SamePlaceField (.union id d alts c) (.var i v) (.var i w) gs vs ws

/-- `SamePlace fs vs ws gs as bs`: somewhere in a struct of schema `fs`, at any depth, is a
list of fields `gs`; there the struct `vs` has `as` and the struct `ws` has `bs`. -/
inductive SamePlace : List Field → List Val → List Val → List Field → List Val → List Val → Prop
  | here {fs vs ws} : SamePlace fs vs ws fs vs ws
  | deeper {fs vs ws f v w gs as bs hs us us'} {i : Nat} : fs[i]? = some f → vs[i]? = some v →
      ws[i]? = some w → SamePlaceField f v w gs as bs → SamePlace gs as bs hs us us' →
      SamePlace fs vs ws hs us us'

end S2S.Spec
