import Verif.Spec.Format
/-
Numbers written in bytes, and the lists nested in a struct.
-/
namespace S2S.Spec

/-- The number a byte string writes in the given order. -/
def numeral : Endian → List Byte → Nat
  | .little, bs => bs.foldr (fun b n => b.toNat + 256 * n) 0
  | .big, bs => bs.foldl (fun n b => 256 * n + b.toNat) 0

example : numeral .little [0x34, 0x12] = 0x1234 := by decide
example : numeral .big [0x12, 0x34] = 0x1234 := by decide

/-- A list of fields with its values, directly inside a value of a kind. -/
inductive InsideKind : Kind → Val → List Field → List Val → Prop
  | record {fs vs} : InsideKind (.record fs) (.seq vs) fs vs
  | arrRec {fs n us ws} : .seq ws ∈ us → InsideKind (.arrRec fs n) (.seq us) fs ws
  | vecRec {fs len b sz us ws} : .seq ws ∈ us → InsideKind (.vecRec fs len b sz) (.seq us) fs ws

/-- The same for a field. -/
inductive InsideField : Field → Val → List Field → List Val → Prop
  | plain {id k c v gs ws} : InsideKind k v gs ws → InsideField (.plain id k c) v gs ws
  | maybe {id k p v gs ws} : InsideKind k v gs ws → InsideField (.maybe id k p) (.present v) gs ws
  | union {id d alts c i a v gs ws} : alts[i]? = some a → InsideKind a.kind v gs ws →
      InsideField (.union id d alts c) (.var i v) gs ws

/-- A list of fields with its values somewhere in a struct, at any depth; the struct
itself included. -/
inductive Inside : List Field → List Val → List Field → List Val → Prop
  | here {fs vs} : Inside fs vs fs vs
  | deeper {fs vs f v gs ws hs us} : (f, v) ∈ fs.zip vs → InsideField f v gs ws →
      Inside gs ws hs us → Inside fs vs hs us

end S2S.Spec
