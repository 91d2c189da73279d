import Verif.Model.HandList
import Verif.Spec.Format
/-
The bytes of lists with fields of fixed size spelled by hand.
-/
namespace S2S.Spec

/-- What a field is read from: the first bytes of its encoding. -/
def cutWire (cfg : Cfg) : HField → Val → List Byte
  | .std f, v => wireField cfg.wire f v
  | .hand id t k c, v => (wireField cfg.wire (HField.hand id t k c).usual v).take k

/-- What is left out are zeros. -/
def ZeroTail (cfg : Cfg) : HField → Val → Prop
  | .std _, _ => True
  | .hand id t k c, v =>
      k ≤ t.size ∧ ∀ b ∈ (wireField cfg.wire (HField.hand id t k c).usual v).drop k, b = 0

def cutWires (cfg : Cfg) : List HField → List Val → List Byte
  | h :: hs, v :: vs => cutWire cfg h v ++ cutWires cfg hs vs
  | _, _ => []

def ZeroTails (cfg : Cfg) : List HField → List Val → Prop
  | h :: hs, v :: vs => ZeroTail cfg h v ∧ ZeroTails cfg hs vs
  | _, _ => True

/-- An array written in the other byte order than the host's: all of it is. -/
def whole (cfg : Cfg) : HField → Bool
  | .std _ => true
  | .hand _ t _ _ => cfg.foreign && t.isBuf

/-- What a field is written as. -/
def sentWire (cfg : Cfg) (h : HField) (v : Val) : List Byte :=
  if whole cfg h then wireField cfg.wire h.usual v else cutWire cfg h v

def sentWires (cfg : Cfg) : List HField → List Val → List Byte
  | h :: hs, v :: vs => sentWire cfg h v ++ sentWires cfg hs vs
  | _, _ => []

/-- The byte counts are within the types. -/
def CountFits : HField → Prop
  | .std _ => True
  | .hand _ t k _ => k ≤ t.size

end S2S.Spec
