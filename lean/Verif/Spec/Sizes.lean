import Verif.Spec.Format
import Verif.Spec.Schema
import Verif.Model.Read
/-
What can be said from the schema alone about how much is on the wire, how much memory a
read takes and how often it calls the stream.
-/
namespace S2S.Spec

/-! ### Bytes on the wire -/

mutual
/-- The fewest bytes a value of the kind takes. -/
def minKind : Kind → Nat
  | .num _ w => w
  | .fbuf e n => n * e.size
  | .fstr n => n + 1
  | .vec _ _ _ => 0
  | .record fs => minFields fs
  | .arrRec fs n => n * minFields fs
  | .vecRec _ _ _ _ => 0
def minField : Field → Nat
  | .plain _ k _ => minKind k
  | .maybe _ _ _ => 0
  | .union _ _ alts _ => minAlts alts
def minAlts : List Alt → Nat
  | [] => 0
  | [.mk k _] => minKind k
  | .mk k _ :: b :: alts => min (minKind k) (minAlts (b :: alts))
def minFields : List Field → Nat
  | [] => 0
  | f :: fs => minField f + minFields fs
end

/-- The most elements of `size` bytes a container may have: its ceiling, and what the
platform can allocate. -/
def maxCount (cfg : Cfg) (bound : Option Nat) (size : Nat) : Nat :=
  min (bound.getD cfg.defaultMax) cfg.ptrdiffMax / size

mutual
/-- The most bytes a value of the kind takes. -/
def maxKind (cfg : Cfg) : Kind → Nat
  | .num _ w => w
  | .fbuf e n => n * e.size
  | .fstr n => n + 1
  | .vec e _ bound => maxCount cfg bound e.size * e.size
  | .record fs => maxFields cfg fs
  | .arrRec fs n => n * maxFields cfg fs
  | .vecRec fs _ bound sz => maxCount cfg bound sz * maxFields cfg fs
def maxField (cfg : Cfg) : Field → Nat
  | .plain _ k _ => maxKind cfg k
  | .maybe _ k _ => maxKind cfg k
  | .union _ _ alts _ => maxAlts cfg alts
def maxAlts (cfg : Cfg) : List Alt → Nat
  | [] => 0
  | .mk k _ :: alts => max (maxKind cfg k) (maxAlts cfg alts)
def maxFields (cfg : Cfg) : List Field → Nat
  | [] => 0
  | f :: fs => maxField cfg f + maxFields cfg fs
end

/-! ### Memory and calls -/

/-- The number of bytes a stream delivers to a read. -/
def deliveredOn (S : InStream) : Rd α → S.State → Nat
  | .ret _, _ => 0
  | .stuck _, _ => 0
  | .read n k, s =>
      match S.read s n with
      | (some bs, s') => bs.length + deliveredOn S (k (some bs)) s'
      | (none, s') => deliveredOn S (k none) s'
  | .alloc _ k, s => deliveredOn S k s

mutual
/-- In every vector of records each record takes at least one byte. -/
def solidKind : Kind → Bool
  | .record fs => solidFields fs
  | .arrRec fs _ => solidFields fs
  | .vecRec fs _ _ _ => decide (1 ≤ minFields fs) && solidFields fs
  | _ => true
def solidField : Field → Bool
  | .plain _ k _ => solidKind k
  | .maybe _ k _ => solidKind k
  | .union _ _ alts _ => solidAlts alts
def solidAlts : List Alt → Bool
  | [] => true
  | .mk k _ :: alts => solidKind k && solidAlts alts
def solidFields : List Field → Bool
  | [] => true
  | f :: fs => solidField f && solidFields fs
end

mutual
/-- Bytes allocated per byte delivered: a vector its bytes, a vector of records the
records that go with the byte, at every level. -/
def memoryKind : Kind → Nat
  | .vec _ _ _ => 1
  | .record fs => memoryFields fs
  | .arrRec fs _ => memoryFields fs
  | .vecRec fs _ _ sz => sz + memoryFields fs
  | _ => 0
def memoryField : Field → Nat
  | .plain _ k _ => memoryKind k
  | .maybe _ k _ => memoryKind k
  | .union _ _ alts _ => memoryAlts alts
def memoryAlts : List Alt → Nat
  | [] => 0
  | .mk k _ :: alts => max (memoryKind k) (memoryAlts alts)
def memoryFields : List Field → Nat
  | [] => 0
  | f :: fs => max (memoryField f) (memoryFields fs)
end

mutual
/-- What can be allocated before it is known that the bytes are not there: the ceiling of
one container, and of one container inside it, at every level. -/
def aheadKind (cfg : Cfg) : Kind → Nat
  | .vec _ _ bound => bound.getD cfg.defaultMax
  | .record fs => aheadFields cfg fs
  | .arrRec fs _ => aheadFields cfg fs
  | .vecRec fs _ bound _ => bound.getD cfg.defaultMax + aheadFields cfg fs
  | _ => 0
def aheadField (cfg : Cfg) : Field → Nat
  | .plain _ k _ => aheadKind cfg k
  | .maybe _ k _ => aheadKind cfg k
  | .union _ _ alts _ => aheadAlts cfg alts
def aheadAlts (cfg : Cfg) : List Alt → Nat
  | [] => 0
  | .mk k _ :: alts => max (aheadKind cfg k) (aheadAlts cfg alts)
def aheadFields (cfg : Cfg) : List Field → Nat
  | [] => 0
  | f :: fs => max (aheadField cfg f) (aheadFields cfg fs)
end

mutual
/-- Calls that are made once, whatever is read. -/
def callsKind : Kind → Nat
  | .num _ _ => 1
  | .fbuf _ _ => 1
  | .fstr _ => 1
  | .vec _ _ _ => 1
  | .record fs => callsFields fs
  | .arrRec fs n => n * callsFields fs
  | .vecRec fs _ _ _ => callsFields fs
def callsField : Field → Nat
  | .plain _ k _ => callsKind k
  | .maybe _ k _ => callsKind k
  | .union _ _ alts _ => callsAlts alts
def callsAlts : List Alt → Nat
  | [] => 0
  | .mk k _ :: alts => max (callsKind k) (callsAlts alts)
def callsFields : List Field → Nat
  | [] => 0
  | f :: fs => callsField f + callsFields fs
end

mutual
/-- Calls per byte delivered: one per element of a vector, those of a record per record. -/
def rateKind : Kind → Nat
  | .vec _ _ _ => 1
  | .record fs => rateFields fs
  | .arrRec fs _ => rateFields fs
  | .vecRec fs _ _ _ => rateFields fs + callsFields fs
  | _ => 0
def rateField : Field → Nat
  | .plain _ k _ => rateKind k
  | .maybe _ k _ => rateKind k
  | .union _ _ alts _ => rateAlts alts
def rateAlts : List Alt → Nat
  | [] => 0
  | .mk k _ :: alts => max (rateKind k) (rateAlts alts)
def rateFields : List Field → Nat
  | [] => 0
  | f :: fs => max (rateField f) (rateFields fs)
end

end S2S.Spec
