import Verif.Spec.Format
import Verif.Spec.Schema
/-
The struct that is on the wire after a successful write: the user's struct with
the slots the library fills (lengths, discriminants, constants) filled.

Defined from the schema and the values alone; nothing here refers to the writer.
-/
namespace S2S.Spec

/-- A slot the library fills: some container of the list takes its length from it,
or some union of the list switches on it. -/
def isSlot (fs : List Field) (id : String) : Bool :=
  fs.any fun
    | .plain _ k _ => k.lenTarget? == some id
    | .union _ (.matchField i _ _) _ _ => i == id
    | .union _ (.matchCompute _ _ _) _ _ => false
    | .union _ (.ladder _) _ _ => false
    | .maybe _ _ _ => false

/-- What one field determines for the slot `target`: a container its number of
elements, a switching union the label of the alternative it holds. -/
def produced (target : String) : Field → Val → Option Int
  | .plain _ k _, .seq vs => if k.lenTarget? = some target then some vs.length else none
  | .union _ (.matchField i _ labels) _ _, .var j _ =>
      if i = target then (labels[j]?).map Prod.snd else none
  | _, _ => none

/-- Everything the list determines for the slot `target`. -/
def producers (target : String) : List Field → List Val → List Int
  | f :: fs, v :: vs => (produced target f v).toList ++ producers target fs vs
  | _, _ => []

/-- The value of the slot. -/
def slotValue (fs : List Field) (vs : List Val) (target : String) : Int :=
  (producers target fs vs).headD 0

/-- The constant a fixed-size field constrained with `eq` holds. -/
def constOf : Kind → Constraint → Option Val
  | .num _ _, .cmp .eq _ v => some (.int v)
  | .fbuf _ _, .arrCmp true v => some v
  | .fstr _, .strCmp true s => some (.seq (s.map .int))
  | .num _ _, .over u _ _ => u
  | .fbuf _ _, .over u _ _ => u
  | _, _ => none

/-- Apply to the fields of a record. -/
def mapRecord (f : List Val → List Val) : Val → Val
  | .seq ws => .seq (f ws)
  | v => v

mutual
def settleKind : Kind → Val → Val
  | .record fs, .seq vs => .seq (settleFields fs vs fs vs)
  | .arrRec fs _, .seq vs => .seq (vs.map (mapRecord fun ws => settleFields fs ws fs ws))
  | .vecRec fs _ _ _, .seq vs => .seq (vs.map (mapRecord fun ws => settleFields fs ws fs ws))
  | _, v => v
/-- `all`, `vals`: the list the field belongs to. -/
def settleField (all : List Field) (vals : List Val) : Field → Val → Val
  | .plain id k c, v =>
      if isSlot all id then .int (slotValue all vals id)
      else match constOf k c with
        | some u => u
        | none => settleKind k v
  | .maybe _ k _, .present v => .present (settleKind k v)
  | .union _ _ alts _, .var i v => .var i (settleAlts alts i v)
  | _, v => v
def settleAlts : List Alt → Nat → Val → Val
  | .mk k _ :: _, 0, v => settleKind k v
  | _ :: alts, i + 1, v => settleAlts alts i v
  | [], _, v => v
def settleFields (all : List Field) (vals : List Val) : List Field → List Val → List Val
  | f :: fs, v :: vs => settleField all vals f v :: settleFields all vals fs vs
  | _, vs => vs
end

/-- The struct with every slot filled, at every nesting level. -/
def settle (fs : List Field) (vs : List Val) : List Val := settleFields fs vs fs vs

/-! ### Values the user is responsible for -/

mutual
def StorableKind (cfg : Cfg) : Kind → Val → Prop
  | .num t w, v => FitsKind cfg (.num t w) v
  | .fbuf e n, v => FitsKind cfg (.fbuf e n) v
  | .fstr n, v => FitsKind cfg (.fstr n) v
  | .vec e len b, v => FitsKind cfg (.vec e len b) v
  | .record fs, .seq vs => StorableFields cfg fs fs vs
  | .arrRec fs n, .seq vs =>
      vs.length = n ∧ ∀ v ∈ vs, ∃ ws, v = .seq ws ∧ StorableFields cfg fs fs ws
  | .vecRec fs _ bound sz, .seq vs =>
      StorageFits cfg bound sz vs.length ∧
      ∀ v ∈ vs, ∃ ws, v = .seq ws ∧ StorableFields cfg fs fs ws
  | _, _ => False
def StorableField (cfg : Cfg) (all : List Field) : Field → Val → Prop
  | .plain id k c, v =>
      isSlot all id = true ∨ (constOf k c).isSome = true ∨ StorableKind cfg k v
  | .maybe _ _ _, .absent => True
  | .maybe _ k _, .present v => StorableKind cfg k v
  | .union _ _ alts _, .var i v => StorableAlts cfg alts i v
  | _, _ => False
def StorableAlts (cfg : Cfg) : List Alt → Nat → Val → Prop
  | .mk k _ :: _, 0, v => StorableKind cfg k v
  | _ :: alts, i + 1, v => StorableAlts cfg alts i v
  | [], _, _ => False
/-- A struct whose values fit their types, widths and ceilings, except that the
slots the library fills may hold anything. `all` is the list the fields belong to. -/
def StorableFields (cfg : Cfg) (all : List Field) : List Field → List Val → Prop
  | [], [] => True
  | f :: fs, v :: vs => StorableField cfg all f v ∧ StorableFields cfg all fs vs
  | _, _ => False
end

def Storable (cfg : Cfg) (fs : List Field) (vs : List Val) : Prop := StorableFields cfg fs fs vs

/-- What the C++ type system and library guarantee of the struct handed to the writer:
a container has at most `PTRDIFF_MAX` elements, a variant holds one of its
alternatives. -/
def CountedField (cfg : Cfg) (f : Field) (v : Val) : Prop :=
  match f with
  | .plain _ k _ => ∀ tgt, k.lenTarget? = some tgt → ∃ us, v = .seq us ∧ us.length ≤ cfg.ptrdiffMax
  | .maybe _ _ _ => True
  | .union _ d _ _ => ∃ i w, v = .var i w ∧ i < arity d

def Counted (cfg : Cfg) (fs : List Field) (vs : List Val) : Prop :=
  fs.length = vs.length ∧ ∀ f v, (f, v) ∈ fs.zip vs → CountedField cfg f v

/-! ### Conditions on every list of a schema -/

mutual
def EveryKind (P : List Field → Prop) : Kind → Prop
  | .record fs => P fs ∧ EveryFields P fs
  | .arrRec fs _ => P fs ∧ EveryFields P fs
  | .vecRec fs _ _ _ => P fs ∧ EveryFields P fs
  | .num _ _ => True
  | .fbuf _ _ => True
  | .fstr _ => True
  | .vec _ _ _ => True
def EveryField (P : List Field → Prop) : Field → Prop
  | .plain _ k _ => EveryKind P k
  | .maybe _ k _ => EveryKind P k
  | .union _ _ alts _ => EveryAlts P alts
def EveryAlts (P : List Field → Prop) : List Alt → Prop
  | [] => True
  | .mk k _ :: alts => EveryKind P k ∧ EveryAlts P alts
/-- `P` holds of every list of fields nested inside. -/
def EveryFields (P : List Field → Prop) : List Field → Prop
  | [] => True
  | f :: fs => EveryField P f ∧ EveryFields P fs
end

/-- `P` holds of the list and of every list nested inside. -/
def Everywhere (P : List Field → Prop) (fs : List Field) : Prop := P fs ∧ EveryFields P fs

mutual
def decEveryKind (P : List Field → Prop) [DecidablePred P] : (k : Kind) → Decidable (EveryKind P k)
  | .record fs => @instDecidableAnd _ _ _ (decEveryFields P fs)
  | .arrRec fs _ => @instDecidableAnd _ _ _ (decEveryFields P fs)
  | .vecRec fs _ _ _ => @instDecidableAnd _ _ _ (decEveryFields P fs)
  | .num _ _ => .isTrue trivial
  | .fbuf _ _ => .isTrue trivial
  | .fstr _ => .isTrue trivial
  | .vec _ _ _ => .isTrue trivial
def decEveryField (P : List Field → Prop) [DecidablePred P] : (f : Field) → Decidable (EveryField P f)
  | .plain _ k _ => decEveryKind P k
  | .maybe _ k _ => decEveryKind P k
  | .union _ _ alts _ => decEveryAlts P alts
def decEveryAlts (P : List Field → Prop) [DecidablePred P] : (as : List Alt) → Decidable (EveryAlts P as)
  | [] => .isTrue trivial
  | .mk k _ :: alts => @instDecidableAnd _ _ (decEveryKind P k) (decEveryAlts P alts)
def decEveryFields (P : List Field → Prop) [DecidablePred P] : (fs : List Field) → Decidable (EveryFields P fs)
  | [] => .isTrue trivial
  | f :: fs => @instDecidableAnd _ _ (decEveryField P f) (decEveryFields P fs)
end

instance (P : List Field → Prop) [DecidablePred P] (k : Kind) : Decidable (EveryKind P k) :=
  decEveryKind P k
instance (P : List Field → Prop) [DecidablePred P] (fs : List Field) : Decidable (EveryFields P fs) :=
  decEveryFields P fs
instance (P : List Field → Prop) [DecidablePred P] (fs : List Field) : Decidable (Everywhere P fs) :=
  @instDecidableAnd _ _ _ (decEveryFields P fs)

/-- The plain scalar field of that name and type. -/
def HasScalar (fs : List Field) (id : String) (p : ScalarTy → Nat → Prop) : Prop :=
  ∃ f ∈ fs, match f with
    | .plain i (.num t w) _ => i = id ∧ p t w
    | _ => False

/-- The length slots named by the containers of a field, optional and held in
unions ones included. -/
def lengthTargets : Field → List String
  | .plain _ k _ => k.lenTarget?.toList
  | .maybe _ k _ => k.lenTarget?.toList
  | .union _ _ alts _ => alts.flatMap fun a => a.kind.lenTarget?.toList

/-- Length slots are integer fields of the list, and a union switches on an
integer field of the type it says (C++ name lookup and typing:
`len_from_field` and `match_field` must name fields convertible to
`std::size_t`/comparable with the labels). -/
def Resolves (fs : List Field) : Prop :=
  ∀ f ∈ fs, (∀ id ∈ lengthTargets f, HasScalar fs id fun _ _ => True) ∧
    match f with
    | .union _ (.matchField id t _) _ _ => HasScalar fs id fun t' _ => t' = t
    | _ => True

/-- Labels of a switching union: each is a value of the slot's type that survives
`std::size_t`, and no two are equal. -/
def GoodLabels (cfg : Cfg) (fs : List Field) : Prop :=
  ∀ f ∈ fs, match f with
    | .union _ (.matchField _ t labels) _ _ =>
        (∀ l ∈ labels, t.InRange l.2 ∧
          (t.size ≤ cfg.szBytes ∨ 0 ≤ l.2 ∧ l.2 < (cfg.szMod : Nat))) ∧
        (labels.map Prod.snd).Nodup
    | _ => True

/-- Constants are values of their field and satisfy their own constraint. -/
def GoodConsts (cfg : Cfg) (fs : List Field) : Prop :=
  ∀ f ∈ fs, match f with
    | .plain _ k c => ∀ u ∈ constOf k c, FitsKind cfg k u ∧ Holds c u
    | _ => True

/-- Slots are wide enough to be read back: the whole type is on the wire, or its
low bytes are. -/
def WideSlots (cfg : Cfg) (fs : List Field) : Prop :=
  ∀ f ∈ fs, match f with
    | .plain id (.num t w) _ =>
        isSlot fs id = true → w = t.size ∨ w < t.size ∧ cfg.wire = .little
    | _ => True

/-- No field of the list is filled by the library. -/
def Clean (fs : List Field) : Prop :=
  ∀ f ∈ fs, match f with
    | .plain id k c => isSlot fs id = false ∧ constOf k c = none
    | _ => True

/-- The user's value of the field is the value on the wire. -/
def CleanField (fs : List Field) (f : Field) : Prop :=
  EveryField Clean f ∧
  match f with
  | .plain id k c => isSlot fs id = false ∧ constOf k c = none
  | _ => True

/-- The fields the callables of a field read: predicates, computed lengths,
computed discriminants, ladders. -/
def callableReads : Field → List String
  | .plain _ k _ => computedIds k
  | .maybe _ k p => p.ids ++ computedIds k
  | .union _ d alts _ =>
      (match d with
        | .matchField _ _ _ => []
        | .matchCompute c _ _ => c.ids
        | .ladder ps => ps.flatMap Pred.ids) ++
      alts.flatMap fun a => computedIds a.kind
where
  computedIds (k : Kind) : List String :=
    match k.lenSpec? with
    | some (.computed c) => c.ids
    | _ => []

/-- Nothing user-defined looks at a slot the library fills: callables read, and
constraints see, values that are on the wire as the user stored them. -/
def NoStale (fs : List Field) : Prop :=
  ∀ f ∈ fs,
    (∀ id ∈ callableReads f, ∀ g ∈ fs, g.id = id → CleanField fs g) ∧
    match f with
    | .plain _ k c => (match c with | .none => True | _ => EveryKind Clean k)
    | .maybe _ _ _ => True
    | .union _ _ alts c =>
        (match c with | .none => True | _ => EveryAlts Clean alts) ∧
        ∀ a ∈ alts, match a.constraint with | .none => True | _ => EveryKind Clean a.kind

/-- A schema whose encodings can be read back as they were written. `WellFormed` is
what the library itself demands; the rest it does not check (each condition is
necessary: `Verif/Props/RoundTrip.lean` has a schema violating just that one). -/
def SelfConsistent (cfg : Cfg) (fs : List Field) : Prop :=
  WellFormed fs ∧
  Everywhere (fun fs => Resolves fs ∧ GoodLabels cfg fs ∧ GoodConsts cfg fs ∧
    WideSlots cfg fs ∧ NoStale fs) fs

end S2S.Spec
