import Verif.Spec.Sent
/-
Which error a write reports, and what is on the wire when it does: the first field that
cannot be sent, why, and the bytes before it. Defined from the schema and the values
alone; nothing here refers to the writer.
-/
namespace S2S.Spec

/-- No value can be sent in the slot `id`, for reason `r`: two of its producers say
different numbers as `std::size_t`; or they all say `n`, and `n` has more than `w` bytes,
or is another number when it comes back from the type `t`. -/
def SlotRefused (cfg : Cfg) (t : ScalarTy) (w : Nat) (all : List Field) (vals : List Val)
    (id : String) (r : Reason) : Prop :=
  (r = .foundContradictingLength ∧ ∃ a ∈ producers id all vals, ∃ b ∈ producers id all vals,
    a % (cfg.szMod : Nat) ≠ b % (cfg.szMod : Nat)) ∨
  (r = .validationFailure ∧ ∃ n : Int, (∀ p ∈ producers id all vals, p % (cfg.szMod : Nat) = n) ∧
    ((w < cfg.szBytes ∧ (256 ^ w : Nat) ≤ n) ∨
      ∃ y, PassedAs t n y ∧ y % (cfg.szMod : Nat) ≠ n))

/-- The constraint is evaluated and does not hold. -/
def Violates (c : Constraint) (v : Val) : Prop := c.check v = .ok false

/-- A computed length comes out at something other than `n`. -/
def ComputedDiffers (cfg : Cfg) (env : Env) (len : LenSpec) (n : Nat) : Prop :=
  ∃ g m, len = .computed g ∧ len.eval cfg env = .ok m ∧ m ≠ n

/-- Of the records `vs`, those before one are sent (`S`), and that one is not (`U`). `W`:
the bytes of a record. -/
def NextUnsent (S : List Val → List Val → Prop) (U : List Val → List Byte → Prop)
    (W : List Val → List Byte) (vs : List Val) (q : List Byte) : Prop :=
  ∃ pre ws post us q', vs = pre ++ .seq ws :: post ∧ OneByOne S pre us ∧ U ws q' ∧
    q = us.flatMap (recordBytes W) ++ q'

/-- The alternative held is not the one a union that computes its choice, or goes down a
ladder of predicates, comes out at. -/
def NotChosen (env : Env) (i : Nat) (r : Reason) : Deducer → Prop
  | .matchField _ _ _ => False
  | d => (r = .typeDeductionFailure ∧ d.eval env = .ok none) ∨
      (r = .validationFailure ∧ ∃ j, d.eval env = .ok (some j) ∧ j ≠ i)

mutual
/-- `all`, `vals`: the list the field belongs to and the struct being written; `id`, `c`:
name and constraint of the field; `q`: the bytes of it that have been sent. -/
def KindUnsent (cfg : Cfg) (all : List Field) (vals : List Val) (id : String) (c : Constraint)
    (r : Reason) : Kind → Val → List Byte → Prop
  | .num t w, v, q => q = [] ∧
      if isSlot all id = true then
        SlotRefused cfg t w all vals id r ∨
        ∃ y, SlotGets cfg t w all vals id y ∧
          ((r = .validationFailure ∧ Violates c (.int y)) ∨
            (r = .foundContradictingLength ∧ Holds c (.int y) ∧ ¬ ActiveAgree cfg all vals id y))
      else r = .foundContradictingLength ∧ ∃ x, v = .int x ∧ ¬ ActiveAgree cfg all vals id x
  | .fbuf _ _, _, _ => False
  | .fstr _, _, _ => False
  | .vec _ len _, v, q => q = [] ∧ r = .foundContradictingLength ∧
      ∃ vs, v = .seq vs ∧ ComputedDiffers cfg (envOf all vals) len vs.length
  | .record fs, v, q => ∃ vs id', v = .seq vs ∧ FieldsUnsent cfg fs vs r id' fs vs q
  | .arrRec fs _, v, q => ∃ vs, v = .seq vs ∧
      NextUnsent (fun ws xs => SentFields cfg fs ws fs ws xs)
        (fun ws q => ∃ id', FieldsUnsent cfg fs ws r id' fs ws q)
        (fun ws => wireFields cfg.wire fs ws) vs q
  | .vecRec fs len _ _, v, q => ∃ vs, v = .seq vs ∧
      ((q = [] ∧ r = .foundContradictingLength ∧
          ComputedDiffers cfg (envOf all vals) len vs.length) ∨
        ((∀ g, len = .computed g → len.eval cfg (envOf all vals) = .ok vs.length) ∧
          NextUnsent (fun ws xs => SentFields cfg fs ws fs ws xs)
            (fun ws q => ∃ id', FieldsUnsent cfg fs ws r id' fs ws q)
            (fun ws => wireFields cfg.wire fs ws) vs q))
termination_by structural k => k
def FieldUnsent (cfg : Cfg) (all : List Field) (vals : List Val) (r : Reason) :
    Field → Val → List Byte → Prop
  | .plain id k c, v, q =>
      if isSlot all id = true then KindUnsent cfg all vals id c r k v q
      else match typedConst k c with
        | some x => KindUnsent cfg all vals id c r k x q
        | none => (q = [] ∧ r = .validationFailure ∧ Violates c v) ∨
            (Holds c v ∧ KindUnsent cfg all vals id c r k v q)
  | .maybe id k p, v, q =>
      (q = [] ∧ r = .validationFailure ∧ v = .absent ∧ p.eval (envOf all vals) = .ok true) ∨
      (∃ w, q = [] ∧ r = .validationFailure ∧ v = .present w ∧
        p.eval (envOf all vals) = .ok false) ∨
      ∃ w, v = .present w ∧ p.eval (envOf all vals) = .ok true ∧
        KindUnsent cfg all vals id .none r k w q
  | .union id d alts c, v, q =>
      (q = [] ∧ r = .validationFailure ∧ isSlot all id = false ∧ Violates c v) ∨
      ((isSlot all id = false → Holds c v) ∧ ∃ i w, v = .var i w ∧
        ((q = [] ∧ NotChosen (envOf all vals) i r d) ∨
          (Chosen (envOf all vals) i d ∧ AltsUnsent cfg all vals id r alts i w q)))
termination_by structural f => f
def AltsUnsent (cfg : Cfg) (all : List Field) (vals : List Val) (id : String) (r : Reason) :
    List Alt → Nat → Val → List Byte → Prop
  | .mk k c :: _, 0, v, q => (q = [] ∧ r = .validationFailure ∧ Violates c v) ∨
      (Holds c v ∧ KindUnsent cfg all vals id c r k v q)
  | _ :: alts, i + 1, v, q => AltsUnsent cfg all vals id r alts i v q
  | [], _, _, _ => False
termination_by structural alts => alts
/-- Of these fields, those before `id` are sent and it is not. -/
def FieldsUnsent (cfg : Cfg) (all : List Field) (vals : List Val) (r : Reason) (id : String) :
    List Field → List Val → List Byte → Prop
  | [], _, _ => False
  | f :: fs, vs, q => ∃ v vs', vs = v :: vs' ∧
      ((f.id = id ∧ FieldUnsent cfg all vals r f v q) ∨
        ∃ u q', SentField cfg all vals f v u ∧ FieldsUnsent cfg all vals r id fs vs' q' ∧
          q = wireField cfg.wire f u ++ q')
termination_by structural fs => fs
end

/-- Writing `vs` fails at the field `id` with reason `r`, after the bytes `p`: the fields
before it are sent, their encodings are `p` up to the bytes `q` of the field itself. -/
def Unsent (cfg : Cfg) (fs : List Field) (vs : List Val) (r : Reason) (id : String)
    (p : List Byte) : Prop :=
  ∃ pre f post vpre v vpost us q, fs = pre ++ f :: post ∧ vs = vpre ++ v :: vpost ∧
    f.id = id ∧ SentFields cfg fs vs pre vpre us ∧ FieldUnsent cfg fs vs r f v q ∧
    p = wireFields cfg.wire pre us ++ q

end S2S.Spec
