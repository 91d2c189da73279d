import Verif.Spec.Typed
import Verif.Spec.Numbers
/-
What a write puts on the wire, for every schema and every struct: which struct is sent
when a given struct is written, and when none is. Defined from the schema and the values
alone; nothing here refers to the writer.
-/
namespace S2S.Spec

/-- `y` is the value the slot `id` of type `t` and declared width `w` is sent with: all
its producers say the same as `std::size_t`, that number is below `256^w` (where `w` is
less than `std::size_t` has), `y` is that number as a value of `t`, and as
`std::size_t` it is still that number. -/
def SlotGets (cfg : Cfg) (t : ScalarTy) (w : Nat) (all : List Field) (vals : List Val)
    (id : String) (y : Int) : Prop :=
  ∃ n : Int, (∀ p ∈ producers id all vals, p % (cfg.szMod : Nat) = n) ∧
    (w < cfg.szBytes → n < (256 ^ w : Nat)) ∧ PassedAs t n y ∧ y % (cfg.szMod : Nat) = n

/-- The containers in optionals and unions that take their length from `id` and are in
play have as many elements as `y` says. -/
def ActiveAgree (cfg : Cfg) (all : List Field) (vals : List Val) (id : String) (y : Int) : Prop :=
  ∀ f v m, (f, v) ∈ all.zip vals → ActiveLen (envOf all vals) id f v m →
    (m : Int) = y % (cfg.szMod : Nat)

/-- A union that computes its choice, or goes down a ladder of predicates, comes out at
alternative `i`. (One that switches on a field: that field is a slot.) -/
def Chosen (env : Env) (i : Nat) : Deducer → Prop
  | .matchField _ _ _ => True
  | d => d.eval env = .ok (some i)

/-- Related one by one. -/
def OneByOne (R : List Val → List Val → Prop) : List Val → List Val → Prop
  | [], us => us = []
  | v :: vs, us => ∃ ws xs us', v = .seq ws ∧ us = .seq xs :: us' ∧ R ws xs ∧ OneByOne R vs us'

mutual
/-- `all`, `vals`: the list the field belongs to and the struct being written; `id`, `c`:
name and constraint of the field. -/
def SentKind (cfg : Cfg) (all : List Field) (vals : List Val) (id : String) (c : Constraint) :
    Kind → Val → Val → Prop
  | .num t w, v, u => w ≤ t.size ∧ ∃ y, u = .int y ∧ ActiveAgree cfg all vals id y ∧
      if isSlot all id = true then SlotGets cfg t w all vals id y ∧ Holds c u else u = v
  | .fbuf _ _, v, u => u = v ∧ isSlot all id = false ∧ ∀ f ∈ all, id ∉ lengthTargets f
  | .fstr _, v, u => u = v ∧ isSlot all id = false ∧ ∀ f ∈ all, id ∉ lengthTargets f
  | .vec _ len _, v, u => u = v ∧ ∃ vs, v = .seq vs ∧
      ∀ g, len = .computed g → len.eval cfg (envOf all vals) = .ok vs.length
  | .record fs, v, u => ∃ vs us, v = .seq vs ∧ u = .seq us ∧ SentFields cfg fs vs fs vs us
  | .arrRec fs n, v, u => ∃ vs us, v = .seq vs ∧ u = .seq us ∧ vs.length = n ∧
      OneByOne (fun ws xs => SentFields cfg fs ws fs ws xs) vs us
  | .vecRec fs len _ _, v, u => ∃ vs us, v = .seq vs ∧ u = .seq us ∧
      (∀ g, len = .computed g → len.eval cfg (envOf all vals) = .ok vs.length) ∧
      OneByOne (fun ws xs => SentFields cfg fs ws fs ws xs) vs us
termination_by structural k => k
def SentField (cfg : Cfg) (all : List Field) (vals : List Val) : Field → Val → Val → Prop
  | .plain id k c, v, u =>
      if isSlot all id = true then SentKind cfg all vals id c k v u
      else match typedConst k c with
        | some x => SentKind cfg all vals id c k x u
        | none => Holds c v ∧ SentKind cfg all vals id c k v u
  | .maybe id k p, v, u =>
      (v = .absent ∧ u = .absent ∧ p.eval (envOf all vals) = .ok false) ∨
      ∃ w x, v = .present w ∧ u = .present x ∧ p.eval (envOf all vals) = .ok true ∧
        SentKind cfg all vals id .none k w x
  | .union id d alts c, v, u => ∃ i w x, v = .var i w ∧ u = .var i x ∧
      (isSlot all id = false → Holds c v) ∧
      Chosen (envOf all vals) i d ∧
      SentAlts cfg all vals id alts i w x
termination_by structural f => f
def SentAlts (cfg : Cfg) (all : List Field) (vals : List Val) (id : String) :
    List Alt → Nat → Val → Val → Prop
  | .mk k c :: _, 0, v, u => Holds c v ∧ SentKind cfg all vals id c k v u
  | _ :: alts, i + 1, v, u => SentAlts cfg all vals id alts i v u
  | [], _, _, _ => False
termination_by structural alts => alts
def SentFields (cfg : Cfg) (all : List Field) (vals : List Val) :
    List Field → List Val → List Val → Prop
  | [], vs, us => vs = [] ∧ us = []
  | f :: fs, vs, us => ∃ v vs' u us', vs = v :: vs' ∧ us = u :: us' ∧
      SentField cfg all vals f v u ∧ SentFields cfg all vals fs vs' us'
termination_by structural fs => fs
end

/-- Writing `vs` sends `us`: the slots of `us` are what their producers say, its
constants are the constants, everything else is as in `vs`. Constraints hold of what
`vs` holds (of the slots: of what is sent); predicates, computed lengths and selections
hold of `vs`. -/
def Sent (cfg : Cfg) (fs : List Field) (vs us : List Val) : Prop := SentFields cfg fs vs fs vs us

end S2S.Spec
