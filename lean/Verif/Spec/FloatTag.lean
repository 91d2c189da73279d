import Verif.Model.FloatTag
import Verif.Spec.FloatLen
/-
What it means for a floating-point number to be a discriminant.
-/
namespace S2S.Spec
open Compare

/-- A predicate over the number called `src`: it is the one the label is in that type. -/
def tells (R : Rounding) (src : String) (bytes : Nat) (l : ScalarTy × Int) : Pred :=
  ⟨[src], fun
    | [.int x] => decide (real bytes x = R.to bytes (l.2 * one))
    | _ => false⟩

/-- The field with the alternative chosen by predicates. -/
def choosing (ch : TField → List Pred) : TField → Field
  | .std f => f
  | .slot id bytes w c => .plain id (.num (.int bytes false) w) c
  | .switched id src bytes labels alts c =>
      .union id (.ladder (ch (.switched id src bytes labels alts c))) alts c

/-- One predicate for each label. -/
def byLabels (R : Rounding) : TField → List Pred
  | .switched _ src bytes labels _ _ => labels.map (tells R src bytes)
  | _ => []

/-- The field with the alternative chosen by comparing the number with the labels. -/
def asLadder (R : Rounding) : TField → Field := choosing (byLabels R)

/-- Floating-point numbers are discriminants and nothing else: no other field depends on one, no
alternative does, and one that is a discriminant is not constrained to a constant. -/
def TagsApart (gs : List TField) : Prop :=
  (gs.map fun g => g.usual.id).Nodup ∧
  (∀ f id bytes w c, .std f ∈ gs → .slot id bytes w c ∈ gs → id ∉ fieldDeps f) ∧
  (∀ id src bytes labels alts c, .switched id src bytes labels alts c ∈ gs →
    (∃ w c', .slot src bytes w c' ∈ gs) ∧
    ∀ id' bytes' w' c', .slot id' bytes' w' c' ∈ gs → ∀ a ∈ alts, id' ∉ kindDeps a.kind) ∧
  (∀ id bytes w c, .slot id bytes w c ∈ gs →
    (bytes = 4 ∨ bytes = 8) ∧ constOf (.num (.int bytes false) w) c = none)

/-- A union that switches on `id`. -/
def SwitchedBy (id : String) (g : TField) : Prop :=
  ∃ i bytes labels alts c, g = .switched i id bytes labels alts c

/-- The union holds an alternative whose label is `n`, as a `std::size_t`. -/
def Labelled (cfg : Cfg) (g : TField) (u : Val) (n : Nat) : Prop :=
  ∃ i src bytes labels alts c k w l, g = .switched i src bytes labels alts c ∧ u = .var k w ∧
    labels[k]? = some l ∧ cfg.toSz l.2 = n

/-- What a field of the struct becomes when it is written: a discriminant becomes the label of
the alternatives held by all the unions that switch on it. -/
inductive TagFilled1 (cfg : Cfg) {R : Rounding} (C : FloatOf R) (gs : List TField) (vs : List Val) :
    TField → Val → Val → Prop
  | std (f : Field) (v : Val) : TagFilled1 cfg C gs vs (.std f) v v
  | switched (id src : String) (bytes : Nat) (labels : List (ScalarTy × Int)) (alts : List Alt) (c : Constraint)
      (v : Val) : TagFilled1 cfg C gs vs (.switched id src bytes labels alts c) v v
  | free (id : String) (bytes w : Nat) (c : Constraint) (v : Val) :
      (∀ g ∈ gs, ¬ SwitchedBy id g) → TagFilled1 cfg C gs vs (.slot id bytes w c) v v
  | slot (id : String) (bytes w : Nat) (c : Constraint) (v : Val) (n : Nat) :
      (∃ g ∈ gs, SwitchedBy id g) →
      (∀ g u, (g, u) ∈ gs.zip vs → SwitchedBy id g → Labelled cfg g u n) →
      Fits cfg bytes w n → c.check (.int (C.bits bytes n)) = .ok true →
      TagFilled1 cfg C gs vs (.slot id bytes w c) v (.int (C.bits bytes n))

/-- All of them. `gs` and `vs` are the whole struct. -/
inductive TagFilledAll (cfg : Cfg) {R : Rounding} (C : FloatOf R) (gs : List TField) (vs : List Val) :
    List TField → List Val → List Val → Prop
  | nil : TagFilledAll cfg C gs vs [] [] []
  | cons {g : TField} {v u : Val} {hs : List TField} {vs' us' : List Val} :
      TagFilled1 cfg C gs vs g v u → TagFilledAll cfg C gs vs hs vs' us' →
      TagFilledAll cfg C gs vs (g :: hs) (v :: vs') (u :: us')

def TagFilled (cfg : Cfg) {R : Rounding} (C : FloatOf R) (gs : List TField) (vs us : List Val) : Prop :=
  TagFilledAll cfg C gs vs gs vs us

/-- The predicates choose the alternatives that the unions of the struct hold. -/
def ChosenBy (ch : TField → List Pred) (gs : List TField) (us : List Val) : Prop :=
  ∀ id src bytes labels alts c k w, (.switched id src bytes labels alts c, .var k w) ∈ gs.zip us →
    (Deducer.ladder (ch (.switched id src bytes labels alts c))).eval (envOf (gs.map (choosing ch)) us) = .ok (some k)

/-- The label at place `k` tells its alternative: `std::size_t` has it, and no label before it is
the same number of the floating-point type. -/
def TellsAt (cfg : Cfg) (R : Rounding) (bytes : Nat) (labels : List (ScalarTy × Int)) (k : Nat) : Prop :=
  ∃ l, labels[k]? = some l ∧ (cfg.toSz l.2 : Int) = l.2 ∧
    ∀ j l', j < k → labels[j]? = some l' → R.to bytes (l'.2 * one) ≠ R.to bytes (l.2 * one)

/-- The label of every alternative held does. -/
def Told (cfg : Cfg) (R : Rounding) (gs : List TField) (vs : List Val) : Prop :=
  ∀ id src bytes labels alts c k w, (.switched id src bytes labels alts c, .var k w) ∈ gs.zip vs →
    TellsAt cfg R bytes labels k

end S2S.Spec
