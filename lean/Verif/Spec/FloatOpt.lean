import Verif.Model.FloatOpt
import Verif.Spec.FloatLen
/-
What it means for floating-point numbers to be the lengths of optional containers.
-/
namespace S2S.Spec
open Compare

/-- The field with the length computed by a callable that drops the fraction. -/
inductive AsOpt1 (cfg : Cfg) : QField → Field → Prop
  | std (f : Field) : AsOpt1 cfg (.std f) f
  | slot (id : String) (bytes w : Nat) (c : Constraint) :
      AsOpt1 cfg (.slot id bytes w c) (.plain id (.num (.int bytes false) w) c)
  | opt (id src : String) (bytes : Nat) (b : Body) (p : Pred) (r : Calc) :
      Drops cfg src bytes r →
      AsOpt1 cfg (.opt id src bytes b p) (.maybe id (b.kind (.computed r)) p)

/-- All fields of the list. -/
inductive AsOpts (cfg : Cfg) : List QField → List Field → Prop
  | nil : AsOpts cfg [] []
  | cons {g : QField} {f : Field} {gs : List QField} {fs : List Field} :
      AsOpt1 cfg g f → AsOpts cfg gs fs → AsOpts cfg (g :: gs) (f :: fs)

/-- As the values are read, from the first to the last, the length of every optional that is
there is one when its turn comes. -/
def OptLengths (cfg : Cfg) (env : Env) : List QField → List Val → Prop
  | [], [] => True
  | g :: gs, v :: vs =>
      (∀ id src bytes b p, g = .opt id src bytes b p → p.eval env = .ok true →
        ∃ x n, env src = some (.int x) ∧ IsLength cfg bytes x n) ∧
      OptLengths cfg (env.set g.usual.id v) gs vs
  | _, _ => False

/-- Floating-point numbers are lengths of optionals, and read by predicates of these: no other
field depends on one, and none is constrained to a constant. -/
def OptApart (gs : List QField) : Prop :=
  (gs.map fun g => g.usual.id).Nodup ∧
  (∀ f id bytes w c, .std f ∈ gs → .slot id bytes w c ∈ gs → id ∉ fieldDeps f) ∧
  (∀ id src bytes b p, .opt id src bytes b p ∈ gs → ∃ w c', .slot src bytes w c' ∈ gs) ∧
  (∀ id bytes w c, .slot id bytes w c ∈ gs → constOf (.num (.int bytes false) w) c = none)

/-- An optional whose length is `id`. -/
def OptBy (id : String) (g : QField) : Prop := ∃ i bytes b p, g = .opt i id bytes b p

/-- An optional agrees with the length `n`: it is not there, its predicate does not hold, or it
has so many elements. -/
def OptAgrees (env : Env) (n : Nat) (p : Pred) (u : Val) : Prop :=
  u = .absent ∨ ∃ w, u = .present w ∧
    (p.eval env = .ok false ∨ p.eval env = .ok true ∧ ∃ ws, w = .seq ws ∧ ws.length = n)

/-- Every number that is the length of some optional, there or not, is a length, and all these
optionals agree with it. -/
def OptReady (cfg : Cfg) (gs : List QField) (vs : List Val) : Prop :=
  ∀ id bytes w c v, (.slot id bytes w c, v) ∈ gs.zip vs → (∃ g ∈ gs, OptBy id g) →
    ∃ x n, v = .int x ∧ IsLength cfg bytes x n ∧
      ∀ i bytes' b p u, (.opt i id bytes' b p, u) ∈ gs.zip vs →
        OptAgrees (envOf (gs.map QField.usual) vs) n p u

end S2S.Spec
