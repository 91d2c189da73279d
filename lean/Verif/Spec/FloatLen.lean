import Verif.Model.FloatLen
import Verif.Spec.Compare
import Verif.Spec.Settle
/-
What it means for a floating-point number to be a length.
-/
namespace S2S.Spec
open Compare

/-- The floating-point number with these bits, its fraction dropped, is the length `n`. -/
def IsLength (cfg : Cfg) (bytes : Nat) (bits : Int) (n : Nat) : Prop :=
  Truncates (real bytes bits) n ∧ n < 256 ^ cfg.szBytes

/-- The floating-point type of so many bytes has the number `n`. -/
def HasNumber (bytes n : Nat) : Prop := ∃ x, real bytes x = .fin (n * one)

/-- A callable of the number called `src` that drops its fraction. What it says of numbers that
are no length is left open. -/
def Drops (cfg : Cfg) (src : String) (bytes : Nat) (r : Calc) : Prop :=
  r.ids = [src] ∧ ∀ x n, IsLength cfg bytes x n → r.fn [.int x] = n

/-- The field with the length computed by such a callable. -/
inductive AsComputed1 (cfg : Cfg) : LField → Field → Prop
  | std (f : Field) : AsComputed1 cfg (.std f) f
  | slot (id : String) (bytes w : Nat) (c : Constraint) :
      AsComputed1 cfg (.slot id bytes w c) (.plain id (.num (.int bytes false) w) c)
  | sized (id src : String) (bytes : Nat) (b : Body) (c : Constraint) (r : Calc) :
      Drops cfg src bytes r →
      AsComputed1 cfg (.sized id src bytes b c) (.plain id (b.kind (.computed r)) c)

/-- All fields of the list. -/
inductive AsComputed (cfg : Cfg) : List LField → List Field → Prop
  | nil : AsComputed cfg [] []
  | cons {g : LField} {f : Field} {gs : List LField} {fs : List Field} :
      AsComputed1 cfg g f → AsComputed cfg gs fs → AsComputed cfg (g :: gs) (f :: fs)

/-- As the values are read, from the first to the last, every length is one when its turn comes. -/
def Lengths (cfg : Cfg) (env : Env) : List LField → List Val → Prop
  | [], [] => True
  | .sized id src bytes _ _ :: gs, v :: vs =>
      (∃ x n, env src = some (.int x) ∧ IsLength cfg bytes x n) ∧ Lengths cfg (env.set id v) gs vs
  | g :: gs, v :: vs => Lengths cfg (env.set g.usual.id v) gs vs
  | _, _ => False

/-- Floating-point numbers are lengths and nothing else: no other field depends on one, and one
that is a length is not constrained to a constant. -/
def Apart (gs : List LField) : Prop :=
  (gs.map fun g => g.usual.id).Nodup ∧
  (∀ f id bytes w c, .std f ∈ gs → .slot id bytes w c ∈ gs → id ∉ fieldDeps f) ∧
  (∀ id src bytes b c, .sized id src bytes b c ∈ gs → ∃ w c', .slot src bytes w c' ∈ gs) ∧
  (∀ id bytes w c, .slot id bytes w c ∈ gs →
    (bytes = 4 ∨ bytes = 8) ∧ constOf (.num (.int bytes false) w) c = none)

/-- A container whose length is `id`. -/
def SizedBy (id : String) (g : LField) : Prop := ∃ i bytes b c, g = .sized i id bytes b c

/-- `n` can be written as a floating-point number of `bytes` bytes declared with `w`. -/
def Fits (cfg : Cfg) (bytes w n : Nat) : Prop :=
  (w < cfg.szBytes → n < 256 ^ w) ∧ HasNumber bytes n ∧ n < 256 ^ cfg.szBytes

/-- What a field of the struct becomes when it is written: a length becomes the size of all the
containers that have it. -/
inductive Filled1 (cfg : Cfg) {R : Rounding} (C : FloatOf R) (gs : List LField) (vs : List Val) :
    LField → Val → Val → Prop
  | std (f : Field) (v : Val) : Filled1 cfg C gs vs (.std f) v v
  | sized (id src : String) (bytes : Nat) (b : Body) (c : Constraint) (v : Val) :
      Filled1 cfg C gs vs (.sized id src bytes b c) v v
  | free (id : String) (bytes w : Nat) (c : Constraint) (v : Val) :
      (∀ g ∈ gs, ¬ SizedBy id g) → Filled1 cfg C gs vs (.slot id bytes w c) v v
  | slot (id : String) (bytes w : Nat) (c : Constraint) (v : Val) (n : Nat) :
      (∃ g ∈ gs, SizedBy id g) →
      (∀ g u, (g, u) ∈ gs.zip vs → SizedBy id g → ∃ ws, u = .seq ws ∧ ws.length = n) →
      Fits cfg bytes w n → c.check (.int (C.bits bytes n)) = .ok true →
      Filled1 cfg C gs vs (.slot id bytes w c) v (.int (C.bits bytes n))

/-- All of them. `gs` and `vs` are the whole struct. -/
inductive FilledAll (cfg : Cfg) {R : Rounding} (C : FloatOf R) (gs : List LField) (vs : List Val) :
    List LField → List Val → List Val → Prop
  | nil : FilledAll cfg C gs vs [] [] []
  | cons {g : LField} {v u : Val} {hs : List LField} {vs' us' : List Val} :
      Filled1 cfg C gs vs g v u → FilledAll cfg C gs vs hs vs' us' →
      FilledAll cfg C gs vs (g :: hs) (v :: vs') (u :: us')

def Filled (cfg : Cfg) {R : Rounding} (C : FloatOf R) (gs : List LField) (vs us : List Val) : Prop :=
  FilledAll cfg C gs vs gs vs us

end S2S.Spec
