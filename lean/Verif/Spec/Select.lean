import Verif.Spec.Format
/-
Which kind a field is read or written as.
-/
namespace S2S.Spec

/-- The kind that is read for a field, given its siblings: its own, that of an optional
whose predicate holds, that of the selected alternative. -/
inductive Selects (env : Env) : Field → Kind → Prop
  | plain {id k c} : Selects env (.plain id k c) k
  | maybe {id k p} : p.eval env = .ok true → Selects env (.maybe id k p) k
  | union {id d alts c i k c'} : d.eval env = .ok (some i) → alts[i]? = some (.mk k c') →
      Selects env (.union id d alts c) k

/-- The kind and value that are written for a field: its own, those of an engaged
optional whose predicate holds, those of the held alternative (which has to be the
selected one, unless the discriminant is derived from it). -/
inductive SelectsW (env : Env) : Field → Val → Kind → Val → Prop
  | plain {id k c v} : SelectsW env (.plain id k c) v k v
  | maybe {id k p v} : p.eval env = .ok true → SelectsW env (.maybe id k p) (.present v) k v
  | switch {id d t ls alts c i v k c'} : alts[i]? = some (.mk k c') → Holds c' v →
      SelectsW env (.union id (.matchField d t ls) alts c) (.var i v) k v
  | union {id d alts c i v k c'} : (∀ f t ls, d ≠ .matchField f t ls) →
      d.eval env = .ok (some i) → alts[i]? = some (.mk k c') → Holds c' v →
      SelectsW env (.union id d alts c) (.var i v) k v

/-! ### First match -/

/-- Case or branch number `i` matches, given the siblings. -/
def Matches (env : Env) : Deducer → Nat → Prop
  | .matchField id t labels, i =>
      ∃ x l, (env id = some (.int x) ∨ env id = some (.present (.int x))) ∧
        labels[i]? = some l ∧ labelMatches t x l = true
  | .matchCompute comp t labels, i =>
      ∃ x l, comp.eval env = .ok x ∧ labels[i]? = some l ∧ labelMatches t (t.conv x) l = true
  | .ladder ps, i => ∃ p, ps[i]? = some p ∧ p.eval env = .ok true

/-- The first one that does. -/
def FirstMatch (env : Env) (d : Deducer) (i : Nat) : Prop :=
  Matches env d i ∧ ∀ j, j < i → ¬ Matches env d j

/-- Everything the switch or ladder looks at has a value. -/
def Evaluable (env : Env) : Deducer → Prop
  | .matchField id _ _ =>
      (∃ x, env id = some (.int x) ∨ env id = some (.present (.int x))) ∨ env id = some .absent
  | .matchCompute comp _ _ => ∃ x, comp.eval env = .ok x
  | .ladder ps => ∀ p ∈ ps, ∃ b, p.eval env = .ok b

/-- What a field's value holds: itself, the value of an engaged optional, the held
alternative; with its kind. -/
inductive Payload : Field → Val → Kind → Val → Prop
  | plain {id k c v} : Payload (.plain id k c) v k v
  | maybe {id k p v} : Payload (.maybe id k p) (.present v) k v
  | union {id d alts c i v k c'} : alts[i]? = some (.mk k c') →
      Payload (.union id d alts c) (.var i v) k v

/-! ### Presence -/

mutual
def PresenceKind : Kind → Val → Prop
  | .record fs, .seq vs => PresenceFields (envOf fs vs) fs vs
  | .arrRec fs _, .seq us => ∀ u ∈ us, ∃ ws, u = .seq ws ∧ PresenceFields (envOf fs ws) fs ws
  | .vecRec fs _ _ _, .seq us => ∀ u ∈ us, ∃ ws, u = .seq ws ∧ PresenceFields (envOf fs ws) fs ws
  | _, _ => True
def PresenceField (env : Env) : Field → Val → Prop
  | .plain _ k _, v => PresenceKind k v
  | .maybe _ _ p, .absent => p.eval env = .ok false
  | .maybe _ k p, .present v => p.eval env = .ok true ∧ PresenceKind k v
  | .union _ _ alts _, .var i v => PresenceAlts alts i v
  | _, _ => False
def PresenceAlts : List Alt → Nat → Val → Prop
  | .mk k _ :: _, 0, v => PresenceKind k v
  | _ :: alts, i + 1, v => PresenceAlts alts i v
  | [], _, _ => False
/-- Every optional, at every level, is engaged exactly when its predicate holds of its
siblings. -/
def PresenceFields (env : Env) : List Field → List Val → Prop
  | [], [] => True
  | f :: fs, v :: vs => PresenceField env f v ∧ PresenceFields env fs vs
  | _, _ => False
end

end S2S.Spec
