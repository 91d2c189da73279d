import Verif.Spec.Damage
import Verif.Spec.Settle
/-
Places inside a struct where another struct stands, however deep.
-/
namespace S2S.Spec

/-- In a value of the kind stands a record of the list `gs`; `plug` puts another there. -/
inductive InKind : Kind → List Field → (List Val → Val) → Prop
  | record (gs : List Field) : InKind (.record gs) gs fun ps => .seq ps
  | array (gs : List Field) (n : Nat) (l r : List Val) :
      InKind (.arrRec gs n) gs fun ps => .seq (l ++ .seq ps :: r)
  | vector (gs : List Field) (len : LenSpec) (b : Option Nat) (sz : Nat) (l r : List Val) :
      InKind (.vecRec gs len b sz) gs fun ps => .seq (l ++ .seq ps :: r)

/-- The same for a field: plain, an optional that is there, a union that holds it. `cs`: the
constraints on the way, each with the value it then sees, in the order in which they are
checked. -/
inductive InField : Field → List Field → (List Val → Val) → (List Val → List (Constraint × Val)) → Prop
  | plain {k gs plug} (id : String) (c : Constraint) : InKind k gs plug →
      InField (.plain id k c) gs plug fun ps => [(c, plug ps)]
  | maybe {k gs plug} (id : String) (p : Pred) : InKind k gs plug →
      InField (.maybe id k p) gs (fun ps => .present (plug ps)) fun _ => []
  | union {k gs plug i alts} {ca : Constraint} (id : String) (d : Deducer) (c : Constraint) :
      alts[i]? = some (.mk k ca) → InKind k gs plug →
      InField (.union id d alts c) gs (fun ps => .var i (plug ps))
        fun ps => [(ca, plug ps), (c, .var i (plug ps))]

/-- A place in structs of the list `fs` where a struct of the list `gs` stands: the values around
it are fixed, and at every level the siblings take neither length nor presence nor alternative
from the field it is in. `top`: the outermost field on the way. -/
inductive Place : List Field → List Field → Option String → (List Val → List Val) →
    (List Val → List (Constraint × Val)) → Prop
  | whole (fs : List Field) : Place fs fs none (fun ps => ps) fun _ => []
  | inside {f hs gs top plug plug' cs cs'} (pre post : List Field) (us ws : List Val) :
      us.length = pre.length → Unseen post f.id → InField f hs plug cs → Place hs gs top plug' cs' →
      Place (pre ++ f :: post) gs (some f.id) (fun ps => us ++ plug (plug' ps) :: ws)
        fun ps => cs' ps ++ cs (plug' ps)

end S2S.Spec
