import Verif.Spec.Schema
import Verif.Spec.Format
import Verif.Spec.Names
/-
Callables that are given the value of the field they belong to. The library accepts them (C29): a
predicate of an optional may name the optional, a computed length its container, the guide of a
union the union. `selfless` takes such arguments away: the callable is fixed to what the field
holds when it is default-constructed.
-/
namespace S2S.Spec

/-- The arguments for `ids`, with `v` wherever `id` is named and the rest from the list. -/
def weave (id : String) (v : Val) : List String → List Val → List Val
  | [], _ => []
  | i :: is, ws =>
      if i = id then v :: weave id v is ws
      else match ws with
        | [] => []
        | w :: ws => w :: weave id v is ws

def selflessPred (id : String) (v : Val) (p : Pred) : Pred :=
  ⟨p.ids.filter (· ≠ id), fun ws => p.fn (weave id v p.ids ws)⟩

def selflessCalc (id : String) (v : Val) (c : Calc) : Calc :=
  ⟨c.ids.filter (· ≠ id), fun ws => c.fn (weave id v c.ids ws)⟩

/-- Only callables: a length is not taken from the container, nor a discriminant from the union
(neither converts to a number). -/
def selflessLen (id : String) (v : Val) : LenSpec → LenSpec
  | .fromField i => .fromField i
  | .computed c => .computed (selflessCalc id v c)

def selflessGuide (id : String) (v : Val) : Deducer → Deducer
  | .matchField i t ls => .matchField i t ls
  | .matchCompute c t ls => .matchCompute (selflessCalc id v c) t ls
  | .ladder ps => .ladder (ps.map (selflessPred id v))

mutual
def selflessKind (id : String) (v : Val) : Kind → Kind
  | .num t w => .num t w
  | .fbuf e n => .fbuf e n
  | .fstr n => .fstr n
  | .vec e len b => .vec e (selflessLen id v len) b
  | .record fs => .record (selfless fs)
  | .arrRec fs n => .arrRec (selfless fs) n
  | .vecRec fs len b sz => .vecRec (selfless fs) (selflessLen id v len) b sz
termination_by structural k => k
def selflessField : Field → Field
  | .plain id k c => .plain id (selflessKind id k.dflt k) c
  | .maybe id k p => .maybe id (selflessKind id .absent k) (selflessPred id .absent p)
  | .union id d alts c =>
      .union id (selflessGuide id (.var 0 (Alt.dfltFirst alts)) d)
        (selflessAlts id (.var 0 (Alt.dfltFirst alts)) alts) c
termination_by structural f => f
def selflessAlts (id : String) (v : Val) : List Alt → List Alt
  | [] => []
  | .mk k c :: alts => .mk (selflessKind id v k) c :: selflessAlts id v alts
termination_by structural alts => alts
/-- The schema without what its callables are told of their own fields, at every depth. -/
def selfless : List Field → List Field
  | [] => []
  | f :: fs => selflessField f :: selfless fs
termination_by structural fs => fs
end

/-! ### Which schemas -/

/-- The names that are read as numbers: of lengths and of discriminants. -/
def lenSources : LenSpec → List String
  | .fromField id => [id]
  | .computed _ => []

def kindSources : Kind → List String
  | .vec _ len _ => lenSources len
  | .vecRec _ len _ _ => lenSources len
  | _ => []

def guideSources : Deducer → List String
  | .matchField id _ _ => [id]
  | _ => []

def fieldSources : Field → List String
  | .plain _ k _ => kindSources k
  | .maybe _ k _ => kindSources k
  | .union _ d alts _ => guideSources d ++ alts.flatMap fun a => kindSources a.kind

mutual
/-- Every dependency is on an earlier field of the same list or, of a callable, on the field it
belongs to; at every level. -/
def upToSelfKind : Kind → Bool
  | .record fs => upToSelf [] fs
  | .arrRec fs _ => upToSelf [] fs
  | .vecRec fs _ _ _ => upToSelf [] fs
  | _ => true
def upToSelfField : Field → Bool
  | .plain _ k _ => upToSelfKind k
  | .maybe _ k _ => upToSelfKind k
  | .union _ _ alts _ => upToSelfAlts alts
def upToSelfAlts : List Alt → Bool
  | [] => true
  | .mk k _ :: alts => upToSelfKind k && upToSelfAlts alts
def upToSelf (seen : List String) : List Field → Bool
  | [] => true
  | f :: fs =>
      (fieldDeps f).all (fun i => seen.contains i || i == f.id) &&
      !(fieldSources f).contains f.id && upToSelfField f && upToSelf (seen ++ [f.id]) fs
end

/-- A schema as the library accepts it. -/
def Acceptable (fs : List Field) : Prop :=
  saneFields fs = true ∧ uniqueFields [] fs = true ∧ upToSelf [] fs = true

instance (fs : List Field) : Decidable (Acceptable fs) := by
  unfold Acceptable; infer_instance

/-- The same of one list, by positions. -/
def Upward (fs : List Field) : Prop :=
  (∀ i f, At fs i f → ∀ d ∈ fieldDeps f, DeclaredUpTo fs i d) ∧ ∀ f ∈ fs, f.id ∉ fieldSources f

/-- Names that can be looked up, and numbers that are not taken from the field itself: a length from
the container it sizes or a discriminant from the union it selects in does not compile. -/
def NamesUsable (fs : List Field) : Prop :=
  ∀ f ∈ fs, f.id ≠ "" ∧ "" ∉ fieldDeps f ∧ f.id ∉ fieldSources f

/-- A struct of the schema as the reader judges it: it fits, its constraints hold, and lengths,
presence and selection follow from its siblings, a callable being told that its own field is
default-constructed. -/
def ValidRead (cfg : Cfg) (fs : List Field) (vs : List Val) : Prop :=
  FitsFields cfg fs vs ∧ OkFields fs vs ∧ ShapedFields cfg (envOf fs vs) (selfless fs) vs

end S2S.Spec
