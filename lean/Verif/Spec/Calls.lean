import Verif.Model.Calls
import Verif.Spec.Format
import Verif.Spec.Settle
/-
What is said between the library and the user's code.
-/
namespace S2S.Spec

/-! ### User code that is a function -/

/-- The user's code as a function: to every question one answer. -/
abbrev Answers := Call → Int

/-- The answers of the functions the schema has. -/
def own : Answers
  | .pred p vs => if p.fn vs then 1 else 0
  | .calc c vs => c.fn vs
  | .check f v => if f v then 1 else 0

def predUnder (A : Answers) (p : Pred) : Pred := ⟨p.ids, fun vs => A (.pred p vs) != 0⟩
def calcUnder (A : Answers) (c : Calc) : Calc := ⟨c.ids, fun vs => A (.calc c vs)⟩

def lenUnder (A : Answers) : LenSpec → LenSpec
  | .fromField id => .fromField id
  | .computed c => .computed (calcUnder A c)

def deducerUnder (A : Answers) : Deducer → Deducer
  | .matchField id t ls => .matchField id t ls
  | .matchCompute c t ls => .matchCompute (calcUnder A c) t ls
  | .ladder ps => .ladder (ps.map (predUnder A))

def constraintUnder (A : Answers) : Constraint → Constraint
  | .user f => .user fun v => A (.check f v) != 0
  | c => c

mutual
def kindUnder (A : Answers) : Kind → Kind
  | .num t w => .num t w
  | .fbuf e n => .fbuf e n
  | .fstr n => .fstr n
  | .vec e len b => .vec e (lenUnder A len) b
  | .record fs => .record (fieldsUnder A fs)
  | .arrRec fs n => .arrRec (fieldsUnder A fs) n
  | .vecRec fs len b sz => .vecRec (fieldsUnder A fs) (lenUnder A len) b sz
def fieldUnder (A : Answers) : Field → Field
  | .plain id k c => .plain id (kindUnder A k) (constraintUnder A c)
  | .maybe id k p => .maybe id (kindUnder A k) (predUnder A p)
  | .union id d alts c => .union id (deducerUnder A d) (altsUnder A alts) (constraintUnder A c)
def altsUnder (A : Answers) : List Alt → List Alt
  | [] => []
  | .mk k c :: alts => .mk (kindUnder A k) (constraintUnder A c) :: altsUnder A alts
/-- The schema whose callables are those functions; nothing else differs. -/
def fieldsUnder (A : Answers) : List Field → List Field
  | [] => []
  | f :: fs => fieldUnder A f :: fieldsUnder A fs
end

/-! ### Dialogues -/

/-- The bytes that came or went. -/
def bytesOf : List Ev → List Byte
  | [] => []
  | .byte b :: t => b :: bytesOf t
  | .answer _ _ :: t => bytesOf t

/-- The questions asked. -/
def questionsOf : List Ev → List Call
  | [] => []
  | .byte _ :: t => questionsOf t
  | .answer c _ :: t => c :: questionsOf t

/-- The answers are those of a function. -/
def Answered (A : Answers) (t : List Ev) : Prop := ∀ c a, .answer c a ∈ t → a = A c

/-- No question is answered in two ways. -/
def Steady (t : List Ev) : Prop := ∀ c a b, .answer c a ∈ t → .answer c b ∈ t → a = b

/-- The predicate is asked about the fields it names, and the answer means `b`. -/
def AsksPred (env : Env) (p : Pred) (b : Bool) (t : List Ev) : Prop :=
  ∃ args a, env.getAll p.ids = some args ∧ t = [.answer (.pred p args) a] ∧ (a != 0) = b

/-- The computation is asked, and the answer is in `R`. -/
def AsksCalc (env : Env) (c : Calc) (R : Int → Prop) (t : List Ev) : Prop :=
  ∃ args a, env.getAll c.ids = some args ∧ t = [.answer (.calc c args) a] ∧ R a

/-- A length comes from a field without a question, from a computation by one. -/
def AsksLen (cfg : Cfg) (env : Env) (n : Nat) (t : List Ev) : LenSpec → Prop
  | .fromField id => t = [] ∧ ∃ x, env id = some (.int x) ∧ cfg.toSz x = n
  | .computed c => AsksCalc env c (fun a => cfg.toSz a = n) t

/-- Branches are asked in order up to the first that holds, which is number `i`. -/
def AsksLadder (env : Env) : List Pred → Nat → List Ev → Prop
  | [], _, _ => False
  | p :: _, 0, t => AsksPred env p true t
  | p :: ps, i + 1, t => ∃ t1 t2, t = t1 ++ t2 ∧ AsksPred env p false t1 ∧ AsksLadder env ps i t2

def AsksDeducer (env : Env) (i : Nat) (t : List Ev) : Deducer → Prop
  | .matchField id s ls => t = [] ∧ (Deducer.matchField id s ls).eval env = .ok (some i)
  | .matchCompute c s ls => AsksCalc env c (fun a => switchIdx s (s.conv a) ls = some i) t
  | .ladder ps => AsksLadder env ps i t

/-- A functor is asked and accepts; a constraint of the library holds. -/
def AsksCheck (v : Val) (t : List Ev) : Constraint → Prop
  | .user f => ∃ a, t = [.answer (.check f v) a] ∧ a ≠ 0
  | c => t = [] ∧ Holds c v

/-- One stretch of the dialogue for each element. -/
def InTurn (P : Val → List Ev → Prop) : List Val → List Ev → Prop
  | [], t => t = []
  | v :: vs, t => ∃ t1 t2, t = t1 ++ t2 ∧ P v t1 ∧ InTurn P vs t2

mutual
/-- `env`: the values of the fields of the enclosing list. -/
def TalkKind (cfg : Cfg) (env : Env) : Kind → Val → List Ev → Prop
  | .vec e len b, .seq vs, t =>
      ∃ t1, AsksLen cfg env vs.length t1 len ∧ t = t1 ++ (wireKind cfg.wire (.vec e len b) (.seq vs)).map .byte
  | .record fs, .seq vs, t => TalkFields cfg (envOf fs vs) fs vs t
  | .arrRec fs _, .seq vs, t =>
      InTurn (fun v t => ∃ ws, v = .seq ws ∧ TalkFields cfg (envOf fs ws) fs ws t) vs t
  | .vecRec fs len _ _, .seq vs, t =>
      ∃ t1 t2, AsksLen cfg env vs.length t1 len ∧ t = t1 ++ t2 ∧
        InTurn (fun v t => ∃ ws, v = .seq ws ∧ TalkFields cfg (envOf fs ws) fs ws t) vs t2
  | k, v, t => t = (wireKind cfg.wire k v).map .byte
def TalkField (cfg : Cfg) (env : Env) : Field → Val → List Ev → Prop
  | .plain _ k _, v, t => TalkKind cfg env k v t
  | .maybe _ _ p, .absent, t => AsksPred env p false t
  | .maybe _ k p, .present v, t =>
      ∃ t1 t2, t = t1 ++ t2 ∧ AsksPred env p true t1 ∧ TalkKind cfg env k v t2
  | .union _ d alts _, .var i v, t =>
      ∃ t1 t2, t = t1 ++ t2 ∧ AsksDeducer env i t1 d ∧ TalkAlts cfg env alts i v t2
  | _, _, _ => False
def TalkAlts (cfg : Cfg) (env : Env) : List Alt → Nat → Val → List Ev → Prop
  | .mk k c :: _, 0, v, t => ∃ t1 t2, t = t1 ++ t2 ∧ TalkKind cfg env k v t1 ∧ AsksCheck v t2 c
  | _ :: alts, i + 1, v, t => TalkAlts cfg env alts i v t
  | [], _, _, _ => False
/-- What is read and asked, field by field: questions about length, presence or choice,
the bytes, then the constraint. -/
def TalkFields (cfg : Cfg) (env : Env) : List Field → List Val → List Ev → Prop
  | [], [], t => t = []
  | f :: fs, v :: vs, t =>
      ∃ t1 t2 t3, t = t1 ++ t2 ++ t3 ∧ TalkField cfg env f v t1 ∧ AsksCheck v t2 f.constraint ∧
        TalkFields cfg env fs vs t3
  | _, _, _ => False
end

/-- The dialogue of a read that delivers the struct: all arguments are values in it. -/
def Dialogue (cfg : Cfg) (fs : List Field) (vs : List Val) (t : List Ev) : Prop :=
  TalkFields cfg (envOf fs vs) fs vs t

/-! ### What is asked -/

/-- The values of the fields named. -/
def argsIn (env : Env) (ids : List String) : List Val := (env.getAll ids).getD []

def askedLen (env : Env) : LenSpec → List Call
  | .fromField _ => []
  | .computed c => [.calc c (argsIn env c.ids)]

/-- Of a ladder the branches up to the one taken. -/
def askedDeducer (env : Env) (i : Nat) : Deducer → List Call
  | .matchField _ _ _ => []
  | .matchCompute c _ _ => [.calc c (argsIn env c.ids)]
  | .ladder ps => (ps.take (i + 1)).map fun p => .pred p (argsIn env p.ids)

def askedCheck (v : Val) : Constraint → List Call
  | .user f => [.check f v]
  | _ => []

/-- The questions about one record of a container. -/
def recordCalls (f : List Val → List Call) : Val → List Call
  | .seq ws => f ws
  | _ => []

mutual
def askedKind (env : Env) : Kind → Val → List Call
  | .vec _ len _, .seq _ => askedLen env len
  | .record fs, .seq vs => askedFields (envOf fs vs) fs vs
  | .arrRec fs _, .seq vs => vs.flatMap (recordCalls fun ws => askedFields (envOf fs ws) fs ws)
  | .vecRec fs len _ _, .seq vs =>
      askedLen env len ++ vs.flatMap (recordCalls fun ws => askedFields (envOf fs ws) fs ws)
  | _, _ => []
def askedField (env : Env) : Field → Val → List Call
  | .plain _ k _, v => askedKind env k v
  | .maybe _ _ p, .absent => [.pred p (argsIn env p.ids)]
  | .maybe _ k p, .present v => .pred p (argsIn env p.ids) :: askedKind env k v
  | .union _ d alts _, .var i v => askedDeducer env i d ++ askedAlts env alts i v
  | _, _ => []
def askedAlts (env : Env) : List Alt → Nat → Val → List Call
  | .mk k c :: _, 0, v => askedKind env k v ++ askedCheck v c
  | _ :: alts, i + 1, v => askedAlts env alts i v
  | [], _, _ => []
/-- The questions a read of the struct asks, in order: a function of the struct. -/
def askedFields (env : Env) : List Field → List Val → List Call
  | f :: fs, v :: vs => askedField env f v ++ askedCheck v f.constraint ++ askedFields env fs vs
  | _, _ => []
end

/-! ### What a write asks -/

/-- Before a value goes out as the field `id`: the predicates of the engaged optional
containers that take their length from it. -/
def askedAgree (env : Env) (id : String) : List Field → List Val → List Call
  | .maybe _ k p :: fs, .present _ :: vs =>
      (if k.lenTarget? = some id then [.pred p (argsIn env p.ids)] else []) ++ askedAgree env id fs vs
  | _ :: fs, _ :: vs => askedAgree env id fs vs
  | _, _ => []

/-- The value the library puts in the slot `id` of type `t`. -/
def slotPut (cfg : Cfg) (all : List Field) (vals : List Val) (id : String) (t : ScalarTy) : Val :=
  .int (t.conv (cfg.toSz (slotValue all vals id)))

mutual
def askedWKind (cfg : Cfg) (all : List Field) (vals : List Val) (id : String) (c : Constraint) :
    Kind → Val → List Call
  | .num t _, _ =>
      (if isSlot all id then askedCheck (slotPut cfg all vals id t) c else []) ++
        askedAgree (envOf all vals) id all vals
  | .fbuf _ _, _ => askedAgree (envOf all vals) id all vals
  | .fstr _, _ => askedAgree (envOf all vals) id all vals
  | .vec _ len _, _ => askedLen (envOf all vals) len
  | .record fs, .seq vs => askedWFields cfg fs vs fs vs
  | .arrRec fs _, .seq vs => vs.flatMap (recordCalls fun ws => askedWFields cfg fs ws fs ws)
  | .vecRec fs len _ _, .seq vs =>
      askedLen (envOf all vals) len ++ vs.flatMap (recordCalls fun ws => askedWFields cfg fs ws fs ws)
  | _, _ => []
termination_by structural k => k
def askedWField (cfg : Cfg) (all : List Field) (vals : List Val) : Field → Val → List Call
  | .plain id k c, v => askedWKind cfg all vals id c k v
  | .maybe _ _ p, .absent => [.pred p (argsIn (envOf all vals) p.ids)]
  | .maybe id k p, .present v => .pred p (argsIn (envOf all vals) p.ids) :: askedWKind cfg all vals id .none k v
  | .union id d alts _, .var i v =>
      askedDeducer (envOf all vals) i d ++ askedWAlts cfg all vals id alts i v
  | _, _ => []
termination_by structural f => f
def askedWAlts (cfg : Cfg) (all : List Field) (vals : List Val) (id : String) : List Alt → Nat → Val → List Call
  | .mk k c :: _, 0, v => askedCheck v c ++ askedWKind cfg all vals id c k v
  | _ :: alts, i + 1, v => askedWAlts cfg all vals id alts i v
  | [], _, _ => []
termination_by structural alts => alts
/-- The questions a write of the struct asks, in order: the constraint of a field first,
unless the library fills it; then about presence, selection or length; a slot is checked
once it is filled. `all`, `vals`: the list the fields belong to. -/
def askedWFields (cfg : Cfg) (all : List Field) (vals : List Val) : List Field → List Val → List Call
  | f :: fs, v :: vs =>
      (if isSlot all f.id then [] else askedCheck v f.constraint) ++ askedWField cfg all vals f v ++
        askedWFields cfg all vals fs vs
  | _, _ => []
termination_by structural fs => fs
end

/-! ### Whose callable it is -/

def lenOwns : LenSpec → Call → Prop
  | .computed c, .calc c' _ => c' = c
  | _, _ => False

def deducerOwns : Deducer → Call → Prop
  | .matchCompute c _ _, .calc c' _ => c' = c
  | .ladder ps, .pred p _ => p ∈ ps
  | _, _ => False

def checkOwns : Constraint → Call → Prop
  | .user f, .check f' _ => f' = f
  | _, _ => False

mutual
def kindOwns : Kind → Call → Prop
  | .vec _ len _, c => lenOwns len c
  | .record fs, c => fieldsOwn fs c
  | .arrRec fs _, c => fieldsOwn fs c
  | .vecRec fs len _ _, c => lenOwns len c ∨ fieldsOwn fs c
  | _, _ => False
/-- The callable is one of those in the field. -/
def fieldOwns : Field → Call → Prop
  | .plain _ k cn, c => kindOwns k c ∨ checkOwns cn c
  | .maybe _ k p, c => (∃ args, c = .pred p args) ∨ kindOwns k c
  | .union _ d alts cn, c => deducerOwns d c ∨ altsOwn alts c ∨ checkOwns cn c
def altsOwn : List Alt → Call → Prop
  | [], _ => False
  | .mk k cn :: alts, c => kindOwns k c ∨ checkOwns cn c ∨ altsOwn alts c
def fieldsOwn : List Field → Call → Prop
  | [], _ => False
  | f :: fs, c => fieldOwns f c ∨ fieldsOwn fs c
end

/-- The predicate of an optional container that takes its length from `id`. -/
def lengthens (fs : List Field) (id : String) (c : Call) : Prop :=
  ∃ i k p args, Field.maybe i k p ∈ fs ∧ k.lenTarget? = some id ∧ c = .pred p args

/-- The list while it is being read: the fields of `pre` hold `vs`, the others what they
held. -/
def standing : Env → List Field → List Val → Env
  | env, f :: pre, v :: vs => standing (env.set f.id v) pre vs
  | env, _, _ => env

/-! ### Worlds -/

/-- A world that has the stream `S` as part of its state, on which the user's code does
not act. -/
structure Hosts (W : World) (S : InStream) where
  view : W.State → S.State
  read : ∀ s n o s', W.read s n = (.value o, s') → S.read (view s) n = (o, view s')
  call : ∀ s c r s', W.call s c = (r, s') → view s' = view s

/-- The same for an output stream. -/
structure HostsOut (W : World) (S : OutStream) where
  view : W.State → S.State
  write : ∀ s bs b s', W.write s bs = (.value b, s') → S.write (view s) bs = (b, view s')
  call : ∀ s c r s', W.call s c = (r, s') → view s' = view s

/-- Nothing throws: neither the stream nor the user's code. -/
def Calm (W : World) : Prop :=
  (∀ s n, ∃ o s', W.read s n = (.value o, s')) ∧ (∀ s bs, ∃ b s', W.write s bs = (.value b, s')) ∧
  ∀ s c, ∃ a s', W.call s c = (.value a, s')

/-- The first `n` events, if they are bytes. -/
def takeBytes : Nat → List Ev → Option (List Byte × List Ev)
  | 0, t => some ([], t)
  | n + 1, .byte b :: t => (takeBytes n t).map fun (bs, r) => (b :: bs, r)
  | _ + 1, _ => none

theorem takeBytes_length : ∀ {n t bs r}, takeBytes n t = some (bs, r) → bs.length = n
  | 0, _, _, _, h => by cases h; rfl
  | n + 1, [], _, _, h => by cases h
  | n + 1, .answer _ _ :: t, _, _, h => by cases h
  | n + 1, .byte b :: t, bs, r, h => by
    rw [takeBytes] at h
    cases hr : takeBytes n t with
    | none => rw [hr] at h; cases h
    | some x =>
      obtain ⟨bs', r'⟩ := x
      rw [hr] at h
      cases h
      rw [List.length_cons, takeBytes_length hr]

/-- The world that plays a dialogue: delivers its bytes and gives its answers. What comes
out of turn fails or throws. -/
def player : World where
  State := List Ev
  read t n :=
    match takeBytes n t with
    | some (bs, r) => (.value (some bs), r)
    | none => (.value none, t)
  write t bs :=
    match takeBytes bs.length t with
    | some (_, r) => (.value true, r)
    | none => (.value false, t)
  call t _ :=
    match t with
    | .answer _ a :: r => (.value a, r)
    | t => (.thrown, t)
  len := by
    intro t n bs t' h
    cases ht : takeBytes n t with
    | none => rw [ht] at h; cases h
    | some x =>
      obtain ⟨bs', r⟩ := x
      rw [ht] at h
      cases h
      exact takeBytes_length ht

end S2S.Spec
