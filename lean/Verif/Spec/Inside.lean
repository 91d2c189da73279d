import Verif.Model.Write
import Verif.Spec.Either
import Verif.Spec.Leaf
/-
Lists that stand for one another, and lists whose records are replaced by ones that stand for them, or
whose types by ones of the same bytes.
-/
namespace S2S.Spec

/-- On these streams the list `gs'` stands for `gs`: what `gs` reads it reads as `φ` of that, and what
`gs` writes, from the structs `ok` is about, it writes from `φ` of them. It fails for the same reasons,
perhaps in fields of other names. -/
structure StandsFor (cfg : Cfg) (S : InStream) (T : OutStream) (gs gs' : List Field)
    (φ : List Val → List Val) (ok : List Val → Prop) : Prop where
  read : ∀ s, Rd.runOn S (structCast cfg gs').untag s =
    match Rd.runOn S (structCast cfg gs).untag s with
    | (.done (.ok vs), s') => (.done (.ok (φ vs)), s')
    | (.done (.error e), s') => (.done (.error e), s')
    | (.stuck w, s') => (.stuck w, s')
  write : ∀ vs, ok vs → ∀ s, Wr.runOn T (streamCast cfg gs' (φ vs)).untag s = Wr.runOn T (streamCast cfg gs vs).untag s

def onRecord (φ : List Val → List Val) : Val → Val
  | .seq vs => .seq (φ vs)
  | v => v

def onRecords (φ : List Val → List Val) : Val → Val
  | .seq rows => .seq (rows.map (onRecord φ))
  | v => v

def okRecord (ok : List Val → Prop) (v : Val) : Prop := ∀ vs, v = .seq vs → ok vs

def okRecords (ok : List Val → Prop) (v : Val) : Prop := ∀ rows, v = .seq rows → ∀ r ∈ rows, okRecord ok r

/-- A record, an array or a vector of records, of the one list and of the other; or a type of the same
bytes. -/
inductive SwapKind (cfg : Cfg) (S : InStream) (T : OutStream) : Kind → Kind → (Val → Val) → (Val → Prop) → Prop
  | same (k : Kind) : SwapKind cfg S T k k id fun _ => True
  | leaf : LeafKind cfg k k' g ok → SwapKind cfg S T k k' g ok
  | record : StandsFor cfg S T gs gs' φ ok → SwapKind cfg S T (.record gs) (.record gs') (onRecord φ) (okRecord ok)
  | arrRec (n : Nat) : StandsFor cfg S T gs gs' φ ok →
      SwapKind cfg S T (.arrRec gs n) (.arrRec gs' n) (onRecords φ) (okRecords ok)
  | vecRec (len : LenSpec) (bound : Option Nat) (sz : Nat) : StandsFor cfg S T gs gs' φ ok →
      SwapKind cfg S T (.vecRec gs len bound sz) (.vecRec gs' len bound sz) (onRecords φ) (okRecords ok)

def onPresent (g : Val → Val) : Val → Val
  | .present w => .present (g w)
  | v => v

def onHeld (g : Nat → Val → Val) : Val → Val
  | .var i w => .var i (g i w)
  | v => v

def perIndex {α : Type} (a : α) (as : Nat → α) : Nat → α
  | 0 => a
  | i + 1 => as i

inductive SwapAlts (cfg : Cfg) (S : InStream) (T : OutStream) :
    List Alt → List Alt → (Nat → Val → Val) → (Nat → Val → Prop) → Prop
  | nil : SwapAlts cfg S T [] [] (fun _ v => v) fun _ _ => True
  | cons : SwapKind cfg S T k k' g ok → (∀ v, c.check (g v) = c.check v) → SwapAlts cfg S T as as' gs oks →
      SwapAlts cfg S T (.mk k c :: as) (.mk k' c :: as') (perIndex g gs) (perIndex ok oks)

/-- The picked fields have their records replaced, or their types by ones of the same bytes; their
constraints do not tell the difference, nor do they fix what is written. -/
inductive SwapField (cfg : Cfg) (S : InStream) (T : OutStream) (pick : String → Bool) :
    Field → Field → (Val → Val) → (Val → Prop) → Prop
  | kept (f : Field) : SwapField cfg S T pick f f id fun _ => True
  | plain : pick i = true → SwapKind cfg S T k k' g ok → frozenVal k c = none → frozenVal k' c = none →
      (∀ v, c.check (g v) = c.check v) →
      SwapField cfg S T pick (.plain i k c) (.plain i k' c) g ok
  | maybe : pick i = true → SwapKind cfg S T k k' g ok →
      SwapField cfg S T pick (.maybe i k p) (.maybe i k' p) (onPresent g) fun v => ∀ w, v = .present w → ok w
  | union : pick i = true → SwapAlts cfg S T as as' gs oks → arity d = as.length →
      (∀ v, c.check (onHeld gs v) = c.check v) →
      SwapField cfg S T pick (.union i d as c) (.union i d as' c) (onHeld gs) fun v => ∀ j w, v = .var j w → oks j w

def onEach (g : Val → Val) (gs : List Val → List Val) : List Val → List Val
  | v :: vs => g v :: gs vs
  | [] => []

def okEach (ok : Val → Prop) (oks : List Val → Prop) : List Val → Prop
  | v :: vs => ok v ∧ oks vs
  | [] => True

inductive SwapFields (cfg : Cfg) (S : InStream) (T : OutStream) (pick : String → Bool) :
    List Field → List Field → (List Val → List Val) → (List Val → Prop) → Prop
  | nil : SwapFields cfg S T pick [] [] id fun _ => True
  | cons : SwapField cfg S T pick f f' g ok → SwapFields cfg S T pick fs fs' gs oks →
      SwapFields cfg S T pick (f :: fs) (f' :: fs') (onEach g gs) (okEach ok oks)

end S2S.Spec
