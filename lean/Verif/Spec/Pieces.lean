import Verif.Model.Read
import Verif.Spec.Format
/-
A program that gets its bytes in pieces (from a socket, say), keeps them in a buffer and
casts from the start of the buffer until what is there is not enough.
-/
namespace S2S.Spec

/-- Where such a program stands. -/
inductive Status
  /-- more bytes are needed; these are kept -/
  | waiting (kept : List Byte)
  /-- a cast has failed -/
  | failed (e : CastError)
  /-- a cast has left defined behaviour -/
  | crashed (w : Stuck)

/-- Structs are cast from the buffer one after the other, as long as there are enough bytes. -/
inductive Drains (cfg : Cfg) (fs : List Field) : List Byte → List (List Val) → Status → Prop
  | wait {buf e left} : (structCast cfg fs).run buf = (.done (.error e), left) →
      e.reason = .bufferExhaustion → Drains cfg fs buf [] (.waiting buf)
  | fail {buf e left} : (structCast cfg fs).run buf = (.done (.error e), left) →
      e.reason ≠ .bufferExhaustion → Drains cfg fs buf [] (.failed e)
  | crash {buf w left} : (structCast cfg fs).run buf = (.stuck w, left) →
      Drains cfg fs buf [] (.crashed w)
  | step {buf v rest vs st} : (structCast cfg fs).run buf = (.done (.ok v), rest) →
      Drains cfg fs rest vs st → Drains cfg fs buf (v :: vs) st

/-- The pieces come one after the other; each is put behind what was kept. -/
inductive Fed (cfg : Cfg) (fs : List Field) : List Byte → List (List Byte) → List (List Val) → Status → Prop
  | nil {kept} : Fed cfg fs kept [] [] (.waiting kept)
  | more {kept c cs vs kept' ws st} : Drains cfg fs (kept ++ c) vs (.waiting kept') →
      Fed cfg fs kept' cs ws st → Fed cfg fs kept (c :: cs) (vs ++ ws) st
  | over {kept c cs vs st} : Drains cfg fs (kept ++ c) vs st → (∀ r, st ≠ .waiting r) →
      Fed cfg fs kept (c :: cs) vs st

end S2S.Spec
