import Verif.Model.Bytes
/-
The interaction between the library and a stream.

All the library ever does to an input stream is call `s.read(ptr, n)` and test
the stream afterwards (/repo/include/field_read/read_impl.hpp 39, 57); all it
ever does to an output stream is `s.write(ptr, n)` and test it
(/repo/include/field_write/write_impl.hpp 18, 26). A read of the library is
therefore a tree of such calls whose continuation sees either the delivered
bytes or the failure. No stream is built in: trees are run on arbitrary
streams afterwards.
-/
namespace S2S

/-- `error_reason` (/repo/include/error/cast_error.hpp 9-23). -/
inductive Reason
  | bufferExhaustion
  | validationFailure
  | typeDeductionFailure
  | foundContradictingLength
  | excessiveLength
  deriving DecidableEq, Repr

/-- `cast_error` (/repo/include/error/cast_error.hpp 26-29). -/
structure CastError where
  reason : Reason
  failedAt : String
  deriving DecidableEq, Repr

/-- Ways in which an execution leaves the defined behaviour of the library. -/
inductive Stuck
  /-- access outside an object -/
  | outOfBounds
  /-- `strlen` over characters without a terminator
  (/repo/include/lib/containers/fixed_string.hpp 33) -/
  | unterminated
  /-- bytes that are no value of the type (`bool`) -/
  | invalidValue
  /-- a floating-point value converted to an integer type that does not have its
  truncation (/repo/include/field_validation/field_value_constraints.hpp 43-125: the
  functors take their argument by the type of the operand) -/
  | badConversion
  /-- `std::length_error` escaping from `resize` -/
  | lengthError
  /-- the program would not compile: a name does not resolve, or a value does
  not have the type an operation needs -/
  | illTyped
  deriving DecidableEq, Repr

/-- A computation that reads. `alloc n` records `resize` to `n` bytes. -/
inductive Rd (α : Type) where
  | ret (a : α)
  | stuck (w : Stuck)
  | read (n : Nat) (k : Option (List Byte) → Rd α)
  | alloc (bytes : Nat) (k : Rd α)

namespace Rd

def bind : Rd α → (α → Rd β) → Rd β
  | ret a, f => f a
  | stuck w, _ => stuck w
  | read n k, f => read n fun o => (k o).bind f
  | alloc b k, f => alloc b (k.bind f)

def map (g : α → β) (r : Rd α) : Rd β := r.bind fun a => ret (g a)

end Rd

/-- A computation that writes. -/
inductive Wr (α : Type) where
  | ret (a : α)
  | stuck (w : Stuck)
  | write (bs : List Byte) (k : Bool → Wr α)

namespace Wr

def bind : Wr α → (α → Wr β) → Wr β
  | ret a, f => f a
  | stuck w, _ => stuck w
  | write bs k, f => write bs fun b => (k b).bind f

def map (g : α → β) (r : Wr α) : Wr β := r.bind fun a => ret (g a)

end Wr

/-- Reading computations returning `std::expected<α, ε>`. -/
abbrev RdE (ε α : Type) := Rd (Except ε α)

namespace RdE
/-- `operator|` on results (/repo/include/error/cast_error.hpp 39-47) and every
`if(!res) return std::unexpected(res.error())`: continue on success, pass an
error through. -/
def andThen (r : RdE ε α) (f : α → RdE ε β) : RdE ε β :=
  Rd.bind r fun
    | .ok a => f a
    | .error e => .ret (.error e)

def ok (a : α) : RdE ε α := Rd.ret (.ok a)
def err (e : ε) : RdE ε α := Rd.ret (.error e)

/-- Re-labelling an error: attaching the field name
(/repo/include/cast/struct_cast_impl.hpp 32-37) or dropping it again
(/repo/include/field_read/field_reader.hpp 184-187). -/
def mapErr (g : ε → ε') (r : RdE ε α) : RdE ε' α :=
  Rd.map (fun | .ok a => .ok a | .error e => .error (g e)) r

def mapOk (g : α → β) (r : RdE ε α) : RdE ε β := r.andThen fun a => ok (g a)
end RdE

abbrev WrE (ε α : Type) := Wr (Except ε α)

namespace WrE
def andThen (r : WrE ε α) (f : α → WrE ε β) : WrE ε β :=
  Wr.bind r fun
    | .ok a => f a
    | .error e => .ret (.error e)

def ok (a : α) : WrE ε α := Wr.ret (.ok a)
def err (e : ε) : WrE ε α := Wr.ret (.error e)

def mapErr (g : ε → ε') (r : WrE ε α) : WrE ε' α :=
  Wr.map (fun | .ok a => .ok a | .error e => .error (g e)) r
end WrE

/-! ### Streams -/

/-- An input stream: any state, any behaviour. `read s n` is `s.read(ptr, n)`
followed by the test of the stream: `some bs` when the stream is still good, and
then `bs` is what was stored at `ptr`; `none` when it is not. The one thing C++
guarantees is that the destination has `n` bytes. -/
structure InStream where
  State : Type
  read : State → Nat → Option (List Byte) × State
  len : ∀ s n bs s', read s n = (some bs, s') → bs.length = n

/-- An output stream: any state, any behaviour. `write s bs` is
`s.write(ptr, n)` followed by the test of the stream. -/
structure OutStream where
  State : Type
  write : State → List Byte → Bool × State

/-- How an execution ends. -/
inductive Outcome (α : Type) where
  | done (a : α)
  | stuck (w : Stuck)
  deriving DecidableEq

/-- Run a reading computation on a stream. -/
def Rd.runOn (S : InStream) : Rd α → S.State → Outcome α × S.State
  | .ret a, s => (.done a, s)
  | .stuck w, s => (.stuck w, s)
  | .read n k, s => let r := S.read s n; Rd.runOn S (k r.1) r.2
  | .alloc _ k, s => Rd.runOn S k s

/-- The allocations made on the way. -/
def Rd.allocsOn (S : InStream) : Rd α → S.State → List Nat
  | .ret _, _ => []
  | .stuck _, _ => []
  | .read n k, s => let r := S.read s n; Rd.allocsOn S (k r.1) r.2
  | .alloc b k, s => b :: Rd.allocsOn S k s

/-- The sizes of the read calls made on the way. -/
def Rd.callsOn (S : InStream) : Rd α → S.State → List Nat
  | .ret _, _ => []
  | .stuck _, _ => []
  | .read n k, s => let r := S.read s n; n :: Rd.callsOn S (k r.1) r.2
  | .alloc _ k, s => Rd.callsOn S k s

/-- Run a writing computation on a stream. -/
def Wr.runOn (S : OutStream) : Wr α → S.State → Outcome α × S.State
  | .ret a, s => (.done a, s)
  | .stuck w, s => (.stuck w, s)
  | .write bs k, s => let r := S.write s bs; Wr.runOn S (k r.1) r.2

/-- The sizes of the write calls made on the way. -/
def Wr.callsOn (S : OutStream) : Wr α → S.State → List Nat
  | .ret _, _ => []
  | .stuck _, _ => []
  | .write bs k, s => let r := S.write s bs; bs.length :: Wr.callsOn S (k r.1) r.2

/-- The simplest input stream: a byte string; a read that asks for more than is
left fails and consumes nothing. It is the reference other streams are compared
with (`Verif/Spec/Streams.lean` has the streams of /repo). -/
def listIn : InStream where
  State := List Byte
  read s n := if n ≤ s.length then (some (s.take n), s.drop n) else (none, s)
  len := by
    intro s n bs s' h
    split at h
    · simp only [Prod.mk.injEq, Option.some.injEq] at h
      obtain ⟨rfl, _⟩ := h
      simp; omega
    · simp at h

/-- A stream that accepts everything, remembering what it received. -/
def listOut : OutStream where
  State := List Byte
  write s bs := (true, s ++ bs)

/-- Reading from a byte string: result and rest. -/
def Rd.run (r : Rd α) (inp : List Byte) : Outcome α × List Byte := r.runOn listIn inp

/-- Writing to a stream that accepts everything: result and bytes received. -/
def Wr.run (w : Wr α) : Outcome α × List Byte := w.runOn listOut ([] : List Byte)

end S2S
