import Verif.Model.Stream
/-
Streams whose `read` or `write` throws, as a standard stream does once `exceptions()` has been
called on it. The library neither throws nor catches, and none of the functions that call a
stream is `noexcept` (the only ones that are: static_optional.hpp 31, 33; static_map.hpp 29-37):
an exception out of a stream is an exception out of the cast.
-/
namespace S2S

/-- What a call of `read` comes to: the bytes with the stream still good, a stream gone bad, an
exception. -/
inductive Gave (ξ : Type) where
  | bytes (bs : List Byte)
  | bad
  | threw (x : ξ)

/-- An input stream that may throw. -/
structure InThrower (ξ : Type) where
  State : Type
  read : State → Nat → Gave ξ × State
  len : ∀ s n bs s', read s n = (.bytes bs, s') → bs.length = n

/-- What a call of `write` comes to. -/
inductive Took (ξ : Type) where
  | taken
  | bad
  | threw (x : ξ)

/-- An output stream that may throw. -/
structure OutThrower (ξ : Type) where
  State : Type
  write : State → List Byte → Took ξ × State

/-- How a cast ends: as before, or in an exception. -/
inductive Ended (ξ α : Type) where
  | ends (o : Outcome α)
  | threw (x : ξ)

/-- Run a reading computation. -/
def Rd.tryOn (S : InThrower ξ) : Rd α → S.State → Ended ξ α × S.State
  | .ret a, s => (.ends (.done a), s)
  | .stuck w, s => (.ends (.stuck w), s)
  | .read n k, s =>
      match S.read s n with
      | (.bytes bs, s') => Rd.tryOn S (k (some bs)) s'
      | (.bad, s') => Rd.tryOn S (k none) s'
      | (.threw x, s') => (.threw x, s')
  | .alloc _ k, s => Rd.tryOn S k s

/-- Run a writing computation. -/
def Wr.tryOn (S : OutThrower ξ) : Wr α → S.State → Ended ξ α × S.State
  | .ret a, s => (.ends (.done a), s)
  | .stuck w, s => (.ends (.stuck w), s)
  | .write bs k, s =>
      match S.write s bs with
      | (.taken, s') => Wr.tryOn S (k true) s'
      | (.bad, s') => Wr.tryOn S (k false) s'
      | (.threw x, s') => (.threw x, s')

/-- The same stream with its exceptions switched off: it goes bad where it would throw. -/
def InThrower.quiet (S : InThrower ξ) : InStream where
  State := S.State
  read s n :=
    match S.read s n with
    | (.bytes bs, s') => (some bs, s')
    | (_, s') => (none, s')
  len := by
    intro s n bs s' h
    split at h
    · next hr => cases h; exact S.len _ _ _ _ hr
    · cases h

def OutThrower.quiet (S : OutThrower ξ) : OutStream where
  State := S.State
  write s bs :=
    match S.write s bs with
    | (.taken, s') => (true, s')
    | (_, s') => (false, s')

end S2S
