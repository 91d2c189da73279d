import Verif.Spec.Streams
import Verif.Spec.Settle
import Verif.Spec.Rewrite
import Verif.Model.Write
/-
One stream that is both written and read, and everything a program can do with it that
keeps to the order of the structs.
-/
namespace S2S.Spec

/-- A stream with both ends (`std::iostream`, /repo/docs/streams.md: a type may provide
`read` as well as `write`). -/
structure Pipe where
  State : Type
  read : State → Nat → Option (List Byte) × State
  len : ∀ s n bs s', read s n = (some bs, s') → bs.length = n
  write : State → List Byte → Bool × State

abbrev Pipe.inp (P : Pipe) : InStream := ⟨P.State, P.read, P.len⟩
abbrev Pipe.out (P : Pipe) : OutStream := ⟨P.State, P.write⟩

/-- What is written can be read, in that order; any write may be refused, which leaves
the stream bad. `content`: what was written and not yet read. -/
structure PipeContract (P : Pipe) (content : P.State → List Byte) (good : P.State → Prop) : Prop where
  inp : InContract P.inp content good
  out : OutContract P.out content good

/-- `std::stringstream`: a short read and any access after it fail. (A C++ library fact,
not code of /repo.) -/
abbrev stdPipe : Pipe where
  State := List Byte × Bool
  read := stdIn.read
  len := stdIn.len
  write s bs := if s.2 then (true, (s.1 ++ bs, true)) else (false, s)

theorem stdPipe_contract : PipeContract stdPipe (fun s => s.1) (fun s => s.2 = true) where
  inp := stdIn_contract
  out :=
    { accept := by
        rintro ⟨buf, ok⟩ bs s' h
        cases ok <;> simp only [stdPipe, if_true, Bool.false_eq_true, if_false, Prod.mk.injEq] at h
        · cases h.1
        · obtain ⟨-, rfl⟩ := h; exact ⟨rfl, rfl, rfl⟩
      refuse := by
        rintro ⟨buf, ok⟩ bs s' h
        cases ok <;> simp only [stdPipe, if_true, Bool.false_eq_true, if_false, Prod.mk.injEq] at h
        · obtain ⟨-, rfl⟩ := h; exact ⟨by simp, [], List.nil_prefix, by simp⟩
        · cases h.1 }

/-- The states a program can bring a stream to by successful writes and by reads of the
oldest struct not yet read, in any order and number; with the structs still in it. -/
inductive Session (cfg : Cfg) (P : Pipe) (content : P.State → List Byte) (good : P.State → Prop) :
    List (List Field × List Val) → P.State → Prop
  | start {s} : good s → content s = [] → Session cfg P content good [] s
  | write {q s fs vs s'} : Session cfg P content good q s → SelfConsistent cfg fs → Storable cfg fs vs →
      (streamCast cfg fs vs).runOn P.out s = (.done (.ok ()), s') →
      Session cfg P content good (q ++ [(fs, vs)]) s'
  | read {q s fs vs r s'} : Session cfg P content good ((fs, vs) :: q) s →
      (structCast cfg fs).runOn P.inp s = (r, s') → Session cfg P content good q s'

end S2S.Spec
