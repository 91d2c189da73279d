import Verif.Lemmas.Either
import Verif.Spec.Demo
/-
An optional is a union with an alternative of no bytes.
-/
namespace S2S.Props
open Spec Demo

/-- C147. Reading, the schema with unions reads the same: it succeeds on the same input with the same
struct, optionals as variants, fails with the same error, and leaves the stream the same. -/
theorem C147_read (S : InStream) (hS : IdleIn S) (cfg : Cfg) (pick : String → Bool) (fs : List Field)
    (hu : Unread pick fs) (s : S.State) :
    (structCast cfg (fs.map (asUnion pick))).runOn S s =
      match (structCast cfg fs).runOn S s with
      | (.done (.ok vs), s') => (.done (.ok (asVariants pick fs vs)), s')
      | (.done (.error e), s') => (.done (.error e), s')
      | (.stuck w, s') => (.stuck w, s') := by
  have h := readFields_asUnion hS pick cfg fs hu (dfltEnv fs) (dfltEnv (fs.map (asUnion pick)))
    (fun i hi => (dflts_agree pick fs i hi).symm) s
  unfold structCast
  rw [h, RdE.mapOk, RdE.runOn_andThen]
  rcases Rd.runOn S (readFields cfg (dfltEnv fs) fs) s with ⟨(_ | _) | _, s'⟩ <;> rfl

/-- C147. Writing, the two do the same, unless an optional whose length another member holds is
engaged against its predicate. -/
theorem C147_same (S : OutStream) (hS : IdleOut S) (cfg : Cfg) (pick : String → Bool) (fs : List Field)
    (hu : Unread pick fs) (vs : List Val) (ho : Optionals fs vs) (hn : NotHeldBack pick (envOf fs vs) fs vs)
    (s : S.State) :
    (streamCast cfg (fs.map (asUnion pick)) (asVariants pick fs vs)).runOn S s = (streamCast cfg fs vs).runOn S s :=
  writeFields_asUnion hS pick cfg (sameTo_asUnion pick cfg fs vs hu ho hn) hu (unread_asUnion hu) fs vs
    (fun _ h => h) ho s

/-- C147. Writing, the two accept the same structs and do the same to the stream. -/
theorem C147_write (S : OutStream) (hS : IdleOut S) (cfg : Cfg) (pick : String → Bool) (fs : List Field)
    (hu : Unread pick fs) (vs : List Val) (ho : Optionals fs vs) (s s' : S.State) :
    (streamCast cfg (fs.map (asUnion pick)) (asVariants pick fs vs)).runOn S s = (.done (.ok ()), s') ↔
      (streamCast cfg fs vs).runOn S s = (.done (.ok ()), s') := by
  constructor <;> intro h
  · have hn := notHeldBack_of_union_written pick fs vs h
    have hn' := NotHeldBack.congr (env' := envOf fs vs) (fun f hf i hi => envOf_asUnion pick fs vs i (hu f hf i hi)) hn
    rw [← C147_same S hS cfg pick fs hu vs ho hn' s]
    exact h
  · rw [C147_same S hS cfg pick fs hu vs ho (notHeldBack_of_written pick fs vs h) s]
    exact h

/-- C147. The one is a schema the library accepts if and only if the other is. -/
theorem C147_wellformed (pick : String → Bool) (fs : List Field) :
    WellFormed (fs.map (asUnion pick)) ↔ WellFormed fs := by
  simp only [WellFormed, saneFields_asUnion, uniqueFields_asUnion, earlierFields_asUnion]

theorem idle_listIn : IdleIn listIn := fun s => by cases s <;> rfl

theorem idle_listOut : IdleOut listOut := fun s => congrArg (Prod.mk true) (List.append_nil (α := Byte) s)

/-- A flag, the length of an optional vector, the vector, an optional number and a trailer. -/
def twoOptionals : List Field :=
  [.plain "n" (.num u8 1) .none,
   .plain "flags" (.num u8 1) .none,
   .maybe "data" (.vec (.scalar u16) (.fromField "n") none) ⟨["flags"], fun vs => vs == [.int 1] || vs == [.int 3]⟩,
   .maybe "opt" (.num u16 2) ⟨["flags"], fun vs => vs == [.int 2] || vs == [.int 3]⟩,
   .plain "end" (.num u8 1) .none]

example : Unread (fun i => i == "data" || i == "opt") twoOptionals := by
  unfold Unread; decide +kernel

/-- The vector and no number, both as unions. -/
example :
    (structCast be64 (twoOptionals.map (asUnion fun i => i == "data" || i == "opt"))).run [2, 1, 0, 7, 0, 8, 9] =
      (.done (.ok [.int 2, .int 1, .var 0 (.seq [.int 7, .int 8]), .var 1 (.seq []), .int 9]), []) := by
  have h := C147_read listIn idle_listIn be64 (fun i => i == "data" || i == "opt") twoOptionals
    (by unfold Unread; decide +kernel) [2, 1, 0, 7, 0, 8, 9]
  exact h

example (p : List Byte) :
    (streamCast be64 (twoOptionals.map (asUnion fun i => i == "data" || i == "opt"))
        [.int 2, .int 1, .var 0 (.seq [.int 7, .int 8]), .var 1 (.seq []), .int 9]).run = (.done (.ok ()), p) ↔
      (streamCast be64 twoOptionals [.int 2, .int 1, .present (.seq [.int 7, .int 8]), .absent, .int 9]).run =
        (.done (.ok ()), p) :=
  C147_write listOut idle_listOut be64 (fun i => i == "data" || i == "opt") twoOptionals
    (by unfold Unread; decide +kernel)
    [.int 2, .int 1, .present (.seq [.int 7, .int 8]), .absent, .int 9] (by simp [twoOptionals, Optionals]) [] p

/-- C147 fails for the error of a struct that is refused: a vector engaged against its predicate is
refused by itself as an optional, after two bytes, and by its length as a union, before the first. -/
theorem C147_fails_error :
    let vs : List Val := [.int 5, .int 0, .present (.seq [.int 7, .int 8]), .absent, .int 9]
    Unread (fun i => i == "data") twoOptionals ∧ Optionals twoOptionals vs ∧
    (streamCast be64 twoOptionals vs).run = (.done (.error ⟨.validationFailure, "data"⟩), [5, 0]) ∧
    (streamCast be64 (twoOptionals.map (asUnion fun i => i == "data"))
        (asVariants (fun i => i == "data") twoOptionals vs)).run =
      (.done (.error ⟨.foundContradictingLength, "n"⟩), []) :=
  ⟨by unfold Unread; decide +kernel, by simp [twoOptionals, Optionals], by rfl, by rfl⟩

example (S : OutStream) (hS : IdleOut S) (s : S.State) :
    (streamCast be64 (twoOptionals.map (asUnion fun i => i == "opt"))
      [.int 2, .int 1, .present (.seq [.int 7, .int 8]), .var 1 (.seq []), .int 9]).runOn S s =
    (streamCast be64 twoOptionals [.int 2, .int 1, .present (.seq [.int 7, .int 8]), .absent, .int 9]).runOn S s :=
  C147_same S hS be64 (fun i => i == "opt") twoOptionals (by unfold Unread; decide +kernel)
    [.int 2, .int 1, .present (.seq [.int 7, .int 8]), .absent, .int 9] (by simp [twoOptionals, Optionals])
    (by simp [twoOptionals, NotHeldBack]) s
example : WellFormed (twoOptionals.map (asUnion fun i => i == "opt")) :=
  (C147_wellformed _ _).2 (by decide +kernel)

end S2S.Props
