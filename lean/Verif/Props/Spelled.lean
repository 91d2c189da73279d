import Verif.Lemmas.Spelled
/-
C151: lists with fields spelled by hand at any depth.
-/
namespace S2S.Props
open Spec Demo

/-! ## C151 -/

/-- C151, reading: the values such a list is read as are those of a valid struct of the usual list
in which what the byte counts leave out of the encoding is zero, at every depth; it is read from the
encoding without that. What optionals hold is not checked. -/
theorem C151_read (cfg : Cfg) (fs : List SpField) (hwf : WellFormed (usualFields fs))
    (inp rest : List Byte) (vs : List Val) :
    (structCastSp cfg fs).run inp = (.done (.ok vs), rest) ↔
      Valid cfg (usualFields fs) vs ∧ RestZero cfg fs vs ∧ inp = readBytes cfg.wire fs vs ++ rest := by
  obtain ⟨h1, h2, h3⟩ := hwf
  have hg : ∀ p, RdE.Gives (structCastSp cfg fs) p vs ↔
      Valid cfg (usualFields fs) vs ∧ RestZero cfg fs vs ∧ p = readBytes cfg.wire fs vs := by
    intro p
    unfold structCastSp Valid
    rw [gives_spFields cfg fs h1,
      step_iff_fields cfg _ [] h2 h3 (dfltEnv _) (envOf _ vs) vs (by simp [Agree]) (maps_envOf [] _ vs h2)]
  constructor
  · intro h
    rcases Rd.run_cases (short_spFields cfg fs _) inp with ⟨p, rest', o, rfl, hp, hr⟩ | ⟨a, rest', hP, hr, _⟩
    · rw [show readSpFields cfg _ fs = structCastSp cfg fs from rfl, h] at hr
      cases hr
      obtain ⟨h4, h5, rfl⟩ := (hg p).1 hp
      exact ⟨h4, h5, rfl⟩
    · rw [show readSpFields cfg _ fs = structCastSp cfg fs from rfl, h] at hr
      cases hr
      exact hP.elim
  · rintro ⟨h4, h5, rfl⟩
    exact Rd.run_of_path ((hg _).2 ⟨h4, h5, rfl⟩) rest

/-- C151, writing: what is sent is what the usual list sends, cut to the byte counts at every depth,
if the list allows it; of arrays in the other byte order than the host's nothing is cut, and nothing
is sent of elements without elements. -/
theorem C151_write (cfg : Cfg) (fs : List SpField) (hwf : WellFormed (usualFields fs))
    (hc : Everywhere (TypedConsts cfg) (usualFields fs)) (vs : List Val)
    (hv : Typed cfg (usualFields fs) vs) (p : List Byte) :
    (streamCastSp cfg fs vs).run = (.done (.ok ()), p) ↔
      ∃ us, Sent cfg (usualFields fs) vs us ∧ Allowed cfg fs vs us ∧ p = sentBytes cfg fs us := by
  rw [Wr.run_eq]
  have h := sent_spFields cfg fs hwf.1 [] hwf.2.1 [] hwf.2.2 hc.2 ⟨usualFields fs, vs⟩ vs p ⟨hwf.acceptable, hc.1, hv⟩
    (fun _ h => h) hv
  simp only [and_assoc] at h
  exact h

/-- C151, back again: what was written is read as the struct sent exactly if that is a valid one,
what was left out is zero, and what was written is what is read. -/
theorem C151_round (cfg : Cfg) (fs : List SpField) (hwf : WellFormed (usualFields fs))
    (hc : Everywhere (TypedConsts cfg) (usualFields fs)) (vs us : List Val)
    (hv : Typed cfg (usualFields fs) vs) (hs : Sent cfg (usualFields fs) vs us) (p rest : List Byte)
    (h : (streamCastSp cfg fs vs).run = (.done (.ok ()), p)) :
    (structCastSp cfg fs).run (p ++ rest) = (.done (.ok us), rest) ↔
      Valid cfg (usualFields fs) us ∧ RestZero cfg fs us ∧ p = readBytes cfg.wire fs us := by
  obtain ⟨us', h1, -, rfl⟩ := (C151_write cfg fs hwf hc vs hv p).1 h
  obtain rfl := sent_unique hwf.acceptable hv hs h1
  rw [C151_read cfg fs hwf, List.append_cancel_right_eq]

/-- C151: the descriptors are the fields spelled by hand with the sizes of their types and without
constraints on what optionals hold. The programs are the same. -/
theorem C151_descriptors (cfg : Cfg) (fs : List Field) :
    usualFields (spell fs) = fs ∧ structCastSp cfg (spell fs) = structCast cfg fs ∧
      ∀ vs, streamCastSp cfg (spell fs) vs = streamCast cfg fs vs := by
  refine ⟨usual_spell fs, ?_, fun vs => ?_⟩
  · unfold structCastSp structCast
    rw [usual_spell, read_spellFields]
  · unfold streamCastSp streamCast
    rw [usual_spell, write_spellFields]

/-! ### Examples -/

/-- A directory: entries with a name in three characters that are not terminated, a flag, and if it
is set a percentage. -/
def directory : List SpField :=
  [.plain "n" (.fixed (.num u8) 1) .none,
   .plain "entries" (.vecRec
     [.plain "name" (.fixed (.str 3) 3) .none,
      .plain "has" (.fixed (.num u8) 1) .none,
      .maybe "pct" (.fixed (.num u8) 1) (.cmp .le u8 100) ⟨["has"], fun vs => vs == [.int 1]⟩]
     (.fromField "n") (some 64) 8) .none]

/-- An array of which one of the two elements is on the wire, or two elements without elements, by a
tag. -/
def eitherWay : List SpField :=
  [.plain "tag" (.fixed (.num u8) 1) .none,
   .union "body" (.matchField "tag" u8 [(u8, 1), (u8, 2)])
     [.mk (.fixed (.buf (.scalar u16) 2) 2) .none, .mk (.hollowArr 2 1) .none] .none,
   .plain "end" (.fixed (.num u8) 1) .none]

example : WellFormed (usualFields directory) := by decide
example : WellFormed (usualFields eitherWay) := by decide
example : Everywhere (TypedConsts be64) (usualFields directory) := by decide +kernel

def oneEntry (pct : Int) : List Val :=
  [.int 1, .seq [.seq [ofBytes [97, 98, 99, 0], .int 1, .present (.int pct)]]]

/-- Nothing but these bytes is read as an entry with forty percent. -/
example (inp rest : List Byte) (h : (structCastSp be64 directory).run inp = (.done (.ok (oneEntry 40)), rest)) :
    inp = [1, 97, 98, 99, 1, 40] ++ rest :=
  ((C151_read be64 directory (by decide) inp rest _).1 h).2.2

example (p : List Byte) := C151_write be64 directory (by decide) (by decide +kernel) (oneEntry 40) (by decide +kernel) p

/-- Forty percent are read back. -/
example (us : List Val) (hs : Sent be64 (usualFields directory) (oneEntry 40) us) (rest : List Byte) :=
  C151_round be64 directory (by decide) (by decide +kernel) (oneEntry 40) us (by decide +kernel) hs
    [1, 97, 98, 99, 1, 40] rest rfl

/-- The packet of the descriptors, spelled by hand. -/
example : structCastSp be64 (spell packet) = structCast be64 packet := (C151_descriptors be64 packet).2.1

/-- C151 does not say that what is read can be written: in an entry, two hundred percent are read
and not written. -/
theorem C151_fails_guard :
    (structCastSp be64 directory).run [1, 97, 98, 99, 1, 200] = (.done (.ok (oneEntry 200)), []) ∧
    (streamCastSp be64 directory (oneEntry 200)).run =
      (.done (.error ⟨.validationFailure, "entries"⟩), [1, 97, 98, 99, 1]) := ⟨rfl, rfl⟩

/-- Nor that what is written can be read: in the other byte order than the host's, all of the first
alternative and nothing of the second is written. -/
theorem C151_fails_foreign :
    let one : List Val := [.int 1, .var 0 (.seq [.int 5, .int 0]), .int 9]
    let two : List Val := [.int 2, .var 1 (.seq [.seq [.int 0], .seq [.int 0]]), .int 9]
    (streamCastSp le64 eitherWay one).run = (.done (.ok ()), [1, 5, 0, 9]) ∧
    (streamCastSp be64 eitherWay one).run = (.done (.ok ()), [1, 0, 5, 0, 0, 9]) ∧
    (structCastSp be64 eitherWay).run [1, 0, 5, 0, 0, 9] =
      (.done (.ok [.int 1, .var 0 (.seq [.int 5, .int 0]), .int 0]), [0, 9]) ∧
    (streamCastSp le64 eitherWay two).run = (.done (.ok ()), [2, 0, 0, 9]) ∧
    (streamCastSp be64 eitherWay two).run = (.done (.ok ()), [2, 9]) ∧
    (structCastSp be64 eitherWay).run [2, 9] = (.done (.error ⟨.bufferExhaustion, "body"⟩), [9]) :=
  ⟨rfl, rfl, rfl, rfl, rfl, rfl⟩

end S2S.Props
