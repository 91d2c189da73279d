import Verif.Lemmas.Exact
import Verif.Props.Rewrite
import Verif.Props.Slots
/-
C69, C70: exactly which structs are written, and that writing and reading have the
same language.
-/
namespace S2S.Props
open Spec Demo

/-! ## C69 -/

/-- C69. For a self-consistent and rewritable schema and a struct whose user-set values
fit: `stream_cast` succeeds if and only if the struct, with its slots filled, is valid,
and what it emits then is that struct's encoding. -/
theorem C69_exactly_valid (cfg : Cfg) (fs : List Field) (hsc : SelfConsistent cfg fs)
    (hrw : Rewritable cfg fs) (vs : List Val) (hst : Storable cfg fs vs) (p : List Byte) :
    (streamCast cfg fs vs).run = (.done (.ok ()), p) ↔
      Valid cfg fs (settle fs vs) ∧ p = wire cfg fs (settle fs vs) := by
  constructor
  · exact write_sound cfg fs hsc vs hst p
  · rintro ⟨h, rfl⟩
    rw [streamCast_settle cfg fs hsc.1.2.1 (SelfConsistent.fresh hsc), Wr.run_eq]
    exact streamCast_complete hrw h

example : (streamCast be64 packet packetVal).run = (.done (.ok ()), packetBytes) :=
  (C69_exactly_valid be64 packet (by decide +kernel) (rewritable_of_checked (by decide +kernel))
    packetVal (by decide +kernel) packetBytes).2 (by decide +kernel)

/-- C69, the other structs: if the filled struct is not valid, the write of a struct as
C++ types it reports an error. -/
theorem C69_otherwise_error (cfg : Cfg) (fs : List Field) (hsc : SelfConsistent cfg fs)
    (hrw : Rewritable cfg fs) (hsafe : Everywhere (fun gs => Resolves gs ∧ WriteSafe cfg gs) fs)
    (vs : List Val) (hst : Storable cfg fs vs) (hty : Typed cfg fs vs)
    (hv : ¬ Valid cfg fs (settle fs vs)) :
    ∃ e p, (streamCast cfg fs vs).run = (.done (.error e), p) := by
  obtain ⟨r, p, h⟩ := C50_defined cfg fs hsc.1 hsafe vs hty listOut ([] : List Byte)
  cases r with
  | ok u => exact absurd ((C69_exactly_valid cfg fs hsc hrw vs hst p).1 h).1 hv
  | error e => exact ⟨e, p, h⟩

/-- The packet with a number that violates its constraint. -/
def badPacket : List Val :=
  [.int 0, .int 0, .int 0, .seq [.int 1], .var 0 (.int 1000), .int 1]

example : ∃ e p, (streamCast be64 packet badPacket).run = (.done (.error e), p) :=
  C69_otherwise_error be64 packet (by decide +kernel) (rewritable_of_checked (by decide +kernel))
    (by decide +kernel) badPacket (by decide +kernel) (by decide +kernel) (by decide +kernel)

/-! ## C70 -/

/-- C70. For a self-consistent and rewritable schema the byte strings `stream_cast` emits
(for structs whose user-set values fit) are exactly those `struct_cast` accepts and
consumes whole. -/
theorem C70_same_language (cfg : Cfg) (fs : List Field) (hsc : SelfConsistent cfg fs)
    (hrw : Rewritable cfg fs) (p : List Byte) :
    (∃ vs, Storable cfg fs vs ∧ (streamCast cfg fs vs).run = (.done (.ok ()), p)) ↔
      ∃ vs, (structCast cfg fs).run p = (.done (.ok vs), []) := by
  constructor
  · rintro ⟨vs, hst, h⟩
    have := C45_round_trip cfg fs hsc vs hst p h []
    rw [List.append_nil] at this
    exact ⟨_, this⟩
  · rintro ⟨vs, h⟩
    obtain ⟨q, hq, hw⟩ := C49_rewrite cfg fs hrw p [] vs h
    rw [List.append_nil] at hq
    subst hq
    exact ⟨vs, storable_of_fits ((read_iff cfg fs hsc.1 _ _ _).1 h).1.1, hw⟩

example : ∃ vs, Storable be64 packet vs ∧
    (streamCast be64 packet vs).run = (.done (.ok ()), packetBytes) :=
  (C70_same_language be64 packet (by decide +kernel) (rewritable_of_checked (by decide +kernel))
    packetBytes).2 ⟨packetParsed, by rfl⟩

/-- C70. What is read has its slots filled already, and among the structs with their
slots filled it is the only one written as the bytes it was read from. -/
theorem C70_canonical (cfg : Cfg) (fs : List Field) (hsc : SelfConsistent cfg fs)
    (hrw : Rewritable cfg fs) (p : List Byte) (vs : List Val)
    (h : (structCast cfg fs).run p = (.done (.ok vs), [])) (ws : List Val)
    (hst : Storable cfg fs ws) :
    (streamCast cfg fs ws).run = (.done (.ok ()), p) ↔ settle fs ws = vs := by
  obtain ⟨q, hq, hw⟩ := C49_rewrite cfg fs hrw p [] vs h
  rw [List.append_nil] at hq
  subst hq
  have hsv : Storable cfg fs vs := storable_of_fits ((read_iff cfg fs hsc.1 _ _ _).1 h).1.1
  have hfix : settle fs vs = vs := by
    have := C45_round_trip cfg fs hsc vs hsv p hw []
    rw [List.append_nil, h] at this
    simp only [Prod.mk.injEq, Outcome.done.injEq, Except.ok.injEq, and_true] at this
    exact this.symm
  constructor
  · intro h'
    have := C45_round_trip cfg fs hsc ws hst p h' []
    rw [List.append_nil, h] at this
    cases this; rfl
  · intro he
    have h1 := C48_slots_ignored cfg fs hsc.1.2.1 (SelfConsistent.fresh hsc) ws vs
      (by rw [he, hfix]) listOut ([] : List Byte)
    have h2 : (streamCast cfg fs ws).run = (streamCast cfg fs vs).run := h1
    rw [h2, hw]

example : (streamCast be64 packet packetVal).run = (.done (.ok ()), packetBytes) :=
  (C70_canonical be64 packet (by decide +kernel) (rewritable_of_checked (by decide +kernel))
    packetBytes packetParsed (by rfl) packetVal (by decide +kernel)).2 (by decide +kernel)

end S2S.Props
