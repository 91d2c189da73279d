import Verif.Lemmas.Asked
import Verif.Props.Edit
/-
Lengths and discriminants filled in (`len_from_field`, `match_field`), or asked for
(`len_from_fields`, `compute`).
-/
namespace S2S.Props
open Spec Demo

/-- C146. Reading, the two schemas are one: the same requests of the stream, the same memory asked
for, the same result, on any stream. -/
theorem C146_read (cfg : Cfg) (fs : List Field) (hwf : WellFormed fs) (hr : Everywhere Resolves fs) :
    structCast cfg (asking fs) = structCast cfg fs := by
  unfold structCast
  rw [dfltEnv_asked]
  exact readFields_asked cfg _ fs [] hwf.2.1 hr.2 fs (fun _ h => h) hwf.2.1 hr.1 (numbered_dflt hwf.2.1)

/-- C146. Writing, the one that asks accepts exactly the structs the other accepts and whose numbers
are already what the other would put there, and emits the same bytes. -/
theorem C146_write_partial (cfg : Cfg) (fs : List Field) (hsc : SelfConsistent cfg fs) (hrw : Rewritable cfg fs)
    (hf : Everywhere FreeNumbers fs) (ws : List Val) (hst : Storable cfg (asking fs) ws) (p : List Byte) :
    (streamCast cfg (asking fs) ws).run = (.done (.ok ()), p) ↔
      (streamCast cfg fs ws).run = (.done (.ok ()), p) ∧ settle (asking fs) ws = settle fs ws := by
  have hr := everywhere_mono (fun _ h => h.resolves) hrw.2
  rw [C69_exactly_valid cfg (asking fs) (selfConsistent_asked hsc hf) (rewritable_asked hrw) ws hst,
    C69_exactly_valid cfg fs hsc hrw ws (storableFields_asked cfg fs fs ws hst),
    valid_asked hsc.1.2.1 hr, wire_asked]
  constructor
  · rintro ⟨hv, rfl⟩
    have h := settle_valid hsc hrw hv
    rw [settle_asked] at h
    rw [← h] at hv ⊢
    exact ⟨⟨hv, rfl⟩, rfl⟩
  · rintro ⟨⟨hv, rfl⟩, h⟩
    rw [h]
    exact ⟨hv, rfl⟩

/-- C146. What the one that fills in emits, the other emits of the struct with the numbers filled in. -/
theorem C146_filled_partial (cfg : Cfg) (fs : List Field) (hsc : SelfConsistent cfg fs) (hrw : Rewritable cfg fs)
    (hf : Everywhere FreeNumbers fs) (vs : List Val) (hst : Storable cfg fs vs) (p : List Byte)
    (h : (streamCast cfg fs vs).run = (.done (.ok ()), p)) :
    (streamCast cfg (asking fs) (settle fs vs)).run = (.done (.ok ()), p) := by
  have hr := everywhere_mono (fun _ h => h.resolves) hrw.2
  obtain ⟨hv, rfl⟩ := (C69_exactly_valid cfg fs hsc hrw vs hst p).1 h
  have hv' := (valid_asked hsc.1.2.1 hr _).2 hv
  have hsc' := selfConsistent_asked hsc hf
  rw [C69_exactly_valid cfg (asking fs) hsc' (rewritable_asked hrw) _ (storable_of_fits hv'.1),
    settle_valid hsc' (rewritable_asked hrw) hv', wire_asked]
  exact ⟨hv', rfl⟩

/-- The packet of the demo, of the length and the tag it is told: refused as a user leaves it, written
with them filled in, as it would be filled in otherwise. -/
example :
    (streamCast be64 (asking packet) packetVal).run ≠ (.done (.ok ()), packetBytes) ∧
    (streamCast be64 (asking packet) packetParsed).run = (.done (.ok ()), packetBytes) ∧
    structCast be64 (asking packet) = structCast be64 packet := by
  have hsc : SelfConsistent be64 packet := by decide +kernel
  have hrw : Rewritable be64 packet := rewritable_of_checked (by decide +kernel)
  have hf : Everywhere FreeNumbers packet := by decide +kernel
  refine ⟨fun h => ?_, C146_filled_partial be64 packet hsc hrw hf packetVal (by decide +kernel) _ (by rfl),
    C146_read be64 packet hsc.1 (everywhere_mono (fun _ h => h.resolves) hrw.2)⟩
  have := ((C146_write_partial be64 packet hsc hrw hf packetVal (by decide +kernel) _).1 h).2
  exact absurd this (by decide +kernel)

/-- A length that is a constant. -/
def fixedCount : List Field :=
  [.plain "n" (.num u8 1) (.cmp .eq i32 3), .plain "d" (.vec (.scalar u8) (.fromField "n") none) .none]

/-- C146 fails where the length is a constant: of three elements and a struct that says there are two,
the schema that fills in makes an encoding, the one that asks refuses; of two elements and a struct that
says so it is the other way round, and what comes out cannot be read. -/
theorem C146_fails_constant :
    SelfConsistent be64 fixedCount ∧ Rewritable be64 fixedCount ∧
    (let ws : List Val := [.int 2, .seq [.int 7, .int 8, .int 9]]
     Storable be64 (asking fixedCount) ws ∧ settle (asking fixedCount) ws = settle fixedCount ws ∧
     (streamCast be64 fixedCount ws).run = (.done (.ok ()), [3, 7, 8, 9]) ∧
     (streamCast be64 (asking fixedCount) ws).run = (.done (.error ⟨.foundContradictingLength, "d"⟩), [3])) ∧
    (let ws : List Val := [.int 2, .seq [.int 7, .int 8]]
     (streamCast be64 fixedCount ws).run = (.done (.error ⟨.validationFailure, "n"⟩), []) ∧
     (streamCast be64 (asking fixedCount) ws).run = (.done (.ok ()), [3, 7, 8]) ∧
     (structCast be64 (asking fixedCount)).run [3, 7, 8] = (.done (.error ⟨.bufferExhaustion, "d"⟩), [7, 8])) := by
  refine ⟨by decide +kernel, rewritable_of_checked (by decide +kernel), ⟨by decide +kernel, by rfl, by rfl, by rfl⟩,
    by rfl, by rfl, by rfl⟩

end S2S.Props
