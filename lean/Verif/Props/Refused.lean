import Verif.Lemmas.Refused
import Verif.Props.Reading
/-
C118: which error a read reports, exactly.
-/
namespace S2S.Props
open Spec Demo

/-- C118. A read of a byte string reports reason `r` at field `id` if and only if the
format says so of the bytes: what comes before the field is the encoding of a valid
struct of the fields before it, and what follows is refused for `r` where the field is
expected. -/
theorem C118_refused_iff (cfg : Cfg) (fs : List Field) (hwf : WellFormed fs) (inp : List Byte)
    (r : Reason) (id : String) :
    (∃ rest, (structCast cfg fs).run inp = (.done (.error ⟨r, id⟩), rest)) ↔
      Refused cfg fs inp r id :=
  structCast_ends_iff cfg fs hwf inp r id

/-- C118, on every stream that abides by the contract: it depends on the bytes the stream
holds and on nothing else of it. -/
theorem C118_streams (cfg : Cfg) (fs : List Field) (hwf : WellFormed fs) {S : InStream}
    {content : S.State → List Byte} {good : S.State → Prop} (hS : InContract S content good)
    (s : S.State) (hg : good s) (r : Reason) (id : String) :
    ((structCast cfg fs).runOn S s).1 = .done (.error ⟨r, id⟩) ↔
      Refused cfg fs (content s) r id := by
  rw [← C118_refused_iff cfg fs hwf, (Rd.runOn_contract hS (short_structCast cfg fs) s hg).1]
  constructor
  · intro h; exact ⟨_, Prod.ext h rfl⟩
  · rintro ⟨_, h⟩; rw [h]

/-- C118. A record inside a struct is refused for the reason a read of it by itself would
report; the name of the field of the record is dropped. -/
theorem C118_nested (cfg : Cfg) (env : Env) (fs : List Field) (hwf : WellFormed fs)
    (inp : List Byte) (r : Reason) :
    KindRefused cfg env (.record fs) inp r ↔ ∃ id, Refused cfg fs inp r id := by
  simp only [KindRefused, refused_iff_fields cfg fs hwf]

/-- C118. Three things can happen, and which one does is settled by the bytes: they begin
with the encoding of a valid struct, and it is read; they are refused, and the error says
why and where; or neither, and the read leaves defined behaviour. -/
theorem C118_three_ways (cfg : Cfg) (fs : List Field) (hwf : WellFormed fs) (inp : List Byte) :
    (∃ vs rest, (Valid cfg fs vs ∧ inp = wire cfg fs vs ++ rest) ∧
      (structCast cfg fs).run inp = (.done (.ok vs), rest)) ∨
    (∃ r id rest, Refused cfg fs inp r id ∧
      (structCast cfg fs).run inp = (.done (.error ⟨r, id⟩), rest)) ∨
    ((∀ vs rest, ¬ (Valid cfg fs vs ∧ inp = wire cfg fs vs ++ rest)) ∧
      (∀ r id, ¬ Refused cfg fs inp r id) ∧
      ∃ w rest, (structCast cfg fs).run inp = (.stuck w, rest)) := by
  cases h : (structCast cfg fs).run inp with
  | mk o rest =>
    cases o with
    | stuck w =>
      refine .inr (.inr ⟨?_, ?_, w, rest, rfl⟩)
      · intro vs rest' hv
        rw [← read_iff cfg fs hwf, h] at hv
        cases hv
      · intro r id hr
        rw [← C118_refused_iff cfg fs hwf, h] at hr
        obtain ⟨_, hr⟩ := hr
        cases hr
    | done x =>
      cases x with
      | ok vs => exact .inl ⟨vs, rest, (read_iff cfg fs hwf inp rest vs).mp h, rfl⟩
      | error e =>
        exact .inr (.inl ⟨e.reason, e.failedAt, rest, (C118_refused_iff cfg fs hwf inp _ _).mp ⟨rest, h⟩, rfl⟩)

/-- C118. No input is refused in two ways, and none that begins with a valid struct is
refused. -/
theorem C118_one_way (cfg : Cfg) (fs : List Field) (hwf : WellFormed fs) (inp : List Byte)
    (r : Reason) (id : String) (h : Refused cfg fs inp r id) :
    (∀ r' id', Refused cfg fs inp r' id' → r' = r ∧ id' = id) ∧
      ∀ vs rest, Valid cfg fs vs → inp ≠ wire cfg fs vs ++ rest := by
  obtain ⟨rest, h⟩ := (C118_refused_iff cfg fs hwf inp r id).mpr h
  refine ⟨fun r' id' h' => ?_, fun vs rest' hv he => ?_⟩
  · obtain ⟨_, h'⟩ := (C118_refused_iff cfg fs hwf inp r' id').mpr h'
    rw [h] at h'
    cases h'
    exact ⟨rfl, rfl⟩
  · have := (read_iff cfg fs hwf inp rest' vs).mpr ⟨hv, he⟩
    rw [h] at this
    cases this

/-! The packet of the demo, refused at its vector, its union, inside the record its union
holds, and at its last constraint. -/

private theorem packet_wf : WellFormed packet := by decide

-- 40 elements of two bytes where 64 bytes are allowed
example : Refused be64 packet [0, 0, 0x12, 0x34, 0, 40, 7, 0, 1] .excessiveLength "data" :=
  (C118_refused_iff be64 packet packet_wf _ _ _).mp ⟨_, by rfl⟩
-- no alternative for 9
example : Refused be64 packet [0, 0, 0x12, 0x34, 0, 1, 9, 0, 1] .typeDeductionFailure "body" :=
  (C118_refused_iff be64 packet packet_wf _ _ _).mp ⟨_, by rfl⟩
-- the optional of the record is announced and half there
example : Refused be64 packet [0, 0, 0x12, 0x34, 0, 1, 7, 0, 1, 0xff, 1] .bufferExhaustion "body" :=
  (C118_refused_iff be64 packet packet_wf _ _ _).mp ⟨_, by rfl⟩
example : Refused be64 packet [0, 0, 0x12, 0x34, 0, 0, 7, 0, 0, 0] .validationFailure "crc" :=
  (C118_refused_iff be64 packet packet_wf _ _ _).mp ⟨_, by rfl⟩

-- the other direction: the format alone says that the magic number is wrong, whatever follows
example (more : List Byte) : ∃ rest, (structCast be64 packet).run ([0, 0, 0x12, 0x35] ++ more) =
    (.done (.error ⟨.validationFailure, "magic"⟩), rest) :=
  (C118_refused_iff be64 packet packet_wf _ _ _).mpr
    ⟨[], packet.head (by decide), packet.tail, [], [0, 0, 0x12, 0x35] ++ more, rfl, rfl,
      ⟨trivial, trivial, trivial⟩, rfl,
      .inr ⟨rfl, .int 0x1235, more, rfl, ⟨⟨by simp [ScalarTy.InRange], .inl rfl⟩, trivial, trivial⟩, by rfl⟩⟩

example : (structCast be64 packet).run [0, 0, 0x12, 0x34, 0, 3, 7, 0, 1, 0, 2] =
    (.done (.error ⟨.bufferExhaustion, "data"⟩), [0, 1, 0, 2]) := by rfl

/-- On a stream for constant evaluation a vector of booleans is read one by one: a byte
that is no boolean is met before the end of the input, and the read is no error but
undefined. At run time the same input is short. -/
private def flags : List Field :=
  [.plain "n" (.num u8 1) .none, .plain "bs" (.vec (.scalar .bool) (.fromField "n") none) .none]
private def ct : Cfg := { le64 with constexprStream := true }

example : Refused le64 flags [3, 2] .bufferExhaustion "bs" ∧
    ∀ r id, ¬ Refused ct flags [3, 2] r id :=
  ⟨(C118_refused_iff le64 flags (by decide) _ _ _).mp ⟨_, by rfl⟩, fun r id h => by
    obtain ⟨_, h⟩ := (C118_refused_iff ct flags (by decide) _ _ _).mpr h
    cases h⟩
example : Refused ct flags [3, 1] .bufferExhaustion "bs" :=
  (C118_refused_iff ct flags (by decide) _ _ _).mp ⟨_, by rfl⟩

-- a standard stream
example : ((structCast be64 packet).runOn stdIn ([0, 0, 0x12, 0x34, 0, 40, 7, 0, 1], true)).1 =
    .done (.error ⟨.excessiveLength, "data"⟩) :=
  (C118_streams be64 packet (by decide) stdIn_contract _ rfl _ _).2
    ((C118_refused_iff be64 packet (by decide) _ _ _).1 ⟨_, by rfl⟩)
example (env : Env) : KindRefused be64 env (.record inner) [0xff, 1] .bufferExhaustion :=
  (C118_nested be64 env inner (by decide) _ _).2 ⟨"b", (C118_refused_iff be64 inner (by decide) _ _ _).1 ⟨_, by rfl⟩⟩
example (inp : List Byte) := C118_three_ways be64 packet (by decide) inp

end S2S.Props
