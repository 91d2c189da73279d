import Verif.Lemmas.WriteComplete
import Verif.Props.RoundTrip
/-
C02, C49: what was read can be written again.
-/
namespace S2S.Props
open Spec Demo

/-! ## C49 -/

/-- C49. For a rewritable schema: if a read succeeds, writing the result unmodified
succeeds and emits exactly the bytes that were consumed. -/
theorem C49_rewrite (cfg : Cfg) (fs : List Field) (hrw : Rewritable cfg fs) (inp rest : List Byte)
    (vs : List Val) (h : (structCast cfg fs).run inp = (.done (.ok vs), rest)) :
    ∃ p, inp = p ++ rest ∧ (streamCast cfg fs vs).run = (.done (.ok ()), p) := by
  obtain ⟨h1, rfl⟩ := (read_iff cfg fs hrw.1 inp rest vs).1 h
  exact ⟨_, rfl, by rw [Wr.run_eq]; exact streamCast_complete hrw h1⟩

example : ∃ p, packetBytes ++ [1, 2] = p ++ [1, 2] ∧
    (streamCast be64 packet packetParsed).run = (.done (.ok ()), p) :=
  C49_rewrite be64 packet (rewritable_of_checked (by decide +kernel)) _ _ _
    ((read_iff be64 packet (by decide) _ [1, 2] packetParsed).2 (by decide +kernel))

/-! ## C02 -/

/-- C02, under the conditions of C49. Missing: schemas the library accepts that are
not rewritable: constants that compare equal to other values, labels the writer
cannot put on the wire, slots wider than `std::size_t`, slots narrower than their
type in big endian. For those the statement is false, see the witnesses below. -/
theorem C02_rewrite_partial (cfg : Cfg) (fs : List Field) (hrw : Rewritable cfg fs)
    (inp rest : List Byte) (vs : List Val)
    (h : (structCast cfg fs).run inp = (.done (.ok vs), rest)) :
    ∃ p, inp = p ++ rest ∧ (streamCast cfg fs vs).run = (.done (.ok ()), p) :=
  C49_rewrite cfg fs hrw inp rest vs h

example : ∃ p, packetBytes = p ++ [] ∧
    (streamCast be64 packet packetParsed).run = (.done (.ok ()), p) :=
  C02_rewrite_partial be64 packet (rewritable_of_checked (by decide +kernel)) _ _ _ (by rfl)

/-- `magic_string<"m", "A\\0B">`. -/
def nulSchema : List Field := [.plain "m" (.fstr 3) (.strCmp true [65, 0, 66, 0])]

/-- C02 fails for a magic string with an embedded NUL: comparison stops there, so
other bytes are accepted, and the constant is written. -/
theorem C02_fails_embedded_nul :
    WellFormed nulSchema ∧
    (structCast le64 nulSchema).run [65, 0, 67, 0] =
      (.done (.ok [.seq [.int 65, .int 0, .int 67, .int 0]]), []) ∧
    (streamCast le64 nulSchema [.seq [.int 65, .int 0, .int 67, .int 0]]).run =
      (.done (.ok ()), [65, 0, 66, 0]) :=
  ⟨by decide, by rfl, by rfl⟩

/-- `basic_field<"m", u16, 2_B, eq{u8{5}}>`. -/
def lossyEqSchema : List Field := [.plain "m" (.num u16 2) (.cmp .eq u8 5)]

/-- C02 fails for an `eq` operand of a smaller type: the field is truncated before
it is compared, and the constant is written. -/
theorem C02_fails_lossy_operand :
    WellFormed lossyEqSchema ∧
    (structCast le64 lossyEqSchema).run [5, 1] = (.done (.ok [.int 0x0105]), []) ∧
    (streamCast le64 lossyEqSchema [.int 0x0105]).run = (.done (.ok ()), [5, 0]) :=
  ⟨by decide, by rfl, by rfl⟩

/-- `match_case<-1, u8>` on an `i8`. -/
def negLabelSchema : List Field :=
  [.plain "t" (.num i8 1) .none,
   .union "u" (.matchField "t" i8 [(i32, -1), (i32, 1)])
     [.mk (.num u8 1) .none, .mk (.num u16 2) .none] .none]

/-- C02 fails for a negative label on a discriminant narrower than `std::size_t`: it
can be read and not written. -/
theorem C02_fails_negative_label :
    WellFormed negLabelSchema ∧
    (structCast le64 negLabelSchema).run [0xff, 9] =
      (.done (.ok [.int (-1), .var 0 (.int 9)]), []) ∧
    (streamCast le64 negLabelSchema [.int (-1), .var 0 (.int 9)]).run =
      (.done (.error ⟨.validationFailure, "t"⟩), []) :=
  ⟨by decide, by rfl, by rfl⟩

/-- `match_case<256, u8>` on one byte of a `u16`. -/
def narrowTagSchema : List Field :=
  [.plain "t" (.num u16 1) .none,
   .union "u" (.matchField "t" u16 [(i32, 256), (i32, 1)])
     [.mk (.num u8 1) .none, .mk (.num u16 2) .none] .none]

/-- C02 fails for a slot narrower than its type in big endian: its one byte is the
high one, and the writer expects it to be the low one. -/
theorem C02_fails_narrow_big_endian_slot :
    WellFormed narrowTagSchema ∧
    (structCast be64 narrowTagSchema).run [1, 9] =
      (.done (.ok [.int 256, .var 0 (.int 9)]), []) ∧
    (streamCast be64 narrowTagSchema [.int 256, .var 0 (.int 9)]).run =
      (.done (.error ⟨.validationFailure, "t"⟩), []) :=
  ⟨by decide, by rfl, by rfl⟩

/-- A 64-bit length. -/
def wideLenSchema : List Field :=
  [.plain "len" (.num u64 8) .none,
   .plain "data" (.vec (.scalar u8) (.fromField "len") none) .none]

/-- A 32-bit host, little endian. -/
def le32 : Cfg := ⟨.little, .little, false, 4, 16 * 1024 * 1024⟩

/-- C02 fails for a length wider than `std::size_t`: it is truncated when read, and
the truncated length is written. -/
theorem C02_fails_wide_length :
    WellFormed wideLenSchema ∧
    (structCast le32 wideLenSchema).run [1, 0, 0, 0, 1, 0, 0, 0, 9] =
      (.done (.ok [.int 0x100000001, .seq [.int 9]]), []) ∧
    (streamCast le32 wideLenSchema [.int 0x100000001, .seq [.int 9]]).run =
      (.done (.ok ()), [1, 0, 0, 0, 0, 0, 0, 0, 9]) :=
  ⟨by decide, by rfl, by rfl⟩

end S2S.Props
