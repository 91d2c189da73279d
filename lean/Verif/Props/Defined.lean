import Verif.Lemmas.ReadDefined
import Verif.Spec.Demo
/-
C27, C64: what no input can make the reader do.
-/
namespace S2S.Props
open Spec Demo

/-! ## C64 -/

/-- C64. Whatever the input and the stream, reading leaves defined behaviour in the ways
the schema is listed to have and in no other: `bool`s, widths above the size of their
type, ceilings above what can be allocated, constraints that compare a
`fixed_string`, and constraints that convert a floating-point number to an integer. -/
theorem C64_hazards (cfg : Cfg) (fs : List Field) (hwf : WellFormed fs)
    (hcall : Everywhere (fun gs => Resolves gs ∧ CallableAll gs) fs) (S : InStream) (s s' : S.State)
    (w : Stuck) (h : (structCast cfg fs).runOn S s = (.stuck w, s')) : w ∈ hazardsFields cfg fs := by
  have := Rd.runOn_all S (leaves_structCast (cfg := cfg) hwf hcall) s
  rw [h] at this
  exact this

/-- C64, a schema with nothing listed. -/
theorem C64_defined (cfg : Cfg) (fs : List Field) (hwf : WellFormed fs)
    (hcall : Everywhere (fun gs => Resolves gs ∧ CallableAll gs) fs)
    (hz : hazardsFields cfg fs = []) (S : InStream) (s : S.State) :
    ∃ r s', (structCast cfg fs).runOn S s = (.done r, s') := by
  cases h : (structCast cfg fs).runOn S s with
  | mk o s' =>
    cases o with
    | done r => exact ⟨r, s', rfl⟩
    | stuck w =>
      have := C64_hazards cfg fs hwf hcall S s s' w h
      rw [hz] at this
      cases this

/-- `bool` and a number. -/
def boolSchema : List Field := [.plain "n" (.num u16 2) .none, .plain "b" (.num .bool 1) .none]

example (bs rest : List Byte) (w : Stuck)
    (h : (structCast be64 boolSchema).runOn listIn bs = (.stuck w, rest)) : w = .invalidValue :=
  List.mem_singleton.1 (C64_hazards be64 boolSchema (by decide) (by decide +kernel) listIn bs rest w h)

example (bs : List Byte) : ∃ r s', (structCast be64 packet).runOn listIn bs = (.done r, s') :=
  C64_defined be64 packet (by decide) (by decide +kernel) (by decide +kernel) listIn bs

/-! ## C27 -/

/-- C27, in part. In full: no schema the library accepts and no input. What is missing is
the condition that no hazard is listed; `C27_fails_*` show that every listed one is real. -/
theorem C27_defined_partial (cfg : Cfg) (fs : List Field) (hwf : WellFormed fs)
    (hcall : Everywhere (fun gs => Resolves gs ∧ CallableAll gs) fs)
    (hz : hazardsFields cfg fs = []) (bs : List Byte) :
    ∃ r rest, (structCast cfg fs).run bs = (.done r, rest) :=
  C64_defined cfg fs hwf hcall hz listIn bs

example : ∃ r rest, (structCast be64 packet).run [0, 0, 0x12, 0x34, 0xff, 0xff, 9] = (.done r, rest) :=
  C27_defined_partial be64 packet (by decide) (by decide +kernel) (by decide +kernel) _

/-- C27 fails: a byte other than 0 and 1 is copied into a `bool`. -/
theorem C27_fails_bool :
    WellFormed boolSchema ∧ (structCast be64 boolSchema).run [0, 1, 2] = (.stuck .invalidValue, []) :=
  ⟨by decide, by rfl⟩

/-- `magic_number<"m", u16, byte_count{4}, 0>`: nothing compares the size with the type. -/
def overSchema : List Field := [.plain "m" (.num u16 4) (.cmp .eq i32 0)]

/-- C27 fails: a width above the size of the type writes over its end. -/
theorem C27_fails_width :
    WellFormed overSchema ∧ (structCast be64 overSchema).run [0, 0, 0, 0] = (.stuck .outOfBounds, [0, 0, 0, 0]) :=
  ⟨by decide, by rfl⟩

/-- `magic_string<"m", "a">`. -/
def magicSchema : List Field := [.plain "m" (.fstr 1) (.strCmp true [97, 0])]

/-- C27 fails: a `fixed_string` whose terminator was overwritten by the input is compared
past its end. -/
theorem C27_fails_string :
    WellFormed magicSchema ∧ (structCast be64 magicSchema).run [97, 98] = (.stuck .unterminated, []) :=
  ⟨by decide, by rfl⟩

/-- A vector whose length is read and whose ceiling is given as `SIZE_MAX`. -/
def hugeSchema : List Field :=
  [.plain "n" (.num (.int 8 false) 8) .none,
   .plain "v" (.vec (.scalar u8) (.fromField "n") (some (2 ^ 64 - 1))) .none]

/-- C27 fails: a ceiling above what can be allocated lets `resize` throw out of a function
that promises not to. -/
theorem C27_fails_ceiling :
    WellFormed hugeSchema ∧
    (structCast be64 hugeSchema).run [255, 255, 255, 255, 255, 255, 255, 255] = (.stuck .lengthError, []) :=
  ⟨by decide, by rfl⟩

end S2S.Props
