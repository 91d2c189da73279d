import Verif.Props.Decl
/- /repo/test/must_not_compile/option_pack_misuse.cpp and derived_field_assignment.cpp, case 4, with
the descriptors and tags as they are spelled there. Beside each the control: the same without the
offending entry. -/
namespace S2S.Conformance.Misuse
open Decl Props Demo Spec

/-- `match_field<"tag">` with one case. -/
def body (c : Option Tag) (opts : List Opt) : Option Decl :=
  c.bind fun g => variance impl64 be64 tyId (.other 0) "body" (.matchField "tag")
    [g.case (.label i32 1)] opts

def size (w : Nat) : Opt := .size (.bytes w)
def maxBytes (n : Nat) : Opt := .bound (some n)
def lenFrom (id : String) : Opt := .size (.var (.fromField id))

-- CASE 1: `42`
example : (scalarTag impl64 (.int u16) [.other 42]).isNone := by rfl
example : (scalarTag impl64 (.int u16) []).isSome := by rfl
-- CASE 2: two sizes
example : (scalarTag impl64 (.int u16) [size 2, size 2]).isNone := by rfl
example : (scalarTag impl64 (.int u16) [size 2]).isSome := by rfl
-- CASE 3: a bound on a number
example : (scalarTag impl64 (.int u16) [size 2, maxBytes 4096]).isNone := by rfl
-- CASE 4: two bounds
example : (containerTag impl64 (.vector (.int u8)) [lenFrom "n", maxBytes 4096, maxBytes 8192]).isNone := by rfl
example : (containerTag impl64 (.vector (.int u8)) [lenFrom "n", maxBytes 4096]).isSome := by rfl
-- CASE 5: two sizes on a tag
example : (body (scalarTag impl64 (.int u32) [size 4, size 2]) []).isNone := by rfl
example : (body (scalarTag impl64 (.int u32) [size 2]) []).isSome := by rfl
-- CASE 6: `as_string<>`
example : (body (containerTag impl64 .string []) []).isNone := by rfl
example : (body (containerTag impl64 .string [lenFrom "n"]) []).isSome := by rfl
-- CASE 7: a size larger than the type
example : (body (scalarTag impl64 (.int u16) [size 4]) []).isNone := by rfl
example : (body (scalarTag impl64 (.int u16) [size 1]) []).isSome := by rfl
-- CASE 8: two constraints on a tag
example : (body (scalarTag impl64 (.int u32) [size 4, .constraint (.cmp .gt u32 1), .constraint (.cmp .lt u32 99)])
    []).isNone := by rfl
example : (body (scalarTag impl64 (.int u32) [size 4, .constraint (.cmp .gt u32 1)]) []).isSome := by rfl
-- CASE 9: a bound on `as_struct`
example : (body (structTag impl64 [.field "x" (.int u32) (.bytes 4) .none none] [maxBytes 4096]) []).isNone := by rfl
example : (body (structTag impl64 [.field "x" (.int u32) (.bytes 4) .none none] []) []).isSome := by rfl
-- CASE 10: a size on `variance`
example : (body (scalarTag impl64 (.int u32) [size 4]) [size 4]).isNone := by rfl
example : (body (scalarTag impl64 (.int u32) [size 4]) []).isSome := by rfl
-- CASE 11: a bound on `as_trivial`
example : (body (scalarTag impl64 (.int u32) [size 4, maxBytes 4096]) []).isNone := by rfl
-- CASE 12: a bound on `as_fixed_arr`
example : (body (fixedArrayTag impl64 (.int u8) 4 [maxBytes 4096]) []).isNone := by rfl
example : (body (fixedArrayTag impl64 (.int u8) 4 []) []).isSome := by rfl
-- CASE 13: two bounds on a tag
example : (body (containerTag impl64 (.vector (.int u8)) [lenFrom "n", maxBytes 4096, maxBytes 8192]) []).isNone := by
  rfl
example : (body (containerTag impl64 (.vector (.int u8)) [lenFrom "n", maxBytes 4096]) []).isSome := by rfl
-- CASE 14: a bound on `variance`
example : (body (scalarTag impl64 (.int u32) [size 4]) [maxBytes 4096]).isNone := by rfl
-- CASE 15: two constraints on `variance`
example : (body (scalarTag impl64 (.int u32) [size 4])
    [.constraint (.user fun _ => true), .constraint (.user fun _ => true)]).isNone := by rfl
example : (body (scalarTag impl64 (.int u32) [size 4]) [.constraint (.user fun _ => true)]).isSome := by rfl

/-! derived_field_assignment.cpp -/

def twoCases (a b : Int) : Option Decl :=
  variance impl64 be64 tyId (.other 0) "body" (.matchField "tag")
    [.mk (.label u32 a) (.int u32) (.bytes 4) .none none, .mk (.label u32 b) (.int u16) (.bytes 2) .none none] []

-- CASE 4: two cases with the same value
example : (twoCases 0xcafed00d 0xcafed00d).isNone := by rfl
example : (twoCases 0xcafed00d 0xdeadbeef).isSome := by rfl

end S2S.Conformance.Misuse
