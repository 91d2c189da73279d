import Verif.Conformance.Base
/- /repo/test/schema/trivial_{read,write}_ct.cpp, constraint_{read,write}_ct.cpp -/
namespace S2S.Conformance.Trivial

def twoTrivials : List Field := [basic "a" u32 4, basic "b" u32 4]
def buffer : List Byte := [0xef, 0xbe, 0xad, 0xde, 0x0d, 0xd0, 0xfe, 0xca]
def populated : List Val := [.int 0xdeadbeef, .int 0xcafed00d]

-- "little endian trivials take their declared byte order"
example : Reads .little twoTrivials buffer [.int 0xdeadbeef, .int 0xcafed00d] := by rfl
-- "big endian trivials take their declared byte order"
example : Reads .big twoTrivials buffer [.int 0xefbeadde, .int 0x0dd0feca] := by rfl
-- "a truncated buffer fails on the field that ran out"
example : Refuses .little twoTrivials (buffer.take 7) .bufferExhaustion "b" := by rfl
-- "a violated constraint names the offending field"
example : Refuses .little [basic "a" u32 4 (.cmp .eq u32 0xdeadbeef), basic "b" u32 4 (.cmp .eq u32 0xcafed00d)]
    [0xef, 0xbe, 0xad, 0xde, 0xef, 0xbe, 0xad, 0xde] .validationFailure "b" := by rfl

-- "little endian trivials round trip", "big endian trivials round trip"
example : RoundTrips .little twoTrivials populated 8 populated := ⟨by rfl, by rfl⟩
example : RoundTrips .big twoTrivials populated 8 populated := ⟨by rfl, by rfl⟩
-- "the emitted bytes carry the declared byte order"
example : Writes .little twoTrivials populated buffer := ⟨by rfl, by rfl⟩
example : Writes .big twoTrivials populated [0xde, 0xad, 0xbe, 0xef, 0xca, 0xfe, 0xd0, 0x0d] :=
  ⟨by rfl, by rfl⟩
-- "an undersized buffer fails on the field that did not fit"
example : Rejects .little twoTrivials populated .bufferExhaustion "b" (buffer.take 7) :=
  ⟨by rfl, by rfl⟩

/-! constraints -/

def one (c : Constraint) : List Field := [basic "a" u32 4 c]
def le4 (x : Nat) : List Byte := [(x % 256).toUInt8, (x / 256 % 256).toUInt8, 0, 0]
abbrev accepts (c : Constraint) (x : Nat) : Prop := Reads .little (one c) (le4 x) [.int x]
abbrev rejects (c : Constraint) (x : Nat) : Prop := Refuses .little (one c) (le4 x) .validationFailure "a"

-- "eq accepts its value and rejects others" and its siblings: the functors themselves
example : [42, 84].map (fun x => Constraint.check (.cmp .eq int 42) (.int x)) = [.ok true, .ok false] := by rfl
example : [42, 84].map (fun x => Constraint.check (.cmp .ne int 42) (.int x)) = [.ok false, .ok true] := by rfl
example : [21, 84].map (fun x => Constraint.check (.cmp .lt int 42) (.int x)) = [.ok true, .ok false] := by rfl
example : [21, 84].map (fun x => Constraint.check (.cmp .gt int 42) (.int x)) = [.ok false, .ok true] := by rfl
example : [21, 42, 84].map (fun x => Constraint.check (.cmp .le int 42) (.int x)) =
    [.ok true, .ok true, .ok false] := by rfl
example : [21, 42, 84].map (fun x => Constraint.check (.cmp .ge int 42) (.int x)) =
    [.ok false, .ok true, .ok true] := by rfl
example : [21, 42, 84, 100].map (fun x => Constraint.check (.anyOf int [21, 42, 84]) (.int x)) =
    [.ok true, .ok true, .ok true, .ok false] := by rfl
-- "no_constraint accepts whatever is on the wire"
example : accepts .none 0 := by rfl
example : Reads .little (one .none) (buffer.take 4) [.int 0xdeadbeef] := by rfl
-- "a read consults eq", "... neq", "... lt", "... gt", "... lte", "... gte", "... any_of"
example : accepts (.cmp .eq u32 42) 42 ∧ rejects (.cmp .eq u32 42) 43 := ⟨by rfl, by rfl⟩
example : accepts (.cmp .ne u32 42) 43 ∧ rejects (.cmp .ne u32 42) 42 := ⟨by rfl, by rfl⟩
example : accepts (.cmp .lt u32 42) 41 ∧ rejects (.cmp .lt u32 42) 42 := ⟨by rfl, by rfl⟩
example : accepts (.cmp .gt u32 42) 43 ∧ rejects (.cmp .gt u32 42) 42 := ⟨by rfl, by rfl⟩
example : accepts (.cmp .le u32 42) 42 ∧ rejects (.cmp .le u32 42) 43 := ⟨by rfl, by rfl⟩
example : accepts (.cmp .ge u32 42) 42 ∧ rejects (.cmp .ge u32 42) 41 := ⟨by rfl, by rfl⟩
example : accepts (.anyOf u32 [21, 42, 84]) 21 ∧ accepts (.anyOf u32 [21, 42, 84]) 84 ∧
    rejects (.anyOf u32 [21, 42, 84]) 43 := ⟨by rfl, by rfl, by rfl⟩
-- "exhaustion outranks a constraint that would also have failed"
example : Refuses .little (one (.cmp .eq u32 42)) [0x2a, 0] .bufferExhaustion "a" := by rfl
-- "a violated constraint stops the read at that field"
example : Refuses .little [basic "a" u32 4 (.cmp .eq u32 42), basic "b" u32 4]
    [0xff, 0, 0, 0, 0x0d, 0xd0, 0xfe, 0xca] .validationFailure "a" := by rfl

abbrev writes (c : Constraint) (x : Nat) : Prop := Writes .little (one c) [.int x] (le4 x)
abbrev spurns (c : Constraint) (x : Nat) : Prop :=
  Rejects .little (one c) [.int x] .validationFailure "a" [0, 0, 0, 0]

-- "a field constrained to eq writes its value unassigned"
example : Writes .little (one (.cmp .eq u32 42)) [.int 0] [42, 0, 0, 0] := ⟨by rfl, by rfl⟩
-- "a write consults neq", "... the ordering forms at their boundaries", "... any_of"
example : writes (.cmp .ne u32 42) 43 ∧ spurns (.cmp .ne u32 42) 42 := ⟨⟨by rfl, by rfl⟩, by rfl, by rfl⟩
example : writes (.cmp .lt u32 42) 41 ∧ spurns (.cmp .lt u32 42) 42 := ⟨⟨by rfl, by rfl⟩, by rfl, by rfl⟩
example : writes (.cmp .gt u32 42) 43 ∧ spurns (.cmp .gt u32 42) 42 := ⟨⟨by rfl, by rfl⟩, by rfl, by rfl⟩
example : writes (.cmp .le u32 42) 42 ∧ spurns (.cmp .le u32 42) 43 := ⟨⟨by rfl, by rfl⟩, by rfl, by rfl⟩
example : writes (.cmp .ge u32 42) 42 ∧ spurns (.cmp .ge u32 42) 41 := ⟨⟨by rfl, by rfl⟩, by rfl, by rfl⟩
example : writes (.anyOf u32 [21, 42, 84]) 84 ∧ spurns (.anyOf u32 [21, 42, 84]) 43 :=
  ⟨⟨by rfl, by rfl⟩, by rfl, by rfl⟩
-- "no_constraint lets any value through"
example : writes .none 0 := ⟨by rfl, by rfl⟩
example : Writes .little (one .none) [.int 0xdeadbeef] (buffer.take 4) := ⟨by rfl, by rfl⟩
-- "a rejected value names its field"
example : spurns (.cmp .lt u32 100) 500 := ⟨by rfl, by rfl⟩
-- "the offending field contributes no bytes"
example : Rejects .little [basic "lead" u32 4, basic "bounded" u32 4 (.cmp .lt u32 100)]
    [.int 0x11223344, .int 500] .validationFailure "bounded" [0x44, 0x33, 0x22, 0x11, 0, 0, 0, 0] :=
  ⟨by rfl, by rfl⟩

end S2S.Conformance.Trivial
