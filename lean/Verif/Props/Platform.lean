import Verif.Lemmas.Platform
import Verif.Props.Rewrite
import Verif.Props.Refused
import Verif.Props.Sent
/-
C123: the same bytes on two platforms.
-/
namespace S2S.Props
open Spec Demo

/-! ## C123 -/

/-- C123. Where lengths are at most as wide as `std::size_t`, a struct is valid on a platform
if and only if it is one of the schema, which no property of the platform enters, and its
containers are within the ceilings. -/
theorem C123_valid_iff (cfg : Cfg) (fs : List Field) (hwf : WellFormed fs)
    (hl : Everywhere (SmallLens cfg.szBytes) fs) (vs : List Val) :
    Valid cfg fs vs ↔ Means cfg.wire fs vs ∧ Stored cfg fs vs :=
  valid_iff_means cfg hwf hl vs

/-- C123. What a platform reads as a struct, another reads as the same struct, consuming the
same bytes, if and only if the containers are within the other's ceilings: its byte order,
its `std::size_t`, its stream, its default ceiling and the sizes of its records do not
matter otherwise. -/
theorem C123_reads (A B : Cfg) (hw : B.wire = A.wire) (fs : List Field) (hwf : WellFormed fs)
    (s : List Field → Nat) (hs : ∀ gs, 0 < s gs) (hl : Everywhere (SmallLens A.szBytes) fs)
    (inp rest : List Byte) (vs : List Val)
    (h : (structCast A fs).run inp = (.done (.ok vs), rest)) :
    (structCast B (measured s fs)).run inp = (.done (.ok vs), rest) ↔ Stored B (measured s fs) vs := by
  obtain ⟨hv, rfl⟩ := (read_iff A fs hwf inp rest vs).1 h
  have hm := ((valid_iff_means A hwf hl vs).1 hv).1
  rw [← hw, ← measured_means s] at hm
  have hwf' := measured_wf s hs hwf
  rw [read_iff B _ hwf']
  have hwire : wire A fs vs ++ rest = wire B (measured s fs) vs ++ rest := by
    unfold wire
    rw [hw, measured_wireFields]
  constructor
  · rintro ⟨⟨h1, -, -⟩, -⟩
    exact fits_stored B _ vs h1
  · intro hst
    exact ⟨mean_fields B _ _ vs hwf'.1 hm hst, hwire⟩

/-- C123. Otherwise it reports `excessive_length`, if lengths are at most as wide as its
`std::size_t` and no ceiling is above what it can allocate. -/
theorem C123_otherwise (A B : Cfg) (hw : B.wire = A.wire) (fs : List Field) (hwf : WellFormed fs)
    (s : List Field → Nat) (hs : ∀ gs, 0 < s gs) (hl : Everywhere (SmallLens A.szBytes) fs)
    (hl' : Everywhere (SmallLens B.szBytes) fs) (hc : ∀ c ∈ ceilingsFields B fs, c ≤ B.ptrdiffMax)
    (inp rest : List Byte) (vs : List Val)
    (h : (structCast A fs).run inp = (.done (.ok vs), rest))
    (hn : ¬ Stored B (measured s fs) vs) :
    ∃ id left, (structCast B (measured s fs)).run inp = (.done (.error ⟨.excessiveLength, id⟩), left) := by
  obtain ⟨hv, rfl⟩ := (read_iff A fs hwf inp rest vs).1 h
  have hm := ((valid_iff_means A hwf hl vs).1 hv).1
  rw [← hw, ← measured_means s] at hm
  obtain ⟨id, hr⟩ := means_excess B (measured_wf s hs hwf) (measured_everywhere s hl')
    (by rw [measured_ceilings]; exact hc) hm hn rest
  obtain ⟨left, hr⟩ := (C118_refused_iff B _ (measured_wf s hs hwf) _ _ _).2 hr
  refine ⟨id, left, ?_⟩
  rw [← hr]
  unfold wire
  rw [hw, measured_wireFields]

/-- C123. So two platforms never read different structs from the same bytes. -/
theorem C123_agree (A B : Cfg) (hw : B.wire = A.wire) (fs : List Field) (hwf : WellFormed fs)
    (s : List Field → Nat) (hs : ∀ gs, 0 < s gs) (hl : Everywhere (SmallLens A.szBytes) fs)
    (hl' : Everywhere (SmallLens B.szBytes) fs) (hc : ∀ c ∈ ceilingsFields B fs, c ≤ B.ptrdiffMax)
    (inp rest rest' : List Byte) (vs vs' : List Val)
    (h : (structCast A fs).run inp = (.done (.ok vs), rest))
    (h' : (structCast B (measured s fs)).run inp = (.done (.ok vs'), rest')) :
    vs' = vs ∧ rest' = rest := by
  by_cases hst : Stored B (measured s fs) vs
  · rw [(C123_reads A B hw fs hwf s hs hl inp rest vs h).2 hst] at h'
    cases h'
    exact ⟨rfl, rfl⟩
  · obtain ⟨id, left, he⟩ := C123_otherwise A B hw fs hwf s hs hl hl' hc inp rest vs h hst
    rw [he] at h'
    cases h'

/-- C123. From writer to reader: what is written on one platform and would be read back there
as the struct sent, is read on another as that struct if and only if it is within the
other's ceilings. -/
theorem C123_written (A B : Cfg) (hw : B.wire = A.wire) (fs : List Field) (hwf : WellFormed fs)
    (s : List Field → Nat) (hs : ∀ gs, 0 < s gs) (hl : Everywhere (SmallLens A.szBytes) fs)
    (hk : Everywhere (TypedConsts A) fs) (vs : List Val) (hv : Typed A fs vs) (p : List Byte)
    (h : (streamCast A fs vs).run = (.done (.ok ()), p)) :
    ∃ us, Sent A fs vs us ∧ ((structCast A fs).run p = (.done (.ok us), []) →
      ∀ rest, (structCast B (measured s fs)).run (p ++ rest) = (.done (.ok us), rest) ↔
        Stored B (measured s fs) us) := by
  obtain ⟨us, hsent, rfl, hr⟩ := C116_round_trip_iff A fs hwf hk vs hv p h
  refine ⟨us, hsent, fun hback rest => ?_⟩
  have hval := (hr []).1 (by rw [List.append_nil]; exact hback)
  exact C123_reads A B hw fs hwf s hs hl _ rest us ((hr rest).2 hval)

/-- C123. And passed on: where both platforms can write what they read, both write the struct
as the bytes it was read from. -/
theorem C123_passed_on (A B : Cfg) (hw : B.wire = A.wire) (fs : List Field) (s : List Field → Nat)
    (hs : ∀ gs, 0 < s gs) (hA : Rewritable A fs) (hB : Rewritable B (measured s fs))
    (hl : Everywhere (SmallLens A.szBytes) fs) (inp rest : List Byte) (vs : List Val)
    (h : (structCast A fs).run inp = (.done (.ok vs), rest)) (hst : Stored B (measured s fs) vs) :
    ∃ p, inp = p ++ rest ∧ (streamCast A fs vs).run = (.done (.ok ()), p) ∧
      (streamCast B (measured s fs) vs).run = (.done (.ok ()), p) := by
  obtain ⟨p, rfl, h1⟩ := C49_rewrite A fs hA inp rest vs h
  obtain ⟨q, h2, h3⟩ := C49_rewrite B _ hB _ rest vs ((C123_reads A B hw fs hA.1 s hs hl _ rest vs h).2 hst)
  cases List.append_cancel_right h2
  exact ⟨p, rfl, h1, h3⟩

/-! ### Where it fails, and examples -/

/-- A 32-bit platform: the host is big endian, the default ceiling is 64 bytes. -/
abbrev big32 : Cfg := { le64 with szBytes := 4, host := .big, defaultMax := 64 }

/-- A length of eight bytes. -/
def wideLen : List Field :=
  [.plain "len" (.num u64 8) .none, .plain "data" (.vec (.scalar u8) (.fromField "len") none) .none]

/-- C123 fails for lengths wider than `std::size_t`: a length of 2^32 + 5 is refused where
`std::size_t` has eight bytes; where it has four it is read as 5, without an error, and
written again as 5. -/
theorem C123_fails_wide : WellFormed wideLen ∧ Everywhere (SmallLens le64.szBytes) wideLen ∧
    (structCast le64 wideLen).run [5, 0, 0, 0, 1, 0, 0, 0, 1, 2, 3, 4, 5] =
      (.done (.error ⟨.excessiveLength, "data"⟩), [1, 2, 3, 4, 5]) ∧
    (structCast le32 wideLen).run [5, 0, 0, 0, 1, 0, 0, 0, 1, 2, 3, 4, 5] =
      (.done (.ok [.int 4294967301, .seq [.int 1, .int 2, .int 3, .int 4, .int 5]]), []) ∧
    (streamCast le32 wideLen [.int 4294967301, .seq [.int 1, .int 2, .int 3, .int 4, .int 5]]).run =
      (.done (.ok ()), [5, 0, 0, 0, 0, 0, 0, 0, 1, 2, 3, 4, 5]) := by
  refine ⟨by decide, ?_, by decide +kernel, by decide +kernel, by decide +kernel⟩
  refine ⟨?_, trivial, trivial, trivial⟩
  intro f hf len hlen
  simp only [wideLen, List.mem_cons, List.not_mem_nil, or_false] at hf
  rcases hf with rfl | rfl
  · simp [fieldLens, Kind.lenSpec?] at hlen
  · simp only [fieldLens, Kind.lenSpec?, Option.toList, List.mem_singleton] at hlen
    subst hlen
    intro g hg hid
    simp only [wideLen, List.mem_cons, List.not_mem_nil, or_false] at hg
    rcases hg with rfl | rfl
    · decide
    · revert hid; decide

/-- Records with a string inside; `sizeof` is 28 on a 32-bit platform, say, and 40 on a
64-bit one. -/
def namesSchema : List Field :=
  [.plain "n" (.num u8 1) .none,
   .plain "names" (.vecRec [.plain "l" (.num u8 1) .none,
      .plain "s" (.vec (.scalar u8) (.fromField "l") none) .none] (.fromField "n") (some 100) 28) .none]

def namesBytes : List Byte := [3, 1, 65, 1, 66, 1, 67]
def namesParsed : List Val :=
  [.int 3, .seq [.seq [.int 1, .seq [.int 65]], .seq [.int 1, .seq [.int 66]], .seq [.int 1, .seq [.int 67]]]]

theorem namesSmall : Everywhere (SmallLens 4) namesSchema ∧ Everywhere (SmallLens 8) namesSchema := by
  constructor
  all_goals
    refine ⟨?_, trivial, ⟨?_, trivial, trivial, trivial⟩, trivial⟩
    all_goals
      intro f hf len hlen
      simp only [namesSchema, List.mem_cons, List.not_mem_nil, or_false] at hf
      rcases hf with rfl | rfl
      · simp [fieldLens, Kind.lenSpec?] at hlen
      · simp only [fieldLens, Kind.lenSpec?, Option.toList, List.mem_singleton] at hlen
        subst hlen
        intro g hg hid
        simp only [namesSchema, List.mem_cons, List.not_mem_nil, or_false] at hg
        rcases hg with rfl | rfl
        · decide
        · revert hid; decide

/-- C123, the ceilings: a vector of records is measured in `sizeof` of the record, so one and
the same schema accepts the bytes on one platform and refuses them on another. -/
theorem C123_fails_sizeof : WellFormed namesSchema ∧
    (structCast le32 namesSchema).run namesBytes = (.done (.ok namesParsed), []) ∧
    ∃ left, (structCast le64 (measured (fun _ => 40) namesSchema)).run namesBytes =
      (.done (.error ⟨.excessiveLength, "names"⟩), left) :=
  ⟨by decide, by decide +kernel, [1, 65, 1, 66, 1, 67], by decide +kernel⟩

theorem namesStored (cfg : Cfg) (h : 1 ≤ cfg.defaultMax) (hp : 100 ≤ cfg.ptrdiffMax) (n : Nat) (hn : n ≤ 33) :
    Stored cfg (measured (fun _ => n) namesSchema) namesParsed := by
  simp only [namesSchema, namesParsed, measured, measuredField, measuredKind, Stored, StoredField, StoredKind,
    StorageFits]
  refine ⟨trivial, ⟨⟨by simp; omega, by simp; omega⟩, fun ws hw => ?_⟩, trivial⟩
  simp only [List.mem_cons, Val.seq.injEq, List.not_mem_nil, or_false] at hw
  rcases hw with rfl | rfl | rfl <;>
    (simp only [Stored, StoredField, StoredKind, StorageFits]
     simp [ElemTy.size, ScalarTy.size]
     omega)

theorem namesUnstored (cfg : Cfg) : ¬ Stored cfg (measured (fun _ => 40) namesSchema) namesParsed := by
  simp only [namesSchema, namesParsed, measured, measuredField, measuredKind, Stored, StoredField, StoredKind,
    StorageFits]
  rintro ⟨-, ⟨⟨h, -⟩, -⟩, -⟩
  simp at h

theorem namesRead : (structCast le32 namesSchema).run namesBytes = (.done (.ok namesParsed), []) := by
  decide +kernel

example : Means .little namesSchema namesParsed ∧ Stored le32 namesSchema namesParsed :=
  (C123_valid_iff le32 namesSchema (by decide) namesSmall.1 namesParsed).1
    ((read_iff le32 namesSchema (by decide) _ _ _).1 namesRead).1

example : (structCast le64 (measured (fun _ => 33) namesSchema)).run namesBytes =
    (.done (.ok namesParsed), []) :=
  (C123_reads le32 le64 rfl namesSchema (by decide) (fun _ => 33) (fun _ => by decide) namesSmall.1 namesBytes []
    namesParsed namesRead).2 (namesStored le64 (by decide) (by decide) 33 (by decide))

example : (structCast big32 (measured (fun _ => 28) namesSchema)).run namesBytes =
    (.done (.ok namesParsed), []) :=
  (C123_reads le32 big32 rfl namesSchema (by decide) (fun _ => 28) (fun _ => by decide) namesSmall.1 namesBytes []
    namesParsed namesRead).2 (namesStored big32 (by decide) (by decide) 28 (by decide))

example : ∃ id left, (structCast le64 (measured (fun _ => 40) namesSchema)).run namesBytes =
    (.done (.error ⟨.excessiveLength, id⟩), left) :=
  C123_otherwise le32 le64 rfl namesSchema (by decide) (fun _ => 40) (fun _ => by decide) namesSmall.1
    namesSmall.2 (by decide +kernel) namesBytes [] namesParsed namesRead (namesUnstored _)

example (vs : List Val) (rest : List Byte)
    (h : (structCast le64 (measured (fun _ => 33) namesSchema)).run namesBytes = (.done (.ok vs), rest)) :
    vs = namesParsed ∧ rest = [] :=
  C123_agree le32 le64 rfl namesSchema (by decide) (fun _ => 33) (fun _ => by decide) namesSmall.1
    namesSmall.2 (by decide +kernel) namesBytes [] rest namesParsed vs namesRead h

example : ∃ us, Sent le32 namesSchema namesParsed us ∧
    ((structCast le32 namesSchema).run namesBytes = (.done (.ok us), []) →
      ∀ rest, (structCast big32 (measured (fun _ => 30) namesSchema)).run (namesBytes ++ rest) = (.done (.ok us), rest) ↔
        Stored big32 (measured (fun _ => 30) namesSchema) us) :=
  C123_written le32 big32 rfl namesSchema (by decide) (fun _ => 30) (fun _ => by decide) namesSmall.1
    (by decide +kernel) namesParsed (by decide +kernel) namesBytes (by decide +kernel)

example : ∃ p, namesBytes = p ++ [] ∧ (streamCast le32 namesSchema namesParsed).run = (.done (.ok ()), p) ∧
    (streamCast le64 (measured (fun _ => 33) namesSchema) namesParsed).run = (.done (.ok ()), p) :=
  C123_passed_on le32 le64 rfl namesSchema (fun _ => 33) (fun _ => by decide)
    (rewritable_of_checked (by decide +kernel)) (rewritable_of_checked (by decide +kernel)) namesSmall.1
    namesBytes [] namesParsed namesRead (namesStored le64 (by decide) (by decide) 33 (by decide))

end S2S.Props
