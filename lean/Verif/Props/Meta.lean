import Verif.Lemmas.Wellformed
import Verif.Lemmas.Subscript
import Verif.Lemmas.TypeIds
import Verif.Lemmas.Options
import Verif.Lemmas.Slots
import Verif.Props.Prefix
/-
C28 to C32, C42, C43, C65 to C67: what is computed about a schema while it is compiled.
-/
namespace S2S.Props
open Spec Demo Meta

/-! ## C30 -/

/-- C30. The uniqueness check runs to its end on every list of ids and accepts it exactly
when the ids are pairwise distinct. -/
theorem C30_unique (ids : List String) :
    (fieldIdsUnique ids = some true ↔ ids.Pairwise (· ≠ ·)) ∧
    (fieldIdsUnique ids = some false ↔ ¬ ids.Pairwise (· ≠ ·)) := by
  have h : ids.Nodup ↔ ids.Pairwise (· ≠ ·) := Iff.rfl
  rw [fieldIdsUnique_eq, ← h]
  simp

example : fieldIdsUnique ["a", "b", "c"] = some true := (C30_unique _).1.2 (by decide)
example : fieldIdsUnique ["a", "b", "a"] = some false := (C30_unique _).2.2 (by decide)

/-! ## C43 -/

/-- C43. The sort ends, gives a permutation of its input, and no element of the result is
less than one before it. -/
theorem C43_sorts {α : Type} (lt : α → α → Bool) (hw : StrictWeak lt) (l : List α) :
    ∃ l', sortRanges lt l = some l' ∧ l'.Perm l ∧ l'.Pairwise fun a b => lt b a = false :=
  sortRanges_sorted ⟨hw.asymm, hw.trans⟩ l

/-- C43, for any predicate at all: the result is a permutation. -/
theorem C43_permutes {α : Type} (lt : α → α → Bool) (l : List α) :
    ∃ l', sortRanges lt l = some l' ∧ l'.Perm l := sortRanges_perm lt l

theorem natStrict : StrictWeak fun a b : Nat => decide (a < b) where
  asymm a b h := by simp at h ⊢; omega
  trans a b c h h' := by simp at h h' ⊢; omega

example : ∃ l', sortRanges (fun a b : Nat => decide (a < b)) [3, 1, 2, 3, 0] = some l' ∧
    l'.Perm [3, 1, 2, 3, 0] ∧ l'.Pairwise fun a b => decide (b < a) = false := C43_sorts _ natStrict _
example : sortRanges (fun a b : Nat => decide (a < b)) [3, 1, 2, 3, 0] = some [0, 1, 2, 3, 3] := by decide
example := C43_permutes (fun _ _ : Nat => true) [3, 1, 2]

/-! ## C31, C65 -/

/-- C65. The table of at most 256 distinct names: a name that is not empty is found exactly
if it is declared, with the type and position of the field that declares it. The empty
name is found in every table of fewer than 256, always with type 0 and position 0. -/
theorem C65_lookup (lt : String → String → Bool) (ids : List (String × Nat)) (hn : ids.length ≤ 256)
    (hd : (ids.map Prod.fst).Nodup) :
    ∃ t, fieldTable lt ids = some t ∧
      (∀ name, name ≠ "" ∨ ids.length = 256 → ∀ ty i,
        mapGet t name = some ⟨ty, i⟩ ↔ ids[i]? = some (name, ty)) ∧
      (ids.length < 256 → mapGet t "" = some ⟨0, 0⟩) := by
  obtain ⟨m, h1, -, h3⟩ := mapOf_get lt maxFields (⟨0, 0⟩ : FieldInfo)
    (ids.zipIdx.map fun e => ((e.1.1, ⟨e.1.2, e.2⟩) : String × FieldInfo))
    (by rw [List.length_map, List.length_zipIdx]; exact hn)
    (by
      have : keys (ids.zipIdx.map fun e => ((e.1.1, ⟨e.1.2, e.2⟩) : String × FieldInfo)) = ids.map Prod.fst := by
        rw [keys, List.map_map]
        apply List.ext_getElem?
        intro i
        simp only [List.getElem?_map, List.getElem?_zipIdx, Option.map_map]
        cases ids[i]? <;> rfl
      rw [this]; exact hd)
  refine ⟨m, h1, fun name hname ty i => ?_, fun hlt => ?_⟩
  · rw [h3, if_neg (by
      rw [List.length_map, List.length_zipIdx]
      rintro ⟨rfl, hl⟩
      rcases hname with h | h
      · exact h rfl
      · rw [h] at hl; exact absurd hl (by decide))]
    simp only [List.mem_map, Prod.mk.injEq, FieldInfo.mk.injEq]
    constructor
    · rintro ⟨⟨⟨n, t⟩, j⟩, hm, rfl, rfl, rfl⟩
      exact List.mem_zipIdx_iff_getElem?.1 hm
    · intro h
      exact ⟨((name, ty), i), List.mem_zipIdx_iff_getElem?.2 h, rfl, rfl, rfl⟩
  · rw [h3, if_pos ⟨rfl, by rw [List.length_map, List.length_zipIdx]; exact hlt⟩]

/-- C31, for names other than the empty one (and the empty one in a table that is full).
Missing: the empty name in smaller tables, for which the statement is false. -/
theorem C31_lookup_partial (lt : String → String → Bool) (ids : List (String × Nat))
    (hn : ids.length ≤ 256) (hd : (ids.map Prod.fst).Nodup) :
    ∃ t, fieldTable lt ids = some t ∧ ∀ name, name ≠ "" ∨ ids.length = 256 →
      (∀ i ty, ids[i]? = some (name, ty) → mapGet t name = some ⟨ty, i⟩) ∧
      (name ∉ ids.map Prod.fst → mapGet t name = none) := by
  obtain ⟨t, h1, h2, -⟩ := C65_lookup lt ids hn hd
  refine ⟨t, h1, fun name hname => ⟨fun i ty h => (h2 name hname ty i).2 h, fun hnot => ?_⟩⟩
  cases hg : mapGet t name with
  | none => rfl
  | some info =>
    have := (h2 name hname info.typeId info.occursAt).1 hg
    exact absurd (List.mem_map_of_mem (f := Prod.fst) (List.mem_iff_getElem?.2 ⟨_, this⟩)) hnot

/-- The order of names. -/
def nameLt (a b : String) : Bool := decide (a < b)

example := C31_lookup_partial nameLt [("len", 4), ("data", 9)] (by decide) (by decide)
example : ∃ t, fieldTable nameLt [("len", 4), ("data", 9)] = some t ∧ mapGet t "data" = some ⟨9, 1⟩ ∧
    mapGet t "crc" = none := by
  obtain ⟨t, h1, h2⟩ := C31_lookup_partial nameLt [("len", 4), ("data", 9)] (by decide) (by decide)
  exact ⟨t, h1, (h2 "data" (by decide)).1 1 9 rfl, (h2 "crc" (by decide)).2 (by decide)⟩
example := C65_lookup nameLt [("len", 4), ("data", 9)] (by decide) (by decide)

/-- C31 fails for the empty name: it is found although it is not declared; and if it is
declared, with the wrong position. -/
theorem C31_fails_empty_name :
    (∃ t, fieldTable nameLt [("len", 4), ("data", 9)] = some t ∧ mapGet t "" = some ⟨0, 0⟩) ∧
    ∃ t, fieldTable nameLt [("len", 4), ("", 9)] = some t ∧ mapGet t "" = some ⟨0, 0⟩ := by
  obtain ⟨t, h1, -, h3⟩ := C65_lookup nameLt [("len", 4), ("data", 9)] (by decide) (by decide)
  obtain ⟨t', h1', -, h3'⟩ := C65_lookup nameLt [("len", 4), ("", 9)] (by decide) (by decide)
  exact ⟨⟨t, h1, h3 (by decide)⟩, t', h1', h3' (by decide)⟩

/-! ## C29, C66, C102 -/

/-- C102. Of a list whose fields have names that are not empty, `struct_field_list` accepts
exactly those with at least one field, distinct names, at most 256 fields, dependencies
within the limits of the tables, each of them on a field up to the one that has it, itself
included, or on the empty name. -/
theorem C102_accepts (lt : String → String → Bool) (tid : Field → Nat) (fs : List Field)
    (hne : ∀ f ∈ fs, f.id ≠ "") :
    accepts lt tid fs = true ↔
      fs ≠ [] ∧ Distinct fs ∧ fs.length ≤ 256 ∧ (∀ f ∈ fs, WithinLimits f) ∧
      ∀ i f, At fs i f → ∀ d ∈ fieldDeps f, d = "" ∧ fs.length < 256 ∨ DeclaredUpTo fs i d :=
  accepts_iff lt tid hne

/-- C66, for lists that are not empty. -/
theorem C66_accepts_partial (lt : String → String → Bool) (tid : Field → Nat) (fs : List Field)
    (hnn : fs ≠ []) (hne : ∀ f ∈ fs, f.id ≠ "") :
    accepts lt tid fs = true ↔
      Distinct fs ∧ fs.length ≤ 256 ∧ (∀ f ∈ fs, WithinLimits f) ∧
      ∀ i f, At fs i f → ∀ d ∈ fieldDeps f, d = "" ∧ fs.length < 256 ∨ DeclaredUpTo fs i d := by
  rw [C102_accepts lt tid fs hne]
  exact and_iff_right hnn

/-- C66 fails for the empty list: `struct_field_list<>` has distinct names and no
dependencies, is well formed, and is refused. -/
theorem C66_fails_empty (lt : String → String → Bool) (tid : Field → Nat) :
    accepts lt tid [] = false ∧ WellFormed [] ∧ fieldIdsUnique [] = some true :=
  ⟨rfl, by decide, rfl⟩

theorem accepts_backward {lt : String → String → Bool} {tid : Field → Nat} {fs : List Field}
    (hn : NamesOk fs) :
    accepts lt tid fs = true ↔
      fs ≠ [] ∧ Distinct fs ∧ Backward fs ∧ fs.length ≤ 256 ∧ ∀ f ∈ fs, WithinLimits f := by
  rw [accepts_iff lt tid fun f hf => (hn f hf).1]
  refine and_congr_right fun _ => ?_
  constructor
  · rintro ⟨h1, h2, h3, h4⟩
    refine ⟨h1, fun i f hf d hd => ?_, h2, h3⟩
    rcases h4 i f hf d hd with ⟨rfl, -⟩ | ⟨j, g, hj, hg, rfl⟩
    · exact absurd hd (hn f (mem_of_at hf)).2.1
    · refine ⟨j, g, ?_, hg, rfl⟩
      rcases Nat.lt_or_eq_of_le hj with h | rfl
      · exact h
      · have hg' : fs[j]? = some g := hg
        have hf' : fs[j]? = some f := hf
        rw [hf'] at hg'
        obtain rfl := Option.some.inj hg'
        exact absurd hd (hn f (mem_of_at hf)).2.2
  · rintro ⟨h1, h2, h3, h4⟩
    refine ⟨h1, h3, h4, fun i f hf d hd => .inr ?_⟩
    obtain ⟨j, g, hj, hg, rfl⟩ := h2 i f hf d hd
    exact ⟨j, g, by omega, hg, rfl⟩

/-- C102. The schemas the other properties speak of are those the library accepts: if no
name is empty and no field names itself, then `struct_field_list` accepts every list of a
schema exactly if the schema is well formed, stays within the limits of the tables, and
none of its lists is empty. -/
theorem C102_wellFormed (lt : String → String → Bool) (tid : Field → Nat) (fs : List Field)
    (hs : saneFields fs = true) (hn : Everywhere NamesOk fs) :
    Everywhere (fun fs => accepts lt tid fs = true) fs ↔
      WellFormed fs ∧ Everywhere (fun fs => fs.length ≤ 256 ∧ ∀ f ∈ fs, WithinLimits f) fs ∧
      Everywhere (fun fs => fs ≠ []) fs := by
  rw [wellFormed_iff]
  constructor
  · intro h
    have h' := (Everywhere.and.2 ⟨hn, h⟩).mono (Q := fun fs => (Distinct fs ∧ Backward fs) ∧
      (fs.length ≤ 256 ∧ ∀ f ∈ fs, WithinLimits f) ∧ fs ≠ []) fun fs h => by
        have := (accepts_backward h.1).1 h.2
        exact ⟨⟨this.2.1, this.2.2.1⟩, this.2.2.2, this.1⟩
    rw [Everywhere.and, Everywhere.and, Everywhere.and] at h'
    exact ⟨⟨hs, h'.1⟩, h'.2⟩
  · rintro ⟨⟨-, h1, h2⟩, h3, h4⟩
    have h' := Everywhere.and.2 ⟨hn, Everywhere.and.2 ⟨Everywhere.and.2 ⟨h1, h2⟩, Everywhere.and.2 ⟨h3, h4⟩⟩⟩
    exact h'.mono fun fs h => (accepts_backward h.1).2 ⟨h.2.2.2, h.2.1.1, h.2.1.2, h.2.2.1⟩

/-- C66, for schemas none of whose lists is empty. -/
theorem C66_wellFormed_partial (lt : String → String → Bool) (tid : Field → Nat) (fs : List Field)
    (hs : saneFields fs = true) (hn : Everywhere NamesOk fs) (he : Everywhere (fun fs => fs ≠ []) fs) :
    Everywhere (fun fs => accepts lt tid fs = true) fs ↔
      WellFormed fs ∧ Everywhere (fun fs => fs.length ≤ 256 ∧ ∀ f ∈ fs, WithinLimits f) fs := by
  rw [C102_wellFormed lt tid fs hs hn]
  exact ⟨fun h => ⟨h.1, h.2.1⟩, fun h => ⟨h.1, h.2, he⟩⟩

/-- C29, for fields with non-empty names, dependencies other than on the field itself and
on the empty name: what `struct_field_list` accepts names earlier fields only. Missing:
those dependencies, for which the statement is false. -/
theorem C29_earlier_partial (lt : String → String → Bool) (tid : Field → Nat) (fs : List Field)
    (hne : ∀ f ∈ fs, f.id ≠ "") (h : accepts lt tid fs = true) (i : Nat) (f : Field) (hf : At fs i f)
    (d : String) (hd : d ∈ fieldDeps f) (h1 : d ≠ f.id) (h2 : d ≠ "") : DeclaredBefore fs i d := by
  obtain ⟨-, -, -, -, h4⟩ := (C102_accepts lt tid fs hne).1 h
  rcases h4 i f hf d hd with ⟨rfl, -⟩ | ⟨j, g, hj, hg, rfl⟩
  · exact absurd rfl h2
  · refine ⟨j, g, ?_, hg, rfl⟩
    rcases Nat.lt_or_eq_of_le hj with h | rfl
    · exact h
    · have hg' : fs[j]? = some g := hg
      have hf' : fs[j]? = some f := hf
      rw [hf'] at hg'
      obtain rfl := Option.some.inj hg'
      exact absurd rfl h1

/-- C29, the consequence, under the same conditions: the reader of an accepted schema
never looks at a field it has not read; whatever the fields hold before, it does the
same. -/
theorem C29_reader_partial (lt : String → String → Bool) (tid : Field → Nat) (cfg : Cfg)
    (fs : List Field) (hs : saneFields fs = true) (hn : Everywhere NamesOk fs)
    (h : Everywhere (fun fs => accepts lt tid fs = true) fs) (env : Env) :
    readFields cfg env fs = structCast cfg fs :=
  readFields_congr cfg fs [] ((C102_wellFormed lt tid fs hs hn).1 h).1.2.2 fun i hi => by cases hi

/-- Type ids for examples: the fields are told apart by name. -/
def tidOf (fs : List Field) (f : Field) : Nat := (fs.map Field.id).idxOf f.id

theorem namesOk_packet : Everywhere NamesOk packet := by
  refine ⟨fun f hf => ?_, ?_⟩
  · simp only [packet, List.mem_cons, List.not_mem_nil, or_false] at hf
    rcases hf with rfl | rfl | rfl | rfl | rfl | rfl <;> decide
  · simp only [packet, EveryFields, EveryField, EveryKind, EveryAlts, true_and, and_true]
    refine ⟨fun f hf => ?_, ?_⟩
    · simp only [inner, List.mem_cons, List.not_mem_nil, or_false] at hf
      rcases hf with rfl | rfl <;> decide
    · simp only [inner, EveryFields, EveryField, EveryKind, and_self]

theorem accepted_packet : Everywhere (fun fs => accepts nameLt (tidOf packet) fs = true) packet :=
  (C102_wellFormed nameLt (tidOf packet) packet (by decide) namesOk_packet).2
    ⟨by decide, by decide +kernel, by decide +kernel⟩

example : Everywhere (fun fs => accepts nameLt (tidOf packet) fs = true) packet :=
  (C66_wellFormed_partial nameLt (tidOf packet) packet (by decide) namesOk_packet (by decide +kernel)).2
    ⟨by decide, by decide +kernel⟩
/-- A record without fields does not make it into a schema. -/
example : ¬ Everywhere (fun fs => accepts nameLt (fun _ => 0) fs = true) [.plain "r" (.record []) .none] := by
  refine fun h => ?_
  cases h.2.1.1

example : DeclaredBefore packet 3 "len" :=
  C29_earlier_partial nameLt (tidOf packet) packet (by decide) accepted_packet.1 3 _ rfl "len"
    (by decide) (by decide) (by decide)
example := C29_reader_partial nameLt (tidOf packet) be64 packet (by decide) namesOk_packet accepted_packet
  (fun _ => some (.int 77))
example : accepts nameLt (fun _ => 0)
    [.plain "data" (.vec (.scalar u8) (.fromField "len") none) .none, .plain "len" (.num u8 1) .none] ≠ true := by
  rw [Ne, C66_accepts_partial _ _ _ (by decide) (by decide)]
  rintro ⟨-, -, -, h⟩
  rcases h 0 _ rfl "len" (by decide) with ⟨h, -⟩ | ⟨j, g, hj, hg, hid⟩
  · exact absurd h (by decide)
  · obtain rfl : j = 0 := by omega
    obtain rfl : _ = g := Option.some.inj hg
    exact absurd hid (by decide)

/-- An optional field whose predicate reads the field itself. -/
def selfSchema : List Field := [.maybe "a" (.num u8 1) ⟨["a"], fun vs => vs == [.absent]⟩]

/-- C29 fails for a field that names itself: the schema is accepted, and the predicate
sees the field before it is read. -/
theorem C29_fails_self :
    accepts nameLt (fun _ => 0) selfSchema = true ∧ ¬ Backward selfSchema ∧
    (structCast le64 selfSchema).run [5] = (.done (.ok [.present (.int 5)]), []) := by
  refine ⟨?_, ?_, by rfl⟩
  · rw [C66_accepts_partial _ _ _ (by simp [selfSchema]) (by decide)]
    refine ⟨by decide +kernel, by decide, by decide +kernel, fun i f hf d hd => .inr ?_⟩
    cases i with
    | zero =>
      obtain rfl : _ = f := Option.some.inj hf
      exact ⟨0, _, Nat.le_refl _, rfl, by simp [fieldDeps, kindDeps] at hd; exact hd.symm⟩
    | succ i => cases hf
  · intro h
    obtain ⟨j, _, hj, _⟩ := h 0 _ rfl "a" (by decide)
    omega

/-- A container whose length is in the field of no name, which nobody declares. -/
def namelessSchema : List Field :=
  [.plain "n" (.num u8 1) .none, .plain "data" (.vec (.scalar u8) (.fromField "") none) .none]

/-- C29 fails for the empty name: it passes although no field has it. -/
theorem C29_fails_empty_name :
    accepts nameLt (fun _ => 0) namelessSchema = true ∧
    ¬ ∃ f ∈ namelessSchema, f.id = "" := by
  refine ⟨?_, by decide⟩
  rw [C66_accepts_partial _ _ _ (by simp [namelessSchema]) (by decide)]
  refine ⟨by decide +kernel, by decide, by decide +kernel, fun i f hf d hd => .inl ?_⟩
  match i with
  | 0 => obtain rfl : _ = f := Option.some.inj hf; cases hd
  | 1 => obtain rfl : _ = f := Option.some.inj hf; exact ⟨by simpa [fieldDeps, kindDeps, lenDeps] using hd, by decide⟩
  | i + 2 => cases hf

/-! ## C28, C67 -/

/-- C67. `operator[]` on an object that is not const, for a name that is not empty: it
gives a reference to the field of that name, unless the field is a derived length; the
reference is to const if the field is a discriminant or a constant, and only then. -/
theorem C67_access (lt : String → String → Bool) (tid : Field → Nat) (fs : List Field)
    (hn : fs.length ≤ 256) (hd : Distinct fs)
    (htid : ∀ f ∈ fs, ∀ g ∈ fs, tid f = tid g → f = g)
    (hl : (lenDerivedIds fs).length ≤ 64) (hs : (discDerivedIds fs).length ≤ 64)
    (id : String) (hid : id ≠ "") (f : Field) (a : Access) :
    subscript lt tid fs id = some (f, a) ↔
      f ∈ fs ∧ f.id = id ∧ ¬ LengthTarget fs id ∧ (a = .readOnly ↔ SwitchedOn fs id ∨ Frozen f) :=
  subscript_eq lt tid hn hd htid hl hs hid (f, a)

/-- C67. Hidden are the derived lengths and what is not declared. -/
theorem C67_hidden (lt : String → String → Bool) (tid : Field → Nat) (fs : List Field)
    (hn : fs.length ≤ 256) (hd : Distinct fs)
    (htid : ∀ f ∈ fs, ∀ g ∈ fs, tid f = tid g → f = g)
    (hl : (lenDerivedIds fs).length ≤ 64) (hs : (discDerivedIds fs).length ≤ 64)
    (id : String) (hid : id ≠ "") :
    subscript lt tid fs id = none ↔ (∀ f ∈ fs, f.id ≠ id) ∨ LengthTarget fs id := by
  have h := subscript_eq lt tid hn hd htid hl hs hid
  cases hc : subscript lt tid fs id with
  | some r =>
    obtain ⟨h1, h2, h3, -⟩ := (h r).1 hc
    simp only [reduceCtorEq, false_iff]
    rintro (h4 | h4)
    · exact h4 _ h1 h2
    · exact h3 h4
  | none =>
    simp only [true_iff]
    by_cases hL : LengthTarget fs id
    · exact .inr hL
    · left
      intro f hf he
      by_cases hS : SwitchedOn fs id ∨ Frozen f
      · have := (h (f, .readOnly)).2 ⟨hf, he, hL, by simp [hS]⟩
        rw [hc] at this; cases this
      · have := (h (f, .mutable)).2 ⟨hf, he, hL, by simp [hS]⟩
        rw [hc] at this; cases this

/-- C67. What can be assigned is what is written: the bytes of the field are those its
stored value makes, as a struct of its own if it is one. -/
theorem C67_mutable (lt : String → String → Bool) (tid : Field → Nat) (cfg : Cfg)
    (pre post : List Field) (f : Field) (vpre vpost : List Val) (v : Val)
    (hn : (pre ++ f :: post).length ≤ 256)
    (htid : ∀ g ∈ pre ++ f :: post, ∀ h ∈ pre ++ f :: post, tid g = tid h → g = h)
    (hl : (lenDerivedIds (pre ++ f :: post)).length ≤ 64)
    (hs : (discDerivedIds (pre ++ f :: post)).length ≤ 64) (hid : f.id ≠ "")
    (hwf : WellFormed (pre ++ f :: post)) (hres : Resolves (pre ++ f :: post))
    (hlen : vpre.length = pre.length) (hty : Typed cfg (pre ++ f :: post) (vpre ++ v :: vpost))
    (hm : subscript lt tid (pre ++ f :: post) f.id = some (f, .mutable)) (p : List Byte)
    (h : (streamCast cfg (pre ++ f :: post) (vpre ++ v :: vpost)).run = (.done (.ok ()), p)) :
    ∃ q r s, p = q ++ (r ++ s) ∧
      Puts cfg (pre ++ f :: post) (vpre ++ v :: vpost) pre vpre q ∧
      Puts cfg (pre ++ f :: post) (vpre ++ v :: vpost) post vpost s ∧
      (v = .absent ∧ r = [] ∨ ∃ k u, Payload f v k u ∧ Contributes cfg k u r) := by
  obtain ⟨-, -, h3, h4⟩ := (C67_access lt tid _ hn (unique_nodup [] _ hwf.2.1) htid hl hs f.id hid f
    .mutable).1 hm
  simp only [reduceCtorEq, false_iff, not_or] at h4
  refine C39_transparent cfg pre post f vpre vpost v hwf hres hlen hty ?_ p h
  rintro id k c rfl -
  refine ⟨?_, ?_⟩
  · rw [← Bool.not_eq_true, isSlot_iff]
    rintro (h5 | h5)
    · exact h3 h5
    · exact h4.1 h5
  · cases htc : typedConst k c with
    | none => rfl
    | some u => exact absurd (by rw [Frozen, htc]; rfl) h4.2

/-- C67. What cannot be assigned is not written: if no callable reads the field, any other
stored value makes the same write, on every stream. -/
theorem C67_ignored (lt : String → String → Bool) (tid : Field → Nat) (cfg : Cfg)
    (pre post : List Field) (f : Field) (vpre vpost : List Val) (v v' : Val)
    (hn : (pre ++ f :: post).length ≤ 256)
    (htid : ∀ g ∈ pre ++ f :: post, ∀ h ∈ pre ++ f :: post, tid g = tid h → g = h)
    (hl : (lenDerivedIds (pre ++ f :: post)).length ≤ 64)
    (hs : (discDerivedIds (pre ++ f :: post)).length ≤ 64) (hid : f.id ≠ "")
    (hwf : WellFormed (pre ++ f :: post)) (hres : Resolves (pre ++ f :: post))
    (hlen : vpre.length = pre.length)
    (hm : ∀ g, subscript lt tid (pre ++ f :: post) f.id ≠ some (g, .mutable))
    (hr : ∀ g ∈ pre ++ f :: post, f.id ∉ callableReads g) (S : OutStream) (s : S.State) :
    (streamCast cfg (pre ++ f :: post) (vpre ++ v :: vpost)).runOn S s =
    (streamCast cfg (pre ++ f :: post) (vpre ++ v' :: vpost)).runOn S s := by
  have hmem : f ∈ pre ++ f :: post := by simp
  have hnot := fun hc => hm f ((C67_access lt tid _ hn (unique_nodup [] _ hwf.2.1) htid hl hs f.id hid f
    .mutable).2 hc)
  have hcase : isSlot (pre ++ f :: post) f.id = true ∨ Frozen f := by
    by_cases hS : isSlot (pre ++ f :: post) f.id = true
    · exact .inl hS
    · by_cases hF : Frozen f
      · exact .inr hF
      · rw [isSlot_iff, not_or] at hS
        exact absurd ⟨hmem, rfl, hS.1, by simp [hS.2, hF]⟩ hnot
  by_cases hS : isSlot (pre ++ f :: post) f.id = true
  · obtain ⟨t, w, c, he⟩ := slot_plain hwf.2.1 hres hmem hS
    generalize f.id = id at he hS hr
    subst he
    rw [streamCast_ignores v v' hlen rfl (.inl hS) hr]
  · have hF := hcase.resolve_left hS
    cases f with
    | plain id k c =>
      rw [Frozen, Option.isSome_iff_exists] at hF
      obtain ⟨u, hu⟩ := hF
      rw [streamCast_ignores v v' hlen (fixed_of_const hu) (.inr (by rw [frozenVal_eq_typedConst, hu]; rfl)) hr]
    | maybe id k p => exact hF.elim
    | union id d alts c => exact hF.elim

theorem tidOf_inj {fs : List Field} (hd : Distinct fs) :
    ∀ f ∈ fs, ∀ g ∈ fs, tidOf fs f = tidOf fs g → f = g := by
  intro f hf g hg h
  have hfi : f.id ∈ fs.map Field.id := List.mem_map_of_mem hf
  have hgi : g.id ∈ fs.map Field.id := List.mem_map_of_mem hg
  have h1 := List.getElem_idxOf (List.idxOf_lt_length_of_mem hfi)
  have h2 := List.getElem_idxOf (List.idxOf_lt_length_of_mem hgi)
  have h3 : f.id = g.id := by
    rw [← h1, ← h2]
    simp only [tidOf] at h
    simp only [h]
  obtain ⟨i, hi⟩ := at_mem hf
  obtain ⟨j, hj⟩ := at_mem hg
  have := at_inj hd hi hj h3
  subst this
  have hi' : fs[i]? = some f := hi
  have hj' : fs[i]? = some g := hj
  rw [hi'] at hj'
  exact Option.some.inj hj'

theorem tidOf_packet : ∀ f ∈ packet, ∀ g ∈ packet, tidOf packet f = tidOf packet g → f = g :=
  tidOf_inj (by decide)

/-- The packet: its length is hidden, its tag read-only, its checksum assignable. -/
example : subscript nameLt (tidOf packet) packet "len" = none :=
  (C67_hidden nameLt _ packet (by decide) (by decide) tidOf_packet (by decide) (by decide) "len"
    (by decide)).2 (.inr ⟨"data", _, .none, by simp [packet]; rfl, rfl⟩)
example : subscript nameLt (tidOf packet) packet "tag" = some (packet[2], .readOnly) :=
  (C67_access nameLt _ packet (by decide) (by decide) tidOf_packet (by decide) (by decide) "tag"
    (by decide) _ _).2 ⟨by simp [packet], rfl, by rw [← mem_lenDerived]; decide,
      by simp only [true_iff]; left; rw [← mem_discDerived]; decide⟩
theorem crc_mutable : subscript nameLt (tidOf packet) packet "crc" = some (packet[5], .mutable) :=
  (C67_access nameLt _ packet (by decide) (by decide) tidOf_packet (by decide) (by decide) "crc"
    (by decide) _ _).2 ⟨by simp [packet], rfl, by rw [← mem_lenDerived]; decide,
      by
        simp only [reduceCtorEq, false_iff]
        rintro (h | h)
        · rw [← mem_discDerived] at h; revert h; decide
        · revert h; rw [← isFrozen_iff]; decide⟩
example := C67_mutable nameLt (tidOf packet) be64 (packet.take 5) [] (packet[5]) (packetVal.take 5) []
  (.int 0xbeef) (by decide) tidOf_packet (by decide) (by decide) (by decide) (by decide) (by decide +kernel)
  rfl (by decide +kernel) crc_mutable packetBytes (by rfl)
example (v' : Val) (S : OutStream) (s : S.State) :=
  C67_ignored nameLt (tidOf packet) be64 (packet.take 2) (packet.drop 3) (packet[2]) (packetVal.take 2)
    (packetVal.drop 3) (.int 0) v' (by decide) tidOf_packet (by decide) (by decide) (by decide) (by decide)
    (by decide +kernel) rfl
    (fun g => by
      rw [show (subscript nameLt (tidOf packet) (packet.take 2 ++ packet[2] :: packet.drop 3) (packet[2]).id) =
        some (packet[2], .readOnly) from (C67_access nameLt _ packet (by decide) (by decide) tidOf_packet
          (by decide) (by decide) "tag" (by decide) _ _).2 ⟨by simp [packet], rfl,
            by rw [← mem_lenDerived]; decide, by simp only [true_iff]; left; rw [← mem_discDerived]; decide⟩]
      simp)
    (by decide) S s

/-- C28, for names that are not empty: a field can be assigned through `operator[]` exactly
if it is declared and neither derived nor constant; derived lengths are not accessible at
all, discriminants and constants only to read; undeclared names are rejected. That the
stored value is what is written in the first case, and in no other, is `C67_mutable` and
`C67_ignored`. Missing: the empty name, for which the statement is false. -/
theorem C28_access_partial (lt : String → String → Bool) (tid : Field → Nat) (fs : List Field)
    (hn : fs.length ≤ 256) (hd : Distinct fs)
    (htid : ∀ f ∈ fs, ∀ g ∈ fs, tid f = tid g → f = g)
    (hl : (lenDerivedIds fs).length ≤ 64) (hs : (discDerivedIds fs).length ≤ 64)
    (id : String) (hid : id ≠ "") :
    (∀ f, subscript lt tid fs id = some (f, .mutable) ↔
      f ∈ fs ∧ f.id = id ∧ isSlot fs id = false ∧ ¬ Frozen f) ∧
    (∀ f, subscript lt tid fs id = some (f, .readOnly) ↔
      f ∈ fs ∧ f.id = id ∧ ¬ LengthTarget fs id ∧ (SwitchedOn fs id ∨ Frozen f)) ∧
    (subscript lt tid fs id = none ↔ (∀ f ∈ fs, f.id ≠ id) ∨ LengthTarget fs id) := by
  refine ⟨fun f => ?_, fun f => ?_, C67_hidden lt tid fs hn hd htid hl hs id hid⟩
  · rw [C67_access lt tid fs hn hd htid hl hs id hid, ← Bool.not_eq_true, isSlot_iff]
    simp only [reduceCtorEq, false_iff, not_or, and_assoc]
  · rw [C67_access lt tid fs hn hd htid hl hs id hid]
    simp only [true_iff]

example := C28_access_partial nameLt (tidOf packet) packet (by decide) (by decide) tidOf_packet (by decide)
  (by decide) "body" (by decide)

/-- A length and its container. -/
def hiddenSchema : List Field :=
  [.plain "n" (.num u8 1) .none, .plain "data" (.vec (.scalar u8) (.fromField "n") none) .none]

/-- C28 fails for the empty name, which no field has: it stands for the type with id 0. If
that is the type of the first field, a derived length, then the length can be assigned
after all, and the write ignores it. -/
theorem C28_fails_empty_name :
    (subscript nameLt (tidOf hiddenSchema) hiddenSchema "").map (fun r => (r.1.id, r.2)) =
      some ("n", .mutable) ∧
    (subscript nameLt (tidOf hiddenSchema) hiddenSchema "n").isNone = true ∧
    (streamCast le64 hiddenSchema [.int 7, .seq [.int 9]]).run = (.done (.ok ()), [1, 9]) :=
  ⟨by decide +kernel, by decide +kernel, by rfl⟩

/-! ## C32 -/

/-- C32. Order of options does not matter, whatever the options, their classification,
the defaults, and the demands of the descriptor. -/
theorem C32_order {O : Type} (K : OptKinds O) (d : Resolved O) (admits : O → Bool)
    (fine : Resolved O → Bool) (opts opts' : List O) (h : opts.Perm opts') :
    describe K d admits fine opts = describe K d admits fine opts' := by
  apply Option.ext
  intro r
  rw [describe_iff, describe_iff, provides_perm h, provides_perm h, provides_perm h]
  simp only [h.mem_iff]

/-- C32. What is resolved: of each kind the one option given, or the default if none is. -/
theorem C32_resolved {O : Type} (K : OptKinds O) (d : Resolved O) (admits : O → Bool)
    (fine : Resolved O → Bool) (opts : List O) (r : Resolved O) :
    describe K d admits fine opts = some r ↔
      (∀ o ∈ opts, admits o = true) ∧ fine r = true ∧
      Provides K.isSize d.size opts r.size ∧ Provides K.isConstraint d.constraint opts r.constraint ∧
      Provides K.isBound d.bound opts r.bound :=
  describe_iff K d admits fine opts r

open Meta in
example : describe libraryKinds (libraryDefaults 24) (fun _ => true) (fun _ => true) [.maxBytes 64, .variableSize "len"] =
    some ⟨.variableSize "len", .noConstraint, .maxBytes 64⟩ :=
  (C32_resolved _ _ _ _ _ _).2 (by simp [Provides, libraryKinds, libraryDefaults])

/-- C32. Two options of one kind are rejected. -/
theorem C32_two {O : Type} (K : OptKinds O) (d : Resolved O) (admits : O → Bool)
    (fine : Resolved O → Bool) (opts : List O) (p : O → Bool)
    (hp : p = K.isSize ∨ p = K.isConstraint ∨ p = K.isBound) (i j : Nat) (a b : O) (hij : i < j)
    (hi : opts[i]? = some a) (hj : opts[j]? = some b) (ha : p a = true) (hb : p b = true) :
    describe K d admits fine opts = none := by
  have h2 : ∀ dflt o, ¬ Provides p dflt opts o := by
    have hlt : j < opts.length := (List.getElem?_eq_some_iff.1 hj).1
    have hsplit : opts.filter p = (opts.take j).filter p ++ (opts.drop j).filter p := by
      rw [← List.filter_append, List.take_append_drop]
    have m1 : a ∈ (opts.take j).filter p := by
      refine List.mem_filter.2 ⟨List.mem_iff_getElem?.2 ⟨i, ?_⟩, ha⟩
      rw [List.getElem?_take_of_lt hij]; exact hi
    have m2 : b ∈ (opts.drop j).filter p := by
      refine List.mem_filter.2 ⟨List.mem_iff_getElem?.2 ⟨0, ?_⟩, hb⟩
      rw [List.getElem?_drop]; exact hj
    have l1 := List.length_pos_of_mem m1
    have l2 := List.length_pos_of_mem m2
    have l3 : 2 ≤ (opts.filter p).length := by rw [hsplit, List.length_append]; omega
    rintro dflt o (h | ⟨h, -⟩)
    · rw [h] at l3; exact absurd l3 (by simp)
    · rw [h] at l3; exact absurd l3 (by simp)
  cases hd : describe K d admits fine opts with
  | none => rfl
  | some r =>
    obtain ⟨-, -, h3, h4, h5⟩ := (describe_iff K d admits fine opts r).1 hd
    rcases hp with rfl | rfl | rfl
    · exact absurd h3 (h2 _ _)
    · exact absurd h4 (h2 _ _)
    · exact absurd h5 (h2 _ _)

/-- C32, the documented defaults: `sizeof` the type, no constraint, the default bound. -/
theorem C32_defaults (n : Nat) :
    basicField n [] = some ⟨.bytes n, .noConstraint, .useDefaultBound⟩ ∧
    ∀ id, vecField n [.variableSize id] = some ⟨.variableSize id, .noConstraint, .useDefaultBound⟩ := by
  refine ⟨?_, fun id => ?_⟩
  · rw [basicField, C32_resolved]
    simp [Provides, libraryDefaults]
  · rw [vecField, C32_resolved]
    simp [Provides, libraryDefaults, libraryKinds]

example : vecField 24 [.variableSize "len", .maxBytes 64, .constraint 1] =
    vecField 24 [.constraint 1, .maxBytes 64, .variableSize "len"] :=
  C32_order _ _ _ _ _ _ (by decide)
example : vecField 24 [.constraint 1, .maxBytes 64, .variableSize "len"] =
    some ⟨.variableSize "len", .constraint 1, .maxBytes 64⟩ := by decide
example : basicField 4 [.constraint 1, .bytes 2] = some ⟨.bytes 2, .constraint 1, .useDefaultBound⟩ := by decide
example : basicField 4 [.bytes 5] = none := by decide
example : vecField 24 [.maxBytes 1, .variableSize "len", .maxBytes 2] = none :=
  C32_two _ _ _ _ _ libraryKinds.isBound (.inr (.inr rfl)) 0 2 _ _ (by decide) rfl rfl rfl rfl

/-! ## C42 -/

/-- C42. However many uses of `type_id`, in whatever order, of up to 1024 types (in fact
1025): each gives an id, the ids of two uses are equal exactly if the types are, and
`type_of` an id is the type it was given to. `sz`: the number of values of `std::size_t`;
`depth`: how deep templates may nest. -/
theorem C42_ids {T : Type} [BEq T] [LawfulBEq T] (sz depth : Nat) (hsz : 2 ^ 16 ≤ sz) (hf : 11 ≤ depth)
    (types : List T) (hn : types.length ≤ 1025) (uses : List T) (hu : ∀ t ∈ uses, t ∈ types) :
    ∃ r ids, registerAll sz depth [] uses = some (r, ids) ∧ ids.length = uses.length ∧
      (∀ (i j : Nat) (t u : T) (a b : Nat), uses[i]? = some t → uses[j]? = some u → ids[i]? = some a → ids[j]? = some b →
        (a = b ↔ t = u)) ∧
      ∀ (i : Nat) (t : T) (a : Nat), uses[i]? = some t → ids[i]? = some a → Registry.typeOf r a = some t := by
  obtain ⟨r, is, h1, h2, -, h4, h5⟩ := registerAll_spec (sz := sz) (by omega) hf types hn (r := [])
    ⟨rfl, .nil⟩ (by simp) uses hu
  refine ⟨r, is, h1, h4, fun i j t u a b hi hj ha hb => ?_, fun i t a hi ha => ?_⟩
  · exact (h2.mem (h5 i t a hi ha) (h5 j u b hj hb)).symm
  · exact h2.typeOf (h5 i t a hi ha)

example : registerAll (2 ^ 64) 900 [] ["u8", "u16", "u8", "u32", "u16"] =
    some ([("u8", 0), ("u16", 1), ("u32", 2)], [0, 1, 0, 2, 1]) := by decide +kernel
example := C42_ids (2 ^ 64) 900 (by decide) (by decide) ["u8", "u16", "u32"] (by decide)
  ["u8", "u16", "u8", "u32", "u16"] (by decide)

/-- A length that takes itself for its length: accepted, though nothing well formed. -/
example : accepts nameLt (fun _ => 0) [.plain "v" (.vec (.scalar u8) (.fromField "v") none) .none] = true := by
  refine (C102_accepts _ _ _ (by decide)).2 ⟨by decide, by decide, by decide, ?_, ?_⟩
  · intro f hf
    rw [List.mem_singleton.1 hf]
    decide
  · rintro (_ | i) f h d hd
    · cases h
      rw [List.mem_singleton.1 hd]
      exact .inr ⟨0, _, Nat.le_refl 0, rfl, rfl⟩
    · cases h
example : WellFormed packet :=
  ((C102_wellFormed nameLt (tidOf packet) packet (by decide) namesOk_packet).1 accepted_packet).1

end S2S.Props
