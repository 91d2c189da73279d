import Verif.Props.Decl
/-
C85, C101, C105: what can be read and what can be written.
-/
namespace S2S.Decl

/-- The discriminants of what can be written are numbers, and as a reader sees them too, as
long as they are not lengths. -/
theorem guides_of_writable {f k : Bool} {ds : List Decl}
    (h : switches (fun c i => guideOk ⟨f, true, k⟩ c (.matchField i)) ds ds = true) :
    switches (fun c i => guideOk ⟨f, false, k⟩ c (.matchField i)) ds ds = switches notLength ds ds := by
  refine Bool.eq_iff_iff.2 ⟨switches_mono (fun c i h => ?_), fun hl => ?_⟩
  · simp only [guideOk, Bool.false_eq_true, if_false, Bool.and_eq_true, lengthTarget_eq] at h
    exact h.2
  · have := switches_and (fun c i => guideOk ⟨f, true, k⟩ c (.matchField i)) notLength ds
    rw [h, hl, Bool.and_true] at this
    refine switches_mono (fun c i h => ?_) this
    simp only [guideOk, if_true, Bool.and_eq_true] at h
    simp only [guideOk, Bool.false_eq_true, if_false, Bool.and_eq_true, lengthTarget_eq]
    exact ⟨comparable_of_number h.1, h.2⟩

theorem guides_of_readable {f k : Bool} {ds : List Decl}
    (h : switches (fun c i => guideOk ⟨f, false, k⟩ c (.matchField i)) ds ds = true) :
    switches (fun c i => guideOk ⟨f, true, k⟩ c (.matchField i)) ds ds = switches notOptional ds ds := by
  refine Bool.eq_iff_iff.2 ⟨switches_mono (fun c i h => ?_), fun hl => ?_⟩
  · simp only [guideOk, if_true, number_eq, Bool.and_eq_true] at h
    exact h.2
  · have := switches_and (fun c i => guideOk ⟨f, false, k⟩ c (.matchField i)) notOptional ds
    rw [h, hl, Bool.and_true] at this
    refine switches_mono (fun c i h => ?_) this
    simp only [guideOk, Bool.false_eq_true, if_false, Bool.and_eq_true] at h
    simp only [guideOk, if_true, number_eq, Bool.and_eq_true]
    exact ⟨h.1.1, h.2⟩

/-- The lengths of what can be written can be read if those inside optionals and unions are
numbers. -/
theorem lengths_of_writable {f k : Bool} {ds : List Decl}
    (h : lengths (fun inside c i => lenOk ⟨f, true, k⟩ inside c (.var (.fromField i))) ds = true) :
    lengths (fun inside c i => lenOk ⟨f, false, k⟩ inside c (.var (.fromField i))) ds =
      lengths (fun inside c i => !inside || isNumber c i) ds := by
  refine Bool.eq_iff_iff.2 ⟨lengths_mono (fun c b i h => ?_), fun hl => ?_⟩
  · simp only [lenOk, Bool.false_and, Bool.false_eq_true, if_false] at h
    rw [h, Bool.or_true]
  · have := lengths_and (fun inside c i => lenOk ⟨f, true, k⟩ inside c (.var (.fromField i)))
      (fun inside c i => !inside || isNumber c i) ds
    rw [h, hl, Bool.and_true] at this
    refine lengths_mono (fun c b i h => ?_) this
    simp only [lenOk, Bool.false_and, Bool.false_eq_true, if_false]
    cases b with
    | true =>
      rw [Bool.and_eq_true] at h
      exact h.2
    | false =>
      simp only [lenOk, Bool.and_false, Bool.false_eq_true, if_false, Bool.and_eq_true] at h
      exact h.1

theorem lengths_of_readable {f k : Bool} {ds : List Decl}
    (h : lengths (fun inside c i => lenOk ⟨f, false, k⟩ inside c (.var (.fromField i))) ds = true) :
    lengths (fun inside c i => lenOk ⟨f, true, k⟩ inside c (.var (.fromField i))) ds = true := by
  refine lengths_mono (fun c b i h => ?_) h
  simp only [lenOk, Bool.false_and, Bool.false_eq_true, if_false] at h
  simp only [lenOk, noFixedBuffer_eq]
  split
  · exact notBuffer_of_number h
  · exact h

end S2S.Decl

namespace S2S.Props
open Demo

/-- C105, of what can be written, to either kind of stream, as far as it is true: with sizes as the
descriptors give them, it can be read unless, at some level, a union switches on a field another one
takes its length from, or a container inside an optional or a union takes its length from something
that is not a number, or there is a `std::vector<bool>`, or the stream is one for constant
evaluation and there is a C array of C arrays. -/
theorem C105_of_writable_partial (f k : Bool) (ds : List Decl.Decl) (ht : Decl.tidy ds = true)
    (h : Decl.inst ⟨f, true, k⟩ ds = true) :
    Decl.inst ⟨f, false, k⟩ ds = true ↔
      Decl.switches Decl.notLength ds ds = true ∧
      Decl.lengths (fun inside c i => !inside || Decl.isNumber c i) ds = true ∧
      Decl.noBoolVector ds = true ∧ (k = true → Decl.noNestedCArray ds = true) := by
  rw [Decl.inst_tidy _ ds ht, Decl.casts_eq] at h ⊢
  simp only [Bool.and_eq_true] at h
  rw [Decl.guides_of_writable h.1.2, Decl.lengths_of_writable h.2]
  obtain ⟨⟨⟨h1, ⟨h2, -⟩, -⟩, -⟩, -⟩ := h
  simp only [h1, h2, Bool.true_and, Bool.and_eq_true]
  cases k <;> simp
  · exact ⟨fun h => ⟨h.1.2, h.2, h.1.1⟩, fun h => ⟨⟨h.2.2, h.1⟩, h.2.1⟩⟩
  · exact ⟨fun h => ⟨h.1.2, h.2, h.1.1⟩, fun h => ⟨⟨h.2.2, h.1⟩, h.2.1⟩⟩

/-- C105, of what can be read, from either kind of stream, as far as it is true: with sizes as the
descriptors give them, it can be written unless, at some level, a union switches on an optional. -/
theorem C105_of_readable_partial (f k : Bool) (ds : List Decl.Decl) (ht : Decl.tidy ds = true)
    (h : Decl.inst ⟨f, false, k⟩ ds = true) :
    Decl.inst ⟨f, true, k⟩ ds = true ↔ Decl.switches Decl.notOptional ds ds = true := by
  rw [Decl.inst_tidy _ ds ht, Decl.casts_eq] at h ⊢
  simp only [Bool.and_eq_true] at h
  rw [Decl.guides_of_readable h.1.2, Decl.lengths_of_readable h.2]
  obtain ⟨⟨⟨h1, ⟨h2, h3⟩, h4⟩, -⟩, -⟩ := h
  have h3 : Decl.noBoolVector ds = true := by simpa using h3
  simp [h1, h2, h3]

/-- C101, of what can be written, as far as it is true: if the containers inside optionals
and unions take their lengths from numbers, and sizes are as the descriptors give them. -/
theorem C101_of_writable_partial (f k : Bool) (ds : List Decl.Decl) (ht : Decl.tidy ds = true)
    (h : Decl.inst ⟨f, true, k⟩ ds = true)
    (hl : Decl.lengths (fun inside c i => !inside || Decl.isNumber c i) ds = true) :
    Decl.inst ⟨f, false, k⟩ ds = true ↔
      Decl.switches Decl.notLength ds ds = true ∧ Decl.noBoolVector ds = true ∧
      (k = true → Decl.noNestedCArray ds = true) := by
  rw [C105_of_writable_partial f k ds ht h, hl]
  simp

/-- C101, of what can be read, as far as it is true. -/
theorem C101_of_readable_partial (f k : Bool) (ds : List Decl.Decl) (ht : Decl.tidy ds = true)
    (h : Decl.inst ⟨f, false, k⟩ ds = true) :
    Decl.inst ⟨f, true, k⟩ ds = true ↔ Decl.switches Decl.notOptional ds ds = true :=
  C105_of_readable_partial f k ds ht h

/-- C101 and C85 fail: a list without unions that switch on lengths, without
`std::vector<bool>` and without C arrays can be written and not be read. -/
theorem C101_fails_inside (f k : Bool) :
    Decl.SpelledList impl64 be64 tyId loose ∧ Decl.inst ⟨f, true, k⟩ loose = true ∧
    Decl.switches Decl.notLength loose loose = true ∧ Decl.noBoolVector loose = true ∧
    Decl.noNestedCArray loose = true ∧ Decl.inst ⟨f, false, k⟩ loose = false :=
  ⟨spelled_loose, C98_fails_inside.2.2.2.2 _, rfl, rfl, rfl, C98_fails_inside.2.2.2.2 _⟩

/-- C85, of what can be written, as far as it is true: without a `std::vector<bool>`, and if
the containers inside optionals and unions take their lengths from numbers, it can be read
unless, at some level, a union switches on a field another one takes its length from. -/
theorem C85_of_writable_partial (f : Bool) (ds : List Decl.Decl) (ht : Decl.tidy ds = true)
    (h : Decl.inst ⟨f, true, false⟩ ds = true) (hb : Decl.noBoolVector ds = true)
    (hl : Decl.lengths (fun inside c i => !inside || Decl.isNumber c i) ds = true) :
    Decl.inst ⟨f, false, false⟩ ds = true ↔ Decl.switches Decl.notLength ds ds = true := by
  rw [C105_of_writable_partial f false ds ht h]
  simp [hb, hl]

/-- C85, of what can be read, as far as it is true: with sizes as the descriptors give them, it can
be written unless, at some level, a union switches on an optional. -/
theorem C85_of_readable_partial (f : Bool) (ds : List Decl.Decl) (ht : Decl.tidy ds = true)
    (h : Decl.inst ⟨f, false, false⟩ ds = true) :
    Decl.inst ⟨f, true, false⟩ ds = true ↔ Decl.switches Decl.notOptional ds ds = true :=
  C105_of_readable_partial f false ds ht h

/-- C85 fails: a `std::vector<bool>`, and no union at all, can be written in the foreign byte
order and cannot be read. -/
theorem C85_fails_vector_bool :
    Decl.SpelledList impl64 be64 tyId boolFlags ∧ Decl.inst ⟨true, true, false⟩ boolFlags = true ∧
    Decl.switches Decl.notLength boolFlags boolFlags = true ∧ Decl.inst ⟨true, false, false⟩ boolFlags = false :=
  ⟨spelled_boolFlags, rfl, rfl, rfl⟩

/-! A length that is also a tag: it can be written, not read. -/

def lengthTag : List Decl.Decl :=
  [ .field "n" (.int (.int 1 false)) (.bytes 1) .none none,
    .field "text" .string (.var (.fromField "n")) .none none,
    .union "body" (.matchField "n")
      [ .mk (.label (.int 1 false) 1) (.int (.int 2 false)) (.bytes 2) .none none ] .none ]

example : Decl.inst ⟨false, true, false⟩ lengthTag = true ∧
    Decl.inst ⟨false, false, false⟩ lengthTag = false := by
  have hw : Decl.inst ⟨false, true, false⟩ lengthTag = true := rfl
  refine ⟨hw, Bool.eq_false_iff.2 fun h => ?_⟩
  cases (C85_of_writable_partial false lengthTag rfl hw rfl rfl).1 h

/-- An optional one: it can be read, not written. -/
example : Decl.inst ⟨true, true, false⟩ optTagDecls = false := by
  refine Bool.eq_false_iff.2 fun h => ?_
  cases (C85_of_readable_partial true optTagDecls rfl rfl).1 h

/-- One field that is neither: both. -/
example : Decl.inst ⟨true, true, true⟩ packetDecls = true :=
  (C101_of_readable_partial true true packetDecls rfl rfl).2 rfl

/-- A matrix: it can be written to a stream for constant evaluation, and only from others
can it be read. -/
example : Decl.inst ⟨true, false, true⟩ matrix = false ∧ Decl.inst ⟨true, false, false⟩ matrix = true := by
  refine ⟨Bool.eq_false_iff.2 fun h => ?_, (C105_of_writable_partial true false matrix rfl rfl).2 ⟨rfl, rfl, rfl, nofun⟩⟩
  cases ((C101_of_writable_partial true true matrix rfl rfl rfl).1 h).2.2 rfl

/-- A length inside an optional that is an optional itself. -/
example : Decl.inst ⟨true, false, true⟩ loose = false := by
  refine Bool.eq_false_iff.2 fun h => ?_
  cases ((C105_of_writable_partial true true loose rfl rfl).1 h).2.1

example : Decl.inst ⟨true, true, false⟩ optTagDecls = false ∧ Decl.inst ⟨true, true, false⟩ packetDecls = true := by
  refine ⟨Bool.eq_false_iff.2 fun h => ?_, (C105_of_readable_partial true false packetDecls rfl rfl).2 rfl⟩
  cases (C105_of_readable_partial true false optTagDecls rfl rfl).1 h

end S2S.Props
