import Verif.Props.Directions
/-
C165: what can be read and what can be written, with sizes of any kind.
-/
namespace S2S.Props
open Demo

/-- C165, of what can be written: it can be read exactly if, at every level, no union switches on a
field another one takes its length from, every container inside an optional or a union (other than
an array of records) takes its length from a number, every vector of records has a length, there is
no `std::vector<bool>`, and, if the stream is one for constant evaluation, no C array of C arrays. -/
theorem C165_of_writable (f k : Bool) (ds : List Decl.Decl) (h : Decl.inst ⟨f, true, k⟩ ds = true) :
    Decl.inst ⟨f, false, k⟩ ds = true ↔
      Decl.switches Decl.notLength ds ds = true ∧
      Decl.sizes (fun inside c t s => !inside || t.ignoresSize || s.lenIs (Decl.isNumber c)) ds = true ∧
      Decl.vectorsHaveLengths ds = true ∧
      Decl.noBoolVector ds = true ∧ (k = true → Decl.noNestedCArray ds = true) := by
  rw [Decl.inst_eq] at h ⊢
  simp only [Bool.and_eq_true] at h
  rw [Decl.guides_of_writable h.1.2, Decl.sizes_of_writable h.2]
  obtain ⟨⟨⟨h1, ⟨h2, -⟩, -⟩, -⟩, -⟩ := h
  simp only [h1, h2, Bool.true_and, Bool.and_eq_true]
  cases k <;> simp
  · exact ⟨fun h => ⟨h.1.2, h.2.1, h.2.2, h.1.1⟩, fun h => ⟨⟨h.2.2.2, h.1⟩, h.2.1, h.2.2.1⟩⟩
  · exact ⟨fun h => ⟨h.1.2, h.2.1, h.2.2, h.1.1⟩, fun h => ⟨⟨h.2.2.2, h.1⟩, h.2.1, h.2.2.1⟩⟩

/-- C165, of what can be read: it can be written exactly if, at every level, no union switches on an
optional, and records and arrays of records take their lengths, if from a field, from one with which
they can be written (`recordLength`). -/
theorem C165_of_readable (f k : Bool) (ds : List Decl.Decl) (h : Decl.inst ⟨f, false, k⟩ ds = true) :
    Decl.inst ⟨f, true, k⟩ ds = true ↔
      Decl.switches Decl.notOptional ds ds = true ∧ Decl.sizes Decl.recordLength ds = true := by
  rw [Decl.inst_eq] at h ⊢
  simp only [Bool.and_eq_true] at h
  rw [Decl.guides_of_readable h.1.2, Decl.sizes_of_readable h.2]
  obtain ⟨⟨⟨h1, ⟨h2, h3⟩, h4⟩, -⟩, -⟩ := h
  have h3 : Decl.noBoolVector ds = true := by simpa using h3
  simp [h1, h2, h3]

/-- C165. What is spelled with the descriptors has the sizes both directions ask for: of what can be
written, only the lengths inside optionals and unions matter, whatever they are the lengths of; of
what can be read, none. -/
theorem C165_spelled (I : Decl.Impl) (cfg : Cfg) (tid : Decl.Ty → Nat) (ds : List Decl.Decl)
    (h : Decl.SpelledList I cfg tid ds) :
    Decl.vectorsHaveLengths ds = true ∧ Decl.sizes Decl.recordLength ds = true ∧
    Decl.sizes (fun inside c t s => !inside || t.ignoresSize || s.lenIs (Decl.isNumber c)) ds =
      Decl.lengths (fun inside c i => !inside || Decl.isNumber c i) ds := by
  have ht := Decl.tidy_spelled h
  rw [Decl.tidy, Bool.and_eq_true] at ht
  refine ⟨ht.1, Decl.sizes_mono (fun b c t s hs => ?_) ht.2, ?_⟩
  · rcases s.from_or with ⟨id, rfl⟩ | hf
    · simp only [Decl.Size.lenIs, Bool.or_false, Bool.not_eq_true'] at hs
      unfold Decl.recordLength
      split
      · cases hs
      · cases hs
      · rfl
    · unfold Decl.recordLength
      split <;> first | exact Decl.Size.lenIs_other hf | rfl
  · rw [Decl.lengths_sizes]
    refine Decl.sizes_congr (fun b c t s hs => ?_) ht.2
    rcases s.from_or with ⟨id, rfl⟩ | hf
    · simp only [Decl.Size.lenIs, Bool.or_false, Bool.not_eq_true'] at hs
      simp [hs, Decl.Size.lenIs]
    · rw [Decl.Size.lenIs_other hf, Decl.Size.lenIs_other hf, Bool.or_true]

/-- C165, lengths of what can be read, however it is spelled, in the foreign byte order: where a
length is used, that is by anything but records and arrays of records, it is that of an integer
field; discriminants are integers or optional integers. -/
theorem C165_lengths (use : Decl.Use) (hr : use.write = false) (hf : use.foreign = true)
    (ds : List Decl.Decl) (hc : Decl.inst use ds = true) :
    Decl.sizes (fun _ c t s => t.ignoresSize || s.lenIs (Decl.isInt c)) ds = true ∧
    Decl.switches Decl.isOptInt ds ds = true := by
  have hn := Decl.inst_noFloat hf hc
  rw [Decl.inst_eq, Decl.guides_eq hn] at hc
  simp only [Bool.and_eq_true, hr, Bool.false_eq_true, if_false] at hc
  refine ⟨?_, Decl.switches_mono (fun c i hi => ?_) hc.1.2⟩
  · refine Decl.levels_mono_at (fun c hn hs => ?_) hn hc.2
    rw [Decl.partsHere, List.all_eq_true] at hs ⊢
    refine fun d hd => Decl.parts_mono (fun b t s hs => ?_) (hs d hd)
    rcases s.from_or with ⟨id, rfl⟩ | hs'
    · cases ht : t.fieldListLike with
      | true =>
        cases t with
        | fieldList => rfl
        | _ => cases ht
      | false =>
        rw [Decl.sizeOk_field _ b c ht, hr, if_neg (by simp), Decl.int_eq hn] at hs
        exact hs
    · rw [Decl.Size.lenIs_other hs', Bool.or_true]
  · rw [Bool.and_eq_true] at hi
    exact hi.1

/-! ## Sizes given by hand -/

def pointDecls : List Decl.Decl :=
  [.field "x" (.int u8) (.bytes 1) .none none, .field "y" (.int u16) (.bytes 2) .none none]

/-- `field<"ps", std::vector<point>, size_dont_care, ...>` -/
def unsizedVector : List Decl.Decl :=
  [.field "n" (.int u8) (.bytes 1) .none none,
   .field "ps" (.vector (.fieldList pointDecls)) .dontCare .none none]

/-- `field<"p", point, len_from_field<"n">, ...>` -/
def sizedRecord : List Decl.Decl :=
  [.field "n" (.int u8) (.bytes 1) .none none,
   .field "p" (.fieldList pointDecls) (.var (.fromField "n")) .none none]

/-- `field<"ps", std::array<point, 2>, len_from_field<"s">, ...>`, `s` being a string. -/
def sizedArray : List Decl.Decl :=
  [.field "n" (.int u8) (.bytes 1) .none none,
   .field "s" .string (.var (.fromField "n")) .none none,
   .field "ps" (.array (.fieldList pointDecls) 2) (.var (.fromField "s")) .none none]

/-- C105, C101 and C85 fail: a vector of records without a length can be written and cannot be
read, and there is nothing else about the list. -/
theorem C105_fails_vector (f k : Bool) :
    unsizedVector.all Decl.Decl.fieldLike = true ∧
    Decl.inst ⟨f, true, k⟩ unsizedVector = true ∧ Decl.inst ⟨f, false, k⟩ unsizedVector = false ∧
    Decl.switches Decl.notLength unsizedVector unsizedVector = true ∧
    Decl.lengths (fun inside c i => !inside || Decl.isNumber c i) unsizedVector = true ∧
    Decl.noBoolVector unsizedVector = true ∧ Decl.noNestedCArray unsizedVector = true := by
  cases f <;> cases k <;> exact ⟨rfl, rfl, rfl, rfl, rfl, rfl, rfl⟩

/-- C105, C101 and C85 fail: a record that is given a length from an integer can be read and cannot
be written, and there is no union. -/
theorem C105_fails_record (f k : Bool) :
    sizedRecord.all Decl.Decl.fieldLike = true ∧
    Decl.inst ⟨f, false, k⟩ sizedRecord = true ∧ Decl.inst ⟨f, true, k⟩ sizedRecord = false ∧
    Decl.switches Decl.notOptional sizedRecord sizedRecord = true := by
  cases f <;> cases k <;> exact ⟨rfl, rfl, rfl, rfl⟩

/-- C98 and C103 fail: an array of records can be read, in either byte order, that is given its
length from a string. -/
theorem C103_fails_array (f k : Bool) :
    sizedArray.all Decl.Decl.fieldLike = true ∧ Decl.inst ⟨f, false, k⟩ sizedArray = true ∧
    Decl.inst ⟨f, true, k⟩ sizedArray = false ∧
    Decl.isInt sizedArray "s" = false ∧ Decl.wholeDecls sizedArray sizedArray = false := by
  cases f <;> cases k <;> exact ⟨rfl, rfl, rfl, rfl, rfl⟩

/-! ## Examples -/

example : Decl.inst ⟨true, false, true⟩ unsizedVector = false := by
  refine Bool.eq_false_iff.2 fun h => ?_
  cases ((C165_of_writable true true unsizedVector rfl).1 h).2.2.1

example : Decl.inst ⟨false, true, false⟩ sizedRecord = false := by
  refine Bool.eq_false_iff.2 fun h => ?_
  cases ((C165_of_readable false false sizedRecord rfl).1 h).2

/-- The record in an optional, its length from a string: nobody asks for its size. -/
def optRecord (p : Pred) : List Decl.Decl :=
  [.field "n" (.int u8) (.bytes 1) .none none,
   .field "s" .string (.var (.fromField "n")) .none none,
   .maybe "p" (.fieldList pointDecls) (.var (.fromField "s")) .none none p]

example (p : Pred) : Decl.inst ⟨false, true, false⟩ (optRecord p) = true ∧
    Decl.inst ⟨false, false, false⟩ (optRecord p) = true := by
  have hw : Decl.inst ⟨false, true, false⟩ (optRecord p) = true := rfl
  exact ⟨hw, (C165_of_writable false false (optRecord p) hw).2 ⟨rfl, rfl, rfl, rfl, nofun⟩⟩

/-- The array, its length from an integer. -/
example : Decl.inst ⟨true, true, false⟩
    [.field "n" (.int u8) (.bytes 1) .none none,
     .field "ps" (.array (.fieldList pointDecls) 2) (.var (.fromField "n")) .none none] = true :=
  (C165_of_readable true false _ rfl).2 ⟨rfl, rfl⟩

example := C165_spelled impl64 be64 tyId packetDecls spelled_packet
example := C165_lengths ⟨true, false, false⟩ rfl rfl sizedArray rfl
example : Decl.inst ⟨true, true, true⟩ packetDecls = true :=
  (C165_of_readable true true packetDecls rfl).2 ⟨rfl, (C165_spelled _ _ _ _ spelled_packet).2.1⟩

end S2S.Props
