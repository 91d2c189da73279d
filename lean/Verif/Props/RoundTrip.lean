import Verif.Lemmas.SettleIdem
import Verif.Props.Reading
import Verif.Spec.Decide
/-
C01, C37, C38, C40, C45-C48: what is written can be read back.
-/
namespace S2S.Props
open Spec Demo

theorem SelfConsistent.writable {cfg : Cfg} {fs : List Field} (h : SelfConsistent cfg fs) :
    Everywhere (Writable cfg) fs :=
  everywhere_mono (fun _ h => ⟨h.1, h.2.1, h.2.2.1, h.2.2.2.1⟩) h.2

theorem SelfConsistent.fresh {cfg : Cfg} {fs : List Field} (h : SelfConsistent cfg fs) :
    Everywhere Fresh fs :=
  everywhere_mono (fun _ h => ⟨h.1, h.2.2.2.2⟩) h.2

/-- Writer = format: a successful write emits the encoding of the struct with its
slots filled, and that is a struct of the schema. -/
theorem write_sound (cfg : Cfg) (fs : List Field) (hsc : SelfConsistent cfg fs) (vs : List Val)
    (hst : Storable cfg fs vs) (p : List Byte)
    (h : (streamCast cfg fs vs).run = (.done (.ok ()), p)) :
    Valid cfg fs (settle fs vs) ∧ p = wire cfg fs (settle fs vs) := by
  have hu := hsc.1.2.1
  have hw := SelfConsistent.writable hsc
  rw [streamCast_settle cfg fs hu (SelfConsistent.fresh hsc), Wr.run_eq] at h
  have := sound_list cfg fs hsc.1.1 hu hw.1 hw.2 (settle fs vs) p (storable_settle hst)
    (settle_settle hu (everywhere_mono (fun _ h => h.resolves) hw) vs) h
  exact ⟨this.2, this.1⟩

/-! ## C45 -/

/-- C45. For a self-consistent schema: if writing a struct succeeds, reading the
emitted bytes, whatever follows them, gives the struct with its slots filled and
leaves exactly what follows. -/
theorem C45_round_trip (cfg : Cfg) (fs : List Field) (hsc : SelfConsistent cfg fs) (vs : List Val)
    (hst : Storable cfg fs vs) (p : List Byte)
    (h : (streamCast cfg fs vs).run = (.done (.ok ()), p)) (rest : List Byte) :
    (structCast cfg fs).run (p ++ rest) = (.done (.ok (settle fs vs)), rest) := by
  obtain ⟨h1, rfl⟩ := write_sound cfg fs hsc vs hst p h
  exact (read_iff cfg fs hsc.1 _ rest _).2 ⟨h1, rfl⟩

example (rest : List Byte) :
    (structCast be64 packet).run (packetBytes ++ rest) = (.done (.ok packetParsed), rest) :=
  C45_round_trip be64 packet (by decide +kernel) packetVal (by decide +kernel) packetBytes
    (by rfl) rest

/-! ## C01 -/

/-- C01. The round trip, under the conditions of C45. Missing: schemas the library
accepts that are not self-consistent, and values that do not fit their declared
widths and ceilings. For those the statement is false, see the witnesses below. -/
theorem C01_round_trip_partial (cfg : Cfg) (fs : List Field) (hsc : SelfConsistent cfg fs)
    (vs : List Val) (hst : Storable cfg fs vs) (p : List Byte)
    (h : (streamCast cfg fs vs).run = (.done (.ok ()), p)) (rest : List Byte) :
    (structCast cfg fs).run (p ++ rest) = (.done (.ok (settle fs vs)), rest) :=
  C45_round_trip cfg fs hsc vs hst p h rest

example (rest : List Byte) :
    (structCast be64 packet).run (packetBytes ++ rest) = (.done (.ok packetParsed), rest) :=
  C01_round_trip_partial be64 packet (by decide +kernel) packetVal (by decide +kernel) packetBytes
    (by rfl) rest

/-- A magic number and an optional that looks at it. -/
def staleSchema : List Field :=
  [.plain "ver" (.num u8 1) (.cmp .eq i32 1),
   .maybe "x" (.num u16 2) ⟨["ver"], fun vs => vs == [.int 1]⟩]

/-- C01 fails when a callable looks at a slot the library fills: the untouched
struct is written, and its bytes cannot be read. -/
theorem C01_fails_stale_callable :
    WellFormed staleSchema ∧ Storable le64 staleSchema [.int 0, .absent] ∧
    (streamCast le64 staleSchema [.int 0, .absent]).run = (.done (.ok ()), [1]) ∧
    (structCast le64 staleSchema).run [1] = (.done (.error ⟨.bufferExhaustion, "x"⟩), []) :=
  ⟨by decide, by decide +kernel, by rfl, by rfl⟩

/-- `magic_number<"m", u8, 1_B, 300>`. -/
def lossySchema : List Field := [.plain "m" (.num u8 1) (.cmp .eq i32 300)]

/-- C01 fails when a constant does not fit its field: it is written truncated and
rejected on reading. -/
theorem C01_fails_lossy_constant :
    WellFormed lossySchema ∧ Storable le64 lossySchema [.int 0] ∧
    (streamCast le64 lossySchema [.int 0]).run = (.done (.ok ()), [44]) ∧
    (structCast le64 lossySchema).run [44] = (.done (.error ⟨.validationFailure, "m"⟩), []) :=
  ⟨by decide, by decide +kernel, by rfl, by rfl⟩

/-- `match_case<-1, u8>, match_case<0xFFFFFFFF, u16>` on a `u32`: distinct as
`std::size_t` (`has_unique_match_values`), equal as the reader compares them. -/
def clashSchema : List Field :=
  [.plain "t" (.num u32 4) .none,
   .union "u" (.matchField "t" u32 [(i32, -1), (u32, 0xFFFFFFFF)])
     [.mk (.num u8 1) .none, .mk (.num u16 2) .none] .none]

/-- C01 fails when two labels compare equal: the other alternative is read. -/
theorem C01_fails_label_clash :
    WellFormed clashSchema ∧ Storable le64 clashSchema [.int 0, .var 1 (.int 0x0102)] ∧
    (streamCast le64 clashSchema [.int 0, .var 1 (.int 0x0102)]).run =
      (.done (.ok ()), [0xff, 0xff, 0xff, 0xff, 2, 1]) ∧
    (structCast le64 clashSchema).run [0xff, 0xff, 0xff, 0xff, 2, 1] =
      (.done (.ok [.int 0xFFFFFFFF, .var 0 (.int 2)]), [1]) :=
  ⟨by decide, by decide +kernel, by rfl, by rfl⟩

/-- `basic_field<"len", u16, 1_B>` sizing a vector of bytes. -/
def narrowLenSchema : List Field :=
  [.plain "len" (.num u16 1) .none,
   .plain "data" (.vec (.scalar u8) (.fromField "len") none) .none]

/-- C01 fails for a length narrower than its type in big endian: one element is
written under the length 0. -/
theorem C01_fails_narrow_big_endian_slot :
    WellFormed narrowLenSchema ∧ Storable be64 narrowLenSchema [.int 0, .seq [.int 9]] ∧
    (streamCast be64 narrowLenSchema [.int 0, .seq [.int 9]]).run = (.done (.ok ()), [0, 9]) ∧
    (structCast be64 narrowLenSchema).run [0, 9] = (.done (.ok [.int 0, .seq []]), [9]) :=
  ⟨by decide, by decide +kernel, by rfl, by rfl⟩

/-- A vector of at most two bytes. -/
def ceilingSchema : List Field :=
  [.plain "len" (.num u8 1) .none,
   .plain "data" (.vec (.scalar u8) (.fromField "len") (some 2)) .none]

/-- C01 fails for a container larger than its own ceiling (not `Storable`): the
writer does not look at the ceiling. -/
theorem C01_fails_above_ceiling :
    SelfConsistent le64 ceilingSchema ∧
    (streamCast le64 ceilingSchema [.int 0, .seq [.int 1, .int 2, .int 3]]).run =
      (.done (.ok ()), [3, 1, 2, 3]) ∧
    (structCast le64 ceilingSchema).run [3, 1, 2, 3] =
      (.done (.error ⟨.excessiveLength, "data"⟩), [1, 2, 3]) :=
  ⟨by decide +kernel, by rfl, by rfl⟩

/-- `basic_field<"x", u16, 1_B>`. -/
def narrowSchema : List Field := [.plain "x" (.num u16 1) .none]

/-- C01 fails for values beyond a declared width (not `Storable`): they are
silently cut. -/
theorem C01_fails_above_width :
    SelfConsistent le64 narrowSchema ∧
    (streamCast le64 narrowSchema [.int 0x0102]).run = (.done (.ok ()), [2]) ∧
    (structCast le64 narrowSchema).run [2] = (.done (.ok [.int 2]), []) :=
  ⟨by decide +kernel, by rfl, by rfl⟩

/-! ## C46, C37 -/

/-- C46. Of two successfully written structs of a self-consistent schema no encoding
is a proper prefix of the other, and structs with equal encodings are equal up to
the slots the library fills. -/
theorem C46_unique_decoding (cfg : Cfg) (fs : List Field) (hsc : SelfConsistent cfg fs)
    (vs ws : List Val) (hv : Storable cfg fs vs) (hw : Storable cfg fs ws) (p q : List Byte)
    (h1 : (streamCast cfg fs vs).run = (.done (.ok ()), p))
    (h2 : (streamCast cfg fs ws).run = (.done (.ok ()), q)) (hpq : p <+: q) :
    p = q ∧ settle fs vs = settle fs ws := by
  obtain ⟨r, rfl⟩ := hpq
  have a := C45_round_trip cfg fs hsc vs hv p h1 r
  have b := C45_round_trip cfg fs hsc ws hw (p ++ r) h2 []
  rw [List.append_nil, a] at b
  simp only [Prod.mk.injEq, Outcome.done.injEq, Except.ok.injEq] at b
  obtain ⟨hb, rfl⟩ := b
  exact ⟨(List.append_nil p).symm, hb⟩

example (ws : List Val) (hw : Storable be64 packet ws)
    (h : (streamCast be64 packet ws).run = (.done (.ok ()), packetBytes)) :
    settle packet ws = packetParsed :=
  (C46_unique_decoding be64 packet (by decide +kernel) packetVal ws (by decide +kernel) hw
    packetBytes packetBytes (by rfl) h (List.prefix_refl _)).2.symm

/-- C37. As C46. Missing: schemas that are not self-consistent and values beyond their
declared widths or ceilings, for which it is false (witness below). -/
theorem C37_unique_decoding_partial (cfg : Cfg) (fs : List Field) (hsc : SelfConsistent cfg fs)
    (vs ws : List Val) (hv : Storable cfg fs vs) (hw : Storable cfg fs ws) (p q : List Byte)
    (h1 : (streamCast cfg fs vs).run = (.done (.ok ()), p))
    (h2 : (streamCast cfg fs ws).run = (.done (.ok ()), q)) (hpq : p <+: q) :
    p = q ∧ settle fs vs = settle fs ws :=
  C46_unique_decoding cfg fs hsc vs ws hv hw p q h1 h2 hpq

example : ¬ ∃ q, packetBytes <+: q ∧ q ≠ packetBytes ∧
    (streamCast be64 packet packetParsed).run = (.done (.ok ()), q) := by
  rintro ⟨q, hq, hne, h⟩
  exact hne (C37_unique_decoding_partial be64 packet (by decide +kernel) packetVal packetParsed
    (by decide +kernel) (by decide +kernel) packetBytes q (by rfl) h hq).1.symm

/-- C37 fails for values beyond their declared width: two different values, one
encoding. -/
theorem C37_fails_above_width :
    SelfConsistent le64 narrowSchema ∧
    (streamCast le64 narrowSchema [.int 0x0102]).run = (.done (.ok ()), [2]) ∧
    (streamCast le64 narrowSchema [.int 0x0302]).run = (.done (.ok ()), [2]) ∧
    settle narrowSchema [.int 0x0102] ≠ settle narrowSchema [.int 0x0302] :=
  ⟨by decide +kernel, by rfl, by rfl, by decide +kernel⟩

/-! ## C47, C38 -/

/-- One struct after the other on one stream; stops at the first failure. -/
def writeMany (cfg : Cfg) (S : OutStream) : List (List Field × List Val) → S.State →
    Outcome (Except CastError Unit) × S.State
  | [], s => (.done (.ok ()), s)
  | (fs, vs) :: more, s =>
      match (streamCast cfg fs vs).runOn S s with
      | (.done (.ok ()), s') => writeMany cfg S more s'
      | r => r

/-- One schema after the other from one stream; stops at the first failure. -/
def readMany (cfg : Cfg) (S : InStream) : List (List Field) → S.State →
    Outcome (Except CastError (List (List Val))) × S.State
  | [], s => (.done (.ok []), s)
  | fs :: more, s =>
      match (structCast cfg fs).runOn S s with
      | (.done (.ok vs), s') =>
          match readMany cfg S more s' with
          | (.done (.ok vss), s'') => (.done (.ok (vs :: vss)), s'')
          | r => r
      | (.done (.error e), s') => (.done (.error e), s')
      | (.stuck w, s') => (.stuck w, s')

theorem writeMany_bytes (cfg : Cfg) (hist : List (List Field × List Val))
    (hok : ∀ x ∈ hist, SelfConsistent cfg x.1 ∧ Storable cfg x.1 x.2) (before after : List Byte)
    (h : writeMany cfg listOut hist before = (.done (.ok ()), after)) :
    ∃ p, after = before ++ p ∧ ∀ rest,
      readMany cfg listIn (hist.map Prod.fst) (p ++ rest : List Byte) =
        (.done (.ok (hist.map fun x => settle x.1 x.2)), rest) := by
  induction hist generalizing before with
  | nil => cases h; exact ⟨[], by simp, fun rest => rfl⟩
  | cons x hist ih =>
    obtain ⟨fs, vs⟩ := x
    simp only [writeMany] at h
    rw [Wr.runOn_listOut] at h
    rcases ho : (streamCast cfg fs vs).out with ⟨o, b⟩
    rw [ho] at h
    rcases o with (e | u) | w
    · cases h
    · obtain ⟨p, rfl, hp⟩ := ih (fun x hx => hok x (List.mem_cons_of_mem _ hx)) _ h
      have hx := hok (fs, vs) (by simp)
      have hrun : (streamCast cfg fs vs).run = (.done (.ok ()), b) := by
        rw [Wr.run_eq, ho]
      refine ⟨b ++ p, List.append_assoc .., fun rest => ?_⟩
      have := C45_round_trip cfg fs hx.1 vs hx.2 _ hrun (p ++ rest)
      rw [Rd.run] at this
      rw [List.append_assoc]
      simp only [List.map_cons, readMany]
      rw [this]
      simp only
      rw [hp rest]
      rfl
    · cases h

/-- C47. Any number of structs of self-consistent schemas, written one after another
to one stream that already holds `before`, are read back in the same order from
what was added, and the stream is consumed exactly. -/
theorem C47_sequences (cfg : Cfg) (hist : List (List Field × List Val))
    (hok : ∀ x ∈ hist, SelfConsistent cfg x.1 ∧ Storable cfg x.1 x.2) (before after : List Byte)
    (h : writeMany cfg listOut hist before = (.done (.ok ()), after)) :
    ∃ p, after = before ++ p ∧ ∀ rest,
      readMany cfg listIn (hist.map Prod.fst) (p ++ rest : List Byte) =
        (.done (.ok (hist.map fun x => settle x.1 x.2)), rest) :=
  writeMany_bytes cfg hist hok before after h

example : ∃ p, [7] ++ packetBytes ++ [2, 1, 2] = [7] ++ p ∧ ∀ rest,
    readMany be64 listIn [packet, ceilingSchema] (p ++ rest : List Byte) =
      (.done (.ok [packetParsed, [.int 2, .seq [.int 1, .int 2]]]), rest) :=
  C47_sequences be64 [(packet, packetVal), (ceilingSchema, [.int 0, .seq [.int 1, .int 2]])]
    (by decide +kernel) [7] _ (by rfl)

/-- C38. As C47. Missing: schemas that are not self-consistent and values that do not
fit, for which already a sequence of one fails (`C01_fails_*`). -/
theorem C38_sequences_partial (cfg : Cfg) (hist : List (List Field × List Val))
    (hok : ∀ x ∈ hist, SelfConsistent cfg x.1 ∧ Storable cfg x.1 x.2) (before after : List Byte)
    (h : writeMany cfg listOut hist before = (.done (.ok ()), after)) :
    ∃ p, after = before ++ p ∧ ∀ rest,
      readMany cfg listIn (hist.map Prod.fst) (p ++ rest : List Byte) =
        (.done (.ok (hist.map fun x => settle x.1 x.2)), rest) :=
  writeMany_bytes cfg hist hok before after h

example : ∃ p, packetBytes ++ packetBytes ++ [1, 9] = [] ++ p ∧ ∀ rest,
    readMany be64 listIn [packet, packet, ceilingSchema] (p ++ rest : List Byte) =
      (.done (.ok [packetParsed, packetParsed, [.int 1, .seq [.int 9]]]), rest) :=
  C38_sequences_partial be64
    [(packet, packetVal), (packet, packetParsed), (ceilingSchema, [.int 77, .seq [.int 9]])]
    (by decide +kernel) [] _ (by rfl)

/-- `basic_field<"next", u8, 1_B>`. -/
def nextSchema : List Field := [.plain "next" (.num u8 1) .none]

/-- C38 fails for clashing labels: the first struct is read back one byte too short, the
second from the byte left over, and every cast succeeds. -/
theorem C38_fails_label_clash :
    writeMany le64 listOut [(clashSchema, [.int 0, .var 1 (.int 0x0102)]), (nextSchema, [.int 7])]
      ([] : List Byte) = (.done (.ok ()), [0xff, 0xff, 0xff, 0xff, 2, 1, 7]) ∧
    readMany le64 listIn [clashSchema, nextSchema] ([0xff, 0xff, 0xff, 0xff, 2, 1, 7] : List Byte) =
      (.done (.ok [[.int 0xFFFFFFFF, .var 0 (.int 2)], [.int 1]]), [7]) :=
  ⟨by rfl, by rfl⟩

/-! ## C48, C40 -/

/-- C48. If no callable (and no constraint over a record) sees a slot the library
fills, two structs that differ only in such slots, at any nesting level, behave
identically on every stream. -/
theorem C48_slots_ignored (cfg : Cfg) (fs : List Field) (hu : uniqueFields [] fs = true)
    (hfr : Everywhere (fun fs => Resolves fs ∧ NoStale fs) fs) (vs ws : List Val)
    (h : settle fs vs = settle fs ws) (S : OutStream) (s : S.State) :
    (streamCast cfg fs vs).runOn S s = (streamCast cfg fs ws).runOn S s := by
  rw [streamCast_settle cfg fs hu hfr vs, streamCast_settle cfg fs hu hfr ws, h]

example (S : OutStream) (s : S.State) :
    (streamCast be64 packet packetVal).runOn S s = (streamCast be64 packet packetParsed).runOn S s :=
  C48_slots_ignored be64 packet (by decide) (by decide +kernel) _ _ (by decide +kernel) S s

/-- C40, first half: as C48. -/
theorem C40_slots_ignored (cfg : Cfg) (fs : List Field) (hu : uniqueFields [] fs = true)
    (hfr : Everywhere (fun fs => Resolves fs ∧ NoStale fs) fs) (vs ws : List Val)
    (h : settle fs vs = settle fs ws) (S : OutStream) (s : S.State) :
    (streamCast cfg fs vs).runOn S s = (streamCast cfg fs ws).runOn S s :=
  C48_slots_ignored cfg fs hu hfr vs ws h S s

/-- A record with a length of its own, twice. -/
def nestedSlots : List Field :=
  [.plain "n" (.num u8 1) .none,
   .plain "rs" (.vecRec ceilingSchema (.fromField "n") none 32) .none]

example : (streamCast le64 nestedSlots
      [.int 0, .seq [.seq [.int 5, .seq [.int 1]], .seq [.int 6, .seq []]]]).run =
    (streamCast le64 nestedSlots
      [.int 9, .seq [.seq [.int 0, .seq [.int 1]], .seq [.int 1, .seq []]]]).run :=
  C40_slots_ignored le64 nestedSlots (by decide) (by decide +kernel) _ _ (by decide +kernel)
    listOut ([] : List Byte)

/-- C40, second half. Writing what was read back from a written struct emits the same bytes. Missing: schemas that are not
self-consistent, where it fails (`C40_fails_label_clash`). -/
theorem C40_rewrite_partial (cfg : Cfg) (fs : List Field) (hsc : SelfConsistent cfg fs) (vs : List Val)
    (hst : Storable cfg fs vs) (p rest rest' : List Byte) (ws : List Val)
    (h : (streamCast cfg fs vs).run = (.done (.ok ()), p))
    (hr : (structCast cfg fs).run (p ++ rest) = (.done (.ok ws), rest')) :
    (streamCast cfg fs ws).run = (.done (.ok ()), p) := by
  rw [C45_round_trip cfg fs hsc vs hst p h rest] at hr
  cases hr
  rw [← streamCast_settle cfg fs hsc.1.2.1 (SelfConsistent.fresh hsc), h]

example (ws : List Val) (rest' : List Byte)
    (h : (structCast be64 packet).run (packetBytes ++ [5]) = (.done (.ok ws), rest')) :
    (streamCast be64 packet ws).run = (.done (.ok ()), packetBytes) :=
  C40_rewrite_partial be64 packet (by decide +kernel) packetVal (by decide +kernel) packetBytes [5] rest' ws
    (by rfl) h

/-- Without the condition on callables the stored value of a slot decides the
outcome. -/
theorem C40_fails_stale_callable :
    settle staleSchema [.int 0, .absent] = settle staleSchema [.int 1, .absent] ∧
    (streamCast le64 staleSchema [.int 0, .absent]).run = (.done (.ok ()), [1]) ∧
    (streamCast le64 staleSchema [.int 1, .absent]).run =
      (.done (.error ⟨.validationFailure, "x"⟩), [1]) :=
  ⟨by decide +kernel, by rfl, by rfl⟩

/-- With clashing labels the struct read back cannot be written at all, although no
callable reads a slot. -/
theorem C40_fails_label_clash :
    Everywhere (fun fs => Resolves fs ∧ NoStale fs) clashSchema ∧
    (streamCast le64 clashSchema [.int 0, .var 1 (.int 0x0102)]).run =
      (.done (.ok ()), [0xff, 0xff, 0xff, 0xff, 2, 1]) ∧
    (structCast le64 clashSchema).run [0xff, 0xff, 0xff, 0xff, 2, 1] =
      (.done (.ok [.int 0xFFFFFFFF, .var 0 (.int 2)]), [1]) ∧
    (streamCast le64 clashSchema [.int 0xFFFFFFFF, .var 0 (.int 2)]).run =
      (.done (.error ⟨.validationFailure, "t"⟩), []) :=
  ⟨by decide +kernel, by rfl, by rfl, by rfl⟩

end S2S.Props
