import Verif.Lemmas.Slots
import Verif.Lemmas.WriteTree
import Verif.Props.Rewrite
/-
C15, C16, C17, C18, C50, C51, C52, C53, C54: the slots the library fills, and typed
structs.
-/
namespace S2S.Props
open Spec Demo

/-- On a stream that refuses nothing, the fields `gs` with values `ws`, written as
part of the struct `vs` of the list `fs`, put exactly `q` on the stream. -/
abbrev Puts (cfg : Cfg) (fs : List Field) (vs : List Val) (gs : List Field) (ws : List Val)
    (q : List Byte) : Prop :=
  (writeFields cfg ⟨fs, vs⟩ gs ws).run = (.done (.ok ()), q)

/-- The bytes of a number are the number: the whole type is on the wire, or its low
bytes are. -/
abbrev Exact (cfg : Cfg) (t : ScalarTy) (w : Nat) : Prop :=
  w = t.size ∨ w < t.size ∧ cfg.wire = .little

/-! ## C50 -/

/-- C50. Writing a struct as C++ types it never leaves defined behaviour, on any
stream: lengths and discriminants name integer fields, constraints fit their fields,
widths do not exceed types, and no constraint but a magic string compares a
`fixed_string` with a string. -/
theorem C50_defined (cfg : Cfg) (fs : List Field) (hwf : WellFormed fs)
    (hsafe : Everywhere (fun gs => Resolves gs ∧ WriteSafe cfg gs) fs) (vs : List Val)
    (hty : Typed cfg fs vs) (S : OutStream) (s : S.State) :
    ∃ r s', (streamCast cfg fs vs).runOn S s = (.done r, s') := by
  obtain ⟨a, p, h⟩ := runs_streamCast hwf.acceptable hsafe hty
  rcases Wr.runOn_cases S (wshort_streamCast cfg fs vs) s with
    ⟨s', -, h1⟩ | ⟨a, _, _, _, s', -, -, -, -, h1⟩
  · rw [h] at h1; exact ⟨_, _, h1⟩
  · exact ⟨_, _, h1⟩

example : ∃ r s', (streamCast be64 packet packetVal).runOn memstreamOut (5, [], false) =
    (.done r, s') :=
  C50_defined be64 packet (by decide) (by decide +kernel) packetVal (by decide +kernel) _ _

/-- `variance<"u", .., as_fixed_string<1, neq{"a"}>>`. -/
def neqSchema : List Field :=
  [.plain "t" (.num u8 1) .none,
   .union "u" (.matchField "t" u8 [(i32, 1)]) [.mk (.fstr 1) (.strCmp false [97, 0])] .none]

/-- C50 without the condition on strings: comparing a `fixed_string` that has lost its
terminator runs over its end. -/
theorem C50_fails_unterminated :
    WellFormed neqSchema ∧ Typed le64 neqSchema [.int 0, .var 0 (.seq [.int 97, .int 98])] ∧
    (streamCast le64 neqSchema [.int 0, .var 0 (.seq [.int 97, .int 98])]).run =
      (.stuck .unterminated, [1]) :=
  ⟨by decide, by decide +kernel, by rfl⟩

/-- `magic_number<"m", u16, 4_B, 7>`. -/
def wideSchema : List Field := [.plain "m" (.num u16 4) (.cmp .eq u16 7)]

/-- C50 without the condition on widths: a declared size above `sizeof` makes the
writer read past the object. -/
theorem C50_fails_wide :
    WellFormed wideSchema ∧ Typed le64 wideSchema [.int 7] ∧
    (streamCast le64 wideSchema [.int 7]).run = (.stuck .outOfBounds, []) :=
  ⟨by decide, by decide +kernel, by rfl⟩

/-! ## C15 -/

/-- C15, first half: the length of a container is emitted as its element count. -/
theorem C15_length_partial (cfg : Cfg) (pre post : List Field) (id : String) (t : ScalarTy)
    (w : Nat) (c : Constraint) (vpre vpost : List Val) (v : Val)
    (hwf : WellFormed (pre ++ .plain id (.num t w) c :: post))
    (hl : vpre.length = pre.length)
    (hty : Typed cfg (pre ++ .plain id (.num t w) c :: post) (vpre ++ v :: vpost))
    (j : String) (k : Kind) (cj : Constraint) (us : List Val)
    (hm : (Field.plain j k cj, Val.seq us) ∈
      (pre ++ .plain id (.num t w) c :: post).zip (vpre ++ v :: vpost))
    (ht : k.lenTarget? = some id) (p : List Byte)
    (h : (streamCast cfg (pre ++ .plain id (.num t w) c :: post) (vpre ++ v :: vpost)).run =
      (.done (.ok ()), p)) :
    ∃ q r s, p = q ++ (r ++ s) ∧
      Puts cfg (pre ++ .plain id (.num t w) c :: post) (vpre ++ v :: vpost) pre vpre q ∧
      Puts cfg (pre ++ .plain id (.num t w) c :: post) (vpre ++ v :: vpost) post vpost s ∧
      r = wireScalar cfg.wire t.size w us.length ∧
      (Exact cfg t w → numeral cfg.wire r = us.length) := by
  have hcnt := counted_of_typed hwf.1 hty
  rw [Wr.run_eq] at h
  obtain ⟨q, r, s, rfl, h1, h2, h3⟩ := (emits_split hl).1 h
  have hprod : produced id (.plain j k cj) (.seq us) = some (us.length : Int) := by
    simp [produced, ht]
  obtain ⟨-, hfit, -, hr, -⟩ := slotStep_emits hcnt (isSlot_of_produced (mem_of_zip hm) hprod) h2
    (mem_producers hm hprod)
  have hus : us.length ≤ cfg.ptrdiffMax := by
    have h4 := typed_zip hty hm
    have h5 := sane_mem hwf.1 (mem_of_zip hm)
    rw [TypedField] at h4
    rw [saneField] at h5
    obtain ⟨us', he, hle⟩ := typed_container h5 h4 ht
    cases he
    exact hle
  rw [toSz_count hus] at hfit hr
  have hfit' := (fitsDeclaredWidth_iff hus).1 hfit
  rw [ScalarTy.conv_of_inRange _ _ hfit'.1] at hr
  refine ⟨q, r, s, rfl, by rw [Puts, Wr.run_eq]; exact h1, by rw [Puts, Wr.run_eq]; exact h3, hr,
    fun hex => ?_⟩
  have hn := numeral_wire (x := (us.length : Int)) hex
  rw [hr, ← Int.ofNat_inj, hn]
  exact Int.emod_eq_of_lt (by omega) (by have := hfit'.2; omega)

/-- C15, second half: what is stored in the slot makes no difference, on any stream,
if no callable of the list reads the slot. Missing: slots that are read by a
predicate, ladder or computation of the list, for which the statement is false. -/
theorem C15_stored_partial (cfg : Cfg) (pre post : List Field) (id : String) (t : ScalarTy)
    (w : Nat) (c : Constraint) (vpre vpost : List Val) (v v' : Val)
    (hl : vpre.length = pre.length)
    (hslot : ∃ j k cj, Field.plain j k cj ∈ pre ++ .plain id (.num t w) c :: post ∧
      k.lenTarget? = some id)
    (hr : ∀ f ∈ pre ++ Field.plain id (.num t w) c :: post, id ∉ callableReads f)
    (S : OutStream) (s : S.State) :
    (streamCast cfg (pre ++ .plain id (.num t w) c :: post) (vpre ++ v :: vpost)).runOn S s =
    (streamCast cfg (pre ++ .plain id (.num t w) c :: post) (vpre ++ v' :: vpost)).runOn S s := by
  rw [streamCast_ignores v v' hl rfl (.inl ?_) hr]
  obtain ⟨j, k, cj, hm, ht⟩ := hslot
  unfold isSlot
  rw [List.any_eq_true]
  exact ⟨_, hm, by simp [ht]⟩

/-- The packet of `Demo`, its length slot singled out. -/
example : ∃ q r s, packetBytes = q ++ (r ++ s) ∧
    Puts be64 packet packetVal (packet.take 1) (packetVal.take 1) q ∧
    Puts be64 packet packetVal (packet.drop 2) (packetVal.drop 2) s ∧
    r = wireScalar .big 2 2 3 ∧ (Exact be64 u16 2 → numeral .big r = 3) :=
  C15_length_partial be64 (packet.take 1) (packet.drop 2) "len" u16 2 .none (packetVal.take 1)
    (packetVal.drop 2) (.int 0) (by decide) rfl (by decide +kernel) "data"
    (.vec (.scalar u16) (.fromField "len") (some 64)) .none [.int 1, .int 2, .int 0xabcd]
    (by simp [packet, packetVal]) rfl _ (by rfl)

example (S : OutStream) (s : S.State) (v : Val) :
    (streamCast be64 packet packetVal).runOn S s =
    (streamCast be64 packet (packetVal.take 1 ++ v :: packetVal.drop 2)).runOn S s :=
  C15_stored_partial be64 (packet.take 1) (packet.drop 2) "len" u16 2 .none (packetVal.take 1)
    (packetVal.drop 2) (.int 0) v rfl ⟨"data", _, .none, by simp [packet]; rfl, rfl⟩
    (by decide +kernel) S s

/-- A length that a predicate reads. -/
def readLenSchema : List Field :=
  [.plain "len" (.num u8 1) .none,
   .maybe "b" (.num u8 1) ⟨["len"], fun vs => vs == [.int 1]⟩,
   .plain "data" (.vec (.scalar u8) (.fromField "len") none) .none]

/-- C15 fails when a callable reads the slot: it sees the stored value. -/
theorem C15_fails_stale :
    WellFormed readLenSchema ∧
    (streamCast le64 readLenSchema [.int 1, .present (.int 5), .seq [.int 9]]).run =
      (.done (.ok ()), [1, 5, 9]) ∧
    (streamCast le64 readLenSchema [.int 0, .present (.int 5), .seq [.int 9]]).run =
      (.done (.error ⟨.validationFailure, "b"⟩), [1]) :=
  ⟨by decide, by rfl, by rfl⟩

/-- C15 fails for slots narrower than their type in big endian: the high byte of the
count is emitted. -/
theorem C15_fails_narrow_big_endian :
    WellFormed narrowLenSchema ∧
    (streamCast be64 narrowLenSchema [.int 0, .seq [.int 9]]).run = (.done (.ok ()), [0, 9]) ∧
    numeral .big [0] ≠ 1 :=
  ⟨by decide, by rfl, by decide⟩

/-! ## C51 -/

/-- C51. Let a slot be full width or little endian, and let no callable of its list
read it. When the write succeeds, the bytes of the slot are the element count of
every container that takes its length from it, and what is stored in the slot makes
no difference to the write on any stream. -/
theorem C51_length (cfg : Cfg) (pre post : List Field) (id : String) (t : ScalarTy)
    (w : Nat) (c : Constraint) (vpre vpost : List Val) (v v' : Val)
    (hwf : WellFormed (pre ++ .plain id (.num t w) c :: post))
    (hl : vpre.length = pre.length)
    (hty : Typed cfg (pre ++ .plain id (.num t w) c :: post) (vpre ++ v :: vpost))
    (hex : Exact cfg t w)
    (hr : ∀ f ∈ pre ++ Field.plain id (.num t w) c :: post, id ∉ callableReads f)
    (j : String) (k : Kind) (cj : Constraint) (us : List Val)
    (hm : (Field.plain j k cj, Val.seq us) ∈
      (pre ++ .plain id (.num t w) c :: post).zip (vpre ++ v :: vpost))
    (ht : k.lenTarget? = some id) :
    (∀ p, (streamCast cfg (pre ++ .plain id (.num t w) c :: post) (vpre ++ v :: vpost)).run =
      (.done (.ok ()), p) → ∃ q r s, p = q ++ (r ++ s) ∧
        Puts cfg (pre ++ .plain id (.num t w) c :: post) (vpre ++ v :: vpost) pre vpre q ∧
        Puts cfg (pre ++ .plain id (.num t w) c :: post) (vpre ++ v :: vpost) post vpost s ∧
        r.length = w ∧ numeral cfg.wire r = us.length) ∧
    ∀ (S : OutStream) (s : S.State),
      (streamCast cfg (pre ++ .plain id (.num t w) c :: post) (vpre ++ v :: vpost)).runOn S s =
      (streamCast cfg (pre ++ .plain id (.num t w) c :: post) (vpre ++ v' :: vpost)).runOn S s := by
  refine ⟨fun p h => ?_, fun S s => C15_stored_partial cfg pre post id t w c vpre vpost v v' hl
    ⟨j, k, cj, mem_of_zip hm, ht⟩ hr S s⟩
  obtain ⟨q, r, s, h1, h2, h3, h4, h5⟩ := C15_length_partial cfg pre post id t w c vpre vpost v hwf
    hl hty j k cj us hm ht p h
  exact ⟨q, r, s, h1, h2, h3, by rw [h4, wireScalar_length], h5 hex⟩

example (v' : Val) := C51_length be64 (packet.take 1) (packet.drop 2) "len" u16 2 .none
    (packetVal.take 1) (packetVal.drop 2) (.int 0) v' (by decide) rfl (by decide +kernel)
    (by decide) (by decide +kernel) "data" (.vec (.scalar u16) (.fromField "len") (some 64)) .none
    [.int 1, .int 2, .int 0xabcd] (by simp [packet, packetVal]) rfl

/-! ## C16 -/

/-- C16, for labels that are values of the discriminant's type and of `std::size_t`
(or any label of a type no wider than that), distinct, on slots that are full width
or little endian: the slot is emitted as the label of the held alternative, a reader
of the slot's bytes gets that number, and on that number the switch selects the held
alternative. Missing: the other labels and slots, for which the statement is false,
and that the reader arrives at the slot in the first place (C52). -/
theorem C16_label_partial (cfg : Cfg) (pre post : List Field) (id : String) (t : ScalarTy)
    (w : Nat) (c : Constraint) (vpre vpost : List Val) (v : Val)
    (hwf : WellFormed (pre ++ .plain id (.num t w) c :: post))
    (hl : vpre.length = pre.length)
    (hty : Typed cfg (pre ++ .plain id (.num t w) c :: post) (vpre ++ v :: vpost))
    (hex : Exact cfg t w)
    (j : String) (labels : List (ScalarTy × Int)) (alts : List Alt) (cj : Constraint)
    (i : Nat) (u : Val)
    (hm : (Field.union j (.matchField id t labels) alts cj, Val.var i u) ∈
      (pre ++ .plain id (.num t w) c :: post).zip (vpre ++ v :: vpost))
    (hlab : (∀ l ∈ labels, t.InRange l.2 ∧
      (t.size ≤ cfg.szBytes ∨ 0 ≤ l.2 ∧ l.2 < (cfg.szMod : Nat))) ∧ (labels.map Prod.snd).Nodup)
    (p : List Byte)
    (h : (streamCast cfg (pre ++ .plain id (.num t w) c :: post) (vpre ++ v :: vpost)).run =
      (.done (.ok ()), p)) :
    ∃ l q r s, labels[i]? = some l ∧ p = q ++ (r ++ s) ∧
      Puts cfg (pre ++ .plain id (.num t w) c :: post) (vpre ++ v :: vpost) pre vpre q ∧
      Puts cfg (pre ++ .plain id (.num t w) c :: post) (vpre ++ v :: vpost) post vpost s ∧
      r = wireScalar cfg.wire t.size w l.2 ∧
      (∀ rest, (structCast cfg [.plain id (.num t w) .none]).run (r ++ rest) =
        (.done (.ok [.int l.2]), rest)) ∧
      (∀ env : Env, env id = some (.int l.2) →
        (Deducer.matchField id t labels).eval env = .ok (some i)) := by
  have hcnt := counted_of_typed hwf.1 hty
  rw [Wr.run_eq] at h
  obtain ⟨q, r, s, rfl, h1, h2, h3⟩ := (emits_split hl).1 h
  have hi : ∃ l, labels[i]? = some l := by
    have h4 := typed_zip hty hm
    have h5 := sane_mem hwf.1 (mem_of_zip hm)
    rw [TypedField] at h4
    rw [saneField, Bool.and_eq_true, decide_eq_true_eq] at h5
    have h6 : labels.length = alts.length := h5.1
    obtain ⟨a, ha, -⟩ := typedAlts_get h4
    obtain ⟨hlt, -⟩ := List.getElem?_eq_some_iff.1 ha
    exact ⟨_, List.getElem?_eq_getElem (by omega)⟩
  obtain ⟨l, hi⟩ := hi
  have hmem := List.mem_of_getElem? hi
  have hprod : produced id (.union j (.matchField id t labels) alts cj) (.var i u) = some l.2 := by
    simp [produced, hi]
  obtain ⟨-, hfit, -, hr, -⟩ := slotStep_emits hcnt (isSlot_of_produced (mem_of_zip hm) hprod) h2
    (mem_producers hm hprod)
  have hg := hlab.1 l hmem
  rw [conv_toSz hg.1 hg.2] at hr
  have hsf := derived_fits ⟨hg.2, .inr hg.1⟩ hfit hex
  refine ⟨l, q, r, s, hi, rfl, by rw [Puts, Wr.run_eq]; exact h1,
    by rw [Puts, Wr.run_eq]; exact h3, hr, fun rest => ?_, fun env henv => ?_⟩
  · rw [read_iff _ _ (by
      refine ⟨?_, ?_, ?_⟩ <;> simp [saneFields, saneField, saneKind, uniqueFields, uniqueField,
        uniqueKind, earlierFields, earlierField, earlierKind, fieldDeps, kindDeps])]
    refine ⟨⟨?_, ?_, ?_⟩, ?_⟩
    · simp only [FitsFields, FitsField, FitsKind, and_true]; exact hsf
    · simp only [OkFields, OkField, OkKind, true_and, and_true]; rfl
    · simp only [ShapedFields, ShapedField, ShapedKind, and_true]
    · rw [hr]; simp [wire, wireFields, wireField, wireKind]
  · simp only [Deducer.eval, henv]
    rw [switchIdx_self (fun l hl => (hlab.1 l hl).1) hlab.2 hi]

example := C16_label_partial be64 (packet.take 2) (packet.drop 3) "tag" u8 1 .none
    (packetVal.take 2) (packetVal.drop 3) (.int 0) (by decide) rfl (by decide +kernel)
    (by decide) "body" [(i32, 1), (i32, 7)]
    [.mk (.num u32 4) (.cmp .lt u32 1000), .mk (.record inner) .none] .none 1
    (.seq [.int (-1), .present (.int 0x0102)]) (by simp [packet, packetVal]) (by decide +kernel)
    packetBytes (by rfl)

/-- C16 fails for labels that are different but compare equal to the same
discriminant: alternative 1 is written, alternative 0 is read. -/
theorem C16_fails_clash :
    WellFormed clashSchema ∧ le64.toSz (-1) ≠ le64.toSz 0xFFFFFFFF ∧
    (streamCast le64 clashSchema [.int 0, .var 1 (.int 0x0102)]).run =
      (.done (.ok ()), [0xff, 0xff, 0xff, 0xff, 2, 1]) ∧
    (structCast le64 clashSchema).run [0xff, 0xff, 0xff, 0xff, 2, 1] =
      (.done (.ok [.int 0xFFFFFFFF, .var 0 (.int 2)]), [1]) :=
  ⟨by decide, by decide, by rfl, by rfl⟩

/-- `match_case<-1, u8>` on an `i64`. -/
def minusSchema : List Field :=
  [.plain "t" (.num i64 8) .none,
   .union "u" (.matchField "t" i64 [(i32, -1)]) [.mk (.num u8 1) .none] .none]

/-- C16 fails for a negative label of a discriminant wider than `std::size_t` (a 32-bit
platform): it is emitted as a positive number, which the reader does not match. -/
theorem C16_fails_wide :
    WellFormed minusSchema ∧
    (streamCast le32 minusSchema [.int 0, .var 0 (.int 7)]).run =
      (.done (.ok ()), [0xff, 0xff, 0xff, 0xff, 0, 0, 0, 0, 7]) ∧
    (structCast le32 minusSchema).run [0xff, 0xff, 0xff, 0xff, 0, 0, 0, 0, 7] =
      (.done (.error ⟨.typeDeductionFailure, "u"⟩), [7]) :=
  ⟨by decide, by rfl, by rfl⟩

/-! ## C52 -/

theorem settle_zip_mem {all : List Field} {vals : List Val} {fs : List Field} {vs : List Val}
    {f : Field} {v : Val} (h : (f, v) ∈ fs.zip vs) :
    (f, settleField all vals f v) ∈ fs.zip (settleFields all vals fs vs) := by
  induction fs generalizing vs with
  | nil => simp at h
  | cons g fs ih =>
    cases vs with
    | nil => simp at h
    | cons u vs =>
      rw [settleFields]
      rw [List.zip_cons_cons] at h ⊢
      rcases List.mem_cons.1 h with h | h
      · cases h; simp
      · exact List.mem_cons_of_mem _ (ih h)

/-- C52. For a self-consistent schema: if writing a struct succeeds, a reader of the
bytes, whatever follows them, finds in the discriminant the label of the alternative
that was held, and selects that alternative. -/
theorem C52_discriminant (cfg : Cfg) (fs : List Field) (hsc : SelfConsistent cfg fs)
    (vs : List Val) (hst : Storable cfg fs vs) (p : List Byte)
    (h : (streamCast cfg fs vs).run = (.done (.ok ()), p)) (rest : List Byte)
    (j id : String) (t : ScalarTy) (labels : List (ScalarTy × Int)) (alts : List Alt)
    (cj : Constraint) (i : Nat) (u : Val)
    (hm : (Field.union j (.matchField id t labels) alts cj, Val.var i u) ∈ fs.zip vs) :
    ∃ ws w c u' l, (structCast cfg fs).run (p ++ rest) = (.done (.ok ws), rest) ∧
      (Field.union j (.matchField id t labels) alts cj, Val.var i u') ∈ fs.zip ws ∧
      labels[i]? = some l ∧ (Field.plain id (.num t w) c, Val.int l.2) ∈ fs.zip ws := by
  have hres : Resolves fs := hsc.2.1.1
  have hu := hsc.1.2.1
  have hread := C45_round_trip cfg fs hsc vs hst p h rest
  have hcnt := counted_of_storable hsc.1.1 hu hres hst
  obtain ⟨i', u', he, hlt⟩ := hcnt.2 _ _ hm
  cases he
  simp only [arity] at hlt
  have hslot : isSlot fs id = true := by
    unfold isSlot
    rw [List.any_eq_true]
    exact ⟨_, mem_of_zip hm, by simp⟩
  have hsc' := (hres _ (mem_of_zip hm)).2
  simp only at hsc'
  obtain ⟨t', w, c, v, rfl, hz⟩ := scalar_zip hcnt.1 hsc'
  have hz' := settle_zip_mem (all := fs) (vals := vs) hz
  rw [settleField, if_pos hslot] at hz'
  have hm' := settle_zip_mem (all := fs) (vals := vs) hm
  rw [settleField] at hm'
  refine ⟨settle fs vs, w, c, _, labels[i], hread, hm', List.getElem?_eq_getElem hlt, ?_⟩
  have hprod : produced id (.union j (.matchField id t' labels) alts cj) (.var i u) =
      some labels[i].2 := by
    simp [produced, List.getElem?_eq_getElem hlt]
  obtain ⟨pre, post, vpre, vpost, rfl, rfl, hl⟩ := split_of_zip hz
  rw [Wr.run_eq] at h
  obtain ⟨q, r, s, rfl, -, h2, -⟩ := (emits_split hl).1 h
  have hmemp := mem_producers hm hprod
  obtain ⟨h4, -⟩ := slotStep_emits hcnt hslot h2 hmemp
  have hsv := slotValue_mem (producers_ne hcnt hslot)
  have h5 := h4 _ hsv
  have hpl := zip_split (post := post) (f := Field.plain id (.num t' w) c) (vpost := vpost) (v := v) hl
  have g1 := produced_good hu hres hsc.2.1.2.1 hcnt (mem_of_zip hpl) hmemp
  have g2 := produced_good hu hres hsc.2.1.2.1 hcnt (mem_of_zip hpl) hsv
  obtain ⟨-, hfit, -⟩ := slotStep_emits hcnt hslot h2 hmemp |>.2
  obtain ⟨hfit, -⟩ := slotStep_emits hcnt hslot h2 hmemp |>.2
  have e1 := (derived_exact g1 hfit).2.1
  rw [← h5] at hfit
  have e2 := (derived_exact g2 hfit).2.1
  have : slotValue (pre ++ Field.plain id (.num t' w) c :: post) (vpre ++ v :: vpost) id =
      labels[i].2 := by rw [← e1, ← e2, h5]
  rw [← this]
  exact hz'

example (rest : List Byte) := C52_discriminant be64 packet (by decide +kernel) packetVal
    (by decide +kernel) packetBytes (by rfl) rest "body" "tag" u8 [(i32, 1), (i32, 7)]
    [.mk (.num u32 4) (.cmp .lt u32 1000), .mk (.record inner) .none] .none 1
    (.seq [.int (-1), .present (.int 0x0102)]) (by simp [packet, packetVal])

/-! ## C17 -/

/-- The run of a list whose slot fails for sure: nothing of the slot or after it. -/
theorem slot_fails {cfg : Cfg} {fs : List Field} {vs : List Val} {pre post : List Field} {f : Field}
    {vpre vpost : List Val} {v : Val} {e : CastError} (hfs : fs = pre ++ f :: post)
    (hvs : vs = vpre ++ v :: vpost) (hl : vpre.length = pre.length)
    (h : Wr.out (writeStep cfg ⟨fs, vs⟩ f v) = (.done (.error e), [])) :
    (∀ q, Puts cfg fs vs pre vpre q → (streamCast cfg fs vs).run = (.done (.error e), q)) ∧
    ((∀ q, ¬ Puts cfg fs vs pre vpre q) →
      (streamCast cfg fs vs).run = (writeFields cfg ⟨fs, vs⟩ pre vpre).run) := by
  unfold Puts streamCast
  simp only [Wr.run_eq]
  constructor
  · intro q hq
    have := split_fails (post := post) (vpost := vpost) hl hq h
    rw [List.append_nil, ← hfs, ← hvs] at this
    exact this
  · intro hq
    have := split_stops (cfg := cfg) (ctx := ⟨fs, vs⟩) (post := post) (f := f) (vpost := vpost)
      (v := v) hl hq
    rw [← hfs, ← hvs] at this
    exact this

/-- C17, first half, for values that differ as `std::size_t`: the write fails at the
slot with nothing of it emitted, unless a field before it already stopped the write.
Missing: a label and a length, or two labels, that differ by a multiple of 2^32 on a
32-bit platform (`C17_fails_wide`). -/
theorem C17_contradiction_partial (cfg : Cfg) (pre post : List Field) (id : String) (t : ScalarTy)
    (w : Nat) (c : Constraint) (vpre vpost : List Val) (v : Val)
    (hwf : WellFormed (pre ++ .plain id (.num t w) c :: post))
    (hl : vpre.length = pre.length)
    (hty : Typed cfg (pre ++ .plain id (.num t w) c :: post) (vpre ++ v :: vpost))
    (f g : Field) (vf vg : Val) (a b : Int)
    (hf : (f, vf) ∈ (pre ++ .plain id (.num t w) c :: post).zip (vpre ++ v :: vpost))
    (hg : (g, vg) ∈ (pre ++ .plain id (.num t w) c :: post).zip (vpre ++ v :: vpost))
    (ha : produced id f vf = some a) (hb : produced id g vg = some b)
    (hne : cfg.toSz a ≠ cfg.toSz b) :
    (∀ q, Puts cfg (pre ++ .plain id (.num t w) c :: post) (vpre ++ v :: vpost) pre vpre q →
      (streamCast cfg (pre ++ .plain id (.num t w) c :: post) (vpre ++ v :: vpost)).run =
        (.done (.error ⟨.foundContradictingLength, id⟩), q)) ∧
    ((∀ q, ¬ Puts cfg (pre ++ .plain id (.num t w) c :: post) (vpre ++ v :: vpost) pre vpre q) →
      (streamCast cfg (pre ++ .plain id (.num t w) c :: post) (vpre ++ v :: vpost)).run =
        (writeFields cfg ⟨pre ++ .plain id (.num t w) c :: post, vpre ++ v :: vpost⟩
          pre vpre).run) :=
  slot_fails rfl rfl hl (slotStep_contra (counted_of_typed hwf.1 hty)
    (isSlot_of_produced (mem_of_zip hf) ha)
    ⟨a, mem_producers hf ha, b, mem_producers hg hb, hne⟩)

theorem activeLen_le {cfg : Cfg} {fs : List Field} {vs : List Val} (hs : saneFields fs = true)
    (hty : Typed cfg fs vs) {env : Env} {id : String} {f : Field} {v : Val} {m : Nat}
    (hm : (f, v) ∈ fs.zip vs) (h : ActiveLen env id f v m) : m ≤ cfg.ptrdiffMax := by
  have h1 := typed_zip hty hm
  have h2 := sane_mem hs (mem_of_zip hm)
  cases h with
  | optional ht hp =>
    rw [TypedField] at h1
    rw [saneField] at h2
    obtain ⟨us, he, hle⟩ := typed_container h2 h1 ht
    cases he; exact hle
  | alternative ha ht =>
    rw [TypedField] at h1
    rw [saneField, Bool.and_eq_true] at h2
    obtain ⟨a', ha', h3⟩ := typedAlts_get h1
    rw [ha] at ha'
    cases ha'
    obtain ⟨us, he, hle⟩ := typed_container (saneAlts_mem h2.2 ha) h3 ht
    cases he; exact hle

/-- C17, second half: if every field that implies a value for the slot implies `n`, and
every container in play inside an optional or a union that is sized by the slot has
`n` elements too, the write does not fail with `found_contradicting_length` at the
slot. -/
theorem C17_agreement_partial (cfg : Cfg) (fs : List Field) (id : String) (t : ScalarTy)
    (w : Nat) (c : Constraint) (vs : List Val) (n : Int)
    (hwf : WellFormed fs) (hty : Typed cfg fs vs) (hin : Field.plain id (.num t w) c ∈ fs)
    (hslot : isSlot fs id = true)
    (hall : ∀ f v a, (f, v) ∈ fs.zip vs → produced id f v = some a → a = n)
    (hact : ∀ f v m, (f, v) ∈ fs.zip vs → ActiveLen (envOf fs vs) id f v m → (m : Int) = n)
    (p : List Byte) :
    (streamCast cfg fs vs).run ≠ (.done (.error ⟨.foundContradictingLength, id⟩), p) := by
  intro h
  rw [Wr.run_eq] at h
  have hcnt := counted_of_typed hwf.1 hty
  obtain ⟨pre, f, post, vpre, v, vpost, q, r, rfl, rfl, hl, -, -, h2, hid⟩ := error_split h
  have hfe := field_inj hwf.2.1 hin (by simp : f ∈ pre ++ f :: post) hid
  subst hfe
  have hsv : slotValue (pre ++ Field.plain id (.num t w) c :: post) (vpre ++ v :: vpost) id = n := by
    obtain ⟨f, v, hz, hp⟩ := producers_mem (slotValue_mem (producers_ne hcnt hslot))
    exact hall f v _ hz hp
  rw [slotStep hslot] at h2
  rcases deriveValue_eq (t := t) (w := w) hcnt hslot with
    ⟨⟨y, hy, z, hz, hne⟩, -⟩ | ⟨-, ⟨hfit, hd⟩ | ⟨-, hd⟩⟩
  · obtain ⟨_, _, m1, e1⟩ := producers_mem hy
    obtain ⟨_, _, m2, e2⟩ := producers_mem hz
    rw [hall _ _ _ m1 e1, hall _ _ _ m2 e2] at hne
    exact hne rfl
  · rw [hd, hsv] at h2
    rw [hsv] at hfit
    rw [lift_ok_andThen] at h2
    simp only at h2
    cases hc : c.check (.int (t.conv (cfg.toSz n))) with
    | error s => rw [hc, lift_error_andThen, tag_out] at h2; simp [Wr.out] at h2
    | ok b =>
      rw [hc, lift_ok_andThen, tag_out] at h2
      cases b with
      | false => simp [WrE.err, Wr.out] at h2
      | true =>
        simp only [if_true] at h2
        have hto : cfg.toSz (t.conv (cfg.toSz n)) = cfg.toSz n := by
          unfold fitsDeclaredWidth at hfit
          rw [Bool.and_eq_true] at hfit
          exact beq_iff_eq.1 hfit.2
        rcases out_verifyThenWrite hwf.acceptable hty id t w (t.conv (cfg.toSz n)) with
          ⟨-, hv⟩ | ⟨⟨f, u, m, hz, ha, hne⟩, -⟩
        · rw [hv] at h2
          revert h2
          cases ho : Wr.out (writeNum cfg t w (t.conv (cfg.toSz n))) with
          | mk o b =>
            cases o with
            | done r =>
              cases r with
              | ok a => simp
              | error e => exact absurd ho (writeNum_no_error cfg t w _ e b)
            | stuck s => simp
        · have := hact f u m hz ha
          subst this
          rw [hto, toSz_count (activeLen_le hwf.1 hty hz ha)] at hne
          exact hne rfl
  · rw [hd, lift_ok_andThen, tag_out] at h2
    simp [WrE.err, Wr.out] at h2

/-- Two vectors with one length. -/
def sharedSchema : List Field :=
  [.plain "len" (.num u8 1) .none,
   .plain "a" (.vec (.scalar u8) (.fromField "len") none) .none,
   .plain "b" (.vec (.scalar u16) (.fromField "len") none) .none]

example := C17_contradiction_partial le64 [] (sharedSchema.drop 1) "len" u8 1 .none []
    [.seq [.int 1], .seq [.int 2, .int 3]] (.int 0) (by decide) rfl (by decide +kernel)
    (.plain "a" (.vec (.scalar u8) (.fromField "len") none) .none)
    (.plain "b" (.vec (.scalar u16) (.fromField "len") none) .none)
    (.seq [.int 1]) (.seq [.int 2, .int 3]) 1 2 (by simp [sharedSchema]) (by simp [sharedSchema])
    rfl rfl (by decide)

theorem sharedSchema_agreed (f : Field) (v : Val) (a : Int)
    (h : (f, v) ∈ sharedSchema.zip [.int 0, .seq [.int 4, .int 1], .seq [.int 2, .int 3]])
    (hp : produced "len" f v = some a) : a = 2 := by
  simp [sharedSchema] at h
  rcases h with ⟨rfl, rfl⟩ | ⟨rfl, rfl⟩ | ⟨rfl, rfl⟩ <;>
    simp [produced, Kind.lenTarget?] at hp <;> omega

example := C17_agreement_partial le64 sharedSchema "len" u8 1 .none
    [.int 0, .seq [.int 4, .int 1], .seq [.int 2, .int 3]] 2 (by decide) (by decide +kernel)
    (by simp [sharedSchema]) (by decide) sharedSchema_agreed
    (by
      intro f v m h ha
      simp [sharedSchema] at h
      rcases h with ⟨rfl, rfl⟩ | ⟨rfl, rfl⟩ | ⟨rfl, rfl⟩ <;> cases ha)

/-- A `u64` discriminant shared by two unions, whose labels differ by 2^32. -/
def twoLabelSchema : List Field :=
  [.plain "t" (.num u64 8) .none,
   .union "a" (.matchField "t" u64 [(i32, 1)]) [.mk (.num u8 1) .none] .none,
   .union "b" (.matchField "t" u64 [(u64, 0x100000001)]) [.mk (.num u8 1) .none] .none]

/-- C17 fails on a 32-bit platform for values wider than `std::size_t`: the two labels
are taken for the same, and what is written cannot be read. -/
theorem C17_fails_wide :
    WellFormed twoLabelSchema ∧
    (streamCast le32 twoLabelSchema [.int 0, .var 0 (.int 7), .var 0 (.int 8)]).run =
      (.done (.ok ()), [1, 0, 0, 0, 0, 0, 0, 0, 7, 8]) ∧
    (structCast le32 twoLabelSchema).run [1, 0, 0, 0, 0, 0, 0, 0, 7, 8] =
      (.done (.error ⟨.typeDeductionFailure, "b"⟩), [8]) :=
  ⟨by decide, by rfl, by rfl⟩

/-! ## C53 -/

/-- The labels unions match the slot `id` against are values of its type. -/
def LabelsOf (t : ScalarTy) (id : String) (fs : List Field) : Prop :=
  ∀ j t' labels alts c, Field.union j (.matchField id t' labels) alts c ∈ fs →
    ∀ l ∈ labels, t.InRange l.2

theorem produced_cases {cfg : Cfg} {fs : List Field} {vs : List Val} {t : ScalarTy} {id : String}
    (hcnt : Counted cfg fs vs) (hlab : LabelsOf t id fs) {f : Field} {v : Val} {a : Int}
    (hm : (f, v) ∈ fs.zip vs) (h : produced id f v = some a) :
    (∃ n : Nat, a = n ∧ n ≤ cfg.ptrdiffMax) ∨ t.InRange a := by
  have hfv := hcnt.2 _ _ hm
  have hf := mem_of_zip hm
  unfold produced at h
  split at h
  · split at h
    · rename_i ht
      cases h
      obtain ⟨us', he, h1⟩ := hfv id ht
      cases he
      exact .inl ⟨_, rfl, h1⟩
    · cases h
  · rename_i i m t' ls alts c' j w'
    split at h
    · rename_i ht
      subst ht
      cases hl : ls[j]? with
      | none => rw [hl] at h; cases h
      | some l =>
        rw [hl] at h
        cases h
        exact .inr (hlab _ _ _ _ _ hf _ (List.mem_of_getElem? hl))
    · cases h
  · cases h

theorem toSz_inj {cfg : Cfg} {t : ScalarTy} {a b : Int} (hsz : t.size ≤ cfg.szBytes)
    (ha : (∃ n : Nat, a = n ∧ n ≤ cfg.ptrdiffMax) ∨ t.InRange a)
    (hb : (∃ n : Nat, b = n ∧ n ≤ cfg.ptrdiffMax) ∨ t.InRange b)
    (h : cfg.toSz a = cfg.toSz b) : a = b := by
  have hpow : (256 ^ t.size : Nat) ≤ cfg.szMod := Nat.pow_le_pow_right (by omega) hsz
  have key : ∀ {n : Nat} {x : Int}, n ≤ cfg.ptrdiffMax → t.InRange x → cfg.toSz x = n →
      x = n := by
    intro n x hn hx h
    have hb := range_bound hx
    have hpt := ptrdiff_lt _ _ hn
    unfold Cfg.ptrdiffMax at hn
    rcases Int.lt_or_le x 0 with h0 | h0
    · have := toSz_neg (cfg := cfg) h0 (by omega)
      omega
    · have := toSz_of_range (cfg := cfg) h0 (by omega)
      omega
  rcases ha with ⟨n, rfl, hn⟩ | ha <;> rcases hb with ⟨m, rfl, hm⟩ | hb
  · rw [toSz_count hn, toSz_count hm] at h; rw [h]
  · rw [toSz_count hn] at h; exact (key hn hb h.symm).symm
  · rw [toSz_count hm] at h; exact key hm ha h
  · exact inRange_residue_inj ha hb hsz h

/-- C53. Let a slot be no wider than `std::size_t`, and the labels matched against it
be values of its type. If two fields imply different values for it, the write fails
with `found_contradicting_length` at the slot and nothing of it or after it is
emitted, unless a field before stopped the write already; if all fields that imply a
value and all containers in play agree, the write does not fail that way. -/
theorem C53_producers (cfg : Cfg) (pre post : List Field) (id : String) (t : ScalarTy)
    (w : Nat) (c : Constraint) (vpre vpost : List Val) (v : Val) (fs : List Field) (vs : List Val)
    (hfs : fs = pre ++ .plain id (.num t w) c :: post) (hvs : vs = vpre ++ v :: vpost)
    (hl : vpre.length = pre.length) (hwf : WellFormed fs) (hty : Typed cfg fs vs)
    (hsz : t.size ≤ cfg.szBytes) (hlab : LabelsOf t id fs) :
    (∀ f g vf vg a b, (f, vf) ∈ fs.zip vs → (g, vg) ∈ fs.zip vs → produced id f vf = some a →
      produced id g vg = some b → a ≠ b →
      (∀ q, Puts cfg fs vs pre vpre q →
        (streamCast cfg fs vs).run = (.done (.error ⟨.foundContradictingLength, id⟩), q)) ∧
      ((∀ q, ¬ Puts cfg fs vs pre vpre q) →
        (streamCast cfg fs vs).run = (writeFields cfg ⟨fs, vs⟩ pre vpre).run)) ∧
    (∀ n : Int, (∃ f vf, (f, vf) ∈ fs.zip vs ∧ produced id f vf = some n) →
      (∀ f vf a, (f, vf) ∈ fs.zip vs → produced id f vf = some a → a = n) →
      (∀ f vf m, (f, vf) ∈ fs.zip vs → ActiveLen (envOf fs vs) id f vf m → (m : Int) = n) →
      ∀ p, (streamCast cfg fs vs).run ≠
        (.done (.error ⟨.foundContradictingLength, id⟩), p)) := by
  subst hfs hvs
  have hcnt := counted_of_typed hwf.1 hty
  constructor
  · intro f g vf vg a b hf hg ha hb hne
    exact C17_contradiction_partial cfg pre post id t w c vpre vpost v hwf hl hty f g vf vg a b hf hg
      ha hb fun h => hne (toSz_inj hsz (produced_cases hcnt hlab hf ha)
        (produced_cases hcnt hlab hg hb) h)
  · rintro n ⟨f, vf, hf, hp⟩ hall hact p
    exact C17_agreement_partial cfg _ id t w c _ n hwf hty (by simp)
      (isSlot_of_produced (mem_of_zip hf) hp) hall hact p

example := C53_producers le64 [] (sharedSchema.drop 1) "len" u8 1 .none []
    [.seq [.int 1], .seq [.int 2, .int 3]] (.int 0) sharedSchema _ rfl rfl rfl (by decide)
    (by decide +kernel) (by decide) (by intro _ _ _ _ _ h; simp [sharedSchema] at h)

/-! ## C18 -/

/-- `x` can be put into a field of type `t` declared `w` bytes wide. -/
def Representable (t : ScalarTy) (w : Nat) (x : Int) : Prop :=
  t.InRange x ∧ (w < t.size → 0 ≤ x ∧ x < (256 ^ w : Nat))

/-- C18, for values that are lengths or values of the slot's type, and not wider than
`std::size_t`: a value that is not representable in the slot fails with
`validation_failure` there, nothing of it emitted; if the write succeeds the value is
representable and, for slots that are full width or little endian, is what a reader
of the slot gets. Missing: labels outside the slot's type, values wider than
`std::size_t`, narrow big-endian slots, and lengths that are verified, not derived;
the last two are counterexamples (`C18_fails_verified`, `C18_fails_narrow_big_endian`). -/
theorem C18_truncation_partial (cfg : Cfg) (pre post : List Field) (id : String) (t : ScalarTy)
    (w : Nat) (c : Constraint) (vpre vpost : List Val) (v : Val) (fs : List Field) (vs : List Val)
    (hfs : fs = pre ++ .plain id (.num t w) c :: post) (hvs : vs = vpre ++ v :: vpost)
    (hl : vpre.length = pre.length) (hwf : WellFormed fs) (hty : Typed cfg fs vs)
    (x : Int) (hx : (t.size ≤ cfg.szBytes ∨ 0 ≤ x ∧ x < (cfg.szMod : Nat)) ∧
      ((∃ n : Nat, x = n ∧ n ≤ cfg.ptrdiffMax) ∨ t.InRange x))
    (hsome : ∃ f vf, (f, vf) ∈ fs.zip vs ∧ produced id f vf = some x)
    (hall : ∀ f vf a, (f, vf) ∈ fs.zip vs → produced id f vf = some a → a = x) :
    (¬ Representable t w x →
      (∀ q, Puts cfg fs vs pre vpre q →
        (streamCast cfg fs vs).run = (.done (.error ⟨.validationFailure, id⟩), q)) ∧
      ((∀ q, ¬ Puts cfg fs vs pre vpre q) →
        (streamCast cfg fs vs).run = (writeFields cfg ⟨fs, vs⟩ pre vpre).run)) ∧
    (∀ p, (streamCast cfg fs vs).run = (.done (.ok ()), p) → Representable t w x ∧
      ∃ q r s, p = q ++ (r ++ s) ∧ Puts cfg fs vs pre vpre q ∧ Puts cfg fs vs post vpost s ∧
        r.length = w ∧ (Exact cfg t w →
          (numeral cfg.wire r : Int) = x % (256 ^ w : Nat) ∧
          ∀ rest, (structCast cfg [.plain id (.num t w) .none]).run (r ++ rest) =
            (.done (.ok [.int x]), rest))) := by
  subst hfs hvs
  have hcnt := counted_of_typed hwf.1 hty
  obtain ⟨f, vf, hf, hp⟩ := hsome
  have hslot := isSlot_of_produced (mem_of_zip hf) hp
  have hmem := mem_producers hf hp
  constructor
  · intro hrep
    refine slot_fails rfl rfl hl (slotStep_unfit hcnt hslot (x := x) ?_ ?_)
    · intro y hy
      obtain ⟨g, vg, hg, hq⟩ := producers_mem hy
      rw [hall g vg y hg hq]
    · rw [← Bool.not_eq_true]
      intro hfit
      have := derived_exact hx hfit
      exact hrep ⟨this.1, this.2.2⟩
  · intro p h
    rw [Wr.run_eq] at h
    obtain ⟨q, r, s, rfl, h1, h2, h3⟩ := (emits_split hl).1 h
    obtain ⟨-, hfit, -, hr, -⟩ := slotStep_emits hcnt hslot h2 hmem
    have hd := derived_exact hx hfit
    rw [hd.2.1] at hr
    refine ⟨⟨hd.1, hd.2.2⟩, q, r, s, rfl, by rw [Puts, Wr.run_eq]; exact h1,
      by rw [Puts, Wr.run_eq]; exact h3, by rw [hr, wireScalar_length], fun hex => ⟨?_, fun rest => ?_⟩⟩
    · rw [hr]; exact numeral_wire hex
    · rw [read_iff _ _ (by
        refine ⟨?_, ?_, ?_⟩ <;> simp [saneFields, saneField, saneKind, uniqueFields, uniqueField,
          uniqueKind, earlierFields, earlierField, earlierKind, fieldDeps, kindDeps])]
      refine ⟨⟨?_, ?_, ?_⟩, ?_⟩
      · simp only [FitsFields, FitsField, FitsKind, and_true]; exact derived_fits hx hfit hex
      · simp only [OkFields, OkField, OkKind, true_and, and_true]; rfl
      · simp only [ShapedFields, ShapedField, ShapedKind, and_true]
      · rw [hr]; simp [wire, wireFields, wireField, wireKind]

example := C18_truncation_partial le64 [] (sharedSchema.drop 1) "len" u8 1 .none []
    [.seq [.int 4, .int 1], .seq [.int 2, .int 3]] (.int 0) sharedSchema _ rfl rfl rfl (by decide)
    (by decide +kernel) 2 ⟨.inl (by decide), .inl ⟨2, rfl, by decide⟩⟩
    ⟨_, _, by simp [sharedSchema]; exact .inr (.inl ⟨rfl, rfl⟩), rfl⟩ sharedSchema_agreed

/-- A length of which one byte of two is on the wire, sizing an optional vector. -/
def verifiedSchema : List Field :=
  [.plain "len" (.num u16 1) .none,
   .maybe "data" (.vec (.scalar u8) (.fromField "len") none) ⟨["len"], fun _ => true⟩]

/-- C18 fails for lengths that are verified rather than derived: 300 agrees with the
container and is written as 44. -/
theorem C18_fails_verified :
    WellFormed verifiedSchema ∧
    Typed le64 verifiedSchema [.int 300, .present (.seq (List.replicate 300 (.int 0)))] ∧
    (streamCast le64 verifiedSchema
      [.int 300, .present (.seq (List.replicate 300 (.int 0)))]).run =
      (.done (.ok ()), 44 :: List.replicate 300 0) :=
  ⟨by decide, by decide +kernel, by decide +kernel⟩

/-- C18 fails for narrow slots in big endian: 1 fits a byte, and 0 is emitted. -/
theorem C18_fails_narrow_big_endian :
    Representable u16 1 1 ∧
    (streamCast be64 narrowLenSchema [.int 0, .seq [.int 9]]).run = (.done (.ok ()), [0, 9]) ∧
    (structCast be64 [.plain "len" (.num u16 1) .none]).run [0, 9] = (.done (.ok [.int 0]), [9]) :=
  ⟨by unfold Representable; decide, by rfl, by rfl⟩

/-! ## C54 -/

/-- C54. Let a slot be no wider than `std::size_t`, full width or little endian, and
the labels matched against it be values of its type; let `x` be what the fields imply
for it. If `x` is not representable in the slot, the write fails with
`validation_failure` there and nothing of the slot or after it is emitted, unless a
field before stopped the write already. If the write succeeds, a reader of the slot
gets `x`. -/
theorem C54_no_truncation (cfg : Cfg) (pre post : List Field) (id : String) (t : ScalarTy)
    (w : Nat) (c : Constraint) (vpre vpost : List Val) (v : Val) (fs : List Field) (vs : List Val)
    (hfs : fs = pre ++ .plain id (.num t w) c :: post) (hvs : vs = vpre ++ v :: vpost)
    (hl : vpre.length = pre.length) (hwf : WellFormed fs) (hty : Typed cfg fs vs)
    (hsz : t.size ≤ cfg.szBytes) (hex : Exact cfg t w) (hlab : LabelsOf t id fs) (x : Int)
    (hsome : ∃ f vf, (f, vf) ∈ fs.zip vs ∧ produced id f vf = some x)
    (hall : ∀ f vf a, (f, vf) ∈ fs.zip vs → produced id f vf = some a → a = x) :
    (¬ Representable t w x →
      (∀ q, Puts cfg fs vs pre vpre q →
        (streamCast cfg fs vs).run = (.done (.error ⟨.validationFailure, id⟩), q)) ∧
      ((∀ q, ¬ Puts cfg fs vs pre vpre q) →
        (streamCast cfg fs vs).run = (writeFields cfg ⟨fs, vs⟩ pre vpre).run)) ∧
    (∀ p, (streamCast cfg fs vs).run = (.done (.ok ()), p) →
      ∃ q r s, p = q ++ (r ++ s) ∧ Puts cfg fs vs pre vpre q ∧ Puts cfg fs vs post vpost s ∧
        ∀ rest, (structCast cfg [.plain id (.num t w) .none]).run (r ++ rest) =
            (.done (.ok [.int x]), rest)) := by
  obtain ⟨f, vf, hf, hp⟩ := hsome
  obtain ⟨h1, h2⟩ := C18_truncation_partial cfg pre post id t w c vpre vpost v fs vs hfs hvs hl hwf
    hty x ⟨.inl hsz, produced_cases (counted_of_typed hwf.1 hty) hlab hf hp⟩ ⟨f, vf, hf, hp⟩ hall
  refine ⟨h1, fun p h => ?_⟩
  obtain ⟨-, q, r, s, h3, h4, h5, -, h6⟩ := h2 p h
  exact ⟨q, r, s, h3, h4, h5, (h6 hex).2⟩

def zeros300 : List Val := List.replicate 300 (.int 0)

/-- 300 elements under a one-byte length. -/
example := C54_no_truncation le64 [] (narrowLenSchema.drop 1) "len" u16 1 .none []
    [.seq zeros300] (.int 0) narrowLenSchema _ rfl rfl rfl (by decide)
    (by decide +kernel) (by decide) (by decide)
    (by intro _ _ _ _ _ h; simp [narrowLenSchema] at h) 300
    ⟨_, _, by simp [narrowLenSchema]; exact .inr ⟨rfl, rfl⟩, by decide +kernel⟩
    (by
      intro f v a h hp
      have hz : zeros300.length = 300 := List.length_replicate
      simp [narrowLenSchema] at h
      rcases h with ⟨rfl, rfl⟩ | ⟨rfl, rfl⟩
      · simp [produced] at hp
      · simp [produced, Kind.lenTarget?, hz] at hp
        omega)

end S2S.Props
