import Verif.Lemmas.Unsent
import Verif.Lemmas.WriteTree
import Verif.Props.Sent
/-
C119: which error a write reports, exactly, and what is on the wire when it does.
-/
namespace S2S.Props
open Spec Demo

/-- C119. For every well-formed schema and every struct as C++ types it, on a stream that
takes everything: a write reports reason `r` at field `id` with `p` on the wire if and only
if the schema and the struct say so: the fields before it are sent, it is not, for `r`, and
`p` is the encodings of those fields and of what of the field itself came first. -/
theorem C119_unsent_iff (cfg : Cfg) (fs : List Field) (hwf : WellFormed fs)
    (hc : Everywhere (TypedConsts cfg) fs) (vs : List Val) (hv : Typed cfg fs vs) (p : List Byte)
    (r : Reason) (id : String) :
    (streamCast cfg fs vs).run = (.done (.error ⟨r, id⟩), p) ↔ Unsent cfg fs vs r id p := by
  rw [Wr.run_eq]
  exact unsent_streamCast hwf.acceptable hc hv p r id

/-- C119, on every output stream whatever: an error other than `buffer_exhaustion` is the
one the schema and the struct say, and the stream has accepted exactly those bytes. -/
theorem C119_streams (cfg : Cfg) (fs : List Field) (hwf : WellFormed fs)
    (hc : Everywhere (TypedConsts cfg) fs) (vs : List Val) (hv : Typed cfg fs vs) (S : OutStream)
    (s s' : S.State) (r : Reason) (id : String) (hr : r ≠ .bufferExhaustion)
    (h : (streamCast cfg fs vs).runOn S s = (.done (.error ⟨r, id⟩), s')) :
    ∃ p, Unsent cfg fs vs r id p ∧ Accepted S s p s' := by
  rcases Wr.runOn_cases S (wshort_streamCast cfg fs vs) s with
    ⟨s1, hacc, h1⟩ | ⟨a, _, _, _, s1, hP, -, -, -, h1⟩
  · rw [h1] at h
    cases ho : Wr.out (streamCast cfg fs vs) with
    | mk o p =>
      rw [ho] at h hacc
      cases h
      exact ⟨p, (unsent_streamCast hwf.acceptable hc hv p r id).1 ho, hacc⟩
  · rw [h1] at h
    cases h
    exact (hr hP).elim

/-- C119, the other way: where the schema and the struct say that a write fails, it fails
on every stream; with that error, or because the stream refused some of the bytes before. -/
theorem C119_on_every_stream (cfg : Cfg) (fs : List Field) (hwf : WellFormed fs)
    (hc : Everywhere (TypedConsts cfg) fs) (vs : List Val) (hv : Typed cfg fs vs) (S : OutStream)
    (s : S.State) (r : Reason) (id : String) (p : List Byte) (hu : Unsent cfg fs vs r id p) :
    ∃ s', ((streamCast cfg fs vs).runOn S s = (.done (.error ⟨r, id⟩), s') ∧ Accepted S s p s') ∨
      ∃ id' pre bs s1, (streamCast cfg fs vs).runOn S s =
          (.done (.error ⟨.bufferExhaustion, id'⟩), s') ∧
        (pre ++ bs) <+: p ∧ Accepted S s pre s1 ∧ S.write s1 bs = (false, s') := by
  have ho := (unsent_streamCast hwf.acceptable hc hv p r id).2 hu
  rcases Wr.runOn_cases S (wshort_streamCast cfg fs vs) s with
    ⟨s1, hacc, h1⟩ | ⟨a, pre, bs, s1, s2, hP, hp, hacc, hw, h1⟩
  · rw [ho] at h1 hacc
    exact ⟨s1, .inl ⟨h1, hacc⟩⟩
  · rw [ho] at hp
    rcases a with ⟨r', id'⟩ | a
    · dsimp only at hP
      subst hP
      exact ⟨s2, .inr ⟨id', pre, bs, s1, h1, hp, hacc, hw⟩⟩
    · exact hP.elim

/-- C119. Three things can happen, and which one does is settled by the schema and the
struct: it is sent; it is not, and the error says why and where; or neither, and the write
leaves defined behaviour. -/
theorem C119_three_ways (cfg : Cfg) (fs : List Field) (hwf : WellFormed fs)
    (hc : Everywhere (TypedConsts cfg) fs) (vs : List Val) (hv : Typed cfg fs vs) :
    (∃ us, Sent cfg fs vs us ∧ (streamCast cfg fs vs).run = (.done (.ok ()), wire cfg fs us)) ∨
    (∃ r id p, Unsent cfg fs vs r id p ∧
      (streamCast cfg fs vs).run = (.done (.error ⟨r, id⟩), p)) ∨
    ((∀ us, ¬ Sent cfg fs vs us) ∧ (∀ r id p, ¬ Unsent cfg fs vs r id p) ∧
      ∃ w p, (streamCast cfg fs vs).run = (.stuck w, p)) := by
  cases h : (streamCast cfg fs vs).run with
  | mk o p =>
    cases o with
    | stuck w =>
      refine .inr (.inr ⟨?_, ?_, w, p, rfl⟩)
      · intro us hs
        have := (C115_sends cfg fs hwf hc vs hv _).2 ⟨us, hs, rfl⟩
        rw [h] at this
        cases this
      · intro r id q hu
        rw [← C119_unsent_iff cfg fs hwf hc vs hv, h] at hu
        cases hu
    | done x =>
      cases x with
      | ok u =>
        obtain ⟨us, hs, rfl⟩ := (C115_sends cfg fs hwf hc vs hv p).1 h
        exact .inl ⟨us, hs, rfl⟩
      | error e =>
        exact .inr (.inl ⟨e.reason, e.failedAt, p,
          (C119_unsent_iff cfg fs hwf hc vs hv p _ _).1 h, rfl⟩)

/-- C119. No struct fails in two ways, and none that is sent fails. -/
theorem C119_one_way (cfg : Cfg) (fs : List Field) (hwf : WellFormed fs)
    (hc : Everywhere (TypedConsts cfg) fs) (vs : List Val) (hv : Typed cfg fs vs) (r : Reason)
    (id : String) (p : List Byte) (h : Unsent cfg fs vs r id p) :
    (∀ r' id' p', Unsent cfg fs vs r' id' p' → r' = r ∧ id' = id ∧ p' = p) ∧
      ∀ us, ¬ Sent cfg fs vs us := by
  rw [← C119_unsent_iff cfg fs hwf hc vs hv] at h
  refine ⟨fun r' id' p' h' => ?_, fun us hs => ?_⟩
  · rw [← C119_unsent_iff cfg fs hwf hc vs hv, h] at h'
    cases h'
    exact ⟨rfl, rfl, rfl⟩
  · have := (C115_sends cfg fs hwf hc vs hv _).2 ⟨us, hs, rfl⟩
    rw [h] at this
    cases this

/-- C119, where writing is defined (C50): what is not sent fails, and conversely. -/
theorem C119_sent_or_not (cfg : Cfg) (fs : List Field) (hwf : WellFormed fs)
    (hc : Everywhere (TypedConsts cfg) fs)
    (hsafe : Everywhere (fun gs => Resolves gs ∧ WriteSafe cfg gs) fs) (vs : List Val)
    (hv : Typed cfg fs vs) :
    (¬ ∃ us, Sent cfg fs vs us) ↔ ∃ r id p, Unsent cfg fs vs r id p := by
  constructor
  · intro hn
    rcases C119_three_ways cfg fs hwf hc vs hv with
      ⟨us, hs, -⟩ | ⟨r, id, p, hu, -⟩ | ⟨-, -, w, p, h⟩
    · exact (hn ⟨us, hs⟩).elim
    · exact ⟨r, id, p, hu⟩
    · obtain ⟨x, s', hd⟩ := C50_defined cfg fs hwf hsafe vs hv listOut ([] : List Byte)
      rw [Wr.runOn_listOut, ← Wr.run_eq, h] at hd
      cases hd
  · rintro ⟨r, id, p, hu⟩ ⟨us, hs⟩
    exact (C119_one_way cfg fs hwf hc vs hv r id p hu).2 us hs

/-- C119. A record inside a struct is not sent for the reason a write of it by itself would
report, after the same bytes; the name of the field of the record is dropped. -/
theorem C119_nested (cfg : Cfg) (all : List Field) (vals : List Val) (id : String)
    (c : Constraint) (fs : List Field) (vs : List Val) (r : Reason) (q : List Byte) :
    KindUnsent cfg all vals id c r (.record fs) (.seq vs) q ↔ ∃ id', Unsent cfg fs vs r id' q := by
  unfold Unsent
  simp only [KindUnsent, ← fieldsUnsent_split]
  constructor
  · rintro ⟨_, id', h0, h⟩; cases h0; exact ⟨id', h⟩
  · rintro ⟨id', h⟩; exact ⟨vs, id', rfl, h⟩

/-! The packet of the demo, refused inside the record its union holds after half of that
record is out, at the constraint of an alternative, and at its last constraint. -/

private theorem packet_wf : WellFormed packet := by decide
private theorem packet_consts : Everywhere (TypedConsts be64) packet := by decide +kernel

-- `a` is on the wire when the optional turns out to be there without reason
example : Unsent be64 packet [.int 0, .int 0, .int 0, .seq [.int 5],
    .var 1 (.seq [.int 2, .present (.int 3)]), .int 1] .validationFailure "body"
    [0, 0, 0x12, 0x34, 0, 1, 7, 0, 5, 2] :=
  (C119_unsent_iff be64 packet packet_wf packet_consts _ (by decide +kernel) _ _ _).1 (by rfl)
example : Unsent be64 packet [.int 0, .int 0, .int 0, .seq [], .var 0 (.int 1000), .int 1]
    .validationFailure "body" [0, 0, 0x12, 0x34, 0, 0, 1] :=
  (C119_unsent_iff be64 packet packet_wf packet_consts _ (by decide +kernel) _ _ _).1 (by rfl)
example : Unsent be64 packet [.int 0, .int 0, .int 0, .seq [], .var 0 (.int 999), .int 0]
    .validationFailure "crc" [0, 0, 0x12, 0x34, 0, 0, 1, 0, 0, 3, 231] :=
  (C119_unsent_iff be64 packet packet_wf packet_consts _ (by decide +kernel) _ _ _).1 (by rfl)

/-- Two containers share a length and differ, whatever the sizes: from the definition,
without running the writer. -/
example (m n : Nat) (hm : m < 1000) (hn : n < 1000) (hne : m ≠ n) :
    (streamCast le64 sharedSchema
      [.int 0, .seq (List.replicate m (.int 7)), .seq (List.replicate n (.int 8))]).run =
      (.done (.error ⟨.foundContradictingLength, "len"⟩), []) := by
  refine (C119_unsent_iff le64 sharedSchema (by decide) (by decide +kernel) _ ?_ _ _ _).2 ?_
  · simp only [Typed, sharedSchema, TypedFields, TypedField, TypedKind, List.length_replicate,
      List.mem_replicate, and_imp, forall_eq_apply_imp_iff]
    refine ⟨by decide, ⟨?_, ?_⟩, ⟨?_, ?_⟩, trivial⟩
    · exact Nat.le_trans (m := 1000) (by rw [show (ElemTy.scalar u8).size = 1 by rfl]; omega) (by decide)
    · intro _; decide
    · exact Nat.le_trans (m := 2000) (by rw [show (ElemTy.scalar u16).size = 2 by rfl]; omega) (by decide)
    · intro _; decide
  · refine ⟨[], _, _, [], _, _, [], [], rfl, rfl, rfl, ⟨rfl, rfl⟩, ?_, rfl⟩
    simp only [FieldUnsent]
    rw [if_pos (by decide)]
    simp only [KindUnsent]
    refine ⟨trivial, ?_⟩
    rw [if_pos (by decide)]
    refine .inl (.inl ⟨rfl, m, ?_, n, ?_, ?_⟩)
    · simp [producers, sharedSchema, produced, Kind.lenTarget?, Kind.lenSpec?]
    · simp [producers, sharedSchema, produced, Kind.lenTarget?, Kind.lenSpec?]
    · rw [show le64.szMod = 18446744073709551616 by decide]
      omega

/-- A length of one byte, and more elements than it can say: nothing is on the wire. -/
example : Unsent le64 ceilingSchema [.int 0, .seq (List.replicate 256 (.int 0))]
    .validationFailure "len" [] :=
  (C119_unsent_iff le64 ceilingSchema (by decide) (by decide +kernel) _ (by decide +kernel) _ _ _).1
    (by decide +kernel)

/-- No room for the last field: the stream is what fails, though the struct would have. -/
example : (streamCast be64 packet [.int 0, .int 0, .int 0, .seq [], .var 0 (.int 999), .int 0]).runOn
    (memstreamOut : OutStream) (8, [], false) =
      (.done (.error ⟨.bufferExhaustion, "body"⟩), (0, [0, 0, 0x12, 0x34, 0, 0, 1, 0], true)) := by rfl

/-- On a stream with room for eleven bytes a checksum of nought is what the struct is refused for. -/
example : ∃ p, Unsent be64 packet [.int 0, .int 0, .int 0, .seq [], .var 0 (.int 999), .int 0] .validationFailure "crc" p ∧
    Accepted memstreamOut (11, [], false) p (0, [0, 0, 0x12, 0x34, 0, 0, 1, 0, 0, 3, 231], false) :=
  C119_streams be64 packet (by decide) (by decide +kernel) _ (by decide +kernel) memstreamOut _ _ _ _ (by decide) (by rfl)
example (S : OutStream) (s : S.State) := C119_on_every_stream be64 packet (by decide) (by decide +kernel)
  [.int 0, .int 0, .int 0, .seq [], .var 0 (.int 999), .int 0] (by decide +kernel) S s .validationFailure "crc"
  [0, 0, 0x12, 0x34, 0, 0, 1, 0, 0, 3, 231]
  ((C119_unsent_iff be64 packet (by decide) (by decide +kernel) _ (by decide +kernel) _ _ _).1 (by rfl))
example (us : List Val) : ¬ Sent be64 packet [.int 0, .int 0, .int 0, .seq [], .var 0 (.int 999), .int 0] us :=
  (C119_one_way be64 packet (by decide) (by decide +kernel) _ (by decide +kernel) .validationFailure "crc"
    [0, 0, 0x12, 0x34, 0, 0, 1, 0, 0, 3, 231]
    ((C119_unsent_iff be64 packet (by decide) (by decide +kernel) _ (by decide +kernel) _ _ _).1 (by rfl))).2 us
example := C119_three_ways be64 packet (by decide) (by decide +kernel) packetVal (by decide +kernel)
example : ∃ r id p, Unsent be64 packet [.int 0, .int 0, .int 0, .seq [], .var 0 (.int 999), .int 0] r id p :=
  (C119_sent_or_not be64 packet (by decide) (by decide +kernel) (by decide +kernel) _ (by decide +kernel)).1 fun ⟨us, h⟩ =>
    (C119_one_way be64 packet (by decide) (by decide +kernel) _ (by decide +kernel) .validationFailure "crc"
      [0, 0, 0x12, 0x34, 0, 0, 1, 0, 0, 3, 231]
      ((C119_unsent_iff be64 packet (by decide) (by decide +kernel) _ (by decide +kernel) _ _ _).1 (by rfl))).2 us h

end S2S.Props
