import Verif.Lemmas.Room
import Verif.Props.Unsent
import Verif.Props.Streams
/-
C120: writing to a stream with room for so many bytes, exactly.
-/
namespace S2S.Props
open Spec Demo

variable {S : OutStream} {content : S.State → List Byte} {good : S.State → Prop}
  {room : S.State → Nat}

/-- C120. On a stream with room for so many bytes a write reports `buffer_exhaustion` at
field `id` if and only if the schema, the struct and the room say so: the fields before it
are sent and fit, and what it puts out does not fit after them. -/
theorem C120_exhausted_iff (cfg : Cfg) (fs : List Field) (hwf : WellFormed fs)
    (hc : Everywhere (TypedConsts cfg) fs)
    (hsafe : Everywhere (fun gs => Resolves gs ∧ WriteSafe cfg gs) fs) (vs : List Val)
    (hv : Typed cfg fs vs) (hC : Capacity S content good room) (s : S.State) (hg : good s)
    (id : String) :
    ((streamCast cfg fs vs).runOn S s).1 = .done (.error ⟨.bufferExhaustion, id⟩) ↔
      Overflows cfg fs vs (room s) id :=
  ⟨exhausts_overflows hC hwf hc hsafe hv s hg, overflows_exhausts hC hwf hc hv s hg⟩

/-- C120, where writing need not be defined: what does not fit is still refused, before
anything undefined happens. -/
theorem C120_overflow_exhausts (cfg : Cfg) (fs : List Field) (hwf : WellFormed fs)
    (hc : Everywhere (TypedConsts cfg) fs) (vs : List Val)
    (hv : Typed cfg fs vs) (hC : Capacity S content good room) (s : S.State) (hg : good s)
    (id : String) (h : Overflows cfg fs vs (room s) id) :
    ((streamCast cfg fs vs).runOn S s).1 = .done (.error ⟨.bufferExhaustion, id⟩) :=
  overflows_exhausts hC hwf hc hv s hg h

/-- C120. The write succeeds if and only if the struct is sent and its encoding fits; the
encoding is then what is on the stream, and the room for it is used up. -/
theorem C120_ok_iff (cfg : Cfg) (fs : List Field) (hwf : WellFormed fs)
    (hc : Everywhere (TypedConsts cfg) fs) (vs : List Val)
    (hv : Typed cfg fs vs) (hC : Capacity S content good room) (s : S.State) (hg : good s) :
    ((streamCast cfg fs vs).runOn S s).1 = .done (.ok ()) ↔
      ∃ us, Sent cfg fs vs us ∧ (wire cfg fs us).length ≤ room s ∧
        ∃ s', (streamCast cfg fs vs).runOn S s = (.done (.ok ()), s') ∧ good s' ∧
          content s' = content s ++ wire cfg fs us ∧ room s' = room s - (wire cfg fs us).length := by
  refine ⟨fun h => ?_, fun ⟨_, _, _, s', h, _⟩ => by rw [h]⟩
  rcases Wr.runOn_capacity hC (wshort_streamCast cfg fs vs) s hg with
    ⟨h1, s', h2, h3⟩ | ⟨-, a, s', h2, h3, -⟩
  · rw [h2] at h
    dsimp only at h
    obtain ⟨us, hs, hw⟩ := (C115_sends cfg fs hwf hc vs hv _).1
      (by rw [Wr.run_eq, ← h] : (streamCast cfg fs vs).run = (_, (Wr.out (streamCast cfg fs vs)).2))
    rw [hw] at h1 h3
    rw [h] at h2
    exact ⟨us, hs, h1, s', h2, h3⟩
  · rw [h3] at h
    cases h
    exact h2.elim

/-- C120. Room enough is exactly the length of the encoding. -/
theorem C120_enough (cfg : Cfg) (fs : List Field) (hwf : WellFormed fs)
    (hc : Everywhere (TypedConsts cfg) fs) (vs us : List Val)
    (hv : Typed cfg fs vs) (hC : Capacity S content good room) (s : S.State) (hg : good s)
    (hs : Sent cfg fs vs us) :
    ((streamCast cfg fs vs).runOn S s).1 = .done (.ok ()) ↔ (wire cfg fs us).length ≤ room s := by
  have ho := (C115_sends cfg fs hwf hc vs hv _).2 ⟨us, hs, rfl⟩
  rw [Wr.run_eq] at ho
  rcases Wr.runOn_capacity hC (wshort_streamCast cfg fs vs) s hg with
    ⟨h1, s', h2, -⟩ | ⟨h1, a, s', h2, h3, -⟩
  · rw [ho] at h1 h2
    rw [h2]
    exact iff_of_true rfl h1
  · rw [ho] at h1
    rw [h3]
    refine iff_of_false (fun h => ?_) (by simpa using h1)
    cases h
    exact h2.elim

/-- C120. Any other error is reported if and only if the struct is not sent for it and what
comes before it fits; that is then what is on the stream. -/
theorem C120_error_iff (cfg : Cfg) (fs : List Field) (hwf : WellFormed fs)
    (hc : Everywhere (TypedConsts cfg) fs) (vs : List Val)
    (hv : Typed cfg fs vs) (hC : Capacity S content good room) (s : S.State) (hg : good s)
    (r : Reason) (id : String) (hr : r ≠ .bufferExhaustion) :
    ((streamCast cfg fs vs).runOn S s).1 = .done (.error ⟨r, id⟩) ↔
      ∃ p, Unsent cfg fs vs r id p ∧ p.length ≤ room s ∧
        ∃ s', (streamCast cfg fs vs).runOn S s = (.done (.error ⟨r, id⟩), s') ∧ good s' ∧
          content s' = content s ++ p ∧ room s' = room s - p.length := by
  refine ⟨fun h => ?_, fun ⟨_, _, _, s', h, _⟩ => by rw [h]⟩
  rcases Wr.runOn_capacity hC (wshort_streamCast cfg fs vs) s hg with
    ⟨h1, s', h2, h3⟩ | ⟨-, a, s', h2, h3, -⟩
  · rw [h2] at h
    dsimp only at h
    rw [h] at h2
    exact ⟨_, (unsent_streamCast hwf.acceptable hc hv _ r id).1 (by rw [← h]), h1, s', h2, h3⟩
  · rw [h3] at h
    cases h
    exact (hr h2).elim

/-- C120. What decides is the length of what comes before the fault: with room for it the
error is that of the struct, without it that of the stream. -/
theorem C120_fault_or_room (cfg : Cfg) (fs : List Field) (hwf : WellFormed fs)
    (hc : Everywhere (TypedConsts cfg) fs) (vs : List Val)
    (hv : Typed cfg fs vs) (hC : Capacity S content good room) (s : S.State) (hg : good s)
    (r : Reason) (id : String) (p : List Byte) (hu : Unsent cfg fs vs r id p) :
    (((streamCast cfg fs vs).runOn S s).1 = .done (.error ⟨r, id⟩) ↔ p.length ≤ room s) ∧
    ((∃ id', ((streamCast cfg fs vs).runOn S s).1 = .done (.error ⟨.bufferExhaustion, id'⟩)) ↔
      room s < p.length) := by
  have ho := (unsent_streamCast hwf.acceptable hc hv p r id).2 hu
  have hne : r ≠ .bufferExhaustion := by
    obtain ⟨g, -, -, hr⟩ := fine_writeFields cfg fs ⟨fs, vs⟩ vs _ p ho
    exact hr.2.1
  rcases Wr.runOn_capacity hC (wshort_streamCast cfg fs vs) s hg with
    ⟨h1, s', h2, -⟩ | ⟨h1, a, s', h2, h3, -⟩
  · rw [ho] at h1 h2
    rw [h2]
    refine ⟨iff_of_true rfl h1, iff_of_false ?_ (by simpa using h1)⟩
    rintro ⟨id', h⟩
    cases h
    exact hne rfl
  · rw [ho] at h1
    rw [h3]
    rcases a with ⟨r', id'⟩ | a
    · dsimp only at h2
      subst h2
      refine ⟨iff_of_false (fun h => ?_) (by simpa using h1), iff_of_true ⟨id', rfl⟩ h1⟩
      cases h
      exact hne rfl
    · exact h2.elim

/-- C120. Where writing is defined exactly one of three happens: the struct is sent and
fits, it is not sent and what comes before the fault fits, or one field is the first that
does not fit. -/
theorem C120_three_ways (cfg : Cfg) (fs : List Field) (hwf : WellFormed fs)
    (hc : Everywhere (TypedConsts cfg) fs)
    (hsafe : Everywhere (fun gs => Resolves gs ∧ WriteSafe cfg gs) fs) (vs : List Val)
    (hv : Typed cfg fs vs) (n : Nat) :
    (∃ us, Sent cfg fs vs us ∧ (wire cfg fs us).length ≤ n ∧
      ∀ id, ¬ Overflows cfg fs vs n id) ∨
    (∃ r id p, Unsent cfg fs vs r id p ∧ p.length ≤ n ∧ ∀ id', ¬ Overflows cfg fs vs n id') ∨
    (∃ id, Overflows cfg fs vs n id ∧ (∀ id', Overflows cfg fs vs n id' → id' = id) ∧
      (∀ us, Sent cfg fs vs us → n < (wire cfg fs us).length) ∧
      ∀ r id' p, Unsent cfg fs vs r id' p → n < p.length) := by
  have hg : (fun s : (memstreamOut).State => s.2.2 = false) (n, [], false) := rfl
  have hE := C120_exhausted_iff cfg fs hwf hc hsafe vs hv memstreamOut_capacity (n, [], false) hg
  have hO := C120_ok_iff cfg fs hwf hc vs hv memstreamOut_capacity (n, [], false) hg
  have hR := C120_error_iff cfg fs hwf hc vs hv memstreamOut_capacity (n, [], false) hg
  have hEn := fun us => C120_enough cfg fs hwf hc vs us hv memstreamOut_capacity (n, [], false) hg
  have hF := fun r id p =>
    C120_fault_or_room cfg fs hwf hc vs hv memstreamOut_capacity (n, [], false) hg r id p
  obtain ⟨x, s', hd⟩ := C50_defined cfg fs hwf hsafe vs hv memstreamOut (n, [], false)
  rw [hd] at hE hO hEn hF
  simp only [hd] at hR
  rcases x with ⟨r, id⟩ | u
  · by_cases hr : r = .bufferExhaustion
    · subst hr
      refine .inr (.inr ⟨id, (hE id).1 rfl, fun id' h => ?_, fun us hs => ?_, fun r id' p hu => ?_⟩)
      · have := (hE id').2 h
        cases this
        rfl
      · have := mt (hEn us hs).2 (by simp)
        simpa using this
      · exact (hF r id' p hu).2.1 ⟨id, rfl⟩
    · obtain ⟨p, hu, hp, -⟩ := (hR r id hr).1 rfl
      refine .inr (.inl ⟨r, id, p, hu, hp, fun id' h => ?_⟩)
      have := (hE id').2 h
      cases this
      exact hr rfl
  · obtain ⟨us, hs, hp, -⟩ := hO.1 rfl
    refine .inl ⟨us, hs, hp, fun id h => ?_⟩
    have := (hE id).2 h
    cases this

/-- C120 for `memstream` (C24): whatever happens, what it holds in the end is what a stream
that takes everything would, cut to the room. -/
theorem C120_memstream (cfg : Cfg) (fs : List Field) (hwf : WellFormed fs)
    (hc : Everywhere (TypedConsts cfg) fs)
    (hsafe : Everywhere (fun gs => Resolves gs ∧ WriteSafe cfg gs) fs) (vs : List Val)
    (hv : Typed cfg fs vs) (n : Nat) (got : List Byte) (id : String) :
    (∃ q, (streamCast cfg fs vs).runOn memstreamOut (n, got, false) =
        (.done (.error ⟨.bufferExhaustion, id⟩), (0, got ++ q, true)) ∧ q.length = n ∧
        ((∃ us, Sent cfg fs vs us ∧ q <+: wire cfg fs us) ∨
          ∃ r id' p, Unsent cfg fs vs r id' p ∧ q <+: p)) ↔
      Overflows cfg fs vs n id := by
  have hE := C120_exhausted_iff cfg fs hwf hc hsafe vs hv memstreamOut_capacity (n, got, false)
    rfl id
  refine ⟨fun ⟨q, h, _⟩ => hE.1 (by rw [h]), fun h => ?_⟩
  have h1 := hE.2 h
  have hn : n < (Wr.out (streamCast cfg fs vs)).2.length := by
    rcases Wr.runOn_capacity memstreamOut_capacity (wshort_streamCast cfg fs vs) (n, got, false)
      rfl with ⟨_, s', h2, -⟩ | ⟨h2, -⟩
    · rw [h2] at h1
      obtain ⟨g, -, -, hr⟩ := fine_writeFields cfg fs ⟨fs, vs⟩ vs _
        (Wr.out (streamCast cfg fs vs)).2 (Prod.ext h1 rfl)
      exact (hr.2.1 rfl).elim
    · exact h2
  obtain ⟨a, -, h2⟩ := Wr.runOn_memstream (wshort_streamCast cfg fs vs) n got hn
  rw [h2] at h1
  dsimp only at h1
  rw [h1] at h2
  refine ⟨_, h2, by simp; omega, ?_⟩
  rcases C119_three_ways cfg fs hwf hc vs hv with ⟨us, hs, h3⟩ | ⟨r, id', p, hu, h3⟩ | ⟨-, -, w, p, h3⟩
  · rw [Wr.run_eq] at h3
    rw [h3]
    exact .inl ⟨us, hs, List.take_prefix ..⟩
  · rw [Wr.run_eq] at h3
    rw [h3]
    exact .inr ⟨r, id', p, hu, List.take_prefix ..⟩
  · obtain ⟨x, s', hd⟩ := C50_defined cfg fs hwf hsafe vs hv listOut ([] : List Byte)
    rw [Wr.runOn_listOut, ← Wr.run_eq, h3] at hd
    cases hd

/-! The packet of the demo. -/

private theorem packet_wf : WellFormed packet := by decide
private theorem packet_consts : Everywhere (TypedConsts be64) packet := by decide +kernel
private theorem packet_safe : Everywhere (fun gs => Resolves gs ∧ WriteSafe be64 gs) packet := by
  decide +kernel

-- seven bytes are out before `data`, and its six do not fit in the other three
example : Overflows be64 packet packetVal 10 "data" :=
  (C120_exhausted_iff be64 packet packet_wf packet_consts packet_safe packetVal (by decide +kernel)
    memstreamOut_capacity (10, [], false) rfl "data").1 (by rfl)
-- one byte more or less in the stream decides which field it is
example : Overflows be64 packet packetVal 12 "data" ∧ Overflows be64 packet packetVal 13 "body" :=
  ⟨(C120_exhausted_iff be64 packet packet_wf packet_consts packet_safe packetVal (by decide +kernel)
    memstreamOut_capacity (12, [], false) rfl "data").1 (by rfl),
   (C120_exhausted_iff be64 packet packet_wf packet_consts packet_safe packetVal (by decide +kernel)
    memstreamOut_capacity (13, [], false) rfl "body").1 (by rfl)⟩
-- the union would have been refused after ten bytes; there is room for nine
example : Overflows be64 packet [.int 0, .int 0, .int 0, .seq [.int 5],
    .var 1 (.seq [.int 2, .present (.int 3)]), .int 1] 9 "body" :=
  (C120_exhausted_iff be64 packet packet_wf packet_consts packet_safe _ (by decide +kernel)
    memstreamOut_capacity (9, [], false) rfl "body").1 (by rfl)
/-- From the definition, for every value and every stream with too little room. -/
example (x : Int) (hx : 0 ≤ x ∧ x < 4294967296) (hC : Capacity S content good room)
    (s : S.State) (hg : good s) (hr : room s < 4) :
    ((streamCast le64 [.plain "a" (.num u32 4) .none] [.int x]).runOn S s).1 =
      .done (.error ⟨.bufferExhaustion, "a"⟩) := by
  refine C120_overflow_exhausts le64 _ (by decide) (by decide +kernel) _ ?_ hC s hg "a" ?_
  · simp [Typed, TypedFields, TypedField, TypedKind]
    simpa [ScalarTy.InRange] using hx
  · refine ⟨[], _, [], [], _, [], [], _, rfl, rfl, rfl, by simp [SentFields],
      .inl ⟨.int x, ?_, rfl⟩, ?_, ?_⟩
    · simp [SentField]
      rw [if_neg (by decide)]
      simp [typedConst, Holds, SentKind]
      refine ⟨rfl, by decide, ?_, fun h => absurd h (by decide)⟩
      intro f v m hm ha
      simp only [List.zip_cons_cons, List.zip_nil_right, List.mem_singleton, Prod.mk.injEq] at hm
      obtain ⟨rfl, rfl⟩ := hm
      cases ha
    · simp [wireFields]
    · simp [wireFields, wireField]; simpa [wireKind] using hr

-- eighteen bytes are enough for the packet, seventeen are not
example : ((streamCast be64 packet packetVal).runOn memstreamOut (18, [], false)).1 = .done (.ok ()) :=
  (C120_ok_iff be64 packet (by decide) (by decide +kernel) packetVal (by decide +kernel) memstreamOut_capacity (18, [], false)
    rfl).2 ((C120_ok_iff be64 packet (by decide) (by decide +kernel) packetVal (by decide +kernel) memstreamOut_capacity
      (18, [], false) rfl).1 (by rfl))
example (us : List Val) (hs : Sent be64 packet packetVal us) : 17 < (wire be64 packet us).length := by
  refine Nat.lt_of_not_le fun h => ?_
  have := (C120_enough be64 packet (by decide) (by decide +kernel) packetVal us (by decide +kernel) memstreamOut_capacity
    (17, [], false) rfl hs).2 h
  cases this
-- the checksum is refused where there is room for what comes before it
example : ∃ p, Unsent be64 packet [.int 0, .int 0, .int 0, .seq [], .var 0 (.int 999), .int 0] .validationFailure "crc" p ∧
    p.length ≤ 11 := by
  obtain ⟨p, h1, h2, -⟩ := (C120_error_iff be64 packet (by decide) (by decide +kernel)
    [.int 0, .int 0, .int 0, .seq [], .var 0 (.int 999), .int 0] (by decide +kernel) memstreamOut_capacity (11, [], false) rfl .validationFailure "crc" (by decide)).1 (by rfl)
  exact ⟨p, h1, h2⟩
example (n : Nat) : (∃ id', ((streamCast be64 packet [.int 0, .int 0, .int 0, .seq [], .var 0 (.int 999), .int 0]).runOn
    memstreamOut (n, [], false)).1 = .done (.error ⟨.bufferExhaustion, id'⟩)) ↔ n < 11 :=
  (C120_fault_or_room be64 packet (by decide) (by decide +kernel) _ (by decide +kernel) memstreamOut_capacity
    (n, [], false) rfl .validationFailure "crc" [0, 0, 0x12, 0x34, 0, 0, 1, 0, 0, 3, 231]
    ((C119_unsent_iff be64 packet (by decide) (by decide +kernel) _ (by decide +kernel) _ _ _).1 (by rfl))).2
example (n : Nat) := C120_three_ways be64 packet (by decide) (by decide +kernel) (by decide +kernel) packetVal
  (by decide +kernel) n

end S2S.Props
