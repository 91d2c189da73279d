import Verif.Lemmas.OnStream
import Verif.Props.Reading
import Verif.Props.Slots
/-
C24, C44: casts on streams that stop, or have stopped.
-/
namespace S2S.Props
open Spec Demo

/-! ## C24 -/

/-- A write that was stopped by the stream while writing one of the fields, `f`: that
field is named with `buffer_exhaustion`; the stream has received the fields before it
completely, and of what a healthy stream would have received for it an initial part. -/
def Stopped (cfg : Cfg) (fs : List Field) (vs : List Val) (o : Outcome (Except CastError Unit))
    (got : List Byte) : Prop :=
  ∃ pre f post vpre v vpost q r part, fs = pre ++ f :: post ∧ vs = vpre ++ v :: vpost ∧
    vpre.length = pre.length ∧ o = .done (.error ⟨.bufferExhaustion, f.id⟩) ∧
    Puts cfg fs vs pre vpre q ∧
    (writeFields cfg ⟨fs, vs⟩ (pre ++ [f]) (vpre ++ [v])).run.2 = q ++ r ∧
    part <+: r ∧ got = q ++ part

theorem runOn_stopped {cfg : Cfg} {fs : List Field} {vs : List Val} {S : OutStream}
    {content : S.State → List Byte} {good : S.State → Prop} (hS : OutContract S content good)
    {s s' : S.State} {e : CastError}
    (h : (streamCast cfg fs vs).runOn S s = (.done (.error e), s'))
    (he : e.reason = .bufferExhaustion) :
    ∃ got, content s' = content s ++ got ∧ got <+: (streamCast cfg fs vs).run.2 ∧
      Stopped cfg fs vs (.done (.error e)) got := by
  obtain ⟨pre, f, post, vpre, v, vpost, s1, rfl, rfl, hl, hid, h1, h2⟩ := runOn_error_split h
  rcases Wr.runOn_cases S (wshort_writeFields cfg pre ⟨_, _⟩ vpre) s with
    ⟨s2, ha, hr⟩ | ⟨a, _, _, _, s2, hP, -, -, -, hr⟩
  case inr => rw [h1] at hr; cases hr; exact hP.elim
  rw [h1, Prod.mk.injEq] at hr
  obtain ⟨hr, rfl⟩ := hr
  have hq : (writeFields cfg ⟨pre ++ f :: post, vpre ++ v :: vpost⟩ pre vpre).Emits
      (Wr.out (writeFields cfg ⟨pre ++ f :: post, vpre ++ v :: vpost⟩ pre vpre)).2 () :=
    Prod.ext hr.symm rfl
  have hpre := out_prefix cfg ⟨pre ++ f :: post, vpre ++ v :: vpost⟩ pre post f vpre vpost v hl hq
  rcases Wr.runOn_cases S (wshort_writeStep cfg ⟨_, _⟩ f v) s1 with
    ⟨s2, -, hr2⟩ | ⟨a, p, bs, s2, s3, -, hp, hacc, hw, hr2⟩
  · rw [h2, Prod.mk.injEq] at hr2
    have hf := fine_writeFields cfg (pre ++ f :: post) ⟨pre ++ f :: post, vpre ++ v :: vpost⟩
      (vpre ++ v :: vpost) e _ (split_fails hl hq (Prod.ext hr2.1.symm rfl))
    obtain ⟨_, _, _, _, h3, _⟩ := hf
    exact absurd he h3
  · rw [h2] at hr2
    cases hr2
    obtain ⟨-, part, hpart, hc⟩ := hS.refuse _ _ _ hw
    have hpp : p ++ part <+:
        (Wr.out (writeStep cfg ⟨pre ++ f :: post, vpre ++ v :: vpost⟩ f v)).2 :=
      ((List.prefix_append_right_inj p).2 hpart).trans hp
    refine ⟨_ ++ (p ++ part), ?_, ?_, pre, f, post, vpre, v, vpost, _, _, p ++ part, rfl, rfl, hl,
      ?_, (Wr.run_eq _).trans hq, ?_, hpp, rfl⟩
    · rw [hc, accepted_content hS hacc, accepted_content hS ha, List.append_assoc, List.append_assoc]
    · rw [Wr.run_eq]
      exact ((List.prefix_append_right_inj _).2 hpp).trans hpre
    · rw [← he, ← hid]
    · rw [Wr.run_eq, writeFields_append _ _ _ _ _ _ hl, WrE.out_andThen, hq]
      simp only [writeFields_single]

/-- C24. On a stream that may stop accepting at any byte: it accepted everything, and the
outcome is that on a healthy stream; or the write was stopped at a field, the stream is
bad, and what it received is a prefix of what a healthy stream would have. -/
theorem C24_prefix (cfg : Cfg) (fs : List Field) (vs : List Val) (S : OutStream)
    (content : S.State → List Byte) (good : S.State → Prop) (hS : OutContract S content good)
    (s s' : S.State) (o : Outcome (Except CastError Unit))
    (h : (streamCast cfg fs vs).runOn S s = (o, s')) :
    (o = (streamCast cfg fs vs).run.1 ∧
      content s' = content s ++ (streamCast cfg fs vs).run.2) ∨
    (¬ good s' ∧ ∃ got, content s' = content s ++ got ∧
      got <+: (streamCast cfg fs vs).run.2 ∧ Stopped cfg fs vs o got) := by
  rcases Wr.runOn_cases S (wshort_streamCast cfg fs vs) s with
    ⟨s2, ha, hr⟩ | ⟨a, p, bs, s1, s2, hP, -, -, hw, hr⟩
  · rw [h, Prod.mk.injEq] at hr
    obtain ⟨rfl, rfl⟩ := hr
    rw [Wr.run_eq]
    exact .inl ⟨rfl, accepted_content hS ha⟩
  · rw [h, Prod.mk.injEq] at hr
    obtain ⟨rfl, rfl⟩ := hr
    cases a with
    | ok a => exact hP.elim
    | error e => exact .inr ⟨(hS.refuse _ _ _ hw).1, runOn_stopped hS h hP⟩

theorem accepted_good {S : OutStream} {content : S.State → List Byte} {good : S.State → Prop}
    (hS : OutContract S content good) {s s' : S.State} {p : List Byte} (h : Accepted S s p s')
    (hg : good s) : good s' := by
  induction h with
  | nil s => exact hg
  | cons hw _ ih => exact ih (hS.accept _ _ _ hw).2.1

/-- C24. If the stream did not receive all that a healthy one would have, or went bad on
the way, the write failed with `buffer_exhaustion`, at the field being written. -/
theorem C24_stops (cfg : Cfg) (fs : List Field) (vs : List Val) (S : OutStream)
    (content : S.State → List Byte) (good : S.State → Prop) (hS : OutContract S content good)
    (s s' : S.State) (o : Outcome (Except CastError Unit))
    (h : (streamCast cfg fs vs).runOn S s = (o, s'))
    (hfull : content s' ≠ content s ++ (streamCast cfg fs vs).run.2 ∨ good s ∧ ¬ good s') :
    ∃ got, content s' = content s ++ got ∧ got <+: (streamCast cfg fs vs).run.2 ∧
      Stopped cfg fs vs o got := by
  rcases Wr.runOn_cases S (wshort_streamCast cfg fs vs) s with
    ⟨s2, ha, hr⟩ | ⟨a, p, bs, s1, s2, hP, -, -, hw, hr⟩
  · rw [h, Prod.mk.injEq] at hr
    obtain ⟨rfl, rfl⟩ := hr
    rw [Wr.run_eq] at hfull
    rcases hfull with h1 | ⟨h1, h2⟩
    · exact absurd (accepted_content hS ha) h1
    · exact absurd (accepted_good hS ha h1) h2
  · rw [h, Prod.mk.injEq] at hr
    obtain ⟨rfl, rfl⟩ := hr
    cases a with
    | ok a => exact hP.elim
    | error e => exact runOn_stopped hS h hP

/-- C24. A stream with enough room receives the whole encoding, with the same outcome. -/
theorem C24_room (cfg : Cfg) (fs : List Field) (vs : List Val) (S : OutStream)
    (content : S.State → List Byte) (good : S.State → Prop) (room : S.State → Nat)
    (hS : OutContract S content good) (hR : HasRoom S good room) (s : S.State) (hg : good s)
    (hr : (streamCast cfg fs vs).run.2.length ≤ room s) :
    ∃ s', (streamCast cfg fs vs).runOn S s = ((streamCast cfg fs vs).run.1, s') ∧
      content s' = content s ++ (streamCast cfg fs vs).run.2 := by
  rw [Wr.run_eq] at hr ⊢
  obtain ⟨s', h1, h2, -, -⟩ := Wr.runOn_room hR _ s hg hr
  exact ⟨s', h2, accepted_content hS h1⟩

/-- C24 for `memstream`, byte for byte: with room for `n` bytes, the first `n` bytes
arrive; and if those are not all, the error is `buffer_exhaustion`. -/
theorem C24_memstream (cfg : Cfg) (fs : List Field) (vs : List Val) (n : Nat) (got : List Byte) :
    ∃ o s', (streamCast cfg fs vs).runOn memstreamOut (n, got, false) = (o, s') ∧
      s'.2.1 = got ++ (streamCast cfg fs vs).run.2.take n ∧
      ((streamCast cfg fs vs).run.2.length ≤ n → o = (streamCast cfg fs vs).run.1) ∧
      (n < (streamCast cfg fs vs).run.2.length →
        ∃ f ∈ fs, o = .done (.error ⟨.bufferExhaustion, f.id⟩)) := by
  by_cases hn : (streamCast cfg fs vs).run.2.length ≤ n
  · obtain ⟨s', h1, h2⟩ := C24_room cfg fs vs memstreamOut _ _ _ memstreamOut_contract
      memstreamOut_room (n, got, false) rfl hn
    refine ⟨_, s', h1, ?_, fun _ => rfl, fun h => by omega⟩
    rw [h2, List.take_of_length_le hn]
  · rw [Wr.run_eq] at hn ⊢
    obtain ⟨a, hP, h1⟩ := Wr.runOn_memstream (wshort_streamCast cfg fs vs) n got (by omega)
    refine ⟨_, _, h1, rfl, fun h => by omega, fun _ => ?_⟩
    cases a with
    | ok a => exact hP.elim
    | error e =>
      obtain ⟨_, -, -, pre, f, post, _, _, _, _, _, _, rfl, -, -, h2, -⟩ :=
        runOn_stopped memstreamOut_contract h1 hP
      exact ⟨f, by simp, h2⟩

/-- The packet on a stream that takes ten bytes: stopped inside an element of the vector. -/
example : (streamCast be64 packet packetVal).runOn memstreamOut (10, [], false) =
    (.done (.error ⟨.bufferExhaustion, "data"⟩), (0, packetBytes.take 10, true)) := by rfl

example := C24_prefix be64 packet packetVal memstreamOut _ _ memstreamOut_contract (10, [], false)
  _ _ rfl

example := C24_stops be64 packet packetVal memstreamOut _ _ memstreamOut_contract (10, [], false)
  _ _ rfl (.inr ⟨rfl, by decide +kernel⟩)

example := C24_room be64 packet packetVal memstreamOut _ _ _ memstreamOut_contract memstreamOut_room
  (20, [], false) rfl (by decide +kernel)

/-! ## C44 -/

/-- C44, reads, a stream that has already failed: the cast does not touch it, and comes
out as on any other stream; or it stops at the first field that touches it, with
`buffer_exhaustion`. -/
theorem C44_read_failed (cfg : Cfg) (fs : List Field) (hwf : WellFormed fs) (S : InStream)
    (content : S.State → List Byte) (good : S.State → Prop) (hS : InContract S content good)
    (s : S.State) (hbad : ¬ good s) :
    ((structCast cfg fs).callsOn S s = [] ∧ ∃ o, ∀ (T : InStream) (t : T.State),
      (structCast cfg fs).runOn T t = (o, t)) ∨
    ∃ pre f post vs s', fs = pre ++ f :: post ∧
      (structCast cfg fs).runOn S s = (.done (.error ⟨.bufferExhaustion, f.id⟩), s') ∧ ¬ good s' ∧
      (structCast cfg pre).runOn S s = (.done (.ok vs), s) ∧
      (structCast cfg pre).callsOn S s = [] ∧ (structCast cfg (pre ++ [f])).callsOn S s ≠ [] := by
  have hd : ∀ n, ∃ s', S.read s n = (none, s') := fun n =>
    let ⟨s', h, _⟩ := hS.sticky s n hbad
    ⟨s', h⟩
  rcases Rd.runOn_dead hd (short_structCast cfg fs) with ⟨h1, o, -, h2⟩ | ⟨a, n, s', hP, hr, h1, h2⟩
  · exact .inl ⟨h1, o, h2⟩
  · cases a with
    | ok a => exact hP.elim
    | error e =>
      right
      obtain ⟨pre, f, post, vs, s1, rfl, hid, h3, h4⟩ := (readFields_error_iff cfg fs _ S s s' e).mp h2
      rw [structCast_prefix cfg _ pre (f :: post) hwf] at h3
      rw [structCast_prefix cfg _ (pre ++ [f]) post (by simpa using hwf)] at h4
      have hgood : ¬ good s' := by
        obtain ⟨s2, h5, h6⟩ := hS.sticky s n hbad
        rw [hr] at h5
        cases h5
        exact h6
      refine ⟨pre, f, post, vs, s', rfl, ?_, hgood, ?_⟩
      · rw [h2, ← hid, ← (show e.reason = _ from hP)]
      rcases Rd.runOn_dead hd (short_structCast cfg pre) with ⟨h5, o, -, h6⟩ | ⟨b, _, _, hP', _, _, h6⟩
      · rw [h6 S s] at h3
        cases h3
        refine ⟨h6 S s, h5, fun hc => ?_⟩
        rcases Rd.runOn_dead hd (short_structCast cfg (pre ++ [f])) with
          ⟨-, o, hp, h7⟩ | ⟨_, _, _, _, _, h8, _⟩
        · rw [h7 S s] at h4
          cases h4
          exact Rd.full_path (full_readFields cfg (pre ++ [f]) _) hp hP
        · rw [hc] at h8; cases h8
      · rw [h3] at h6; cases h6; exact hP'.elim

/-- C44, reads: success is reported only if every byte of the encoding of the result was
delivered. -/
theorem C44_read_success (cfg : Cfg) (fs : List Field) (hwf : WellFormed fs) (S : InStream)
    (s s' : S.State) (vs : List Val)
    (h : (structCast cfg fs).runOn S s = (.done (.ok vs), s')) : Delivered S s (wire cfg fs vs) s' :=
  (success_on_any_stream cfg fs hwf S s s' vs h).2

/-- A byte more than the packet has. -/
example : Delivered stdIn (packetBytes ++ [9], true) (wire be64 packet packetParsed) ([9], true) :=
  C44_read_success be64 packet (by decide) stdIn _ _ _ (by rfl)

/-- C44, writes, a stream that has already failed. -/
theorem C44_write_failed (cfg : Cfg) (fs : List Field) (vs : List Val) (S : OutStream)
    (content : S.State → List Byte) (good : S.State → Prop) (hS : OutContract S content good)
    (s : S.State) (hbad : ¬ good s) :
    ((streamCast cfg fs vs).callsOn S s = [] ∧ ∀ (T : OutStream) (t : T.State),
      (streamCast cfg fs vs).runOn T t = ((streamCast cfg fs vs).run.1, t)) ∨
    ∃ pre f post vpre v vpost s', fs = pre ++ f :: post ∧ vs = vpre ++ v :: vpost ∧
      vpre.length = pre.length ∧
      (streamCast cfg fs vs).runOn S s = (.done (.error ⟨.bufferExhaustion, f.id⟩), s') ∧ ¬ good s' ∧
      (writeFields cfg ⟨fs, vs⟩ pre vpre).runOn S s = (.done (.ok ()), s) ∧
      (writeFields cfg ⟨fs, vs⟩ pre vpre).callsOn S s = [] ∧
      (writeFields cfg ⟨fs, vs⟩ (pre ++ [f]) (vpre ++ [v])).callsOn S s ≠ [] := by
  have hd : ∀ bs, ∃ s', S.write s bs = (false, s') := by
    intro bs
    cases hw : S.write s bs with
    | mk b s1 =>
      cases b with
      | false => exact ⟨s1, rfl⟩
      | true => exact absurd (hS.accept _ _ _ hw).1 hbad
  rcases Wr.runOn_dead hd (wshort_streamCast cfg fs vs) with ⟨h1, -, h2⟩ | ⟨a, bs, s', hP, hw, h1, h2⟩
  · rw [Wr.run_eq]
    exact .inl ⟨h1, h2⟩
  · cases a with
    | ok a => exact hP.elim
    | error e =>
      right
      obtain ⟨pre, f, post, vpre, v, vpost, s1, rfl, rfl, hl, hid, h3, h4⟩ := runOn_error_split h2
      refine ⟨pre, f, post, vpre, v, vpost, s', rfl, rfl, hl, ?_, (hS.refuse _ _ _ hw).1, ?_⟩
      · rw [h2, ← hid, ← (show e.reason = _ from hP)]
      rcases Wr.runOn_dead hd (wshort_writeFields cfg pre ⟨pre ++ f :: post, vpre ++ v :: vpost⟩ vpre) with
        ⟨h5, -, h6⟩ | ⟨b, _, _, hP', _, _, h6⟩
      · have h7 := h6 S s
        rw [h3, Prod.mk.injEq] at h7
        obtain ⟨h7, rfl⟩ := h7
        refine ⟨h3, h5, fun hc => ?_⟩
        rcases Wr.runOn_dead hd (wshort_writeFields cfg (pre ++ [f])
          ⟨pre ++ f :: post, vpre ++ v :: vpost⟩ (vpre ++ [v])) with
          ⟨-, -, h8⟩ | ⟨_, _, _, _, _, h8, _⟩
        · have h9 := h8 S s1
          rw [writeFields_append _ _ _ _ _ _ hl, WrE.runOn_andThen, h3] at h9
          simp only [writeFields_cons, WrE.runOn_andThen, h4] at h9
          rw [Prod.mk.injEq] at h9
          have hf := fine_writeFields cfg (pre ++ [f]) ⟨pre ++ f :: post, vpre ++ v :: vpost⟩
            (vpre ++ [v]) e _ (Prod.ext (by
              rw [writeFields_append _ _ _ _ _ _ hl, writeFields_cons]; exact h9.1.symm) rfl)
          obtain ⟨_, _, _, _, h3, _⟩ := hf
          exact absurd hP h3
        · rw [hc] at h8; cases h8
      · rw [h3] at h6; cases h6; exact hP'.elim

/-- C44, writes: success is reported only if every byte of the encoding was accepted. -/
theorem C44_write_success (cfg : Cfg) (fs : List Field) (vs : List Val) (S : OutStream)
    (s s' : S.State) (h : (streamCast cfg fs vs).runOn S s = (.done (.ok ()), s')) :
    ∃ p, (streamCast cfg fs vs).run = (.done (.ok ()), p) ∧ Accepted S s p s' := by
  rcases Wr.runOn_cases S (wshort_streamCast cfg fs vs) s with
    ⟨s2, ha, hr⟩ | ⟨a, p, bs, s1, s2, hP, -, -, hw, hr⟩
  · rw [h, Prod.mk.injEq] at hr
    obtain ⟨hr, rfl⟩ := hr
    exact ⟨_, (Wr.run_eq _).trans (Prod.ext hr.symm rfl), ha⟩
  · rw [h] at hr; cases hr; exact hP.elim

/-- A first field that may be absent, of a schema read from a stream that has failed. -/
def lateSchema : List Field :=
  [.maybe "a" (.num u8 1) ⟨[], fun _ => false⟩, .plain "b" (.num u16 2) .none]

example : (structCast le64 lateSchema).runOn stdIn ([1, 2, 3], false) =
    (.done (.error ⟨.bufferExhaustion, "b"⟩), ([1, 2, 3], false)) := by rfl

example := C44_read_failed le64 lateSchema (by decide) stdIn _ _ stdIn_contract ([1, 2, 3], false)
  (by simp)

example := C44_write_failed le64 lateSchema [.absent, .int 7] memstreamOut _ _ memstreamOut_contract
  (9, [], true) (by simp)

end S2S.Props
