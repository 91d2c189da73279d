import Verif.Spec.Session
import Verif.Lemmas.OnStream
import Verif.Props.RoundTrip
import Verif.Props.Sizes
/-
C73: a stream that is written and read at the same time is a queue of structs.
-/
namespace S2S.Props
open Spec Demo

theorem accepted_good {S : OutStream} {content : S.State → List Byte} {good : S.State → Prop}
    (hS : OutContract S content good) {s s' : S.State} {p : List Byte} (h : Accepted S s p s')
    (hg : good s) : good s' := by
  induction h with
  | nil s => exact hg
  | cons hw _ ih => exact ih (hS.accept _ _ _ hw).2.1

theorem write_success_on {cfg : Cfg} {fs : List Field} {vs : List Val} {S : OutStream}
    {content : S.State → List Byte} {good : S.State → Prop} (hS : OutContract S content good)
    {s s' : S.State} (hg : good s)
    (h : (streamCast cfg fs vs).runOn S s = (.done (.ok ()), s')) :
    ∃ p, (streamCast cfg fs vs).run = (.done (.ok ()), p) ∧ content s' = content s ++ p ∧ good s' := by
  rcases Wr.runOn_cases S (wshort_streamCast cfg fs vs) s with
    ⟨s2, ha, hr⟩ | ⟨a, _, _, _, s2, hP, -, -, -, hr⟩
  · rw [h, Prod.mk.injEq] at hr
    obtain ⟨hr, rfl⟩ := hr
    refine ⟨_, ?_, accepted_content hS ha, accepted_good hS ha hg⟩
    rw [Wr.run_eq]
    exact Prod.ext hr.symm rfl
  · rw [h] at hr; cases hr; exact hP.elim

/-- C73, what is in the stream: at every moment it is healthy, and the bytes in it are the
encodings of the structs written and not yet read, in the order of writing. -/
theorem C73_content (cfg : Cfg) (P : Pipe) (content : P.State → List Byte) (good : P.State → Prop)
    (hP : PipeContract P content good) (q : List (List Field × List Val)) (s : P.State)
    (h : Session cfg P content good q s) :
    good s ∧ content s = q.flatMap (fun x => wire cfg x.1 (settle x.1 x.2)) ∧
      ∀ x ∈ q, SelfConsistent cfg x.1 ∧ Valid cfg x.1 (settle x.1 x.2) := by
  induction h with
  | start hg hc => exact ⟨hg, hc, by simp⟩
  | @write q s fs vs s' hs hsc hst hrun ih =>
    obtain ⟨hg, hc, hq⟩ := ih
    obtain ⟨p, hp, hc', hg'⟩ := write_success_on hP.out hg hrun
    obtain ⟨hv, rfl⟩ := write_sound cfg fs hsc vs hst p hp
    refine ⟨hg', ?_, ?_⟩
    · rw [hc', hc]; simp
    · intro x hx
      rcases List.mem_append.1 hx with hx | hx
      · exact hq x hx
      · simp only [List.mem_singleton] at hx; subst hx; exact ⟨hsc, hv⟩
  | @read q s fs vs r s' hs hrun ih =>
    obtain ⟨hg, hc, hq⟩ := ih
    obtain ⟨hsc, hv⟩ := hq (fs, vs) (by simp)
    have h1 := (read_iff cfg fs hsc.1 (content s) (q.flatMap fun x => wire cfg x.1 (settle x.1 x.2))
      (settle fs vs)).2 ⟨hv, by rw [hc]; simp⟩
    obtain ⟨s2, h2, hg2, hc2⟩ := (C06_reference cfg fs hP.inp s hg _ _).1 h1
    rw [hrun] at h2
    cases h2
    exact ⟨hg2, hc2, fun x hx => hq x (by simp [hx])⟩

/-- C73. Whatever was written and read before, in whatever order: the next read gives the
oldest struct not yet read, with the library's slots filled. -/
theorem C73_queue (cfg : Cfg) (P : Pipe) (content : P.State → List Byte) (good : P.State → Prop)
    (hP : PipeContract P content good) (fs : List Field) (vs : List Val)
    (q : List (List Field × List Val)) (s : P.State)
    (h : Session cfg P content good ((fs, vs) :: q) s) :
    ∃ s', (structCast cfg fs).runOn P.inp s = (.done (.ok (settle fs vs)), s') ∧
      Session cfg P content good q s' := by
  obtain ⟨hg, hc, hq⟩ := C73_content cfg P content good hP _ s h
  obtain ⟨hsc, hv⟩ := hq (fs, vs) (by simp)
  have h1 := (read_iff cfg fs hsc.1 (content s) (q.flatMap fun x => wire cfg x.1 (settle x.1 x.2))
    (settle fs vs)).2 ⟨hv, by rw [hc]; simp⟩
  obtain ⟨s', h2, -, -⟩ := (C06_reference cfg fs hP.inp s hg _ _).1 h1
  exact ⟨s', h2, h.read h2⟩

/-- C73, the empty stream: when everything has been read, a read of any schema that needs
at least a byte fails. -/
theorem C73_empty (cfg : Cfg) (P : Pipe) (content : P.State → List Byte) (good : P.State → Prop)
    (hP : PipeContract P content good) (s : P.State) (h : Session cfg P content good [] s)
    (fs : List Field) (hwf : WellFormed fs) (hmin : 1 ≤ minFields fs) (vs : List Val) (s' : P.State) :
    (structCast cfg fs).runOn P.inp s ≠ (.done (.ok vs), s') := by
  intro hr
  obtain ⟨hg, hc, -⟩ := C73_content cfg P content good hP _ s h
  simp only [List.flatMap_nil] at hc
  have h1 := Rd.runOn_contract hP.inp (short_structCast cfg fs) s hg
  rw [hr, hc] at h1
  rcases h2 : Rd.run (structCast cfg fs) [] with ⟨o, rest⟩
  have h3 : (structCast cfg fs).run [] = (.done (.ok vs), rest) := by
    have := h1.1
    simp only [h2] at this
    rw [h2, ← this]
  exact C71_too_short cfg fs hwf [] rest (by simp; omega) vs h3

/-- Two writes, a read, a write, two reads. -/
example : ∃ s1 s2 s3 s4 s5 s6,
    (streamCast be64 packet packetVal).runOn stdPipe.out ([], true) = (.done (.ok ()), s1) ∧
    (streamCast be64 ceilingSchema [.int 0, .seq [.int 1, .int 2]]).runOn stdPipe.out s1 =
      (.done (.ok ()), s2) ∧
    (structCast be64 packet).runOn stdPipe.inp s2 = (.done (.ok packetParsed), s3) ∧
    (streamCast be64 packet packetVal).runOn stdPipe.out s3 = (.done (.ok ()), s4) ∧
    (structCast be64 ceilingSchema).runOn stdPipe.inp s4 =
      (.done (.ok [.int 2, .seq [.int 1, .int 2]]), s5) ∧
    (structCast be64 packet).runOn stdPipe.inp s5 = (.done (.ok packetParsed), s6) := by
  have h0 : Session be64 stdPipe (fun s => s.1) (fun s => s.2 = true) [] ([], true) := .start rfl rfl
  have h1 := h0.write (fs := packet) (vs := packetVal) (by decide +kernel) (by decide +kernel) rfl
  have h2 := h1.write (fs := ceilingSchema) (vs := [.int 0, .seq [.int 1, .int 2]])
    (by decide +kernel) (by decide +kernel) rfl
  obtain ⟨s3, r3, h3⟩ := C73_queue _ _ _ _ stdPipe_contract _ _ _ _ h2
  have h4 := h3.write (fs := packet) (vs := packetVal) (s' := (s3.1 ++ packetBytes, true))
    (by decide +kernel) (by decide +kernel) (by cases r3; rfl)
  obtain ⟨s5, r5, h5⟩ := C73_queue _ _ _ _ stdPipe_contract _ _ _ _ h4
  obtain ⟨s6, r6, h6⟩ := C73_queue _ _ _ _ stdPipe_contract _ _ _ _ h5
  exact ⟨_, _, s3, _, s5, s6, rfl, rfl, r3, by cases r3; rfl, r5, r6⟩

/-- Two bytes, the second below 100. -/
def fixedPair : List Field :=
  [.plain "a" (.num u8 1) .none, .plain "b" (.num u8 1) (.cmp .lt u8 100)]

/-- C73 is about successful writes. One that fails leaves the fields before the failing
one in the stream, in front of the next struct, which is then read wrongly. -/
theorem C73_needs_success :
    ∃ s1 s2, (streamCast be64 fixedPair [.int 1, .int 200]).runOn stdPipe.out ([], true) =
        (.done (.error ⟨.validationFailure, "b"⟩), s1) ∧
      (streamCast be64 fixedPair [.int 2, .int 3]).runOn stdPipe.out s1 = (.done (.ok ()), s2) ∧
      (structCast be64 fixedPair).runOn stdPipe.inp s2 = (.done (.ok [.int 1, .int 2]), ([3], true)) :=
  ⟨([1], true), ([1, 2, 3], true), rfl, rfl, rfl⟩

/-- After one packet was written and nothing read, the stream holds its bytes. -/
example : (structCast be64 packet).run (packetBytes ++ []) = (.done (.ok packetParsed), []) ∧
    ∀ s, Session be64 stdPipe (fun s => s.1) (fun s => s.2 = true) [(packet, packetVal)] s →
      s.1 = packetBytes ∧ s.2 = true := by
  refine ⟨by rfl, fun s h => ?_⟩
  have h' := C73_content be64 stdPipe _ _ stdPipe_contract _ s h
  exact ⟨h'.2.1.trans (by rfl), h'.1⟩

end S2S.Props
