import Verif.Lemmas.Shape
import Verif.Lemmas.ReadTree
import Verif.Spec.Demo
/-
C03-C08: what a read consumes, and what a parsed struct satisfies.
-/
namespace S2S.Props
open Spec Demo

/-! ## C03 -/

/-- C03. A successful read consumes a prefix `p` of the input, and whatever follows
`p` the read gives the same struct and leaves exactly what follows. -/
theorem C03_exact_consumption (cfg : Cfg) (fs : List Field) (inp rest : List Byte)
    (vs : List Val) (h : (structCast cfg fs).run inp = (.done (.ok vs), rest)) :
    ∃ p, inp = p ++ rest ∧
      ∀ more, (structCast cfg fs).run (p ++ more) = (.done (.ok vs), more) := by
  rcases Rd.run_cases (short_structCast cfg fs) inp with
    ⟨p, rest', o, rfl, hp, hr⟩ | ⟨a, rest', hP, hr, _⟩
  · rw [h] at hr
    cases hr
    exact ⟨p, rfl, fun more => Rd.run_of_path hp more⟩
  · rw [h] at hr
    cases hr
    exact hP.elim

example : ∃ p, packetBytes ++ [1, 2] = p ++ [1, 2] ∧
    ∀ more, (structCast be64 packet).run (p ++ more) = (.done (.ok packetParsed), more) :=
  C03_exact_consumption be64 packet (packetBytes ++ [1, 2]) [1, 2] packetParsed (by rfl)

/-- C03. The consumed prefix is the encoding of the result. -/
theorem C03_consumes_encoding (cfg : Cfg) (fs : List Field) (hwf : WellFormed fs)
    (inp rest : List Byte) (vs : List Val)
    (h : (structCast cfg fs).run inp = (.done (.ok vs), rest)) :
    inp = wire cfg fs vs ++ rest := by
  rcases Rd.run_cases (short_structCast cfg fs) inp with
    ⟨p, rest', o, rfl, hp, hr⟩ | ⟨a, rest', hP, hr, _⟩
  · rw [h] at hr
    cases hr
    rw [((structCast_gives_iff cfg fs hwf p vs).mp hp).2]
  · rw [h] at hr
    cases hr
    exact hP.elim

example : packetBytes ++ [7, 7] = wire be64 packet packetParsed ++ [7, 7] :=
  C03_consumes_encoding be64 packet (by decide) (packetBytes ++ [7, 7]) [7, 7] packetParsed (by rfl)

/-- The two directions together: reading succeeds with `vs` and leaves `rest` if and
only if `vs` is valid and the input is its encoding followed by `rest`. -/
theorem read_iff (cfg : Cfg) (fs : List Field) (hwf : WellFormed fs)
    (inp rest : List Byte) (vs : List Val) :
    (structCast cfg fs).run inp = (.done (.ok vs), rest) ↔
      Valid cfg fs vs ∧ inp = wire cfg fs vs ++ rest := by
  constructor
  · intro h
    rcases Rd.run_cases (short_structCast cfg fs) inp with
      ⟨p, rest', o, rfl, hp, hr⟩ | ⟨a, rest', hP, hr, _⟩
    · rw [h] at hr
      cases hr
      obtain ⟨h1, rfl⟩ := (structCast_gives_iff cfg fs hwf p vs).mp hp
      exact ⟨h1, rfl⟩
    · rw [h] at hr
      cases hr
      exact hP.elim
  · rintro ⟨h1, rfl⟩
    exact Rd.run_of_path ((structCast_gives_iff cfg fs hwf _ vs).mpr ⟨h1, rfl⟩) rest

/-! ## C04 -/

/-- C04. Every proper prefix of the bytes a successful read consumed makes the read
fail, with `buffer_exhaustion`. -/
theorem C04_truncation (cfg : Cfg) (fs : List Field) (p q rest : List Byte) (vs : List Val)
    (h : (structCast cfg fs).run (p ++ q ++ rest) = (.done (.ok vs), rest)) (hq : q ≠ []) :
    ∃ e left, (structCast cfg fs).run p = (.done (.error e), left) ∧
      e.reason = .bufferExhaustion := by
  obtain ⟨p', hp', hall⟩ := C03_exact_consumption cfg fs _ rest vs h
  have : p' = p ++ q := (List.append_cancel_right hp').symm
  subst this
  have hpath : Rd.Path (structCast cfg fs) (p ++ q) (.done (.ok vs)) := by
    rcases Rd.run_cases (short_structCast cfg fs) (p ++ q) with
      ⟨p', rest', o, he, hp, hr⟩ | ⟨a, rest', hP, hr, _⟩
    · have := hall []
      rw [List.append_nil, hr] at this
      cases this
      rw [List.append_nil] at he
      subst he
      exact hp
    · have := hall []
      rw [List.append_nil, hr] at this
      cases this
      exact hP.elim
  rcases Rd.run_cases (short_structCast cfg fs) p with
    ⟨p', rest', o, rfl, hp, hr⟩ | ⟨a, rest', hP, hr, _⟩
  · have := (Rd.path_unique _ _ _ [] (rest' ++ q) _ _ hpath hp (by simp)).1
    rw [List.append_assoc] at this
    have hl := congrArg List.length this
    simp only [List.length_append] at hl
    have : q.length = 0 := by omega
    exact absurd (List.length_eq_zero_iff.mp this) hq
  · cases a with
    | ok a => exact hP.elim
    | error e => exact ⟨e, rest', hr, hP⟩

example : ∃ e left, (structCast be64 packet).run (packetBytes.take 9) = (.done (.error e), left) ∧
    e.reason = .bufferExhaustion :=
  C04_truncation be64 packet (packetBytes.take 9) (packetBytes.drop 9) [] packetParsed
    (by rfl) (by decide)

/-! ## C05 -/

/-- C05. A failure other than exhaustion stays the same failure however much data
follows. -/
theorem C05_errors_final (cfg : Cfg) (fs : List Field) (inp left : List Byte) (e : CastError)
    (h : (structCast cfg fs).run inp = (.done (.error e), left))
    (he : e.reason ≠ .bufferExhaustion) (more : List Byte) :
    (structCast cfg fs).run (inp ++ more) = (.done (.error e), left ++ more) := by
  rcases Rd.run_cases (short_structCast cfg fs) inp with
    ⟨p, rest', o, rfl, hp, hr⟩ | ⟨a, rest', hP, hr, _⟩
  · rw [h] at hr
    cases hr
    rw [List.append_assoc]
    exact Rd.run_of_path hp _
  · rw [h] at hr
    cases hr
    exact absurd hP he

/-- Undefined behaviour is just as final. -/
theorem C05_stuck_final (cfg : Cfg) (fs : List Field) (inp left : List Byte) (w : Stuck)
    (h : (structCast cfg fs).run inp = (.stuck w, left)) (more : List Byte) :
    (structCast cfg fs).run (inp ++ more) = (.stuck w, left ++ more) := by
  rcases Rd.run_cases (short_structCast cfg fs) inp with
    ⟨p, rest', o, rfl, hp, hr⟩ | ⟨a, rest', hP, hr, _⟩
  · rw [h] at hr
    cases hr
    rw [List.append_assoc]
    exact Rd.run_of_path hp _
  · rw [h] at hr
    cases hr

/-- A wrong magic number, then anything. -/
example (more : List Byte) :
    (structCast be64 packet).run ([0, 0, 0x12, 0x35, 9] ++ more) =
      (.done (.error ⟨.validationFailure, "magic"⟩), [9] ++ more) :=
  C05_errors_final be64 packet _ [9] ⟨.validationFailure, "magic"⟩ (by rfl) (by decide) more

/-- An exhaustion error is the one kind that can turn into something else. -/
example : ((structCast be64 packet).run [0, 0]).1 = .done (.error ⟨.bufferExhaustion, "magic"⟩) ∧
    ((structCast be64 packet).run ([0, 0] ++ [1, 1])).1 =
      .done (.error ⟨.validationFailure, "magic"⟩) := by
  constructor <;> rfl

/-! ## C06 -/

/-- C06. Two healthy streams that abide by the contract and hold the same bytes give
the same struct or the same error; after a success they hold the same rest. -/
theorem C06_stream_independence (cfg : Cfg) (fs : List Field)
    {S T : InStream} {cS : S.State → List Byte} {gS : S.State → Prop}
    {cT : T.State → List Byte} {gT : T.State → Prop}
    (hS : InContract S cS gS) (hT : InContract T cT gT)
    (s : S.State) (t : T.State) (hs : gS s) (ht : gT t) (hst : cS s = cT t) :
    ((structCast cfg fs).runOn S s).1 = ((structCast cfg fs).runOn T t).1 ∧
    (gS ((structCast cfg fs).runOn S s).2 → gT ((structCast cfg fs).runOn T t).2 →
      cS ((structCast cfg fs).runOn S s).2 = cT ((structCast cfg fs).runOn T t).2) := by
  have h1 := Rd.runOn_contract hS (short_structCast cfg fs) s hs
  have h2 := Rd.runOn_contract hT (short_structCast cfg fs) t ht
  rw [hst] at h1
  exact ⟨h1.1.trans h2.1.symm, fun a b => (h1.2 a).trans (h2.2 b).symm⟩

/-- C06. In particular every such stream gives what the plain byte string gives, and
a success leaves the stream healthy, holding the rest. -/
theorem C06_reference (cfg : Cfg) (fs : List Field) {S : InStream} {content : S.State → List Byte}
    {good : S.State → Prop} (hS : InContract S content good) (s : S.State) (hs : good s)
    (vs : List Val) (rest : List Byte) :
    (structCast cfg fs).run (content s) = (.done (.ok vs), rest) ↔
      ∃ s', (structCast cfg fs).runOn S s = (.done (.ok vs), s') ∧ good s' ∧ content s' = rest := by
  have key : ∀ {p : List Byte} {s s' : S.State}, good s → Delivered S s p s' →
      good s' ∧ ∃ r, content s = p ++ r ∧ content s' = r := by
    intro p s s' hg h
    induction h with
    | nil s => exact ⟨hg, _, rfl, rfl⟩
    | @cons s n bs s' rest s'' h1 h2 ih =>
      by_cases hn : n ≤ (content s).length
      · obtain ⟨s1, hr, hg1, hc⟩ := hS.deliver s n hg hn
        rw [h1] at hr
        cases hr
        obtain ⟨a, r, b, c⟩ := ih hg1
        refine ⟨a, r, ?_, c⟩
        rw [List.append_assoc, ← b, hc, List.take_append_drop]
      · obtain ⟨s1, hr, _⟩ := hS.exhaust s n hg (by omega)
        rw [h1] at hr
        cases hr
  have hc := Rd.runOn_contract hS (short_structCast cfg fs) s hs
  rcases Rd.runOn_cases S (short_structCast cfg fs) s with
    ⟨p, o, s', hp, hd, he⟩ | ⟨a, p, s1, n, s', hP, hd, hn, he⟩
  · obtain ⟨hg', r, h1, h2⟩ := key hs hd
    rw [he] at hc ⊢
    constructor
    · intro h
      rw [h] at hc
      simp only at hc
      refine ⟨s', ?_, hg', hc.2 hg'⟩
      rw [hc.1]
    · rintro ⟨s2, h, _, h3⟩
      cases h
      rw [h1, Rd.run_of_path hp, ← h2, h3]
  · cases a with
    | ok a => exact hP.elim
    | error e =>
      rw [he] at hc ⊢
      constructor
      · intro h
        rw [h] at hc
        cases hc.1
      · rintro ⟨s2, h, _⟩
        cases h

/-- The documentation's `byte_stream`, the test suite's `memstream` and standard
streams, on a truncated packet: the first keeps the bytes of the failed read, the
others swallow them; the result is the same. -/
example (bytes : List Byte) :
    ((structCast be64 packet).runOn byteStreamIn (bytes, 0, true)).1 =
      ((structCast be64 packet).runOn memstreamIn (bytes, false)).1 :=
  (C06_stream_independence be64 packet byteStreamIn_contract memstreamIn_contract
    (bytes, 0, true) (bytes, false) ⟨rfl, Nat.zero_le _⟩ rfl rfl).1

example (bytes : List Byte) :
    ((structCast be64 packet).runOn stdIn (bytes, true)).1 =
      ((structCast be64 packet).runOn memstreamIn (bytes, false)).1 :=
  (C06_stream_independence be64 packet stdIn_contract memstreamIn_contract
    (bytes, true) (bytes, false) rfl rfl rfl).1

/-! ## C07, C08 -/

/-- A successful cast on any stream whatsoever: the struct is valid, and the bytes
the stream delivered are its encoding. -/
theorem success_on_any_stream (cfg : Cfg) (fs : List Field) (hwf : WellFormed fs) (S : InStream)
    (s s' : S.State) (vs : List Val)
    (h : (structCast cfg fs).runOn S s = (.done (.ok vs), s')) :
    Valid cfg fs vs ∧ Delivered S s (wire cfg fs vs) s' := by
  rcases Rd.runOn_cases S (short_structCast cfg fs) s with
    ⟨p, o, s1, hp, hd, he⟩ | ⟨a, p, s1, n, s2, hP, hd, hn, he⟩
  · rw [h] at he
    cases he
    obtain ⟨h1, rfl⟩ := (structCast_gives_iff cfg fs hwf p vs).mp hp
    exact ⟨h1, hd⟩
  · rw [h] at he
    cases he
    exact hP.elim

/-- C07. Whatever the stream, in a struct returned by the cast every constraint holds:
of the fields of the list and, recursively, of nested records, of the elements of
arrays and vectors of records, of the selected alternatives, and of unions. -/
theorem C07_constraints_hold (cfg : Cfg) (fs : List Field) (hwf : WellFormed fs) (S : InStream)
    (s s' : S.State) (vs : List Val)
    (h : (structCast cfg fs).runOn S s = (.done (.ok vs), s')) : OkFields fs vs :=
  (success_on_any_stream cfg fs hwf S s s' vs h).1.2.1

example : OkFields packet packetParsed :=
  C07_constraints_hold be64 packet (by decide) listIn packetBytes [] packetParsed (by rfl)

/-- `OkFields` is not vacuous: it refutes a struct with a wrong magic number and one
whose alternative violates its constraint. -/
example : ¬ OkFields packet (.int 0x1235 :: packetParsed.tail) := by
  intro h
  simp [packet, OkFields, OkField, Holds, Constraint.check, CmpOp.holds] at h
  exact absurd h.1.2 (by decide)

example : ¬ OkField (.union "body" (.matchField "tag" u8 [(i32, 1), (i32, 7)])
     [.mk (.num u32 4) (.cmp .lt u32 1000), .mk (.record inner) .none] .none)
     (.var 0 (.int 1000)) := by
  intro h
  simp only [OkField, OkAlts, Holds, Constraint.check] at h
  exact absurd (Except.ok.inj h.1.2) (by decide)

/-- C08. Whatever the stream, in a struct returned by the cast every container has the
length its length field or computation gives on the parsed siblings, every optional
is engaged exactly when its predicate holds of them, and every variant holds the
alternative they select; values have their types and stay within the ceilings. -/
theorem C08_shaped_by_fields (cfg : Cfg) (fs : List Field) (hwf : WellFormed fs) (S : InStream)
    (s s' : S.State) (vs : List Val)
    (h : (structCast cfg fs).runOn S s = (.done (.ok vs), s')) :
    ShapedFields cfg (envOf fs vs) fs vs ∧ FitsFields cfg fs vs :=
  ⟨(success_on_any_stream cfg fs hwf S s s' vs h).1.2.2,
   (success_on_any_stream cfg fs hwf S s s' vs h).1.1⟩

example : ShapedFields be64 (envOf packet packetParsed) packet packetParsed :=
  (C08_shaped_by_fields be64 packet (by decide) listIn packetBytes [] packetParsed (by rfl)).1

/-- Shape is not vacuous: it refutes a length that is off by one. -/
example : ¬ ShapedField be64 (Env.empty.set "len" (.int 2))
    (.plain "data" (.vec (.scalar u16) (.fromField "len") (some 64)) .none)
    (.seq [.int 1, .int 2, .int 3]) := by
  intro h
  simp only [ShapedField, ShapedKind] at h
  have h2 : LenSpec.eval be64 (Env.empty.set "len" (.int 2)) (.fromField "len") = .ok 2 := by rfl
  rw [h2] at h
  cases h

end S2S.Props
