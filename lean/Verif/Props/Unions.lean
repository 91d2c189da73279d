import Verif.Lemmas.Unions
import Verif.Props.Checks
import Verif.Props.Errors
/-
C21, C56: unions.
-/
namespace S2S.Props
open Spec Demo

/-! ## C21 -/

/-- C21, reads that succeed: the union holds the first alternative that matches. -/
theorem C21_read_first (cfg : Cfg) (fs : List Field) (hwf : WellFormed fs) (S : InStream)
    (s s' : S.State) (vs : List Val)
    (h : (structCast cfg fs).runOn S s = (.done (.ok vs), s')) (id : String) (d : Deducer)
    (alts : List Alt) (c : Constraint) (v : Val)
    (hm : (Field.union id d alts c, v) ∈ fs.zip vs) :
    ∃ i u, v = .var i u ∧ FirstMatch (envOf fs vs) d i := by
  have hv := (success_on_any_stream cfg fs hwf S s s' vs h).1
  have h1 := shaped_zip hv.2.2 hm
  have h2 := fits_zip hv.1 hm
  cases v with
  | var i u =>
    rw [ShapedField] at h1
    exact ⟨i, u, rfl, firstMatch_of_eval h1.1⟩
  | _ => simp [FitsField] at h2

/-- C21, reads: if nothing matches, given the fields read before, the read fails with
`type_deduction_failure` at the union, the stream untouched. -/
theorem C21_read_none (cfg : Cfg) (pre post : List Field) (id : String) (d : Deducer)
    (alts : List Alt) (c : Constraint) (hwf : WellFormed (pre ++ .union id d alts c :: post))
    (hres : Resolves (pre ++ .union id d alts c :: post)) (S : InStream) (s s1 : S.State)
    (vs : List Val) (h : (structCast cfg pre).runOn S s = (.done (.ok vs), s1))
    (hn : ∀ i, ¬ Matches (envOf pre vs) d i) :
    (structCast cfg (pre ++ .union id d alts c :: post)).runOn S s =
      (.done (.error ⟨.typeDeductionFailure, id⟩), s1) := by
  have hwf1 := wf_prefix (pre := pre) (post := .union id d alts c :: post) hwf
  have hv := (success_on_any_stream cfg pre hwf1 S s s1 vs h).1
  have hd := eval_of_noMatch (evaluable_read hwf hres hv.1) hn
  rw [runOn_append cfg pre _ hwf S s s1 vs h]
  simp only [readRest, readFields, readField, hd, RdE.lift, RdE.ok_andThen]
  rfl

/-- C21, reads, "exactly when none does": a union that reports `type_deduction_failure`
although an alternative matched contains another union in that alternative. Missing: an
alternative that contains a union; for those the statement is false. -/
theorem C21_read_exactly_partial (cfg : Cfg) (pre post : List Field) (id : String) (d : Deducer)
    (alts : List Alt) (c : Constraint) (hwf : WellFormed (pre ++ .union id d alts c :: post))
    (hres : Resolves (pre ++ .union id d alts c :: post)) (S : InStream) (s s' : S.State)
    (h : (structCast cfg (pre ++ .union id d alts c :: post)).runOn S s =
      (.done (.error ⟨.typeDeductionFailure, id⟩), s'))
    (halts : ∀ a ∈ alts, unionInKind a.kind = false) (hc : ∀ v, ∃ b, c.check v = .ok b) :
    ∃ vs, (structCast cfg pre).runOn S s = (.done (.ok vs), s') ∧
      ∀ i, ¬ Matches (envOf pre vs) d i := by
  obtain ⟨pre', f, post', vs, s1, he, hid, h1, hv, -, h2⟩ :=
    C09_first_failing_field cfg _ hwf S s s' _ h
  have hf : f = .union id d alts c := by
    refine field_inj hwf.2.1 (he ▸ by simp) (by simp) hid.symm
  subst hf
  have hpre : pre = pre' := pre_unique hwf.2.1 he
  subst hpre
  have hpost : post = post' := by simpa using he
  subst hpost
  have hwf2 : WellFormed (pre ++ [.union id d alts c]) :=
    wf_prefix (post := post) (by simpa using hwf)
  obtain ⟨o, ho⟩ := eval_of_evaluable (evaluable_read hwf hres hv.1)
  cases o with
  | none =>
    have hn := noMatch_of_eval ho
    have h3 := C21_read_none cfg pre post id d alts c hwf hres S s s1 vs h1 hn
    rw [h] at h3
    cases h3
    exact ⟨vs, h1, hn⟩
  | some i =>
    exfalso
    have hlt : i < alts.length := by
      have h4 := sane_mem hwf.1 (by simp : Field.union id d alts c ∈ pre ++ .union id d alts c :: post)
      rw [saneField, Bool.and_eq_true, decide_eq_true_eq] at h4
      exact h4.1 ▸ Deducer.eval_lt _ _ _ ho
    obtain ⟨k, c', ha⟩ : ∃ k c', alts[i]? = some (.mk k c') := by
      cases hx : alts[i] with
      | mk k c' => exact ⟨k, c', by rw [List.getElem?_eq_getElem hlt, hx]⟩
    have hk := halts _ (List.mem_of_getElem? ha)
    obtain ⟨hE, hO, hS⟩ := union_as_plain hwf2 h1 ho ha
    rcases hr : (structCast cfg (pre ++ [.plain id k c'])).runOn S s with ⟨o, s2⟩
    cases o with
    | stuck w =>
      have := hS w s2 hr
      rw [this] at h2
      cases h2
    | done r =>
      cases r with
      | error e =>
        have h4 := hE e s2 hr
        rw [h2] at h4
        cases h4
        obtain ⟨-, g, hg, hgid, hu, -⟩ := C14_read_reasons cfg _ S s _ _ hr
        have hge : Field.plain id k c' = g :=
          field_inj (wf_alternative hwf2 ha).2.1 (by simp) hg hgid
        subst hge
        have hu' := hu rfl
        rw [unionInField] at hu'
        simp only [hu'] at hk
        cases hk
      | ok ws =>
        obtain ⟨u, -, ht, hf⟩ := hO ws s2 hr
        obtain ⟨b, hb⟩ := hc (.var i u)
        cases b with
        | true => have := ht hb; rw [h2] at this; cases this
        | false => have := hf hb; rw [h2] at this; cases this

/-- Values of two kinds, the second with another union inside. -/
def outerSchema : List Field :=
  [.plain "t" (.num u8 1) .none,
   .union "u" (.matchField "t" u8 [(i32, 1), (i32, 2)])
     [.mk (.num u8 1) .none,
      .mk (.record [.plain "s" (.num u8 1) .none,
        .union "w" (.matchField "s" u8 [(i32, 5)]) [.mk (.num u8 1) .none] .none]) .none] .none]

example := C21_read_first le64 outerSchema (by decide) listIn [2, 5, 9] []
  [.int 2, .var 1 (.seq [.int 5, .var 0 (.int 9)])] (by rfl) "u"
  (.matchField "t" u8 [(i32, 1), (i32, 2)]) _ .none (.var 1 (.seq [.int 5, .var 0 (.int 9)]))
  (.tail _ (.head _))

example : (structCast le64 outerSchema).runOn listIn [3, 5, 9] =
    (.done (.error ⟨.typeDeductionFailure, "u"⟩), [5, 9]) := by
  refine C21_read_none le64 (outerSchema.take 1) [] "u" (.matchField "t" u8 [(i32, 1), (i32, 2)]) _ .none
    (by decide) (by decide +kernel) listIn [3, 5, 9] [5, 9] [.int 3] (by rfl) ?_
  exact noMatch_of_eval (by rfl)

/-- The packet's union reports it only if the tag is neither 1 nor 7. -/
example (s s' : List Byte)
    (h : (structCast be64 packet).runOn listIn s = (.done (.error ⟨.typeDeductionFailure, "body"⟩), s')) :
    ∃ vs, (structCast be64 (packet.take 4)).runOn listIn s = (.done (.ok vs), s') ∧
      ∀ i, ¬ Matches (envOf (packet.take 4) vs) (.matchField "tag" u8 [(i32, 1), (i32, 7)]) i :=
  C21_read_exactly_partial be64 (packet.take 4) [packet[5]] "body" _ _ .none (by decide)
    (by decide +kernel) listIn s s' h (by decide) (fun v => ⟨true, rfl⟩)

/-- C21 fails for a union inside an alternative: the second case matches, and yet the
outer union reports `type_deduction_failure`. -/
theorem C21_fails_nested :
    WellFormed outerSchema ∧ Resolves outerSchema ∧
    FirstMatch (envOf (outerSchema.take 1) [.int 2]) (.matchField "t" u8 [(i32, 1), (i32, 2)]) 1 ∧
    (structCast le64 outerSchema).run [2, 6, 9] =
      (.done (.error ⟨.typeDeductionFailure, "u"⟩), [9]) :=
  ⟨by decide, by decide +kernel, firstMatch_of_eval (by rfl), by rfl⟩

/-- C21, writes that succeed: a union with a computed switch or a ladder holds the first
alternative that matches, given the siblings as stored. -/
theorem C21_write_first_partial (cfg : Cfg) (fs : List Field) (vs : List Val) (p : List Byte)
    (h : (streamCast cfg fs vs).run = (.done (.ok ()), p)) (id : String) (d : Deducer)
    (alts : List Alt) (c : Constraint) (v : Val)
    (hm : (Field.union id d alts c, v) ∈ fs.zip vs) (hd : ∀ i t ls, d ≠ .matchField i t ls) :
    ∃ i u, v = .var i u ∧ FirstMatch (envOf fs vs) d i := by
  rw [Wr.run_eq] at h
  obtain ⟨pre, post, vpre, vpost, hfs, hvs, hl⟩ := split_of_zip hm
  have h' : (writeFields cfg ⟨fs, vs⟩ (pre ++ .union id d alts c :: post)
      (vpre ++ v :: vpost)).Emits p () := by rw [← hfs, ← hvs]; exact h
  obtain ⟨q, r, s, rfl, -, h2, -⟩ := (emits_split hl).1 h'
  have h2 := (emits_writeStep.1 h2).1
  cases v with
  | var i u =>
    obtain ⟨-, ⟨_, _, _, he⟩ | h3⟩ := emits_union h2
    · exact absurd he (hd _ _ _)
    · exact ⟨i, u, rfl, firstMatch_of_eval h3⟩
  | _ => simp only [writeField] at h2; exact ((WrE.emits_stuck _ _ _).1 h2).elim

theorem unionStep {cfg : Cfg} {ctx : WCtx} {id : String} {d : Deducer} {alts : List Alt}
    {c : Constraint} {i : Nat} {u : Val} (hd : ∀ i t ls, d ≠ .matchField i t ls) :
    writeField cfg ctx (.union id d alts c) (.var i u) =
      (WrE.lift (d.eval ctx.env)).andThen fun
        | none => WrE.err .typeDeductionFailure
        | some j =>
            if j ≠ i then WrE.err .validationFailure
            else writeAlts cfg ctx id alts i u := by
  cases d with
  | matchField i t ls => exact absurd rfl (hd i t ls)
  | matchCompute comp t ls => simp only [writeField]; rfl
  | ladder ps => simp only [writeField]; rfl

/-- C21, writes, mismatch: if another alternative is the first to match, the write fails
with `validation_failure` at the union, nothing of it emitted, unless a field before it
already stopped the write. Missing in this and the two theorems around it: "the one the
reader would select". The siblings here are as stored; a reader sees the slots and
constants the writer put in their place. -/
theorem C21_write_mismatch_partial (cfg : Cfg) (pre post : List Field) (id : String) (d : Deducer)
    (alts : List Alt) (c : Constraint) (vpre vpost : List Val) (i : Nat) (u : Val)
    (hwf : WellFormed (pre ++ .union id d alts c :: post))
    (hres : Resolves (pre ++ .union id d alts c :: post)) (hl : vpre.length = pre.length)
    (hty : Typed cfg (pre ++ .union id d alts c :: post) (vpre ++ .var i u :: vpost))
    (hd : ∀ i t ls, d ≠ .matchField i t ls) (hc : ∃ b, c.check (.var i u) = .ok b) (j : Nat)
    (hj : FirstMatch (envOf (pre ++ .union id d alts c :: post) (vpre ++ .var i u :: vpost)) d j)
    (hne : j ≠ i) :
    (∀ q, Puts cfg (pre ++ .union id d alts c :: post) (vpre ++ .var i u :: vpost) pre vpre q →
      (streamCast cfg (pre ++ .union id d alts c :: post) (vpre ++ .var i u :: vpost)).run =
        (.done (.error ⟨.validationFailure, id⟩), q)) ∧
    ((∀ q, ¬ Puts cfg (pre ++ .union id d alts c :: post) (vpre ++ .var i u :: vpost) pre vpre q) →
      (streamCast cfg (pre ++ .union id d alts c :: post) (vpre ++ .var i u :: vpost)).run =
        (writeFields cfg ⟨pre ++ .union id d alts c :: post, vpre ++ .var i u :: vpost⟩
          pre vpre).run) := by
  refine slot_fails rfl rfl hl ?_
  have hev := eval_of_firstMatch (evaluable_write (id := id) (alts := alts) (c := c) hwf hres (by simp) hty) hj
  have hw : writeField cfg ⟨pre ++ .union id d alts c :: post, vpre ++ .var i u :: vpost⟩
      (.union id d alts c) (.var i u) = WrE.err .validationFailure := by
    rw [unionStep hd, show (WCtx.mk _ _).env = envOf _ _ from rfl, hev, lift_ok_andThen]
    simp only
    rw [if_pos hne]
  unfold writeStep
  rw [hw]
  obtain ⟨b, hb⟩ := hc
  split
  · rfl
  · rw [tag_out, WrE.checked, Field.constraint, hb, lift_ok_andThen]
    cases b <;> rfl

/-- C21, writes, nothing matches: the write fails with `type_deduction_failure` at the
union, nothing of it emitted, unless a field before it already stopped the write (or the
union's own constraint does not hold). -/
theorem C21_write_none_partial (cfg : Cfg) (pre post : List Field) (id : String) (d : Deducer)
    (alts : List Alt) (c : Constraint) (vpre vpost : List Val) (i : Nat) (u : Val)
    (hwf : WellFormed (pre ++ .union id d alts c :: post))
    (hres : Resolves (pre ++ .union id d alts c :: post)) (hl : vpre.length = pre.length)
    (hty : Typed cfg (pre ++ .union id d alts c :: post) (vpre ++ .var i u :: vpost))
    (hd : ∀ i t ls, d ≠ .matchField i t ls) (hc : Holds c (.var i u))
    (hj : ∀ j, ¬ Matches (envOf (pre ++ .union id d alts c :: post) (vpre ++ .var i u :: vpost)) d j) :
    (∀ q, Puts cfg (pre ++ .union id d alts c :: post) (vpre ++ .var i u :: vpost) pre vpre q →
      (streamCast cfg (pre ++ .union id d alts c :: post) (vpre ++ .var i u :: vpost)).run =
        (.done (.error ⟨.typeDeductionFailure, id⟩), q)) ∧
    ((∀ q, ¬ Puts cfg (pre ++ .union id d alts c :: post) (vpre ++ .var i u :: vpost) pre vpre q) →
      (streamCast cfg (pre ++ .union id d alts c :: post) (vpre ++ .var i u :: vpost)).run =
        (writeFields cfg ⟨pre ++ .union id d alts c :: post, vpre ++ .var i u :: vpost⟩
          pre vpre).run) := by
  refine slot_fails rfl rfl hl ?_
  have hev := eval_of_noMatch (evaluable_write (id := id) (alts := alts) (c := c) hwf hres (by simp) hty) hj
  have hw : writeField cfg ⟨pre ++ .union id d alts c :: post, vpre ++ .var i u :: vpost⟩
      (.union id d alts c) (.var i u) = WrE.err .typeDeductionFailure := by
    rw [unionStep hd, show (WCtx.mk _ _).env = envOf _ _ from rfl, hev, lift_ok_andThen]
  unfold writeStep
  rw [hw, checked_holds (show Holds (Field.union id d alts c).constraint _ from hc)]
  split <;> rfl

/-- A ladder over a flag byte: high nibble set, low nibble set. -/
def ladderSchema : List Field :=
  [.plain "flag" (.num u8 1) .none,
   .union "u" (.ladder [⟨["flag"], fun | [.int x] => 16 ≤ x | _ => false⟩,
      ⟨["flag"], fun | [.int x] => x % 16 ≠ 0 | _ => false⟩])
     [.mk (.num u8 1) .none, .mk (.num u16 2) .none] .none]

example := C21_write_first_partial le64 ladderSchema [.int 0x23, .var 0 (.int 9)] [0x23, 9] (by rfl) "u"
  _ _ .none (.var 0 (.int 9)) (.tail _ (.head _)) (by simp)

/-- Both branches match, the second is held. -/
example : (streamCast le64 ladderSchema [.int 0x23, .var 1 (.int 9)]).run =
    (.done (.error ⟨.validationFailure, "u"⟩), [0x23]) :=
  (C21_write_mismatch_partial le64 (ladderSchema.take 1) [] "u" _ _ .none [.int 0x23] [] 1 (.int 9)
    (by decide) (by decide +kernel) rfl (by decide +kernel) (by simp) ⟨true, rfl⟩ 0
    (firstMatch_of_eval (by rfl)) (by decide)).1 [0x23] (by rfl)

example : (streamCast le64 ladderSchema [.int 0, .var 1 (.int 9)]).run =
    (.done (.error ⟨.typeDeductionFailure, "u"⟩), [0]) :=
  (C21_write_none_partial le64 (ladderSchema.take 1) [] "u" _ _ .none [.int 0] [] 1 (.int 9)
    (by decide) (by decide +kernel) rfl (by decide +kernel) (by simp) rfl
    (noMatch_of_eval (by rfl))).1 [0] (by rfl)

/-- A ladder over a derived length. -/
def staleLadderSchema : List Field :=
  [.plain "n" (.num u8 1) .none,
   .plain "data" (.vec (.scalar u8) (.fromField "n") none) .none,
   .union "u" (.ladder [⟨["n"], fun | [.int x] => x == 0 | _ => false⟩, ⟨["n"], fun _ => true⟩])
     [.mk (.num u8 1) .none, .mk (.num u16 2) .none] .none]

/-- C21 fails for a ladder over a derived field: the write succeeds with an alternative
that the reader does not select. -/
theorem C21_fails_stale :
    WellFormed staleLadderSchema ∧ Resolves staleLadderSchema ∧
    Typed le64 staleLadderSchema [.int 0, .seq [.int 5], .var 0 (.int 9)] ∧
    (streamCast le64 staleLadderSchema [.int 0, .seq [.int 5], .var 0 (.int 9)]).run =
      (.done (.ok ()), [1, 5, 9]) ∧
    (structCast le64 staleLadderSchema).run [1, 5, 9] =
      (.done (.error ⟨.bufferExhaustion, "u"⟩), [9]) :=
  ⟨by decide, by decide +kernel, by decide +kernel, by rfl, by rfl⟩

/-! ## C56 -/

/-- C56, reads. Given the fields read before it: if nothing matches, the union fails with
`type_deduction_failure` and the stream is not touched; if alternative `i` is the first
to match, the read of the union is the read of that alternative as a plain field in its
place (same error, same stream), the value wrapped as alternative `i` and held against
the union's own constraint. One of the two is the case. -/
theorem C56_read (cfg : Cfg) (pre : List Field) (id : String) (d : Deducer)
    (alts : List Alt) (c : Constraint) (hwf : WellFormed (pre ++ [.union id d alts c]))
    (hres : Resolves (pre ++ [.union id d alts c])) (S : InStream) (s s1 : S.State)
    (vs : List Val) (h : (structCast cfg pre).runOn S s = (.done (.ok vs), s1)) :
    ((∀ i, ¬ Matches (envOf pre vs) d i) ∧
      (structCast cfg (pre ++ [.union id d alts c])).runOn S s =
        (.done (.error ⟨.typeDeductionFailure, id⟩), s1)) ∨
    ∃ i k c', FirstMatch (envOf pre vs) d i ∧ alts[i]? = some (.mk k c') ∧
      (∀ e s', (structCast cfg (pre ++ [.plain id k c'])).runOn S s = (.done (.error e), s') →
        (structCast cfg (pre ++ [.union id d alts c])).runOn S s = (.done (.error e), s')) ∧
      (∀ ws s', (structCast cfg (pre ++ [.plain id k c'])).runOn S s = (.done (.ok ws), s') →
        ∃ u, ws = vs ++ [u] ∧
          (c.check (.var i u) = .ok true → (structCast cfg (pre ++ [.union id d alts c])).runOn S s =
            (.done (.ok (vs ++ [.var i u])), s')) ∧
          (c.check (.var i u) = .ok false → (structCast cfg (pre ++ [.union id d alts c])).runOn S s =
            (.done (.error ⟨.validationFailure, id⟩), s'))) := by
  have hv := (success_on_any_stream cfg pre (wf_prefix hwf) S s s1 vs h).1
  obtain ⟨o, ho⟩ := eval_of_evaluable (evaluable_read hwf hres hv.1)
  cases o with
  | none =>
    exact .inl ⟨noMatch_of_eval ho, C21_read_none cfg pre [] id d alts c hwf hres S s s1 vs h
      (noMatch_of_eval ho)⟩
  | some i =>
    have hlt : i < alts.length := by
      have h4 := sane_mem hwf.1 (by simp : Field.union id d alts c ∈ pre ++ [.union id d alts c])
      rw [saneField, Bool.and_eq_true, decide_eq_true_eq] at h4
      exact h4.1 ▸ Deducer.eval_lt _ _ _ ho
    obtain ⟨k, c', ha⟩ : ∃ k c', alts[i]? = some (.mk k c') := by
      cases hx : alts[i] with
      | mk k c' => exact ⟨k, c', by rw [List.getElem?_eq_getElem hlt, hx]⟩
    obtain ⟨hE, hO, -⟩ := union_as_plain hwf h ho ha
    exact .inr ⟨i, k, c', firstMatch_of_eval ho, ha, hE, hO⟩

/-- C56, writes, computed switches and ladders, in a typed struct: nothing matches, given
the siblings as stored, or one alternative is the first to match. If the union's own
constraint holds: in the first case the write fails with `type_deduction_failure` at the
union; in the second, if that alternative is not the one held, with
`validation_failure`; nothing of the union is emitted, and a field before it may stop the
write first. A successful write means the second case and the held one. -/
theorem C56_write (cfg : Cfg) (pre post : List Field) (id : String) (d : Deducer)
    (alts : List Alt) (c : Constraint) (vpre vpost : List Val) (i : Nat) (u : Val)
    (hwf : WellFormed (pre ++ .union id d alts c :: post))
    (hres : Resolves (pre ++ .union id d alts c :: post)) (hl : vpre.length = pre.length)
    (hty : Typed cfg (pre ++ .union id d alts c :: post) (vpre ++ .var i u :: vpost))
    (hd : ∀ i t ls, d ≠ .matchField i t ls) (hc : Holds c (.var i u)) :
    ((∀ p, (streamCast cfg (pre ++ .union id d alts c :: post) (vpre ++ .var i u :: vpost)).run ≠
        (.done (.ok ()), p)) ∧
      (∀ j, ¬ Matches (envOf (pre ++ .union id d alts c :: post) (vpre ++ .var i u :: vpost)) d j) ∧
      ∀ q, Puts cfg (pre ++ .union id d alts c :: post) (vpre ++ .var i u :: vpost) pre vpre q →
        (streamCast cfg (pre ++ .union id d alts c :: post) (vpre ++ .var i u :: vpost)).run =
          (.done (.error ⟨.typeDeductionFailure, id⟩), q)) ∨
    ∃ j, FirstMatch (envOf (pre ++ .union id d alts c :: post) (vpre ++ .var i u :: vpost)) d j ∧
      (j = i ∨
        (∀ p, (streamCast cfg (pre ++ .union id d alts c :: post) (vpre ++ .var i u :: vpost)).run ≠
          (.done (.ok ()), p)) ∧
        ∀ q, Puts cfg (pre ++ .union id d alts c :: post) (vpre ++ .var i u :: vpost) pre vpre q →
          (streamCast cfg (pre ++ .union id d alts c :: post) (vpre ++ .var i u :: vpost)).run =
            (.done (.error ⟨.validationFailure, id⟩), q)) := by
  have first := fun p h => C21_write_first_partial cfg
    (pre ++ .union id d alts c :: post) (vpre ++ .var i u :: vpost) p h id d alts c (.var i u)
    (by rw [List.zip_append hl.symm]; simp) hd
  obtain ⟨o, ho⟩ := eval_of_evaluable (evaluable_write (d := d) (id := id) (alts := alts) (c := c) hwf hres (by simp) hty)
  cases o with
  | none =>
    refine .inl ⟨fun p hp => ?_, noMatch_of_eval ho, (C21_write_none_partial cfg pre post id d alts c
      vpre vpost i u hwf hres hl hty hd hc (noMatch_of_eval ho)).1⟩
    obtain ⟨j, w, he, hf⟩ := first p hp
    exact noMatch_of_eval ho j hf.1
  | some j =>
    refine .inr ⟨j, firstMatch_of_eval ho, ?_⟩
    by_cases hji : j = i
    · exact .inl hji
    · refine .inr ⟨fun p hp => ?_, (C21_write_mismatch_partial cfg pre post id d alts c
        vpre vpost i u hwf hres hl hty hd ⟨true, hc⟩ j (firstMatch_of_eval ho) hji).1⟩
      obtain ⟨i', w, he, hf⟩ := first p hp
      cases he
      exact hji (firstMatch_unique (firstMatch_of_eval ho) hf)

example := C56_read be64 (packet.take 4) "body" (.matchField "tag" u8 [(i32, 1), (i32, 7)])
  [.mk (.num u32 4) (.cmp .lt u32 1000), .mk (.record inner) .none] .none
  (by decide) (by decide +kernel) listIn packetBytes (packetBytes.drop 13) (packetParsed.take 4) (by rfl)

example := C56_write le64 (ladderSchema.take 1) [] "u" _ _ .none [.int 0x23] [] 1 (.int 9)
    (show WellFormed ladderSchema by decide) (by decide +kernel) rfl (by decide +kernel) (by simp) rfl

end S2S.Props
