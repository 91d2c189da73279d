import Verif.Lemmas.Contrib
import Verif.Lemmas.Append
import Verif.Props.Slots
/-
C19, C20, C22, C35, C55, C57, C59: constants, optionals, conditional and computed
lengths.
-/
namespace S2S.Props
open Spec Demo

/-! ## C19 -/

theorem not_hasConditional {fs : List Field} {id : String} (h : ∀ f ∈ fs, id ∉ lengthTargets f) :
    hasConditional fs id = false := by
  rw [← Bool.not_eq_true]
  intro hc
  unfold hasConditional at hc
  rw [List.any_eq_true] at hc
  obtain ⟨f, hf, h1⟩ := hc
  refine h f hf ?_
  cases f with
  | plain i k c => cases h1
  | maybe i k p =>
    simp only [Field.condTargets, decide_eq_true_eq] at h1
    simp [lengthTargets, h1]
  | union i d alts c =>
    simp only [Field.condTargets, anyAltTargets, List.any_eq_true, decide_eq_true_eq] at h1
    obtain ⟨a, ha, h1⟩ := h1
    simp only [lengthTargets, List.mem_flatMap]
    exact ⟨a, ha, by simp [h1]⟩

theorem frozenVal_eq_typedConst (k : Kind) (c : Constraint) : frozenVal k c = typedConst k c := by
  cases k <;> cases c <;> try rfl

theorem fixed_of_const {k : Kind} {c : Constraint} {u : Val} (h : typedConst k c = some u) :
    k.isFixed = true := by
  cases k <;> first | rfl | (cases c <;> simp [typedConst] at h)

/-- The bytes of a typed value of fixed size. -/
theorem emits_wire {cfg : Cfg} {k : Kind} {u : Val} (hk : k.isFixed = true) (hw : WidthOk k)
    (h : TypedKind cfg k u) : (emitFixed cfg k u).Emits (wireKind cfg.wire k u) () := by
  cases k with
  | num t w =>
    cases u <;> simp only [TypedKind] at h
    simp only [emitFixed, wireKind]
    exact (emits_writeNum _ _ _ _ _).2 ⟨hw, rfl⟩
  | fbuf e n =>
    cases u <;> simp only [TypedKind] at h
    exact emits_emitFixed cfg _ _ rfl (by rw [FitsKind]; exact h)
  | fstr n =>
    cases u <;> simp only [TypedKind] at h
    exact emits_emitFixed cfg _ _ rfl (by rw [FitsKind]; exact h)
  | _ => cases hk

theorem frozenStep {cfg : Cfg} {fs : List Field} {vs : List Val} {id : String} {k : Kind}
    {c : Constraint} {u : Val} (hu : typedConst k c = some u) (htu : TypedKind cfg k u)
    (hw : WidthOk k) (hslot : isSlot fs id = false) (hlen : ∀ f ∈ fs, id ∉ lengthTargets f)
    (v : Val) : (writeStep cfg ⟨fs, vs⟩ (.plain id k c) v).Emits (wireKind cfg.wire k u) () := by
  have hk := fixed_of_const hu
  have hfz : frozenVal k c = some u := (frozenVal_eq_typedConst k c).trans hu
  rw [emits_writeStep]
  refine ⟨?_, fun _ h => ?_⟩
  · rw [writeField]
    have : writeKind cfg ⟨fs, vs⟩ true id c k v = writeFixed cfg ⟨fs, vs⟩ true id k c v := by
      cases k <;> first | (cases hk; done) | rw [writeKind]
    rw [this, emits_writeFixed]
    refine .inr ⟨hslot, ?_⟩
    simp only [if_true, hfz, Option.getD_some]
    unfold verifyThenWrite
    rw [show hasConditional (WCtx.mk fs vs).fs id = false from not_hasConditional hlen]
    exact emits_wire hk hw htu
  · simp [Field.isFrozen, hfz] at h

/-- C19, bytes: a field constrained with `eq`, whose constant is a value of the field's
type, that is not at the same time a length or discriminant slot (nor named as a length
inside an optional or a union), is emitted as its constant. -/
theorem C19_emitted_partial (cfg : Cfg) (pre post : List Field) (id : String) (k : Kind)
    (c : Constraint) (vpre vpost : List Val) (v u : Val) (hl : vpre.length = pre.length)
    (hu : typedConst k c = some u) (htu : TypedKind cfg k u) (hw : WidthOk k)
    (hslot : isSlot (pre ++ .plain id k c :: post) id = false)
    (hlen : ∀ f ∈ pre ++ Field.plain id k c :: post, id ∉ lengthTargets f) (p : List Byte)
    (h : (streamCast cfg (pre ++ .plain id k c :: post) (vpre ++ v :: vpost)).run =
      (.done (.ok ()), p)) :
    ∃ q s, p = q ++ (wireKind cfg.wire k u ++ s) ∧
      Puts cfg (pre ++ .plain id k c :: post) (vpre ++ v :: vpost) pre vpre q ∧
      Puts cfg (pre ++ .plain id k c :: post) (vpre ++ v :: vpost) post vpost s := by
  rw [Wr.run_eq] at h
  obtain ⟨q, r, s, rfl, h1, h2, h3⟩ := (emits_split hl).1 h
  have h4 := frozenStep (vs := vpre ++ v :: vpost) hu htu hw hslot hlen v
  rw [WrE.Emits, h2] at h4
  cases h4
  exact ⟨q, s, rfl, (Wr.run_eq _).trans h1, (Wr.run_eq _).trans h3⟩

/-- C19, errors: such a field is never the one a write on a healthy stream fails at. -/
theorem C19_never_fails_partial (cfg : Cfg) (fs : List Field) (vs : List Val) (id : String)
    (k : Kind) (c : Constraint) (u : Val) (hwf : WellFormed fs) (hin : Field.plain id k c ∈ fs)
    (hu : typedConst k c = some u) (htu : TypedKind cfg k u) (hw : WidthOk k)
    (hslot : isSlot fs id = false) (hlen : ∀ f ∈ fs, id ∉ lengthTargets f)
    (e : CastError) (p : List Byte)
    (h : (streamCast cfg fs vs).run = (.done (.error e), p)) : e.failedAt ≠ id := by
  rw [Wr.run_eq] at h
  obtain ⟨pre, f, post, vpre, v, vpost, q, r, rfl, rfl, hl, rfl, h1, h2, h3⟩ := error_split h
  intro he
  have hf : f = .plain id k c := field_inj hwf.2.1 (by simp) hin (h3.symm.trans he)
  subst hf
  have h4 := frozenStep (vs := vpre ++ v :: vpost) hu htu hw hslot hlen v
  rw [WrE.Emits, h2] at h4
  cases h4

/-- C19, stored value: it makes no difference, on any stream, if no callable of the list
reads the field. Missing in these three: constants that are no value of the field's
type, fields that are slots as well, and fields read by callables; for each the
statement is false. -/
theorem C19_stored_partial (cfg : Cfg) (pre post : List Field) (id : String) (k : Kind)
    (c : Constraint) (vpre vpost : List Val) (v v' u : Val) (hl : vpre.length = pre.length)
    (hu : typedConst k c = some u)
    (hr : ∀ f ∈ pre ++ Field.plain id k c :: post, id ∉ callableReads f)
    (S : OutStream) (s : S.State) :
    (streamCast cfg (pre ++ .plain id k c :: post) (vpre ++ v :: vpost)).runOn S s =
    (streamCast cfg (pre ++ .plain id k c :: post) (vpre ++ v' :: vpost)).runOn S s := by
  rw [streamCast_ignores v v' hl (fixed_of_const hu) (.inr ?_) hr]
  rw [frozenVal_eq_typedConst, hu]
  rfl

/-- The magic number of the packet. -/
example : ∃ q s, packetBytes = q ++ (wireKind .big (.num u32 4) (.int 0x1234) ++ s) ∧
    Puts be64 packet packetVal [] [] q ∧ Puts be64 packet packetVal (packet.drop 1) (packetVal.drop 1) s :=
  C19_emitted_partial be64 [] (packet.drop 1) "magic" (.num u32 4) (.cmp .eq i32 0x1234) []
    (packetVal.drop 1) (.int 0) (.int 0x1234) rfl (by decide) (by decide +kernel) (by decide)
    (by decide) (by decide) _ (by rfl)

example (vs : List Val) (e : CastError) (p : List Byte)
    (h : (streamCast be64 packet vs).run = (.done (.error e), p)) : e.failedAt ≠ "magic" :=
  C19_never_fails_partial be64 packet vs "magic" (.num u32 4) (.cmp .eq i32 0x1234) (.int 0x1234)
    (by decide) (by simp [packet]) (by decide) (by decide +kernel) (by decide) (by decide)
    (by decide) e p h

/-- A magic number that is also the length of an optional container. -/
def frozenLenSchema : List Field :=
  [.plain "n" (.num u8 1) (.cmp .eq i32 2),
   .maybe "data" (.vec (.scalar u8) (.fromField "n") none) ⟨["n"], fun _ => true⟩]

/-- C19 fails for a constant that is also a length: the field is the cause of a failed
write. -/
theorem C19_fails_length :
    WellFormed frozenLenSchema ∧ Typed le64 frozenLenSchema [.int 0, .present (.seq [.int 1])] ∧
    (streamCast le64 frozenLenSchema [.int 0, .present (.seq [.int 1])]).run =
      (.done (.error ⟨.foundContradictingLength, "n"⟩), []) :=
  ⟨by decide, by decide +kernel, by rfl⟩

/-- A magic number that is also the length of a container of the list. -/
def frozenSlotSchema : List Field :=
  [.plain "n" (.num u8 1) (.cmp .eq i32 2),
   .plain "data" (.vec (.scalar u8) (.fromField "n") none) .none]

/-- C19 fails for a constant that is also a slot: the derived length is held against
the constant. -/
theorem C19_fails_slot :
    WellFormed frozenSlotSchema ∧ Typed le64 frozenSlotSchema [.int 0, .seq [.int 1]] ∧
    (streamCast le64 frozenSlotSchema [.int 0, .seq [.int 1]]).run =
      (.done (.error ⟨.validationFailure, "n"⟩), []) :=
  ⟨by decide, by decide +kernel, by rfl⟩

/-- C19 fails for a constant that does not fit its field: what is emitted does not
satisfy the constraint when it is read back. -/
theorem C19_fails_lossy :
    WellFormed lossySchema ∧
    (streamCast le64 lossySchema [.int 0]).run = (.done (.ok ()), [44]) ∧
    (structCast le64 lossySchema).run [44] = (.done (.error ⟨.validationFailure, "m"⟩), []) :=
  ⟨by decide, by rfl, by rfl⟩

/-- A magic number that a predicate reads. -/
def readMagicSchema : List Field :=
  [.plain "m" (.num u8 1) (.cmp .eq i32 7),
   .maybe "b" (.num u8 1) ⟨["m"], fun vs => vs == [.int 7]⟩]

/-- C19 fails for a constant that a callable reads: it sees what is stored. -/
theorem C19_fails_stale :
    WellFormed readMagicSchema ∧
    (streamCast le64 readMagicSchema [.int 7, .present (.int 1)]).run = (.done (.ok ()), [7, 1]) ∧
    (streamCast le64 readMagicSchema [.int 0, .present (.int 1)]).run =
      (.done (.error ⟨.validationFailure, "b"⟩), [7]) :=
  ⟨by decide, by rfl, by rfl⟩

/-! ## C55 -/

/-- C55. A constant that fits its field and satisfies its own constraint, on a field
that is no slot and no length and that no callable reads: it is emitted whatever is
stored, the field is never the one a write on a healthy stream fails at, and reading the
emitted bytes with the field's descriptor gives the constant, the constraint
satisfied. -/
theorem C55_constant (cfg : Cfg) (pre post : List Field) (id : String) (k : Kind)
    (c : Constraint) (u : Val) (hwf : WellFormed (pre ++ .plain id k c :: post))
    (hu : constOf k c = some u) (hfit : FitsKind cfg k u) (hold : Holds c u)
    (hslot : isSlot (pre ++ .plain id k c :: post) id = false)
    (hlen : ∀ f ∈ pre ++ Field.plain id k c :: post, id ∉ lengthTargets f)
    (hr : ∀ f ∈ pre ++ Field.plain id k c :: post, id ∉ callableReads f) :
    ∃ r, (∀ rest, (structCast cfg [.plain id k c]).run (r ++ rest) = (.done (.ok [u]), rest)) ∧
    ∀ vpre vpost v, vpre.length = pre.length →
      (∀ p, (streamCast cfg (pre ++ .plain id k c :: post) (vpre ++ v :: vpost)).run =
          (.done (.ok ()), p) → ∃ q s, p = q ++ (r ++ s) ∧
        Puts cfg (pre ++ .plain id k c :: post) (vpre ++ v :: vpost) pre vpre q ∧
        Puts cfg (pre ++ .plain id k c :: post) (vpre ++ v :: vpost) post vpost s) ∧
      (∀ e p, (streamCast cfg (pre ++ .plain id k c :: post) (vpre ++ v :: vpost)).run =
        (.done (.error e), p) → e.failedAt ≠ id) ∧
      ∀ (v' : Val) (S : OutStream) (s : S.State),
        (streamCast cfg (pre ++ .plain id k c :: post) (vpre ++ v :: vpost)).runOn S s =
        (streamCast cfg (pre ++ .plain id k c :: post) (vpre ++ v' :: vpost)).runOn S s := by
  have htc : typedConst k c = some u :=
    (frozenVal_eq_typedConst k c).symm.trans (frozenVal_of_const hu hfit)
  have hk := fixed_of_const htc
  have hty : TypedKind cfg k u ∧ WidthOk k := by
    cases k with
    | num t w =>
      cases u <;> simp only [FitsKind] at hfit
      refine ⟨by rw [TypedKind]; exact hfit.1, ?_⟩
      show w ≤ t.size
      rcases hfit.2 with h | h
      · omega
      · exact Nat.le_of_lt h.1
    | fbuf e n =>
      cases u <;> simp only [FitsKind] at hfit
      exact ⟨by rw [TypedKind]; exact hfit, trivial⟩
    | fstr n =>
      cases u <;> simp only [FitsKind] at hfit
      exact ⟨by rw [TypedKind]; exact hfit, trivial⟩
    | _ => cases hk
  refine ⟨wireKind cfg.wire k u, fun rest => ?_, fun vpre vpost v hl =>
    ⟨fun p h => C19_emitted_partial cfg pre post id k c vpre vpost v u hl htc hty.1 hty.2 hslot hlen
      p h,
    fun e p h => C19_never_fails_partial cfg _ _ id k c u hwf (by simp) htc hty.1 hty.2 hslot hlen
      e p h,
    fun v' S s => C19_stored_partial cfg pre post id k c vpre vpost v v' u hl htc hr S s⟩⟩
  have hwf1 : WellFormed [.plain id k c] := by
    cases k <;> first | (cases hk; done) | (refine ⟨?_, ?_, ?_⟩ <;> simp [saneFields, saneField, saneKind,
      uniqueFields, uniqueField, uniqueKind, earlierFields, earlierField, earlierKind, fieldDeps,
      kindDeps])
  rw [read_iff _ _ hwf1]
  refine ⟨⟨?_, ?_, ?_⟩, ?_⟩
  · simp only [FitsFields, FitsField, and_true]; exact hfit
  · simp only [OkFields, OkField, and_true]
    refine ⟨?_, hold⟩
    cases k <;> first | (cases hk; done) | simp [OkKind]
  · simp only [ShapedFields, ShapedField, and_true]
    cases k <;> first | (cases hk; done) | simp [ShapedKind]
  · simp [wire, wireFields, wireField]

example := C55_constant be64 [] (packet.drop 1) "magic" (.num u32 4) (.cmp .eq i32 0x1234)
  (.int 0x1234) (by decide) rfl (by decide +kernel) (by rfl) (by decide) (by decide) (by decide)

/-! ## C20 -/

/-- C20, writes: if a write succeeds, every optional, at every nesting level, is engaged
exactly when its predicate holds of its siblings. -/
theorem C20_write (cfg : Cfg) (fs : List Field) (vs : List Val) (p : List Byte)
    (h : (streamCast cfg fs vs).run = (.done (.ok ()), p)) : PresenceFields (envOf fs vs) fs vs :=
  presence_fields cfg fs ⟨fs, vs⟩ vs p ((Wr.run_eq _).symm.trans h)

/-- C20, writes, bytes: an absent optional contributes none. -/
theorem C20_write_absent (cfg : Cfg) (pre post : List Field) (id : String) (k : Kind) (pr : Pred)
    (vpre vpost : List Val) (hl : vpre.length = pre.length) (p : List Byte)
    (h : (streamCast cfg (pre ++ .maybe id k pr :: post) (vpre ++ .absent :: vpost)).run =
      (.done (.ok ()), p)) :
    ∃ q s, p = q ++ s ∧
      Puts cfg (pre ++ .maybe id k pr :: post) (vpre ++ .absent :: vpost) pre vpre q ∧
      Puts cfg (pre ++ .maybe id k pr :: post) (vpre ++ .absent :: vpost) post vpost s := by
  rw [Wr.run_eq] at h
  obtain ⟨q, r, s, rfl, h1, h2, h3⟩ := (emits_split hl).1 h
  rcases selects_of_emits (emits_writeStep.1 h2).1 with ⟨_, _, _, -, -, -, rfl⟩ | ⟨k', u, h4⟩
  · exact ⟨q, s, rfl, (Wr.run_eq _).trans h1, (Wr.run_eq _).trans h3⟩
  · cases h4

theorem maybeStep {cfg : Cfg} {ctx : WCtx} {id : String} {k : Kind} {pr : Pred} {v : Val} :
    writeStep cfg ctx (.maybe id k pr) v = (writeField cfg ctx (.maybe id k pr) v).tag id := by
  have : WrE.checked (Field.maybe id k pr).constraint v (writeField cfg ctx (.maybe id k pr) v) =
      writeField cfg ctx (.maybe id k pr) v := checked_holds (by simp [Field.constraint, Holds, Constraint.check]) _
  unfold writeStep
  rw [this]
  split <;> rfl

/-- C20, mismatch: an optional that is engaged although its predicate does not hold, or
not engaged although it does, makes the write fail with `validation_failure` at that
field, nothing of it emitted, unless a field before it already stopped the write. -/
theorem C20_mismatch (cfg : Cfg) (pre post : List Field) (id : String) (k : Kind) (pr : Pred)
    (vpre vpost : List Val) (v : Val) (hl : vpre.length = pre.length)
    (hbad : (v = .absent ∧
        pr.eval (envOf (pre ++ .maybe id k pr :: post) (vpre ++ v :: vpost)) = .ok true) ∨
      ∃ u, v = .present u ∧
        pr.eval (envOf (pre ++ .maybe id k pr :: post) (vpre ++ v :: vpost)) = .ok false) :
    (∀ q, Puts cfg (pre ++ .maybe id k pr :: post) (vpre ++ v :: vpost) pre vpre q →
      (streamCast cfg (pre ++ .maybe id k pr :: post) (vpre ++ v :: vpost)).run =
        (.done (.error ⟨.validationFailure, id⟩), q)) ∧
    ((∀ q, ¬ Puts cfg (pre ++ .maybe id k pr :: post) (vpre ++ v :: vpost) pre vpre q) →
      (streamCast cfg (pre ++ .maybe id k pr :: post) (vpre ++ v :: vpost)).run =
        (writeFields cfg ⟨pre ++ .maybe id k pr :: post, vpre ++ v :: vpost⟩ pre vpre).run) := by
  refine slot_fails rfl rfl hl ?_
  rw [maybeStep, tag_out, writeField]
  rcases hbad with ⟨rfl, h⟩ | ⟨u, rfl, h⟩
  · rw [show (WCtx.mk _ _).env = envOf _ _ from rfl, h, lift_ok_andThen]; rfl
  · rw [show (WCtx.mk _ _).env = envOf _ _ from rfl, h, lift_ok_andThen]; rfl

/-- C20, the predicate always has a value: every optional either agrees with it or is a
mismatch in the sense of `C20_mismatch`. -/
theorem C20_decided (cfg : Cfg) (fs : List Field) (hwf : WellFormed fs) (vs : List Val)
    (hty : Typed cfg fs vs) (id : String) (k : Kind) (pr : Pred)
    (hf : Field.maybe id k pr ∈ fs) : ∃ b, pr.eval (envOf fs vs) = .ok b :=
  Pred.eval_ok fun i hi => deps_some hwf.acceptable (typed_length hty) hf i (by simp [fieldDeps, hi])

example : ∃ b, (Pred.mk ["a"] fun vs => vs == [.int (-1)]).eval
    (envOf inner [.int 5, .present (.int 0x0102)]) = .ok b :=
  C20_decided be64 inner (by decide) [.int 5, .present (.int 0x0102)] (by decide +kernel) "b" (.num u16 2) _
    (by simp [inner])

/-- C20, reads: in the result of a successful read, from whatever stream, an optional is
engaged exactly when its predicate holds. -/
theorem C20_read (cfg : Cfg) (fs : List Field) (hwf : WellFormed fs) (S : InStream)
    (s s' : S.State) (vs : List Val)
    (h : (structCast cfg fs).runOn S s = (.done (.ok vs), s')) (id : String) (k : Kind) (pr : Pred)
    (v : Val) (hm : (Field.maybe id k pr, v) ∈ fs.zip vs) :
    (v = .absent ∧ pr.eval (envOf fs vs) = .ok false) ∨
    ∃ u, v = .present u ∧ pr.eval (envOf fs vs) = .ok true := by
  have hv := (success_on_any_stream cfg fs hwf S s s' vs h).1
  have h1 := shaped_zip hv.2.2 hm
  have h2 := fits_zip hv.1 hm
  cases v with
  | absent => rw [ShapedField] at h1; exact .inl ⟨rfl, h1⟩
  | present u => rw [ShapedField] at h1; exact .inr ⟨u, rfl, h1.1⟩
  | _ => simp [FitsField] at h2

/-- C20, reads: if the predicate does not hold of the fields read before, the optional is
left empty and the stream is not touched for it. -/
theorem C20_read_absent (cfg : Cfg) (pre : List Field) (id : String) (k : Kind) (pr : Pred)
    (hwf : WellFormed (pre ++ [.maybe id k pr])) (S : InStream) (s s1 : S.State) (vs : List Val)
    (h : (structCast cfg pre).runOn S s = (.done (.ok vs), s1))
    (hp : pr.eval (envOf pre vs) = .ok false) :
    (structCast cfg (pre ++ [.maybe id k pr])).runOn S s = (.done (.ok (vs ++ [.absent])), s1) ∧
    (structCast cfg (pre ++ [.maybe id k pr])).callsOn S s = (structCast cfg pre).callsOn S s := by
  have key : readRest cfg pre [.maybe id k pr] vs = RdE.ok (vs ++ [.absent]) := by
    rw [readRest, readFields_cons, fieldStep, readField, hp]
    rfl
  constructor
  · rw [runOn_append cfg pre _ hwf S s s1 vs h, key]
    rfl
  · rw [callsOn_append cfg pre _ hwf S s s1 vs h, key]
    simp [RdE.ok, Rd.callsOn]

example : PresenceFields (envOf packet packetVal) packet packetVal :=
  C20_write be64 packet packetVal packetBytes (by rfl)

example : ∃ q s, ([5, 9] : List Byte) = q ++ s ∧
    Puts le64 (inner ++ [.plain "c" (.num u8 1) .none]) [.int 5, .absent, .int 9] [inner[0]] [.int 5] q ∧
    Puts le64 (inner ++ [.plain "c" (.num u8 1) .none]) [.int 5, .absent, .int 9]
      [.plain "c" (.num u8 1) .none] [.int 9] s :=
  C20_write_absent le64 [inner[0]] [.plain "c" (.num u8 1) .none] "b" (.num u16 2)
    ⟨["a"], fun vs => vs == [.int (-1)]⟩ [.int 5] [.int 9] rfl _ (by rfl)

example : (streamCast le64 inner [.int 5, .present (.int 1)]).run =
    (.done (.error ⟨.validationFailure, "b"⟩), [5]) :=
  (C20_mismatch le64 [inner[0]] [] "b" (.num u16 2) ⟨["a"], fun vs => vs == [.int (-1)]⟩ [.int 5] []
    (.present (.int 1)) rfl (.inr ⟨_, rfl, by rfl⟩)).1 [5] (by rfl)

example := C20_read le64 inner (by decide) listIn [255, 1, 2] [] [.int (-1), .present (.int 0x0201)]
  (by rfl) "b" (.num u16 2) ⟨["a"], fun vs => vs == [.int (-1)]⟩ (.present (.int 0x0201))
  (by simp [inner])

example : (structCast le64 inner).runOn listIn [5, 1, 2] = (.done (.ok [.int 5, .absent]), [1, 2]) :=
  (C20_read_absent le64 [inner[0]] "b" (.num u16 2) ⟨["a"], fun vs => vs == [.int (-1)]⟩ (by decide)
    listIn [5, 1, 2] [1, 2] [.int 5] (by rfl) (by rfl)).1

/-! ## C22 -/

theorem plainStep {cfg : Cfg} {fs : List Field} {vs : List Val} {id : String} {k : Kind}
    {c : Constraint} {v : Val} (hs : isSlot fs id = false) (hc : typedConst k c = none) :
    writeStep cfg ⟨fs, vs⟩ (.plain id k c) v =
      (WrE.checked c v (writeKind cfg ⟨fs, vs⟩ true id c k v)).tag id := by
  unfold writeStep
  have h1 : isDerived (WCtx.mk fs vs).fs (Field.plain id k c).id = false := by
    rw [isDerived_eq]; exact hs
  have h2 : (Field.plain id k c).isFrozen = false := by
    rw [Field.isFrozen, frozenVal_eq_typedConst, hc]; rfl
  rw [h1, h2, writeField]
  rfl

theorem plainNum {cfg : Cfg} {fs : List Field} {vs : List Val} {id : String} {t : ScalarTy} {w : Nat}
    {c : Constraint} {x : Int} (hs : isSlot fs id = false) (hc : typedConst (.num t w) c = none) :
    writeKind cfg ⟨fs, vs⟩ true id c (.num t w) (.int x) =
      verifyThenWrite cfg ⟨fs, vs⟩ id (.num t w) (.int x) := by
  rw [writeKind, writeFixed]
  rw [show isDerived (WCtx.mk fs vs).fs id = false from (isDerived_eq _ _).trans hs]
  simp [frozenVal_eq_typedConst, hc]

theorem zip_inj {fs : List Field} {vs : List Val} (hu : uniqueFields [] fs = true) {f : Field}
    {v v' : Val} (h : (f, v) ∈ fs.zip vs) (h' : (f, v') ∈ fs.zip vs) : v = v' := by
  have := (env_zip hu h).symm.trans (env_zip hu h')
  exact Option.some.inj this

/-- C22, bytes: a number that is no slot and has no constant (so that it is a length, if
at all, only from inside optionals and unions) is emitted as stored; and the write
succeeds only if every container in play inside an optional or a union that is sized by
it has that many elements, counted in `std::size_t`. -/
theorem C22_emitted_partial (cfg : Cfg) (pre post : List Field) (id : String) (t : ScalarTy)
    (w : Nat) (c : Constraint) (vpre vpost : List Val) (x : Int)
    (hwf : WellFormed (pre ++ .plain id (.num t w) c :: post)) (hl : vpre.length = pre.length)
    (hty : Typed cfg (pre ++ .plain id (.num t w) c :: post) (vpre ++ .int x :: vpost))
    (hslot : isSlot (pre ++ .plain id (.num t w) c :: post) id = false)
    (hc : typedConst (.num t w) c = none) (p : List Byte)
    (h : (streamCast cfg (pre ++ .plain id (.num t w) c :: post) (vpre ++ .int x :: vpost)).run =
      (.done (.ok ()), p)) :
    (∃ q s, p = q ++ (wireScalar cfg.wire t.size w x ++ s) ∧
      Puts cfg (pre ++ .plain id (.num t w) c :: post) (vpre ++ .int x :: vpost) pre vpre q ∧
      Puts cfg (pre ++ .plain id (.num t w) c :: post) (vpre ++ .int x :: vpost) post vpost s) ∧
    ∀ f v m, (f, v) ∈ (pre ++ .plain id (.num t w) c :: post).zip (vpre ++ .int x :: vpost) →
      ActiveLen (envOf (pre ++ .plain id (.num t w) c :: post) (vpre ++ .int x :: vpost)) id f v m →
      m = cfg.toSz x := by
  rw [Wr.run_eq] at h
  obtain ⟨q, r, s, rfl, h1, h2, h3⟩ := (emits_split hl).1 h
  have h2 := (emits_writeStep.1 h2).1
  rw [writeField, plainNum hslot hc] at h2
  rcases out_verifyThenWrite hwf.acceptable hty id t w x with ⟨ha, hv⟩ | ⟨-, hv⟩
  · rw [hv, emits_writeNum] at h2
    rw [h2.2]
    exact ⟨⟨q, s, rfl, (Wr.run_eq _).trans h1, (Wr.run_eq _).trans h3⟩, ha⟩
  · rw [hv] at h2
    exact ((WrE.emits_err _ _ _).1 h2).elim

/-- C22, mismatch: if the field's own constraint holds and a container in play inside an
optional or a union that is sized by it has a different number of elements, the write
fails with `found_contradicting_length` at the length, nothing of it emitted, unless a
field before it already stopped the write. -/
theorem C22_mismatch_partial (cfg : Cfg) (pre post : List Field) (id : String) (t : ScalarTy)
    (w : Nat) (c : Constraint) (vpre vpost : List Val) (x : Int)
    (hwf : WellFormed (pre ++ .plain id (.num t w) c :: post)) (hl : vpre.length = pre.length)
    (hty : Typed cfg (pre ++ .plain id (.num t w) c :: post) (vpre ++ .int x :: vpost))
    (hslot : isSlot (pre ++ .plain id (.num t w) c :: post) id = false)
    (hc : typedConst (.num t w) c = none) (hold : Holds c (.int x)) (f : Field) (v : Val) (m : Nat)
    (hm : (f, v) ∈ (pre ++ .plain id (.num t w) c :: post).zip (vpre ++ .int x :: vpost))
    (ha : ActiveLen (envOf (pre ++ .plain id (.num t w) c :: post) (vpre ++ .int x :: vpost))
      id f v m) (hne : m ≠ cfg.toSz x) :
    (∀ q, Puts cfg (pre ++ .plain id (.num t w) c :: post) (vpre ++ .int x :: vpost) pre vpre q →
      (streamCast cfg (pre ++ .plain id (.num t w) c :: post) (vpre ++ .int x :: vpost)).run =
        (.done (.error ⟨.foundContradictingLength, id⟩), q)) ∧
    ((∀ q, ¬ Puts cfg (pre ++ .plain id (.num t w) c :: post) (vpre ++ .int x :: vpost) pre vpre q) →
      (streamCast cfg (pre ++ .plain id (.num t w) c :: post) (vpre ++ .int x :: vpost)).run =
        (writeFields cfg ⟨pre ++ .plain id (.num t w) c :: post, vpre ++ .int x :: vpost⟩
          pre vpre).run) := by
  refine slot_fails rfl rfl hl ?_
  rw [plainStep hslot hc, checked_holds hold, plainNum hslot hc]
  rcases out_verifyThenWrite hwf.acceptable hty id t w x with ⟨hall, -⟩ | ⟨-, hv⟩
  · exact absurd (hall f v m hm ha) hne
  · rw [hv]; rfl

/-- C22, otherwise: if all of them have that many elements, the write never fails for that
reason. Missing in these three: lengths that are constants or fail their own constraint,
and lengths wider than `std::size_t`; for each the statement is false. -/
theorem C22_otherwise_partial (cfg : Cfg) (fs : List Field) (id : String) (t : ScalarTy)
    (w : Nat) (c : Constraint) (vs : List Val) (x : Int) (hwf : WellFormed fs)
    (hty : Typed cfg fs vs) (hin : (Field.plain id (.num t w) c, Val.int x) ∈ fs.zip vs)
    (hslot : isSlot fs id = false) (hc : typedConst (.num t w) c = none)
    (hact : ∀ f v m, (f, v) ∈ fs.zip vs → ActiveLen (envOf fs vs) id f v m → m = cfg.toSz x)
    (p : List Byte) :
    (streamCast cfg fs vs).run ≠ (.done (.error ⟨.foundContradictingLength, id⟩), p) := by
  intro h
  rw [Wr.run_eq] at h
  obtain ⟨pre, f, post, vpre, v, vpost, q, r, rfl, rfl, hl, -, -, h2, hid⟩ := error_split h
  have hfe := field_inj hwf.2.1 (mem_of_zip hin) (by simp : f ∈ pre ++ f :: post) hid
  subst hfe
  have hv : v = .int x := zip_inj hwf.2.1 (by rw [List.zip_append hl.symm]; simp) hin
  subst hv
  rw [plainStep hslot hc, tag_out, WrE.checked, plainNum hslot hc] at h2
  cases hck : c.check (.int x) with
  | error s => rw [hck, lift_error_andThen] at h2; simp [Wr.out] at h2
  | ok b =>
    rw [hck, lift_ok_andThen] at h2
    cases b with
    | false => simp [WrE.err, Wr.out] at h2
    | true =>
      simp only [if_true] at h2
      rcases out_verifyThenWrite hwf.acceptable hty id t w x with ⟨-, hv⟩ | ⟨⟨f, u, m, hz, ha, hne⟩, -⟩
      · rw [hv] at h2
        revert h2
        cases ho : Wr.out (writeNum cfg t w x) with
        | mk o b =>
          cases o with
          | done r =>
            cases r with
            | ok a => simp
            | error e => exact absurd ho (writeNum_no_error cfg t w _ e b)
          | stuck s => simp
      · exact hne (hact f u m hz ha)

/-- An optional vector and its length. -/
def optVecSchema : List Field :=
  [.plain "n" (.num u8 1) (.cmp .lt i32 10), .plain "on" (.num u8 1) .none,
   .maybe "data" (.vec (.scalar u8) (.fromField "n") none) ⟨["on"], fun vs => vs == [.int 1]⟩]

example := C22_emitted_partial le64 [] (optVecSchema.drop 1) "n" u8 1 (.cmp .lt i32 10) []
  [.int 1, .present (.seq [.int 7, .int 8])] 2 (by decide) rfl (by decide +kernel) (by decide) rfl
  [2, 1, 7, 8] (by rfl)

example : (streamCast le64 optVecSchema [.int 3, .int 1, .present (.seq [.int 7, .int 8])]).run =
    (.done (.error ⟨.foundContradictingLength, "n"⟩), []) :=
  (C22_mismatch_partial le64 [] (optVecSchema.drop 1) "n" u8 1 (.cmp .lt i32 10) []
    [.int 1, .present (.seq [.int 7, .int 8])] 3 (by decide) rfl (by decide +kernel) (by decide) rfl
    (by rfl) (.maybe "data" (.vec (.scalar u8) (.fromField "n") none)
      ⟨["on"], fun vs => vs == [.int 1]⟩) (.present (.seq [.int 7, .int 8])) 2
    (by simp [optVecSchema]) (.optional rfl (by rfl)) (by decide)).1 [] (by rfl)

/-- The optional is not there: the length may be anything. -/
example (p : List Byte) : (streamCast le64 optVecSchema [.int 3, .int 0, .absent]).run ≠
    (.done (.error ⟨.foundContradictingLength, "n"⟩), p) := by
  refine C22_otherwise_partial le64 optVecSchema "n" u8 1 (.cmp .lt i32 10) _ 3 (by decide)
    (by decide +kernel) (by simp [optVecSchema]) (by decide) rfl ?_ p
  intro f v m hm ha
  simp only [optVecSchema, List.zip_cons_cons, List.zip_nil_right, List.mem_cons, List.not_mem_nil,
    or_false, Prod.mk.injEq] at hm
  rcases hm with ⟨rfl, rfl⟩ | ⟨rfl, rfl⟩ | ⟨rfl, rfl⟩ <;> cases ha

/-- C22 fails for a length that is a constant: it is not emitted as stored. -/
theorem C22_fails_constant :
    WellFormed frozenLenSchema ∧
    Typed le64 frozenLenSchema [.int 9, .present (.seq [.int 1, .int 2])] ∧
    (streamCast le64 frozenLenSchema [.int 9, .present (.seq [.int 1, .int 2])]).run =
      (.done (.ok ()), [2, 1, 2]) :=
  ⟨by decide, by decide +kernel, by rfl⟩

/-- C22 fails for a length that violates its own constraint: that is reported instead of
the wrong size. -/
theorem C22_fails_constraint :
    WellFormed optVecSchema ∧
    Typed le64 optVecSchema [.int 10, .int 1, .present (.seq [.int 7, .int 8])] ∧
    ActiveLen (envOf optVecSchema [.int 10, .int 1, .present (.seq [.int 7, .int 8])]) "n"
      (optVecSchema[2]) (.present (.seq [.int 7, .int 8])) 2 ∧
    (streamCast le64 optVecSchema [.int 10, .int 1, .present (.seq [.int 7, .int 8])]).run =
      (.done (.error ⟨.validationFailure, "n"⟩), []) :=
  ⟨by decide, by decide +kernel, .optional rfl (by rfl), by rfl⟩

/-- A 64-bit length of an optional vector. -/
def wideOptSchema : List Field :=
  [.plain "n" (.num u64 8) .none,
   .maybe "data" (.vec (.scalar u8) (.fromField "n") none) ⟨["n"], fun _ => true⟩]

/-- C22 fails on a 32-bit platform for a length field wider than `std::size_t`: a vector
of one element passes for one of 2^32 + 1. -/
theorem C22_fails_wide :
    WellFormed wideOptSchema ∧
    Typed le32 wideOptSchema [.int 0x100000001, .present (.seq [.int 7])] ∧
    ActiveLen (envOf wideOptSchema [.int 0x100000001, .present (.seq [.int 7])]) "n"
      (wideOptSchema[1]) (.present (.seq [.int 7])) 1 ∧
    (streamCast le32 wideOptSchema [.int 0x100000001, .present (.seq [.int 7])]).run =
      (.done (.ok ()), [1, 0, 0, 0, 1, 0, 0, 0, 7]) :=
  ⟨by decide, by decide +kernel, .optional rfl (by rfl), by rfl⟩

/-! ## C57 -/

/-- C57. A number no wider than `std::size_t`, not a constant, that is a length only from
inside optionals and unions. If its own constraint holds: the write fails with
`found_contradicting_length` at it, nothing of it emitted, if some container in play that
is sized by it has a different number of elements (unless a field before it already
stopped the write); if none has, it never fails for that reason. A successful write
emitted it as stored, and all those containers have that many elements. -/
theorem C57_conditional_length (cfg : Cfg) (pre post : List Field) (id : String) (t : ScalarTy)
    (w : Nat) (c : Constraint) (vpre vpost : List Val) (x : Int)
    (hwf : WellFormed (pre ++ .plain id (.num t w) c :: post)) (hl : vpre.length = pre.length)
    (hty : Typed cfg (pre ++ .plain id (.num t w) c :: post) (vpre ++ .int x :: vpost))
    (hslot : isSlot (pre ++ .plain id (.num t w) c :: post) id = false)
    (hc : typedConst (.num t w) c = none) (hsz : t.size ≤ cfg.szBytes) :
    (∀ p, (streamCast cfg (pre ++ .plain id (.num t w) c :: post) (vpre ++ .int x :: vpost)).run =
        (.done (.ok ()), p) →
      (∃ q s, p = q ++ (wireScalar cfg.wire t.size w x ++ s) ∧
        Puts cfg (pre ++ .plain id (.num t w) c :: post) (vpre ++ .int x :: vpost) pre vpre q ∧
        Puts cfg (pre ++ .plain id (.num t w) c :: post) (vpre ++ .int x :: vpost) post vpost s) ∧
      ∀ f v m, (f, v) ∈ (pre ++ .plain id (.num t w) c :: post).zip (vpre ++ .int x :: vpost) →
        ActiveLen (envOf (pre ++ .plain id (.num t w) c :: post) (vpre ++ .int x :: vpost)) id f v m →
        (m : Int) = x) ∧
    (Holds c (.int x) →
      (∃ f v m, (f, v) ∈ (pre ++ .plain id (.num t w) c :: post).zip (vpre ++ .int x :: vpost) ∧
        ActiveLen (envOf (pre ++ .plain id (.num t w) c :: post) (vpre ++ .int x :: vpost)) id f v m ∧
        (m : Int) ≠ x) →
      (∀ q, Puts cfg (pre ++ .plain id (.num t w) c :: post) (vpre ++ .int x :: vpost) pre vpre q →
        (streamCast cfg (pre ++ .plain id (.num t w) c :: post) (vpre ++ .int x :: vpost)).run =
          (.done (.error ⟨.foundContradictingLength, id⟩), q)) ∧
      ((∀ q, ¬ Puts cfg (pre ++ .plain id (.num t w) c :: post) (vpre ++ .int x :: vpost) pre vpre q) →
        (streamCast cfg (pre ++ .plain id (.num t w) c :: post) (vpre ++ .int x :: vpost)).run =
          (writeFields cfg ⟨pre ++ .plain id (.num t w) c :: post, vpre ++ .int x :: vpost⟩
            pre vpre).run)) ∧
    ((∀ f v m, (f, v) ∈ (pre ++ .plain id (.num t w) c :: post).zip (vpre ++ .int x :: vpost) →
        ActiveLen (envOf (pre ++ .plain id (.num t w) c :: post) (vpre ++ .int x :: vpost)) id f v m →
        (m : Int) = x) →
      ∀ p, (streamCast cfg (pre ++ .plain id (.num t w) c :: post) (vpre ++ .int x :: vpost)).run ≠
        (.done (.error ⟨.foundContradictingLength, id⟩), p)) := by
  have hin : (Field.plain id (.num t w) c, Val.int x) ∈
      (pre ++ Field.plain id (.num t w) c :: post).zip (vpre ++ .int x :: vpost) := by
    rw [List.zip_append hl.symm]; simp
  have hx : t.InRange x := by
    have := typed_zip hty hin
    rwa [TypedField, TypedKind] at this
  have conv : ∀ f v m, (f, v) ∈ (pre ++ .plain id (.num t w) c :: post).zip (vpre ++ .int x :: vpost) →
      ActiveLen (envOf (pre ++ .plain id (.num t w) c :: post) (vpre ++ .int x :: vpost)) id f v m →
      (m = cfg.toSz x ↔ (m : Int) = x) := by
    intro f v m hm ha
    have hle := activeLen_le hwf.1 hty hm ha
    constructor
    · intro h
      refine toSz_inj hsz (.inl ⟨m, rfl, hle⟩) (.inr hx) ?_
      rw [toSz_count hle]; exact h
    · rintro rfl
      exact (toSz_count hle).symm
  refine ⟨fun p h => ?_, fun hold ⟨f, v, m, hm, ha, hne⟩ => ?_, fun hall p => ?_⟩
  · have := C22_emitted_partial cfg pre post id t w c vpre vpost x hwf hl hty hslot hc p h
    exact ⟨this.1, fun f v m hm ha => (conv f v m hm ha).1 (this.2 f v m hm ha)⟩
  · exact C22_mismatch_partial cfg pre post id t w c vpre vpost x hwf hl hty hslot hc hold f v m hm ha
      (fun h => hne ((conv f v m hm ha).1 h))
  · exact C22_otherwise_partial cfg _ id t w c _ x hwf hty hin hslot hc
      (fun f v m hm ha => (conv f v m hm ha).2 (hall f v m hm ha)) p

example := C57_conditional_length le64 [] (optVecSchema.drop 1) "n" u8 1 (.cmp .lt i32 10) []
  [.int 1, .present (.seq [.int 7, .int 8])] 2 (by decide) rfl (by decide +kernel) (by decide) rfl
  (by decide)

/-! ## C35 -/

/-- C35, success: a container sized by a computation (a field of its own, inside an
engaged optional, the held alternative of a union) is written only if the computation
over the struct's siblings, as `std::size_t`, is its number of elements. -/
theorem C35_verified (cfg : Cfg) (fs : List Field) (vs : List Val) (p : List Byte)
    (h : (streamCast cfg fs vs).run = (.done (.ok ()), p)) (f : Field) (v : Val)
    (hm : (f, v) ∈ fs.zip vs) (k : Kind) (us : List Val) (hp : Payload f v k (.seq us)) (comp : Calc)
    (hk : k.lenSpec? = some (.computed comp)) :
    ∃ x, comp.eval (envOf fs vs) = .ok x ∧ cfg.toSz x = us.length := by
  rw [Wr.run_eq] at h
  obtain ⟨pre, post, vpre, vpost, hfs, hvs, hl⟩ := split_of_zip hm
  unfold streamCast at h
  have h' : (writeFields cfg ⟨fs, vs⟩ (pre ++ f :: post) (vpre ++ v :: vpost)).Emits p () := by
    rw [← hfs, ← hvs]; exact h
  obtain ⟨q, r, s, rfl, -, h2, -⟩ := (emits_split hl).1 h'
  have h2 := (emits_writeStep.1 h2).1
  obtain ⟨m, c, he⟩ := writeField_selects (cfg := cfg) (ctx := ⟨fs, vs⟩) (selects_of_payload h2 hp)
  rw [he] at h2
  have fin : ∀ {n : WrE Reason Unit}, (verifyComputed cfg (WCtx.mk fs vs).env (.computed comp) us.length
      n).Emits r () → ∃ x, comp.eval (envOf fs vs) = .ok x ∧ cfg.toSz x = us.length := by
    intro n hn
    have h3 := (verifyComputed_emits hn).1
    rw [LenSpec.eval, show (WCtx.mk fs vs).env = envOf fs vs from rfl] at h3
    cases hx : comp.eval (envOf fs vs) with
    | error w => rw [hx] at h3; cases h3
    | ok x => rw [hx] at h3; exact ⟨x, rfl, Except.ok.inj h3⟩
  cases k with
  | vec e len b =>
    simp only [Kind.lenSpec?, Option.some.injEq] at hk
    subst hk
    rw [writeKind] at h2
    exact fin h2
  | vecRec gs len b sz =>
    simp only [Kind.lenSpec?, Option.some.injEq] at hk
    subst hk
    rw [writeKind] at h2
    exact fin h2
  | _ => cases hk

/-- C35, mismatch: if the field's constraint holds and the container is the one selected
(the predicate of its optional holds, its alternative is held, admitted by the union's
computation or ladder and by its own constraint), and the computation differs from its
number of elements, the write fails with `found_contradicting_length` at the field,
nothing of it emitted, unless a field before it already stopped the write. Missing:
containers that fail their own constraint; for those the statement is false. -/
theorem C35_mismatch_partial (cfg : Cfg) (pre post : List Field) (f : Field) (vpre vpost : List Val)
    (v : Val) (hl : vpre.length = pre.length) (k : Kind) (us : List Val)
    (hsel : SelectsW (envOf (pre ++ f :: post) (vpre ++ v :: vpost)) f v k (.seq us))
    (hold : Holds f.constraint v) (comp : Calc) (hk : k.lenSpec? = some (.computed comp)) (x : Int)
    (hx : comp.eval (envOf (pre ++ f :: post) (vpre ++ v :: vpost)) = .ok x)
    (hne : cfg.toSz x ≠ us.length) :
    (∀ q, Puts cfg (pre ++ f :: post) (vpre ++ v :: vpost) pre vpre q →
      (streamCast cfg (pre ++ f :: post) (vpre ++ v :: vpost)).run =
        (.done (.error ⟨.foundContradictingLength, f.id⟩), q)) ∧
    ((∀ q, ¬ Puts cfg (pre ++ f :: post) (vpre ++ v :: vpost) pre vpre q) →
      (streamCast cfg (pre ++ f :: post) (vpre ++ v :: vpost)).run =
        (writeFields cfg ⟨pre ++ f :: post, vpre ++ v :: vpost⟩ pre vpre).run) := by
  refine slot_fails rfl rfl hl ?_
  have hstep : writeStep cfg ⟨pre ++ f :: post, vpre ++ v :: vpost⟩ f v =
      (writeField cfg ⟨pre ++ f :: post, vpre ++ v :: vpost⟩ f v).tag f.id := by
    unfold writeStep
    rw [checked_holds hold]
    split <;> rfl
  obtain ⟨m, c, he⟩ := writeField_selects (cfg := cfg)
    (ctx := ⟨pre ++ f :: post, vpre ++ v :: vpost⟩) hsel
  rw [hstep, he, tag_out]
  have fin : ∀ n : WrE Reason Unit, verifyComputed cfg
      (WCtx.mk (pre ++ f :: post) (vpre ++ v :: vpost)).env (.computed comp) us.length n =
      WrE.err .foundContradictingLength := by
    intro n
    rw [verifyComputed, LenSpec.eval, show (WCtx.mk _ _).env = envOf _ _ from rfl, hx]
    simp only [lift_ok_andThen]
    rw [if_pos hne]
  cases k with
  | vec e len b =>
    simp only [Kind.lenSpec?, Option.some.injEq] at hk
    subst hk
    rw [writeKind, fin]
    rfl
  | vecRec gs len b sz =>
    simp only [Kind.lenSpec?, Option.some.injEq] at hk
    subst hk
    rw [writeKind, fin]
    rfl
  | _ => cases hk

/-- C35, siblings: a field of fixed size that is neither a slot nor a constant is emitted
as stored. Missing: siblings that are slots or constants; for those the statement is
false. -/
theorem C35_siblings_partial (cfg : Cfg) (pre post : List Field) (id : String) (k : Kind)
    (c : Constraint) (vpre vpost : List Val) (v : Val) (hl : vpre.length = pre.length)
    (hk : k.isFixed = true) (hty : TypedKind cfg k v)
    (hslot : isSlot (pre ++ .plain id k c :: post) id = false) (hc : typedConst k c = none)
    (p : List Byte)
    (h : (streamCast cfg (pre ++ .plain id k c :: post) (vpre ++ v :: vpost)).run =
      (.done (.ok ()), p)) :
    ∃ q s, p = q ++ (wireKind cfg.wire k v ++ s) ∧
      Puts cfg (pre ++ .plain id k c :: post) (vpre ++ v :: vpost) pre vpre q ∧
      Puts cfg (pre ++ .plain id k c :: post) (vpre ++ v :: vpost) post vpost s := by
  rw [Wr.run_eq] at h
  obtain ⟨q, r, s, rfl, h1, h2, h3⟩ := (emits_split hl).1 h
  have h4 := contributes_of_field (f := .plain id k c) hslot
    (by rw [Field.isFrozen, frozenVal_eq_typedConst, hc]; rfl)
    (by rw [TypedField]; exact hty) .plain (emits_writeStep.1 h2).1
  cases h4 with
  | leaf _ => exact ⟨q, s, rfl, (Wr.run_eq _).trans h1, (Wr.run_eq _).trans h3⟩
  | _ => cases hk

/-- A grid: rows, columns, cells. -/
def gridSchema : List Field :=
  [.plain "rows" (.num u8 1) .none, .plain "cols" (.num u8 1) .none,
   .plain "cells" (.vec (.scalar u8) (.computed ⟨["rows", "cols"], fun
      | [.int r, .int c] => r * c
      | _ => 0⟩) none) (.user fun v => match v with | .seq (.int 0 :: _) => false | _ => true)]

example := C35_verified le64 gridSchema [.int 2, .int 3, .seq [.int 1, .int 2, .int 3, .int 4, .int 5, .int 6]]
  [2, 3, 1, 2, 3, 4, 5, 6] (by rfl) (gridSchema[2])
  (.seq [.int 1, .int 2, .int 3, .int 4, .int 5, .int 6]) (by simp [gridSchema]) _ _ .plain _ rfl

example : (streamCast le64 gridSchema [.int 2, .int 3, .seq [.int 1]]).run =
    (.done (.error ⟨.foundContradictingLength, "cells"⟩), [2, 3]) :=
  (C35_mismatch_partial le64 (gridSchema.take 2) [] (gridSchema[2]) [.int 2, .int 3] [] (.seq [.int 1])
    rfl _ [.int 1] .plain (by rfl) _ rfl 6 (by rfl) (by decide)).1 [2, 3] (by rfl)

example := C35_siblings_partial le64 [gridSchema[0]] [gridSchema[2]] "cols" (.num u8 1) .none [.int 2]
  [.seq [.int 1, .int 2]] (.int 1) rfl rfl (by decide +kernel) (by decide) rfl [2, 1, 1, 2] (by rfl)

/-- C35 fails for a container that violates its own constraint: that is reported instead
of the wrong size. -/
theorem C35_fails_constraint :
    WellFormed gridSchema ∧ Typed le64 gridSchema [.int 2, .int 3, .seq [.int 0]] ∧
    (streamCast le64 gridSchema [.int 2, .int 3, .seq [.int 0]]).run =
      (.done (.error ⟨.validationFailure, "cells"⟩), [2, 3]) :=
  ⟨by decide, by decide +kernel, by rfl⟩

/-- A computed length over a derived length and a constant. -/
def staleGridSchema : List Field :=
  [.plain "rows" (.num u8 1) .none, .plain "cols" (.num u8 1) (.cmp .eq i32 4),
   .plain "names" (.vec (.scalar u8) (.fromField "rows") none) .none,
   .plain "cells" (.vec (.scalar u8) (.computed ⟨["rows", "cols"], fun
      | [.int r, .int c] => r * c
      | _ => 0⟩) none) .none]

/-- C35 fails for siblings that are slots or constants: they are not emitted as stored, so
what was verified (2 × 1 cells) is not what is on the wire (1 × 4). -/
theorem C35_fails_siblings :
    WellFormed staleGridSchema ∧
    Typed le64 staleGridSchema [.int 2, .int 1, .seq [.int 9], .seq [.int 5, .int 6]] ∧
    (streamCast le64 staleGridSchema [.int 2, .int 1, .seq [.int 9], .seq [.int 5, .int 6]]).run =
      (.done (.ok ()), [1, 4, 9, 5, 6]) :=
  ⟨by decide, by decide +kernel, by rfl⟩

/-! ## C59 -/

/-- C59. A container sized by a computation, selected and satisfying its constraints,
in a typed struct of a schema the library accepts: the computation has a value; if that,
as `std::size_t`, is not the number of elements, the write fails with
`found_contradicting_length` at the field, nothing of it emitted, unless a field before
it already stopped the write; and if the write succeeds, it is. -/
theorem C59_computed_length (cfg : Cfg) (pre post : List Field) (f : Field) (vpre vpost : List Val)
    (v : Val) (hwf : WellFormed (pre ++ f :: post)) (hl : vpre.length = pre.length)
    (hty : Typed cfg (pre ++ f :: post) (vpre ++ v :: vpost)) (k : Kind) (us : List Val)
    (hsel : SelectsW (envOf (pre ++ f :: post) (vpre ++ v :: vpost)) f v k (.seq us))
    (hold : Holds f.constraint v) (comp : Calc) (hk : k.lenSpec? = some (.computed comp)) :
    ∃ x, comp.eval (envOf (pre ++ f :: post) (vpre ++ v :: vpost)) = .ok x ∧
    (cfg.toSz x ≠ us.length →
      (∀ q, Puts cfg (pre ++ f :: post) (vpre ++ v :: vpost) pre vpre q →
        (streamCast cfg (pre ++ f :: post) (vpre ++ v :: vpost)).run =
          (.done (.error ⟨.foundContradictingLength, f.id⟩), q)) ∧
      ((∀ q, ¬ Puts cfg (pre ++ f :: post) (vpre ++ v :: vpost) pre vpre q) →
        (streamCast cfg (pre ++ f :: post) (vpre ++ v :: vpost)).run =
          (writeFields cfg ⟨pre ++ f :: post, vpre ++ v :: vpost⟩ pre vpre).run)) ∧
    ((∃ p, (streamCast cfg (pre ++ f :: post) (vpre ++ v :: vpost)).run = (.done (.ok ()), p)) →
      cfg.toSz x = us.length) := by
  have hids : ∀ i ∈ comp.ids, i ∈ kindDeps k := by
    intro i hi
    cases k with
    | vec e len b =>
      simp only [Kind.lenSpec?, Option.some.injEq] at hk
      subst hk
      exact hi
    | vecRec gs len b sz =>
      simp only [Kind.lenSpec?, Option.some.injEq] at hk
      subst hk
      exact hi
    | _ => cases hk
  have hdep : ∀ i ∈ comp.ids, i ∈ fieldDeps f := by
    intro i hi
    cases hsel with
    | plain => exact hids i hi
    | maybe _ => simp [fieldDeps, hids i hi]
    | switch ha _ =>
      simp only [fieldDeps, List.mem_append, List.mem_flatMap]
      exact .inr ⟨_, List.mem_of_getElem? ha, hids i hi⟩
    | union _ _ ha _ =>
      simp only [fieldDeps, List.mem_append, List.mem_flatMap]
      exact .inr ⟨_, List.mem_of_getElem? ha, hids i hi⟩
  obtain ⟨x, hx⟩ := Calc.eval_ok fun i hi =>
    deps_some hwf.acceptable (typed_length hty) (by simp : f ∈ pre ++ f :: post) i (hdep i hi)
  refine ⟨x, hx, fun hne => C35_mismatch_partial cfg pre post f vpre vpost v hl k us hsel hold comp hk
    x hx hne, fun ⟨p, hp⟩ => ?_⟩
  obtain ⟨y, hy, he⟩ := C35_verified cfg _ _ p hp f v (by rw [List.zip_append hl.symm]; simp) k us
    (payload_of_selects hsel) comp hk
  rw [hx] at hy
  cases hy
  exact he

example := C59_computed_length le64 (gridSchema.take 2) [] (gridSchema[2]) [.int 2, .int 3] []
  (.seq [.int 1]) (by decide) rfl (by decide +kernel) _ [.int 1] .plain (by rfl) _ rfl

end S2S.Props
