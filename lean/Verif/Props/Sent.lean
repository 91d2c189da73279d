import Verif.Lemmas.Sent
import Verif.Lemmas.Made
import Verif.Props.RoundTrip
import Verif.Props.Slots
import Verif.Props.Rewrite
/-
C115-C117: what every write sends, and exactly when it is read back or written again as
it was.
-/
namespace S2S.Props
open Spec Demo

/-! ## C115 -/

/-- C115. For every well-formed schema and every struct as C++ types it: a write succeeds
exactly when `Sent` has a struct for it, and emits that struct's encoding. -/
theorem C115_sends (cfg : Cfg) (fs : List Field) (hwf : WellFormed fs)
    (hc : Everywhere (TypedConsts cfg) fs) (vs : List Val) (hv : Typed cfg fs vs) (p : List Byte) :
    (streamCast cfg fs vs).run = (.done (.ok ()), p) ↔
      ∃ us, Sent cfg fs vs us ∧ p = wire cfg fs us :=
  sent_streamCast hwf.acceptable hc hv p

/-- C115. The struct sent is one, and of the types of the schema. -/
theorem C115_one (cfg : Cfg) (fs : List Field) (hwf : WellFormed fs)
    (hc : Everywhere (TypedConsts cfg) fs) (vs : List Val) (hv : Typed cfg fs vs) (us : List Val)
    (h : Sent cfg fs vs us) :
    Typed cfg fs us ∧ ∀ us', Sent cfg fs vs us' → us' = us :=
  ⟨sent_typed hc hv h, fun _ h' => sent_unique hwf.acceptable hv h' h⟩

/-- What is sent for a vector of one byte under a length narrower than its type. -/
theorem narrow_sent (x : Int) {cfg : Cfg} (h : cfg = be64 ∨ cfg = le64) :
    Sent cfg narrowLenSchema [.int x, .seq [.int 9]] [.int 1, .seq [.int 9]] := by
  rcases h with rfl | rfl
  all_goals
    unfold Sent narrowLenSchema
    simp only [SentFields]
    refine ⟨_, _, _, _, rfl, rfl, ?_, _, _, _, _, rfl, rfl, ?_, rfl, rfl⟩
    · simp only [SentField]
      rw [if_pos (by decide)]
      simp only [SentKind]
      refine ⟨by decide, 1, rfl, ?_, ?_⟩
      · intro f v m hm ha
        simp only [List.zip_cons_cons, List.zip_nil_right, List.mem_cons, Prod.mk.injEq,
          List.not_mem_nil, or_false] at hm
        rcases hm with ⟨rfl, -⟩ | ⟨rfl, -⟩ <;> cases ha
      · rw [if_pos (by decide)]
        exact ⟨⟨1, fun p hp => by
            rw [show producers _ _ _ = [1] by rfl] at hp
            rw [List.mem_singleton.1 hp]; decide,
          by decide, ⟨by decide, by decide⟩, by decide⟩, rfl⟩
    · simp only [SentField]
      rw [if_neg (by decide)]
      exact ⟨rfl, by simp only [SentKind]; exact ⟨trivial, _, rfl, fun g hg => by cases hg⟩⟩

example : (streamCast be64 narrowLenSchema [.int 0, .seq [.int 9]]).run = (.done (.ok ()), [0, 9]) :=
  (C115_sends be64 narrowLenSchema (by decide) (by decide +kernel) _ (by decide +kernel) _).2
    ⟨_, narrow_sent 0 (.inl rfl), by rfl⟩

example (us : List Val) (h : Sent be64 narrowLenSchema [.int 0, .seq [.int 9]] us) :
    us = [.int 1, .seq [.int 9]] :=
  (C115_one be64 narrowLenSchema (by decide) (by decide +kernel) _ (by decide +kernel) _
    (narrow_sent 0 (.inl rfl))).2 us h

example : ¬ ∃ us, Sent le64 ceilingSchema [.int 0, .seq (List.replicate 256 (.int 0))] us := by
  rintro ⟨us, h⟩
  have := (C115_sends le64 ceilingSchema (by decide) (by decide +kernel) _ (by decide +kernel) _).2
    ⟨us, h, rfl⟩
  rw [show (streamCast le64 ceilingSchema [.int 0, .seq (List.replicate 256 (.int 0))]).run =
    (.done (.error ⟨.validationFailure, "len"⟩), []) by decide +kernel] at this
  cases this

/-! ## C116 -/

/-- C116. For every well-formed schema and every struct as C++ types it that is written:
its bytes, whatever follows them, are read back as the struct that was sent, leaving what
follows, if and only if that struct is valid. -/
theorem C116_round_trip_iff (cfg : Cfg) (fs : List Field) (hwf : WellFormed fs)
    (hc : Everywhere (TypedConsts cfg) fs) (vs : List Val) (hv : Typed cfg fs vs) (p : List Byte)
    (h : (streamCast cfg fs vs).run = (.done (.ok ()), p)) :
    ∃ us, Sent cfg fs vs us ∧ p = wire cfg fs us ∧
      ∀ rest, (structCast cfg fs).run (p ++ rest) = (.done (.ok us), rest) ↔ Valid cfg fs us := by
  obtain ⟨us, hs, rfl⟩ := (C115_sends cfg fs hwf hc vs hv p).1 h
  refine ⟨us, hs, rfl, fun rest => ?_⟩
  rw [read_iff cfg fs hwf]
  exact and_iff_left rfl

/-- C116, when it is not valid: the bytes are read as another struct or not at all. -/
theorem C116_otherwise (cfg : Cfg) (fs : List Field) (hwf : WellFormed fs) (us : List Val)
    (hn : ¬ Valid cfg fs us) (inp rest : List Byte) :
    (structCast cfg fs).run inp ≠ (.done (.ok us), rest) :=
  fun h => hn ((read_iff cfg fs hwf inp rest us).1 h).1

/-- C116, for a schema as a whole: every write of it is read back if and only if everything
that can be sent is valid. -/
theorem C116_schema_iff (cfg : Cfg) (fs : List Field) (hwf : WellFormed fs)
    (hc : Everywhere (TypedConsts cfg) fs) :
    (∀ vs p, Typed cfg fs vs → (streamCast cfg fs vs).run = (.done (.ok ()), p) →
      ∃ us, Sent cfg fs vs us ∧ ∀ rest, (structCast cfg fs).run (p ++ rest) = (.done (.ok us), rest)) ↔
    ∀ vs us, Typed cfg fs vs → Sent cfg fs vs us → Valid cfg fs us := by
  constructor
  · intro h vs us hv hs
    obtain ⟨us', hs', hr⟩ := h vs _ hv ((C115_sends cfg fs hwf hc vs hv _).2 ⟨us, hs, rfl⟩)
    rw [sent_unique hwf.acceptable hv hs hs']
    exact ((read_iff cfg fs hwf _ _ _).1 (hr [])).1
  · intro h vs p hv hw
    obtain ⟨us, hs, -, hr⟩ := C116_round_trip_iff cfg fs hwf hc vs hv p hw
    exact ⟨us, hs, fun rest => (hr rest).2 (h vs us hv hs)⟩

/-- One after the other. -/
inductive SentAll (cfg : Cfg) : List (List Field × List Val) → List (List Val) → Prop
  | nil : SentAll cfg [] []
  | cons {fs vs us hist uss} : Sent cfg fs vs us → SentAll cfg hist uss →
      SentAll cfg ((fs, vs) :: hist) (us :: uss)

theorem readMany_cons_iff (cfg : Cfg) (S : InStream) (fs : List Field) (more : List (List Field))
    (s t : S.State) (xs : List (List Val)) :
    readMany cfg S (fs :: more) s = (.done (.ok xs), t) ↔
      ∃ vs s' vss, (structCast cfg fs).runOn S s = (.done (.ok vs), s') ∧
        readMany cfg S more s' = (.done (.ok vss), t) ∧ xs = vs :: vss := by
  simp only [readMany]
  rcases (structCast cfg fs).runOn S s with ⟨(e | ws) | w, s'⟩
  · simp
  · rcases hm : readMany cfg S more s' with ⟨(e | vss) | w, s''⟩
    · simp [hm]
    · constructor
      · intro h
        dsimp only at h
        rw [hm] at h
        cases h
        exact ⟨ws, s', vss, rfl, hm, rfl⟩
      · rintro ⟨_, _, _, h1, h, rfl⟩
        cases h1
        dsimp only
        rw [h]
    · simp [hm]
  · simp

/-- C116 for sequences: of structs written one after another to one stream, all are read
back, and the stream is consumed exactly, if and only if all that was sent is valid. -/
theorem C116_sequences_iff (cfg : Cfg) (hist : List (List Field × List Val))
    (hok : ∀ x ∈ hist, WellFormed x.1 ∧ Everywhere (TypedConsts cfg) x.1 ∧ Typed cfg x.1 x.2)
    (before after : List Byte)
    (h : writeMany cfg listOut hist before = (.done (.ok ()), after)) :
    ∃ p uss, after = before ++ p ∧ SentAll cfg hist uss ∧
      ∀ rest, readMany cfg listIn (hist.map Prod.fst) (p ++ rest : List Byte) =
          (.done (.ok uss), rest) ↔
        ∀ x ∈ hist.zip uss, Valid cfg x.1.1 x.2 := by
  induction hist generalizing before with
  | nil => cases h; exact ⟨[], [], by simp, .nil, fun rest => ⟨fun _ x hx => by simp at hx,
      fun _ => rfl⟩⟩
  | cons x hist ih =>
    obtain ⟨fs, vs⟩ := x
    simp only [writeMany] at h
    rw [Wr.runOn_listOut] at h
    rcases ho : (streamCast cfg fs vs).out with ⟨o, b⟩
    rw [ho] at h
    rcases o with (e | u) | w
    · cases h
    · obtain ⟨p, uss, rfl, hall, hp⟩ := ih (fun x hx => hok x (List.mem_cons_of_mem _ hx)) _ h
      obtain ⟨hwf, hc, hv⟩ := hok (fs, vs) (by simp)
      have hrun : (streamCast cfg fs vs).run = (.done (.ok ()), b) := by
        rw [Wr.run_eq, ho]
      obtain ⟨us, hs, rfl, hr⟩ := C116_round_trip_iff cfg fs hwf hc vs hv b hrun
      refine ⟨wire cfg fs us ++ p, us :: uss, by simp, .cons hs hall, fun rest => ?_⟩
      rw [List.append_assoc]
      refine (readMany_cons_iff cfg listIn fs _ _ _ _).trans ?_
      simp only [List.zip_cons_cons, List.forall_mem_cons]
      constructor
      · rintro ⟨ws, s', vss, he, he', hm⟩
        cases hm
        have h1 := (read_iff cfg fs hwf _ _ _).1 he
        obtain rfl : p ++ rest = s' := List.append_cancel_left h1.2
        exact ⟨h1.1, (hp _).1 he'⟩
      · rintro ⟨h1, h2⟩
        exact ⟨us, p ++ rest, uss, (hr (p ++ rest)).2 h1, (hp rest).2 h2, rfl⟩
    · cases h

example : ¬ Valid be64 narrowLenSchema [.int 1, .seq [.int 9]] ∧
    ∀ rest, (structCast be64 narrowLenSchema).run ([0, 9] ++ rest) ≠
      (.done (.ok [.int 1, .seq [.int 9]]), rest) := by
  have hn : ¬ Valid be64 narrowLenSchema [.int 1, .seq [.int 9]] := by decide +kernel
  exact ⟨hn, fun rest => C116_otherwise be64 narrowLenSchema (by decide) _ hn _ _⟩

example (rest : List Byte) :
    (structCast le64 narrowLenSchema).run ([1, 9] ++ rest) =
      (.done (.ok [.int 1, .seq [.int 9]]), rest) := by
  obtain ⟨us, hs, hp, hr⟩ := C116_round_trip_iff le64 narrowLenSchema (by decide)
    (by decide +kernel) [.int 0, .seq [.int 9]] (by decide +kernel) [1, 9] (by rfl)
  obtain rfl := (C115_one le64 narrowLenSchema (by decide) (by decide +kernel) _
    (by decide +kernel) _ (narrow_sent 0 (.inr rfl))).2 us hs
  exact (hr rest).2 (by decide +kernel)

/-- A byte: everything that can be sent is valid. -/
example (vs : List Val) (p : List Byte) (hv : Typed le64 nextSchema vs)
    (h : (streamCast le64 nextSchema vs).run = (.done (.ok ()), p)) :
    ∃ us, Sent le64 nextSchema vs us ∧
      ∀ rest, (structCast le64 nextSchema).run (p ++ rest) = (.done (.ok us), rest) := by
  refine (C116_schema_iff le64 nextSchema (by decide) (by decide +kernel)).2 ?_ vs p hv h
  intro vs us hv hs
  have ht := (C115_one le64 nextSchema (by decide) (by decide +kernel) vs hv us hs).1
  simp only [Typed, nextSchema] at ht
  cases us with
  | nil => simp [TypedFields] at ht
  | cons u us =>
    cases us with
    | cons _ _ => simp [TypedFields] at ht
    | nil =>
      cases u <;> simp only [TypedFields, TypedField, TypedKind, and_true] at ht
      refine ⟨?_, ?_, ?_⟩
      · simp only [nextSchema, FitsFields, FitsField, FitsKind, ScalarFits, and_true]
        exact ⟨ht, .inl rfl⟩
      · simp only [nextSchema, OkFields, OkField, OkKind, true_and, and_true]; rfl
      · simp only [nextSchema, ShapedFields, ShapedField, ShapedKind, and_true]

/-- Two structs in one stream: the clash in the first is what is wrong with the sequence. -/
example : ∃ p uss, [0xff, 0xff, 0xff, 0xff, 2, 1, 7] = ([] : List Byte) ++ p ∧
    SentAll le64 [(clashSchema, [.int 0, .var 1 (.int 0x0102)]), (nextSchema, [.int 7])] uss ∧
    ∀ rest, readMany le64 listIn [clashSchema, nextSchema] (p ++ rest : List Byte) =
        (.done (.ok uss), rest) ↔
      ∀ x ∈ [(clashSchema, [Val.int 0, .var 1 (.int 0x0102)]), (nextSchema, [.int 7])].zip uss,
        Valid le64 x.1.1 x.2 :=
  C116_sequences_iff le64 [(clashSchema, [.int 0, .var 1 (.int 0x0102)]), (nextSchema, [.int 7])]
    (by decide +kernel) [] _ C38_fails_label_clash.1

/-! ## C117 -/

/-- C117. For every well-formed schema: a struct that was read is written as the bytes it
was read from if and only if a struct with that encoding is sent for it. -/
theorem C117_rewrite_iff (cfg : Cfg) (fs : List Field) (hwf : WellFormed fs)
    (hc : Everywhere (TypedConsts cfg) fs) (p rest : List Byte) (vs : List Val)
    (h : (structCast cfg fs).run (p ++ rest) = (.done (.ok vs), rest)) :
    (streamCast cfg fs vs).run = (.done (.ok ()), p) ↔
      ∃ us, Sent cfg fs vs us ∧ wire cfg fs us = wire cfg fs vs := by
  obtain ⟨hvalid, hp⟩ := (read_iff cfg fs hwf _ _ _).1 h
  obtain rfl := List.append_cancel_right hp
  rw [C115_sends cfg fs hwf hc vs (typedFields_of_fits cfg fs vs hvalid.1)]
  constructor
  · rintro ⟨us, h1, h2⟩; exact ⟨us, h1, h2.symm⟩
  · rintro ⟨us, h1, h2⟩; exact ⟨us, h1, h2.symm⟩

/-- C117. For this it suffices that the struct itself is sent. -/
theorem C117_same (cfg : Cfg) (fs : List Field) (hwf : WellFormed fs)
    (hc : Everywhere (TypedConsts cfg) fs) (p rest : List Byte) (vs : List Val)
    (h : (structCast cfg fs).run (p ++ rest) = (.done (.ok vs), rest)) (hs : Sent cfg fs vs vs) :
    (streamCast cfg fs vs).run = (.done (.ok ()), p) :=
  (C117_rewrite_iff cfg fs hwf hc p rest vs h).2 ⟨vs, hs, rfl⟩

/-- C117, for a schema as a whole: everything that is read is written as it was read if and
only if something of the same encoding is sent for everything valid. -/
theorem C117_schema_iff (cfg : Cfg) (fs : List Field) (hwf : WellFormed fs)
    (hc : Everywhere (TypedConsts cfg) fs) :
    (∀ p rest vs, (structCast cfg fs).run (p ++ rest) = (.done (.ok vs), rest) →
      (streamCast cfg fs vs).run = (.done (.ok ()), p)) ↔
    ∀ vs, Valid cfg fs vs → ∃ us, Sent cfg fs vs us ∧ wire cfg fs us = wire cfg fs vs := by
  constructor
  · intro h vs hv
    have hr : (structCast cfg fs).run (wire cfg fs vs ++ []) = (.done (.ok vs), []) :=
      (read_iff cfg fs hwf _ _ _).2 ⟨hv, rfl⟩
    exact (C117_rewrite_iff cfg fs hwf hc _ _ vs hr).1 (h _ _ vs hr)
  · intro h p rest vs hr
    exact (C117_rewrite_iff cfg fs hwf hc p rest vs hr).2
      (h vs ((read_iff cfg fs hwf _ _ _).1 hr).1)

example : ∃ us, Sent le64 narrowLenSchema [.int 1, .seq [.int 9]] us ∧
    wire le64 narrowLenSchema us = [1, 9] :=
  (C117_rewrite_iff le64 narrowLenSchema (by decide) (by decide +kernel) [1, 9] [5] _ (by rfl)).1
    (by rfl)

example : (streamCast le64 narrowLenSchema [.int 1, .seq [.int 9]]).run = (.done (.ok ()), [1, 9]) :=
  C117_same le64 narrowLenSchema (by decide) (by decide +kernel) [1, 9] [5] _ (by rfl)
    (narrow_sent 1 (.inr rfl))

example : ¬ ∃ us, Sent le64 nulSchema [.seq [.int 65, .int 0, .int 67, .int 0]] us ∧
    wire le64 nulSchema us = [65, 0, 67, 0] := by
  intro h
  have := (C117_rewrite_iff le64 nulSchema (by decide) (by decide +kernel) [65, 0, 67, 0] [] _
    (by rfl)).2 h
  rw [show (streamCast le64 nulSchema [.seq [.int 65, .int 0, .int 67, .int 0]]).run =
    (.done (.ok ()), [65, 0, 66, 0]) by rfl] at this
  simp at this

example : ¬ ∀ vs, Valid le64 nulSchema vs → ∃ us, Sent le64 nulSchema vs us ∧
    wire le64 nulSchema us = wire le64 nulSchema vs := by
  intro h
  have := (C117_schema_iff le64 nulSchema (by decide) (by decide +kernel)).2 h
    [65, 0, 67, 0] [] _ C02_fails_embedded_nul.2.1
  rw [C02_fails_embedded_nul.2.2] at this
  simp at this

end S2S.Props
