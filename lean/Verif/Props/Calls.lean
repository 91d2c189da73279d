import Verif.Lemmas.CallsWrite
import Verif.Lemmas.CallsSame
import Verif.Lemmas.CallsPoll
import Verif.Props.RoundTrip
/-
C92-C97. User code with a will of its own: answers that change, exceptions, effects.
-/
namespace S2S.Props
open S2S.Spec S2S.Demo

/-! ### Worlds for the examples -/

/-- A stream in memory; the user's code knows how often it was called. -/
def tally (f : Nat → Call → Reply Int) : World where
  State := List Byte × List Byte × Nat
  read s n := if n ≤ s.1.length then (.value (some (s.1.take n)), s.1.drop n, s.2) else (.value none, s)
  write s bs := (.value true, s.1, s.2.1 ++ bs, s.2.2)
  call s c := (f s.2.2 c, s.1, s.2.1, s.2.2 + 1)
  len := by
    intro s n bs s' h
    split at h
    · cases h; rw [List.length_take]; exact Nat.min_eq_left ‹_›
    · cases h

/-- The functions of the schema. -/
def faithful : Nat → Call → Reply Int := fun _ c => .value (own c)

def tallyHosts (f : Nat → Call → Reply Int) : Hosts (tally f) listIn where
  view s := s.1
  read := by
    intro s n o s' h
    simp only [tally] at h
    simp only [listIn]
    split at h <;> rename_i hn
    · cases h; simp [hn]
    · cases h; simp [hn]
  call := by intro s c r s' h; cases h; rfl

def tallyHostsOut (f : Nat → Call → Reply Int) : HostsOut (tally f) listOut where
  view s := s.2.1
  write := by intro s bs b s' h; cases h; rfl
  call := by intro s c r s' h; cases h; rfl

/-! ### C92 -/

/-- C92. Whatever the user's code answers, does or keeps: a read that succeeds delivers a
struct that fits the schema, and what happened is the dialogue of that struct. -/
theorem C92_read_is_dialogue (cfg : Cfg) (fs : List Field) (hwf : WellFormed fs) (W : World) (s s' : W.State)
    (vs : List Val) (h : (actCast cfg fs).runOn W s = (.done (.ok vs), s')) :
    FitsFields cfg fs vs ∧ Dialogue cfg fs vs ((actCast cfg fs).logOn W s) :=
  (actCast_gives_iff cfg fs hwf _ _).1 (Act.path_of_runOn W (short_actCast cfg fs) h (by simp))

/-- C92. In a dialogue the bytes are the encoding of the struct and the questions, with
their arguments, are determined by the struct: each is asked once, about values delivered
in it. -/
theorem C92_dialogue_says (cfg : Cfg) (fs : List Field) (vs : List Val) (t : List Ev) (h : Dialogue cfg fs vs t) :
    bytesOf t = wire cfg fs vs ∧ questionsOf t = askedFields (envOf fs vs) fs vs :=
  says_fields cfg fs _ vs t h

/-- C92. Conversely: when bytes and answers come as in a dialogue of a fitting struct, the
read delivers that struct. -/
theorem C92_dialogue_reads (cfg : Cfg) (fs : List Field) (hwf : WellFormed fs) (vs : List Val)
    (hv : FitsFields cfg fs vs) (t : List Ev) (ht : Dialogue cfg fs vs t) (rest : List Ev) :
    (actCast cfg fs).runOn player (t ++ rest) = (.done (.ok vs), rest) :=
  Act.runOn_player ((actCast_gives_iff cfg fs hwf t vs).2 ⟨hv, ht⟩) rest

/-- An optional whose presence the first question decides, a length the second. -/
def twice : List Field :=
  [.plain "k" (.num u8 1) .none,
   .maybe "o" (.num u16 2) ⟨["k"], fun _ => false⟩,
   .plain "d" (.vec (.scalar u8) (.computed ⟨["k"], fun _ => 0⟩) (some 8)) (.user fun _ => false)]

/-- Here the user's code is not the functions of the schema: it answers with its count. -/
example : (actCast be64 twice).runOn (tally fun n _ => .value (n + 1)) ([7, 1, 2, 8, 9, 0], [], 0) =
    (.done (.ok [.int 7, .present (.int 258), .seq [.int 8, .int 9]]), [0], [], 3) := by rfl

example : wire be64 twice [.int 7, .present (.int 258), .seq [.int 8, .int 9]] = [7, 1, 2, 8, 9] ∧
    askedFields (envOf twice [.int 7, .present (.int 258), .seq [.int 8, .int 9]]) twice
      [.int 7, .present (.int 258), .seq [.int 8, .int 9]] =
      [.pred ⟨["k"], fun _ => false⟩ [.int 7], .calc ⟨["k"], fun _ => 0⟩ [.int 7],
       .check (fun _ => false) (.seq [.int 8, .int 9])] := ⟨rfl, rfl⟩

/-! ### C93 -/

/-- C93. User code that answers as a function does, in a world that leaves the stream to
the library: a read either ends in an exception or does what it does with that function in
the schema, on the stream alone. -/
theorem C93_steady_read (cfg : Cfg) (fs : List Field) (W : World) (S : InStream) (H : Hosts W S) (A : Answers)
    (s : W.State) (h : Answered A ((actCast cfg fs).logOn W s)) :
    (∃ s', (actCast cfg fs).runOn W s = (.thrown, s')) ∨
    ∃ o s', (actCast cfg fs).runOn W s = (o.ending, s') ∧
      (structCast cfg (fieldsUnder A fs)).runOn S (H.view s) = (o, H.view s') :=
  runOn_steady H A _ _ (ask_actCast A cfg fs) s h

/-- C93. The same for a write. -/
theorem C93_steady_write (cfg : Cfg) (fs : List Field) (vs : List Val) (W : World) (S : OutStream) (H : HostsOut W S)
    (A : Answers) (s : W.State) (h : Answered A ((actStream cfg fs vs).logOn W s)) :
    (∃ s', (actStream cfg fs vs).runOn W s = (.thrown, s')) ∨
    ∃ o s', (actStream cfg fs vs).runOn W s = (o.ending, s') ∧
      (streamCast cfg (fieldsUnder A fs) vs).runOn S (H.view s) = (o, H.view s') :=
  runOn_steady_wr H A _ _ (ask_actStream A cfg fs vs) s h

/-- C93. It is enough that no question was answered in two ways during the cast. -/
theorem C93_steady_function (t : List Ev) : Steady t ↔ ∃ A, Answered A t := by
  constructor
  · exact Steady.answered
  · rintro ⟨A, h⟩ c a b ha hb
    rw [h c a ha, h c b hb]

/-- C93. With the functions of the schema themselves it is the cast of Model/Read and
Model/Write. -/
theorem C93_own (fs : List Field) : fieldsUnder own fs = fs := fieldsUnder_own fs

/-- C93. Where nothing outside throws, no exception leaves a cast: the library throws
nothing itself, short of memory (`std::length_error`, an undefined end in the model). -/
theorem C93_calm (W : World) (h : Calm W) (cfg : Cfg) (fs : List Field) (vs : List Val) (s : W.State) :
    (∀ s', (actCast cfg fs).runOn W s ≠ (.thrown, s')) ∧
    ∀ s', (actStream cfg fs vs).runOn W s ≠ (.thrown, s') :=
  ⟨Calm.not_thrown h _ s, Calm.not_thrown h _ s⟩

example : (actCast be64 packet).runOn (tally faithful) (packetBytes, [], 0) =
    (.done (.ok packetParsed), [], [], 2) := by rfl

example : (actStream be64 packet packetVal).runOn (tally faithful) ([], [], 0) =
    (.done (.ok ()), [], packetBytes, 2) := by rfl

/-- The hypotheses hold there: the world hosts the stream, the answers are a function. -/
example (s : (tally faithful).State) : Answered own ((actCast be64 packet).logOn (tally faithful) s) := by
  have : ∀ {α : Type} (r : Act α) s, Answered own (r.logOn (tally faithful) s) := by
    intro α r
    induction r with
    | ret a => intro s c a h; cases h
    | stuck w => intro s c a h; cases h
    | read n k ih =>
      intro s c a h
      rw [Act.logOn] at h
      simp only [tally] at h
      split at h
      · rename_i heq; split at heq <;> cases heq
        simp only [List.mem_append, List.mem_map, reduceCtorEq, and_false, exists_false, false_or] at h
        exact ih _ _ c a h
      · rename_i heq; split at heq <;> cases heq
        exact ih _ _ c a h
      · cases h
    | write bs k ih =>
      intro s c a h
      simp only [Act.logOn, tally, List.mem_append, List.mem_map, reduceCtorEq, and_false, exists_false,
        false_or] at h
      exact ih _ _ c a h
    | alloc b k ih => intro s; exact ih s
    | call c k ih =>
      intro s c' a h
      simp only [Act.logOn, tally, faithful, List.mem_cons] at h
      rcases h with h | h
      · cases h; rfl
      · exact ih _ _ c' a h
  exact this _ s

/-! ### C94 -/

/-- C94. A read that does not succeed, because of an error, an undefined end or an
exception out of the stream or the user's code, is broken off inside one field. The
fields before it have been read in full, as in a dialogue; since then only that field has
been at work, on the list as it stood, and has asked only its own callables. An error
names it. -/
theorem C94_broken_off (cfg : Cfg) (fs : List Field) (hwf : WellFormed fs) (W : World) (s s' : W.State)
    (e : Ending (Except CastError (List Val))) (h : (actCast cfg fs).runOn W s = (e, s'))
    (hne : ∀ vs, e ≠ .done (.ok vs)) :
    ∃ pre f post vs t1 t2 s1, fs = pre ++ f :: post ∧ (actCast cfg fs).logOn W s = t1 ++ t2 ∧
      FitsFields cfg pre vs ∧ Dialogue cfg pre vs t1 ∧
      (∀ c ∈ questionsOf t2, fieldOwns f c) ∧
      t2 = (actStep cfg (standing (dfltEnv fs) pre vs) f).logOn W s1 ∧
      ((∃ r, e = .done (.error ⟨r, f.id⟩) ∧
          (actStep cfg (standing (dfltEnv fs) pre vs) f).runOn W s1 = (.done (.error ⟨r, f.id⟩), s')) ∨
       (∃ w, e = .stuck w ∧ (actStep cfg (standing (dfltEnv fs) pre vs) f).runOn W s1 = (.stuck w, s')) ∨
       (e = .thrown ∧ (actStep cfg (standing (dfltEnv fs) pre vs) f).runOn W s1 = (.thrown, s'))) := by
  obtain ⟨pre, f, post, vs, s1, rfl, hp, hl, hc⟩ := broken_off cfg W fs _ s s' e h hne
  obtain ⟨w1, w2, w3⟩ := hwf
  have hu := unique_prefix pre _ [] w2
  have hg := (gives_actFields cfg pre [] (sane_prefix pre _ w1) hu (earlier_prefix pre _ [] w3)
    (dfltEnv (pre ++ f :: post)) (envOf pre vs) _ vs (by simp [Agree]) (maps_envOf [] pre vs hu)).1
    (Act.path_of_runOn W (short_actFields cfg pre _) hp (by simp))
  refine ⟨pre, f, post, vs, _, _, s1, rfl, hl, hg.1, hg.2, ?_, rfl, ?_⟩
  · refine Act.asks_log W (ActE.asks_mapErr (ActE.asks_andThen (asks_actField cfg f _) fun v => ?_)) s1
    exact Act.Asks.mono (fun c hc => owns_check f c hc) (asks_actChecked f.constraint v)
  · rcases hc with ⟨er, rfl, hr⟩ | hc
    · obtain ⟨r, rfl⟩ := ActE.runOn_mapErr W _ _ s1 s' er hr
      exact .inl ⟨r, rfl, hr⟩
    · exact .inr hc

/-- C94. The bytes taken are those of the fields before and what the one field took. -/
theorem C94_bytes (cfg : Cfg) (pre : List Field) (vs : List Val) (t1 t2 : List Ev) (h : Dialogue cfg pre vs t1) :
    bytesOf (t1 ++ t2) = wire cfg pre vs ++ bytesOf t2 ∧
    questionsOf (t1 ++ t2) = askedFields (envOf pre vs) pre vs ++ questionsOf t2 := by
  rw [bytesOf_append, questionsOf_append, (C92_dialogue_says cfg pre vs t1 h).1, (C92_dialogue_says cfg pre vs t1 h).2]
  exact ⟨rfl, rfl⟩

/-- The second question throws: the first two fields have been read, of the third nothing. -/
example : (actCast be64 twice).runOn (tally fun n _ => if n = 1 then .thrown else .value 1) ([7, 1, 2, 8, 9, 0], [], 0) =
    (.thrown, [8, 9, 0], [], 2) := by rfl

/-! ### C95 -/

/-- C95. What a write emits does not depend on the user's code. There is one string of
bytes of which every write of the struct, in whatever world and however it ends, emits a
beginning, and all of it if it succeeds: answers decide how far a write gets. -/
theorem C95_one_string (cfg : Cfg) (fs : List Field) (vs : List Val) :
    ∃ q, ∀ (W : World) (s : W.State), bytesOf ((actStream cfg fs vs).logOn W s) <+: q ∧
      ∀ s', (actStream cfg fs vs).runOn W s = (.done (.ok ()), s') →
        bytesOf ((actStream cfg fs vs).logOn W s) = q := by
  obtain ⟨q, hq⟩ := line_actStream cfg fs vs
  exact ⟨q, fun W s => ⟨(hq.log W s).1, fun s' h => (hq.log W s).2 () s' h⟩⟩

/-- C95. If the write succeeds with some functions as callables, that string is what it
emits with them. -/
theorem C95_same_as_function (cfg : Cfg) (fs : List Field) (vs : List Val) (A : Answers) (p : List Byte)
    (h : (streamCast cfg (fieldsUnder A fs) vs).run = (.done (.ok ()), p)) (W : World) (s : W.State) :
    bytesOf ((actStream cfg fs vs).logOn W s) <+: p ∧
      ∀ s', (actStream cfg fs vs).runOn W s = (.done (.ok ()), s') →
        bytesOf ((actStream cfg fs vs).logOn W s) = p := by
  obtain ⟨q, hq⟩ := line_actStream cfg fs vs
  have := hq.onList (ask_actStream A cfg fs vs) h
  rw [List.nil_append] at this
  subst this
  exact ⟨(hq.log W s).1, fun s' h => (hq.log W s).2 () s' h⟩

/-- A length field of an optional container. -/
def optData : List Field :=
  [.plain "n" (.num u8 1) .none,
   .plain "flag" (.num u8 1) .none,
   .maybe "d" (.vec (.scalar u8) (.fromField "n") (some 16)) ⟨["flag"], fun vs => vs == [.int 1]⟩]

/-- The length field does not hold the length of the container. -/
def optVal : List Val := [.int 5, .int 1, .present (.seq [.int 9])]

/-- With the predicate as a function, the contradiction is found. -/
example : (streamCast be64 optData optVal).run = (.done (.error ⟨.foundContradictingLength, "n"⟩), []) := by rfl

/-- C95. A predicate that changes its mind defeats the check of a length: it is asked twice
(derived_value.hpp 188, field_writer.hpp 188). Here a write succeeds that fails whatever
function the predicate is, and no read, whatever is answered, delivers the struct from what
was written. -/
theorem C95_unsteady_malformed :
    (actStream be64 optData optVal).runOn (tally fun n _ => .value n) ([], [], 0) =
      (.done (.ok ()), [], [5, 1, 9], 2) ∧
    (∀ A p, (streamCast be64 (fieldsUnder A optData) optVal).run ≠ (.done (.ok ()), p)) ∧
    ∀ (W : World) (s s' : W.State), (actCast be64 optData).runOn W s ≠ (.done (.ok optVal), s') := by
  refine ⟨rfl, ?_, ?_⟩
  · intro A p h
    have hv := (write_sound be64 (fieldsUnder A optData) (under_selfConsistent A (by decide +kernel)) optVal
      ((under_storable A be64 optData optVal).2 (by decide +kernel)) p h).1
    have hn : Except.ok (ε := Stuck) 5 = .ok 1 := hv.2.2.2.2.1.2
    cases hn
  · intro W s s' h
    obtain ⟨_, _, _, _, _, _, h⟩ := (C92_read_is_dialogue be64 optData (by decide) W s s' optVal h).2
    obtain ⟨_, _, _, _, _, _, h⟩ := h
    obtain ⟨_, _, _, _, h, _, _⟩ := h
    obtain ⟨_, _, _, _, h⟩ := h
    obtain ⟨_, ⟨_, x, hx, hn⟩, _⟩ := h
    have hx : some (Val.int 5) = some (.int x) := hx
    cases hx
    exact absurd hn (by decide)

/-! ### C96 -/

/-- C96. Round trip with user code that is code: if during a write that succeeds and a read
of the bytes it emitted no question was answered in two ways, then, unless an exception
ends it, the read delivers the struct with its slots filled, and leaves what follows. -/
theorem C96_round_trip (cfg : Cfg) (fs : List Field) (hsc : SelfConsistent cfg fs) (vs : List Val)
    (hst : Storable cfg fs vs) (W1 : World) (s1 s1' : W1.State)
    (hw : (actStream cfg fs vs).runOn W1 s1 = (.done (.ok ()), s1'))
    (W2 : World) (H : Hosts W2 listIn) (s2 : W2.State) (rest : List Byte)
    (hin : H.view s2 = bytesOf ((actStream cfg fs vs).logOn W1 s1) ++ rest)
    (hs : Steady ((actStream cfg fs vs).logOn W1 s1 ++ (actCast cfg fs).logOn W2 s2)) :
    (∃ s2', (actCast cfg fs).runOn W2 s2 = (.thrown, s2')) ∨
    ∃ s2', (actCast cfg fs).runOn W2 s2 = (.done (.ok (settle fs vs)), s2') ∧ H.view s2' = rest := by
  obtain ⟨A, hA⟩ := Steady.answered hs
  have h1 := runOn_wr W1 [] (ask_actStream A cfg fs vs) (wshort_streamCast cfg _ vs)
    (fun c a hc => hA c a (List.mem_append_left _ hc)) hw
  rw [List.nil_append] at h1
  have h2 := C45_round_trip cfg (fieldsUnder A fs) (under_selfConsistent A hsc) vs ((under_storable A cfg fs vs).2 hst)
    _ h1 rest
  rcases C93_steady_read cfg fs W2 listIn H A s2 (fun c a hc => hA c a (List.mem_append_right _ hc)) with h | h
  · exact .inl h
  · obtain ⟨o, s2', h3, h4⟩ := h
    rw [hin] at h4
    rw [Rd.run, h4] at h2
    rw [under_settle] at h2
    injection h2 with h5 h6
    subst h5
    exact .inr ⟨s2', h3, h6⟩

example : (actStream be64 packet packetVal).runOn (tally faithful) ([], [], 0) =
      (.done (.ok ()), [], packetBytes, 2) ∧
    (actCast be64 packet).runOn (tally faithful) (packetBytes ++ [1, 2], [], 0) =
      (.done (.ok (settle packet packetVal)), [1, 2], [], 2) := ⟨rfl, rfl⟩

/-! ### C97 -/

/-- C97. A write that succeeds, in whatever world, has asked exactly the questions that the
struct determines, with the values of the struct as arguments, in this order. -/
theorem C97_write_asks (cfg : Cfg) (fs : List Field) (hwf : WellFormed fs) (vs : List Val) (ht : Typed cfg fs vs)
    (W : World) (s s' : W.State) (h : (actStream cfg fs vs).runOn W s = (.done (.ok ()), s')) :
    questionsOf ((actStream cfg fs vs).logOn W s) = askedWFields cfg fs vs fs vs :=
  polls_actWFields cfg fs hwf.1 ⟨fs, vs⟩ (counted_of_typed hwf.1 ht) vs ht W s s' () h

/-- C97. A write that does not succeed has asked the questions of the fields before one
field, then some of that field or about the containers it is the length of. An error names
the field. -/
theorem C97_broken_off (cfg : Cfg) (fs : List Field) (hwf : WellFormed fs) (vs : List Val) (ht : Typed cfg fs vs)
    (W : World) (s s' : W.State) (e : Ending (Except CastError Unit))
    (h : (actStream cfg fs vs).runOn W s = (e, s')) (hne : e ≠ .done (.ok ())) :
    ∃ pre pvs f v post t1 t2, fs = pre ++ f :: post ∧ pvs ++ [v] <+: vs ∧ pre.length = pvs.length ∧
      (actStream cfg fs vs).logOn W s = t1 ++ t2 ∧ questionsOf t1 = askedWFields cfg fs vs pre pvs ∧
      (∀ q ∈ questionsOf t2, fieldOwns f q ∨ lengthens fs f.id q) ∧
      ((∃ r, e = .done (.error ⟨r, f.id⟩)) ∨ (∃ w, e = .stuck w) ∨ e = .thrown) :=
  broken_off_w cfg ⟨fs, vs⟩ (counted_of_typed hwf.1 ht) W fs hwf.1 vs ht s s' e h hne

/-- The predicate is asked for the length field and again for the optional. -/
example : askedWFields be64 optData [.int 1, .int 1, .present (.seq [.int 9])] optData
      [.int 1, .int 1, .present (.seq [.int 9])] =
    [.pred ⟨["flag"], fun vs => vs == [.int 1]⟩ [.int 1], .pred ⟨["flag"], fun vs => vs == [.int 1]⟩ [.int 1]] := by
  rfl

/-- A slot is checked with the value it is filled with, not the one the user left there; a
field of the user before it is written. -/
def slotChecked : List Field :=
  [.plain "n" (.num u8 1) (.user fun _ => true),
   .plain "d" (.vec (.scalar u8) (.fromField "n") (some 16)) (.user fun _ => true)]

example : askedWFields be64 slotChecked [.int 77, .seq [.int 8, .int 9]] slotChecked [.int 77, .seq [.int 8, .int 9]] =
    [.check (fun _ => true) (.int 2), .check (fun _ => true) (.seq [.int 8, .int 9])] := by rfl

example : (actStream be64 slotChecked [.int 77, .seq [.int 8, .int 9]]).runOn (tally fun n _ => .value (5 - n)) ([], [], 0) =
    (.done (.ok ()), [], [2, 8, 9], 2) := by rfl

example : WellFormed slotChecked ∧ Typed be64 slotChecked [.int 77, .seq [.int 8, .int 9]] := by
  constructor
  · decide +kernel
  · decide +kernel

/-- A world whose answers change with every question. -/
example := C92_read_is_dialogue be64 twice (by decide +kernel) (tally fun n _ => .value (n + 1)) ([7, 1, 2, 8, 9, 0], [], 0) _ _ (by rfl)
example : bytesOf ((actCast be64 twice).logOn (tally fun n _ => .value (n + 1)) ([7, 1, 2, 8, 9, 0], [], 0)) = [7, 1, 2, 8, 9] :=
  (C92_dialogue_says be64 twice [.int 7, .present (.int 258), .seq [.int 8, .int 9]] _
    (C92_read_is_dialogue be64 twice (by decide +kernel) (tally fun n _ => .value (n + 1)) ([7, 1, 2, 8, 9, 0], [], 0) _ _ (by rfl)).2).1

/-- The same answers as a function of the question. -/
example (A : Answers) (h : Answered A ((actCast be64 twice).logOn (tally fun n _ => .value (n + 1)) ([7, 1, 2, 8, 9, 0], [], 0))) :=
  C93_steady_read be64 twice _ listIn (tallyHosts fun n _ => .value (n + 1)) A _ h
example (A : Answers) (h : Answered A ((actStream be64 packet packetVal).logOn (tally faithful) ([], [], 0))) :=
  C93_steady_write be64 packet packetVal _ listOut (tallyHostsOut faithful) A _ h
example : fieldsUnder own packet = packet := C93_own packet

/-- Asked once: some function answers as the world did. -/
example : ∃ A, Answered A [.byte 1, .answer (.pred ⟨["k"], fun _ => false⟩ [.int 7]) 3] := by
  refine (C93_steady_function _).1 ?_
  intro c a b ha hb
  simp at ha hb
  rw [ha.2, hb.2]

/-- Thrown by the second callable, the length of the vector. -/
example := C94_broken_off be64 twice (by decide +kernel)
  (tally fun n _ => if n = 1 then .thrown else .value 1) ([7, 1, 2, 8, 9, 0], [], 0) _ .thrown (by rfl) nofun

/-- A packet: in no world is anything else emitted. -/
example (W : World) (s s' : W.State) (h : (actStream be64 packet packetVal).runOn W s = (.done (.ok ()), s')) :
    bytesOf ((actStream be64 packet packetVal).logOn W s) = packetBytes := by
  obtain ⟨q, hq⟩ := C95_one_string be64 packet packetVal
  have h1 := (hq (tally faithful) ([], [], 0)).2 ([], packetBytes, 2) (by rfl)
  rw [(hq W s).2 s' h, ← h1]
  rfl

example := C97_write_asks be64 slotChecked (by decide +kernel) [.int 77, .seq [.int 8, .int 9]] (by decide +kernel)
  (tally fun n _ => .value (5 - n)) ([], [], 0) _ (by rfl)

end S2S.Props
