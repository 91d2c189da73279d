import Verif.Lemmas.Shapes
import Verif.Spec.Streams
import Verif.Props.Streams
import Verif.Props.Errors
import Verif.Props.Reading
/-
C113: the stream types a cast compiles for. C114: whose health the library asks for.
-/
namespace S2S.Props
open S2S.Spec

/-! ### C113 -/

/-- One direction of a stream as /repo/docs/streams.md asks for it ("What a stream must
provide"): one function on a raw pointer, taking the count the concept passes and the count
the library passes alike, returning the stream itself or something that converts to the
standard stream — and, which the page does not ask for, can be tested. -/
def PointerWay (st : StreamTy) (w : Way) : Prop :=
  ∃ r, w.probe = some r ∧ w.call = some r ∧
    (r.self = true ∧ r.neg = st.neg ∨ r.std = true ∧ r.neg ≠ .illFormed)

/-- The way the page describes a constexpr stream: one template for arrays of every size,
returning the stream itself, and no function on raw pointers. -/
def ArrayWay (st : StreamTy) (w : Way) : Prop :=
  w.probe = none ∧ ∀ N, ∃ r, w.array N = some r ∧ r.self = true ∧ r.neg = st.neg

theorem accepts_iff (st : StreamTy) (w : Way) (N : Nat) :
    st.accepts w N = true ↔
      (st.tagged = false ∧ w.usable = true ∧ ∃ r, w.call = some r ∧ r.neg ≠ .illFormed) ∨
      (st.tagged = true ∧ w.usable = false ∧ ∃ r, w.array N = some r ∧ r.neg ≠ .illFormed) := by
  have any : ∀ o : Option Ret, (o.any fun r => !decide (r.neg = .illFormed)) = true ↔
      ∃ r, o = some r ∧ ¬ r.neg = .illFormed := by
    intro o
    cases o <;> simp
  cases ht : st.tagged <;> cases hu : w.usable <;>
    simp [StreamTy.accepts, StreamTy.candidates, ht, hu, Way.body, any]

theorem convertible_iff (st : StreamTy) :
    st.convertibleToBool = true ↔ st.boolOp = true ∧ st.neg = .bool := by
  simp [StreamTy.convertibleToBool]

theorem pointer_accepts {st : StreamTy} {w : Way} (ht : st.tagged = false)
    (hb : st.convertibleToBool = true) (hw : PointerWay st w) (N : Nat) :
    st.accepts w N = true := by
  obtain ⟨r, h1, h2, h3⟩ := hw
  rw [accepts_iff]
  refine .inl ⟨ht, ?_, r, h2, ?_⟩
  · rcases h3 with ⟨h, _⟩ | ⟨h, _⟩ <;> simp [Way.usable, h1, h]
  · rcases h3 with ⟨_, h⟩ | ⟨_, h⟩
    · rw [h, ((convertible_iff st).1 hb).2]; decide
    · exact h

theorem array_accepts {st : StreamTy} {w : Way} (ht : st.tagged = true)
    (hb : st.convertibleToBool = true) (hw : ArrayWay st w) (N : Nat) :
    st.accepts w N = true := by
  obtain ⟨h1, h2⟩ := hw
  obtain ⟨r, h3, h4, h5⟩ := h2 N
  rw [accepts_iff]
  refine .inr ⟨ht, by simp [Way.usable, h1], r, h3, ?_⟩
  rw [h5, ((convertible_iff st).1 hb).2]; decide

/-- **C113, raw streams.** A stream type that is not tagged and has the documented function
compiles with every field list, in both directions and both byte orders. -/
theorem C113_pointer (st : StreamTy) (ht : st.tagged = false) (hb : st.convertibleToBool = true) :
    (PointerWay st st.reading → ∀ fs, st.reads fs = true) ∧
    (PointerWay st st.writing → ∀ foreign fs, st.writes foreign fs = true) := by
  have aux : ∀ w, PointerWay st w → st.like w = true := by
    rintro w ⟨r, h1, _, h3⟩
    simp only [StreamTy.like, hb, Bool.and_true, Bool.or_eq_true]
    rcases h3 with ⟨h, _⟩ | ⟨h, _⟩ <;> simp [Way.usable, h1, h]
  constructor
  · intro h fs
    simp only [StreamTy.reads, aux _ h, Bool.true_and, List.all_eq_true]
    exact fun N _ => pointer_accepts ht hb h N
  · intro h f fs
    simp only [StreamTy.writes, aux _ h, Bool.true_and, List.all_eq_true]
    exact fun N _ => pointer_accepts ht hb h N

/-- **C113, constexpr streams.** A tagged type with the documented templates and no function
on raw pointers compiles with every field list, in both directions and both byte orders. -/
theorem C113_array (st : StreamTy) (ht : st.tagged = true) (hb : st.convertibleToBool = true) :
    (ArrayWay st st.reading → ∀ fs, st.reads fs = true) ∧
    (ArrayWay st st.writing → ∀ foreign fs, st.writes foreign fs = true) := by
  constructor
  · intro h fs
    simp only [StreamTy.reads, StreamTy.like, ht, hb, Bool.true_or, Bool.true_and, List.all_eq_true]
    exact fun N _ => array_accepts ht hb h N
  · intro h f fs
    simp only [StreamTy.writes, StreamTy.like, ht, hb, Bool.true_or, Bool.true_and, List.all_eq_true]
    exact fun N _ => array_accepts ht hb h N

/-- **C113, exactly.** With a list that reads anything at all, a cast compiles for a stream
type if and only if the type converts to `bool` and either is not tagged, passes the concept
and the call the library makes can be tested, or is tagged, does not also pass the concept
for raw pointers, and takes every array the list hands over. -/
theorem C113_reads_iff (st : StreamTy) (fs : List Field) (hfs : Field.readShapesAll fs ≠ []) :
    st.reads fs = true ↔ st.convertibleToBool = true ∧
      ((st.tagged = false ∧ st.reading.usable = true ∧
          ∃ r, st.reading.call = some r ∧ r.neg ≠ .illFormed) ∨
       (st.tagged = true ∧ st.reading.usable = false ∧
          ∀ N ∈ Field.readShapesAll fs, ∃ r, st.reading.array N = some r ∧ r.neg ≠ .illFormed)) := by
  obtain ⟨N0, rest, hN⟩ := List.exists_cons_of_ne_nil hfs
  simp only [StreamTy.reads, StreamTy.like, Bool.and_eq_true, List.all_eq_true, accepts_iff, hN]
  constructor
  · rintro ⟨⟨_, hb⟩, h⟩
    refine ⟨hb, ?_⟩
    rcases h N0 (by simp) with h0 | h0
    · exact .inl h0
    · refine .inr ⟨h0.1, h0.2.1, fun N hN => ?_⟩
      rcases h N hN with h' | h'
      · simp [h0.1] at h'
      · exact h'.2.2
  · rintro ⟨hb, h | h⟩
    · exact ⟨⟨by simp [h.2.1], hb⟩, fun _ _ => .inl h⟩
    · exact ⟨⟨by simp [h.1], hb⟩, fun N hN => .inr ⟨h.1, h.2.1, h.2.2 N hN⟩⟩

/-- The same for writing, in the byte order in question. -/
theorem C113_writes_iff (st : StreamTy) (foreign : Bool) (fs : List Field)
    (hfs : Field.writeShapesAll foreign fs ≠ []) :
    st.writes foreign fs = true ↔ st.convertibleToBool = true ∧
      ((st.tagged = false ∧ st.writing.usable = true ∧
          ∃ r, st.writing.call = some r ∧ r.neg ≠ .illFormed) ∨
       (st.tagged = true ∧ st.writing.usable = false ∧
          ∀ N ∈ Field.writeShapesAll foreign fs,
            ∃ r, st.writing.array N = some r ∧ r.neg ≠ .illFormed)) := by
  obtain ⟨N0, rest, hN⟩ := List.exists_cons_of_ne_nil hfs
  simp only [StreamTy.writes, StreamTy.like, Bool.and_eq_true, List.all_eq_true, accepts_iff, hN]
  constructor
  · rintro ⟨⟨_, hb⟩, h⟩
    refine ⟨hb, ?_⟩
    rcases h N0 (by simp) with h0 | h0
    · exact .inl h0
    · refine .inr ⟨h0.1, h0.2.1, fun N hN => ?_⟩
      rcases h N hN with h' | h'
      · simp [h0.1] at h'
      · exact h'.2.2
  · rintro ⟨hb, h | h⟩
    · exact ⟨⟨by simp [h.2.1], hb⟩, fun _ _ => .inl h⟩
    · exact ⟨⟨by simp [h.1], hb⟩, fun N hN => .inr ⟨h.1, h.2.1, h.2.2 N hN⟩⟩

/-- **C113, room.** On a constexpr stream every call a cast makes, on any stream and in any
state of it, asks for no more bytes than one of the arrays its templates were made for. -/
theorem C113_room (cfg : Cfg) (hc : cfg.constexprStream = true) (fs : List Field) :
    (∀ (S : InStream) (s : S.State), ∀ n ∈ (structCast cfg fs).callsOn S s,
      ∃ N ∈ Field.readShapesAll fs, n ≤ N) ∧
    (∀ (vs : List Val) (S : OutStream) (s : S.State), ∀ n ∈ (streamCast cfg fs vs).callsOn S s,
      ∃ N ∈ Field.writeShapesAll cfg.foreign fs, n ≤ N) :=
  ⟨fun S s _ hn => (readFields_within hc _ fs).mem S s hn,
   fun vs S s _ hn => (writeFields_within hc _ fs vs).mem S s hn⟩

/-! The types that pass the concept and do not compile. -/

/-- `byte_stream` of /repo/docs/streams.md 66-93. -/
def byteStreamTy : StreamTy where
  tagged := false
  boolOp := true
  neg := .bool
  reading := ⟨some ⟨true, false, .bool⟩, some ⟨true, false, .bool⟩, fun _ => none⟩
  writing := ⟨some ⟨true, false, .bool⟩, some ⟨true, false, .bool⟩, fun _ => none⟩

/-- `std::fstream`: `read` returns `std::istream&`, `write` returns `std::ostream&`. -/
def fstreamTy : StreamTy where
  tagged := false
  boolOp := true
  neg := .bool
  reading := ⟨some ⟨false, true, .bool⟩, some ⟨false, true, .bool⟩, fun _ => none⟩
  writing := ⟨some ⟨false, true, .bool⟩, some ⟨false, true, .bool⟩, fun _ => none⟩

/-- `memstream` of /repo/test/utils/constexpr_memstream.hpp 15-62. -/
def memstreamTy : StreamTy where
  tagged := true
  boolOp := true
  neg := .bool
  reading := ⟨none, none, fun _ => some ⟨true, false, .bool⟩⟩
  writing := ⟨none, none, fun _ => some ⟨true, false, .bool⟩⟩

/-- A type that has both: the functions of `byte_stream` for run time and the templates of
`memstream` for constant evaluation. -/
def bothTy : StreamTy where
  tagged := true
  boolOp := true
  neg := .bool
  reading := ⟨some ⟨true, false, .bool⟩, some ⟨true, false, .bool⟩, fun _ => some ⟨true, false, .bool⟩⟩
  writing := ⟨some ⟨true, false, .bool⟩, some ⟨true, false, .bool⟩, fun _ => some ⟨true, false, .bool⟩⟩

/-- **C113 fails for a stream with both forms.** The concepts accept it, and no cast that
reads or writes anything compiles, in either direction or order: the two overloads are
ambiguous. -/
theorem C113_fails_both :
    bothTy.like bothTy.reading = true ∧ bothTy.like bothTy.writing = true ∧
    (∀ fs, Field.readShapesAll fs ≠ [] → bothTy.reads fs = false) ∧
    (∀ foreign fs, Field.writeShapesAll foreign fs ≠ [] → bothTy.writes foreign fs = false) := by
  refine ⟨rfl, rfl, fun fs h => ?_, fun f fs h => ?_⟩
  · refine Bool.eq_false_iff.2 fun hr => ?_
    rw [C113_reads_iff _ _ h] at hr
    simp [bothTy, Way.usable] at hr
  · refine Bool.eq_false_iff.2 fun hr => ?_
    rw [C113_writes_iff _ _ _ h] at hr
    simp [bothTy, Way.usable] at hr

/-- A wrapper whose `read` returns a proxy that converts to `std::istream&` and has no
negation. -/
def proxyTy : StreamTy :=
  { fstreamTy with reading := ⟨some ⟨false, true, .illFormed⟩, some ⟨false, true, .illFormed⟩, fun _ => none⟩ }

/-- A type tagged as a constexpr stream and nothing else. -/
def bareTy : StreamTy :=
  { memstreamTy with reading := ⟨none, none, fun _ => none⟩, writing := ⟨none, none, fun _ => none⟩ }

/-- **C113 fails for what the concepts do not look at**: the negation of what `read` returns,
and everything about a tagged type. -/
theorem C113_fails_unseen :
    proxyTy.like proxyTy.reading = true ∧ bareTy.like bareTy.reading = true ∧
    bareTy.like bareTy.writing = true ∧
    ∀ fs, Field.readShapesAll fs ≠ [] → proxyTy.reads fs = false ∧ bareTy.reads fs = false := by
  refine ⟨rfl, rfl, rfl, fun fs h => ⟨?_, ?_⟩⟩
  · refine Bool.eq_false_iff.2 fun hr => ?_
    rw [C113_reads_iff _ _ h] at hr
    simp [proxyTy, fstreamTy, Way.usable] at hr
  · refine Bool.eq_false_iff.2 fun hr => ?_
    rw [C113_reads_iff _ _ h] at hr
    simp [bareTy, memstreamTy, Way.usable] at hr
    obtain ⟨_, hr⟩ := hr
    obtain ⟨N0, rest, hN⟩ := List.exists_cons_of_ne_nil h
    exact hr N0 (by simp [hN])

/-- A tagged type whose `write` takes arrays of at most eight bytes, the scalars. -/
def scalarsTy : StreamTy :=
  { memstreamTy with
    writing := ⟨none, none, fun N => if N ≤ 8 then some ⟨true, false, .bool⟩ else none⟩ }

/-- **Whether a write compiles depends on the byte order of the machine**: the foreign order
hands over scalars one at a time, the host order whole arrays. -/
theorem C113_fails_order :
    scalarsTy.writes true [.plain "samples" (.fbuf (.scalar u16) 8) .none] = true ∧
    scalarsTy.writes false [.plain "samples" (.fbuf (.scalar u16) 8) .none] = false := by
  decide

/-- The streams of the repository satisfy the hypotheses. -/
example : (∀ fs, byteStreamTy.reads fs = true ∧ fstreamTy.reads fs = true ∧ memstreamTy.reads fs = true) ∧
    (∀ f fs, byteStreamTy.writes f fs = true ∧ fstreamTy.writes f fs = true ∧ memstreamTy.writes f fs = true) := by
  have p : PointerWay byteStreamTy byteStreamTy.reading := ⟨_, rfl, rfl, .inl ⟨rfl, rfl⟩⟩
  have q : PointerWay byteStreamTy byteStreamTy.writing := ⟨_, rfl, rfl, .inl ⟨rfl, rfl⟩⟩
  have p' : PointerWay fstreamTy fstreamTy.reading := ⟨_, rfl, rfl, .inr ⟨rfl, by decide⟩⟩
  have q' : PointerWay fstreamTy fstreamTy.writing := ⟨_, rfl, rfl, .inr ⟨rfl, by decide⟩⟩
  have r : ArrayWay memstreamTy memstreamTy.reading := ⟨rfl, fun _ => ⟨_, rfl, rfl, rfl⟩⟩
  have r' : ArrayWay memstreamTy memstreamTy.writing := ⟨rfl, fun _ => ⟨_, rfl, rfl, rfl⟩⟩
  exact ⟨fun fs => ⟨(C113_pointer _ rfl rfl).1 p fs, (C113_pointer _ rfl rfl).1 p' fs,
      (C113_array _ rfl rfl).1 r fs⟩,
    fun f fs => ⟨(C113_pointer _ rfl rfl).2 q f fs, (C113_pointer _ rfl rfl).2 q' f fs,
      (C113_array _ rfl rfl).2 r' f fs⟩⟩
/-- A list with a number, a string, a vector of nested arrays and a union: the arrays handed
to a constexpr stream, reading, and writing in either order. -/
example :
    let fs : List Field := [.plain "n" (.num u16 2) .none, .plain "s" (.fstr 4) .none,
      .plain "v" (.vec (.arr (.scalar u16) 3) (.fromField "n") none) .none,
      .union "u" (.matchField "n" u16 []) [.mk (.num u8 1) .none, .mk (.fbuf (.scalar u16) 4) .none] .none]
    Field.readShapesAll fs = [2, 5, 6, 1, 8] ∧ Field.writeShapesAll false fs = [2, 5, 6, 1, 8] ∧
    Field.writeShapesAll true fs = [2, 5, 2, 1, 2] := by decide

/-! ### C114 -/

/-- The documented contract (/repo/docs/streams.md, "Failure is reported by going bad"), of a
stream object: a healthy stream with enough bytes stores them; one without goes bad; a bad one
stays bad. Nothing is said of what `read` returns. -/
structure Keeps (D : InDevice) (content : D.State → List Byte) : Prop where
  deliver : ∀ s n, D.good s = true → n ≤ (content s).length →
    (D.read s n).bytes = (content s).take n ∧ D.good (D.read s n).next = true ∧
    content (D.read s n).next = (content s).drop n
  exhaust : ∀ s n, D.good s = true → (content s).length < n → D.good (D.read s n).next = false
  sticky : ∀ s n, D.good s = false → D.good (D.read s n).next = false

/-- What `read` returns tests as the stream itself does: it is the stream. -/
def ReturnsItself (D : InDevice) : Prop :=
  ∀ s n, (D.read s n).truth = D.good (D.read s n).next

theorem seen_some {D : InDevice} {s s' : D.State} {n : Nat} {bs : List Byte}
    (h : D.seen.read s n = (some bs, s')) : (D.read s n).truth = true ∧ (D.read s n).next = s' := by
  have h1 := congrArg Prod.fst h
  have h2 := congrArg Prod.snd h
  refine ⟨?_, h2⟩
  cases ht : (D.read s n).truth with
  | true => rfl
  | false => simp [ht] at h1

theorem seen_none {D : InDevice} {s s' : D.State} {n : Nat}
    (h : D.seen.read s n = (none, s')) : (D.read s n).truth = false ∧ (D.read s n).next = s' := by
  have h1 := congrArg Prod.fst h
  have h2 := congrArg Prod.snd h
  refine ⟨?_, h2⟩
  cases ht : (D.read s n).truth with
  | false => rfl
  | true => simp [ht] at h1

/-- **C114, exactly.** A stream object that keeps the documented contract is, for the library,
a stream that keeps it if and only if what its `read` returns tests as the stream does. -/
theorem C114_iff (D : InDevice) (content : D.State → List Byte) (h : Keeps D content) :
    InContract D.seen content (fun s => D.good s = true) ↔ ReturnsItself D := by
  constructor
  · intro hc s n
    cases hg : D.good s with
    | false =>
      obtain ⟨s', h1, h2⟩ := hc.sticky s n (by simp [hg])
      rw [h.sticky s n hg, (seen_none h1).1]
    | true =>
      by_cases hn : n ≤ (content s).length
      · obtain ⟨s', h1, h2⟩ := hc.deliver s n hg hn
        rw [(h.deliver s n hg hn).2.1, (seen_some h1).1]
      · obtain ⟨s', h1, h2⟩ := hc.exhaust s n hg (by omega)
        rw [h.exhaust s n hg (by omega), (seen_none h1).1]
  · intro hr
    constructor
    · intro s n hg hn
      obtain ⟨h1, h2, h3⟩ := h.deliver s n hg hn
      refine ⟨(D.read s n).next, ?_, h2, h3⟩
      simp only [InDevice.seen, hr s n, h2, if_true, h1]
      have hl : ((content s).take n).length = n := by simp; omega
      rw [List.take_append_of_le_length (by omega), List.take_of_length_le (by omega)]
    · intro s n hg hn
      have h1 := h.exhaust s n hg hn
      exact ⟨(D.read s n).next, by simp [InDevice.seen, hr s n, h1], by simp [h1]⟩
    · intro s n hg
      have h1 := h.sticky s n (by simpa using hg)
      exact ⟨(D.read s n).next, by simp [InDevice.seen, hr s n, h1], by simp [h1]⟩

/-- **C114, reading.** If `read` returns the stream itself, then whatever else the stream does:
a cast that starts on a healthy stream leaves it bad if and only if it reports
`buffer_exhaustion`. In particular no cast succeeds and leaves the stream bad. -/
theorem C114_read (D : InDevice) (hD : ReturnsItself D) (cfg : Cfg) (fs : List Field)
    (s s' : D.State) (o : Outcome (Except CastError (List Val))) (hs : D.good s = true)
    (h : (structCast cfg fs).runOn D.seen s = (o, s')) :
    D.good s' = false ↔ ∃ id, o = .done (.error ⟨.bufferExhaustion, id⟩) := by
  have deliv : ∀ {s s' : D.seen.State} {p}, D.good s = true → Delivered D.seen s p s' → D.good s' = true := by
    intro s s' p hs hd
    induction hd with
    | nil => exact hs
    | @cons s n bs s' rest s'' hr _ ih =>
      apply ih
      obtain ⟨h1, h2⟩ := seen_some hr
      rw [← h2, ← hD, h1]
  rcases Rd.runOn_cases D.seen (short_structCast cfg fs) s with
    ⟨p, o', s2, hp, hd, hr⟩ | ⟨a, p, s1, n, s2, hP, hd, hn, hr⟩
  · rw [h] at hr
    cases hr
    constructor
    · intro hb
      rw [deliv hs hd] at hb
      cases hb
    · rintro ⟨id, rfl⟩
      exact absurd rfl (Rd.full_path (full_readFields cfg fs _) hp)
  · rw [h] at hr
    cases hr
    have hb : D.good s' = false := by
      obtain ⟨h1, h2⟩ := seen_none hn
      rw [← h2, ← hD, h1]
    refine ⟨fun _ => ?_, fun _ => hb⟩
    cases a with
    | ok a => exact hP.elim
    | error e => obtain ⟨r, id⟩ := e; cases (show r = _ from hP); exact ⟨id, rfl⟩

/-- **C114, writing.** The same for `write`. -/
theorem C114_write (D : OutDevice) (hD : ∀ s bs, (D.write s bs).1 = D.good (D.write s bs).2)
    (cfg : Cfg) (fs : List Field) (vs : List Val) (s s' : D.State)
    (o : Outcome (Except CastError Unit)) (hs : D.good s = true)
    (h : (streamCast cfg fs vs).runOn D.seen s = (o, s')) :
    D.good s' = false ↔ ∃ id, o = .done (.error ⟨.bufferExhaustion, id⟩) := by
  have accp : ∀ {s s' : D.seen.State} {p}, D.good s = true → Accepted D.seen s p s' → D.good s' = true := by
    intro s s' p hs hd
    induction hd with
    | nil => exact hs
    | @cons s bs s' rest s'' hr _ ih =>
      apply ih
      have := hD s bs
      rw [show D.write s bs = (true, s') from hr] at this
      exact this.symm
  rcases Wr.runOn_cases D.seen (wshort_streamCast cfg fs vs) s with
    ⟨s1, hacc, hr⟩ | ⟨a, p, bs, s1, s2, hP, hp, hacc, hw, hr⟩
  · rw [h, Prod.mk.injEq] at hr
    obtain ⟨rfl, rfl⟩ := hr
    constructor
    · intro hb
      rw [accp hs hacc] at hb
      cases hb
    · rintro ⟨id, ho⟩
      obtain ⟨f, hf, h1, h2, h3, h4⟩ := fine_writeFields cfg fs ⟨fs, vs⟩ vs ⟨.bufferExhaustion, id⟩
        (Wr.out (streamCast cfg fs vs)).2 (Prod.ext ho rfl)
      exact absurd rfl h3
  · rw [h] at hr
    cases hr
    have hb : D.good s' = false := by
      have := hD s1 bs
      rw [show D.write s1 bs = (false, s') from hw] at this
      exact this.symm
    refine ⟨fun _ => ?_, fun _ => hb⟩
    cases a with
    | ok a => exact hP.elim
    | error e => obtain ⟨r, id⟩ := e; cases (show r = _ from hP); exact ⟨id, rfl⟩

/-- `byte_stream` of /repo/docs/streams.md 66-93 as an object: buffer, position, `ok`. A read
returns the stream. -/
abbrev byteDevice : InDevice where
  State := List Byte × Nat × Bool
  read s n :=
    if s.2.1 + n > s.1.length then ⟨[], false, (s.1, s.2.1, false)⟩
    else ⟨(s.1.drop s.2.1).take n, s.2.2, (s.1, s.2.1 + n, s.2.2)⟩
  good s := s.2.2

example : ReturnsItself byteDevice := by
  intro s n
  simp only [byteDevice]
  split <;> rfl

example : (structCast ⟨.little, .little, false, 8, 100⟩ [.plain "n" (.num u16 2) .none]).runOn
    byteDevice.seen ([7], 0, true) = (.done (.error ⟨.bufferExhaustion, "n"⟩), ([7], 0, false)) := by
  decide

/-- A wrapper over a standard stream that lets at most so many bytes through: past its limit it
marks itself bad and reads nothing. Its `read` returns the standard stream, as `read` of a
standard stream does; `std_read_trait` accepts it. State: the standard stream's bytes, what the
limit leaves, the wrapper's own flag. -/
abbrev limited : InDevice where
  State := List Byte × Nat × Bool
  read s n :=
    if s.2.2 = true ∧ n ≤ s.2.1 ∧ n ≤ s.1.length then
      ⟨s.1.take n, true, (s.1.drop n, s.2.1 - n, true)⟩
    else if s.2.2 = true ∧ n ≤ s.2.1 then ⟨s.1, false, ([], 0, false)⟩
    else ⟨[], true, (s.1, s.2.1, false)⟩
  good s := s.2.2

theorem limited_keeps : Keeps limited (fun s => s.1.take s.2.1) where
  deliver := by
    rintro ⟨bs, k, g⟩ n hg hn
    simp only at hg
    subst hg
    simp only [List.length_take] at hn
    have h1 : n ≤ k := by omega
    have h2 : n ≤ bs.length := by omega
    simp only [limited, h1, h2, and_self, if_true, true_and]
    refine ⟨?_, ?_⟩
    · rw [List.take_take, Nat.min_eq_left h1]
    · rw [List.drop_take]
  exhaust := by
    rintro ⟨bs, k, g⟩ n hg hn
    simp only [List.length_take] at hn
    simp only [limited]
    by_cases h1 : g = true ∧ n ≤ k ∧ n ≤ bs.length
    · omega
    · rw [if_neg h1]
      split <;> rfl
  sticky := by
    rintro ⟨bs, k, g⟩ n hg
    simp only at hg
    subst hg
    simp [limited]

/-- **C114 fails for a `read` that returns another stream.** The wrapper keeps the documented
contract, its `operator bool` is false after the read, and the cast reports success, with zeros
in place of the bytes that were not delivered. -/
theorem C114_fails_wrapper :
    ∃ (D : InDevice) (content : D.State → List Byte) (s s' : D.State) (cfg : Cfg) (fs : List Field)
      (vs : List Val), Keeps D content ∧ D.good s = true ∧ content s = [] ∧
      (structCast cfg fs).runOn D.seen s = (.done (.ok vs), s') ∧ D.good s' = false :=
  ⟨limited, _, ([7, 1], 0, true), ([7, 1], 0, false), ⟨.little, .little, false, 8, 100⟩,
    [.plain "n" (.num u16 2) .none], [.int 0], limited_keeps, rfl, rfl, by decide, rfl⟩

open Demo

example : memstreamTy.reads packet = true :=
  (C113_reads_iff memstreamTy packet (by decide +kernel)).2
    ⟨rfl, .inr ⟨rfl, rfl, fun _ _ => ⟨_, rfl, by decide⟩⟩⟩
example : memstreamTy.writes true packet = true :=
  (C113_writes_iff memstreamTy true packet (by decide +kernel)).2
    ⟨rfl, .inr ⟨rfl, rfl, fun _ _ => ⟨_, rfl, by decide⟩⟩⟩
/-- Of the arrays a packet is read through none is longer than four bytes. -/
example (S : InStream) (s : S.State) :
    ∀ n ∈ (structCast { be64 with constexprStream := true } packet).callsOn S s, n ≤ 4 := by
  intro n hn
  obtain ⟨N, hN, h⟩ := (C113_room { be64 with constexprStream := true } rfl packet).1 S s n hn
  have : ∀ N ∈ Field.readShapesAll packet, N ≤ 4 := by decide +kernel
  exact Nat.le_trans h (this N hN)
/-- The wrapper keeps what is documented and is no stream the library can work with. -/
example : ¬ InContract limited.seen (fun s => s.1.take s.2.1) (fun s => limited.good s = true) := by
  rw [C114_iff limited _ limited_keeps]
  intro h
  have := h ([], 0, true) 1
  revert this
  decide
/-- A byte too few: `byte_stream` is bad, and the cast says so. -/
example (s' : byteDevice.State) (o : Outcome (Except CastError (List Val)))
    (h : (structCast be64 packet).runOn byteDevice.seen ([7], 0, true) = (o, s')) :
    byteDevice.good s' = false ↔ ∃ id, o = .done (.error ⟨.bufferExhaustion, id⟩) :=
  C114_read byteDevice (by intro s n; simp only [byteDevice]; split <;> rfl) be64 packet _ s' o rfl h

end S2S.Props
