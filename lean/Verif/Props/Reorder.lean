import Verif.Spec.Reorder
import Verif.Lemmas.Reorder
import Verif.Lemmas.Wellformed
import Verif.Props.Reading
import Verif.Props.Slots
import Verif.Spec.Demo
/-
C136: fields declared in another order.
-/
namespace S2S.Props
open Spec Demo

/-! ## C136 -/

theorem everyFields_mem {P : List Field → Prop} {fs : List Field} :
    EveryFields P fs ↔ ∀ f ∈ fs, EveryField P f := by
  induction fs with
  | nil => simp [EveryFields]
  | cons f fs ih => simp [EveryFields, ih]

theorem saneFields_mem {fs : List Field} : saneFields fs = true ↔ ∀ f ∈ fs, saneField f = true := by
  induction fs with
  | nil => simp [saneFields]
  | cons f fs ih => simp [saneFields, ih]

/-- C136, which orders are accepted: those in which every field comes after the ones it refers
to. -/
theorem C136_accepted (fs gs : List Field) (hwf : WellFormed fs) (hp : fs.Perm gs) :
    WellFormed gs ↔ Backward gs := by
  rw [wellFormed_iff] at hwf ⊢
  obtain ⟨h1, h2, h3⟩ := hwf
  constructor
  · exact fun h => h.2.2.1
  · intro h
    refine ⟨?_, ⟨?_, ?_⟩, h, ?_⟩
    · rw [saneFields_mem] at h1 ⊢
      exact fun f hf => h1 f (hp.mem_iff.2 hf)
    · exact (hp.map Field.id).nodup_iff.1 h2.1
    · have := h2.2
      rw [everyFields_mem] at this ⊢
      exact fun f hf => this f (hp.mem_iff.2 hf)
    · have := h3.2
      rw [everyFields_mem] at this ⊢
      exact fun f hf => this f (hp.mem_iff.2 hf)

/-- C136, reading: the bytes of a struct fall into one piece for each field, and the pieces put
in any other accepted order of the fields read as the same values in that order. -/
theorem C136_read (cfg : Cfg) (fs : List Field) (hwf : WellFormed fs) (inp rest : List Byte) (vs : List Val)
    (h : (structCast cfg fs).run inp = (.done (.ok vs), rest)) :
    fs.length = vs.length ∧ ∃ piece : Field × Val → List Byte, inp = (fs.zip vs).flatMap piece ++ rest ∧
      ∀ l, (fs.zip vs).Perm l → WellFormed (l.map Prod.fst) → ∀ rest',
        (structCast cfg (l.map Prod.fst)).run (l.flatMap piece ++ rest') =
          (.done (.ok (l.map Prod.snd)), rest') := by
  obtain ⟨hv, rfl⟩ := (read_iff cfg fs hwf inp rest vs).1 h
  have hlen := fits_length hv.1
  obtain ⟨e1, e2⟩ := each_of_length hlen
  refine ⟨hlen, fun p => wireField cfg.wire p.1 p.2, ?_, fun l hp hl rest' => ?_⟩
  · rw [wire, ← wire_each, e1, e2]
  · rw [read_iff cfg _ hl, wire, wire_each]
    refine ⟨valid_perm hp ?_ ?_, rfl⟩
    · rw [e1]; exact hwf.2.1
    · rw [e1, e2]; exact hv

/-- C136, writing: what is done for each field is one program, the same in every accepted order
of the fields; the write runs them in the order of the fields. On every stream, and for structs
that cannot be written as well. -/
theorem C136_write (cfg : Cfg) (fs : List Field) (hwf : WellFormed fs) (vs : List Val) (hv : Typed cfg fs vs) :
    ∃ prog : Field × Val → WrE CastError Unit, ∀ l, (fs.zip vs).Perm l → WellFormed (l.map Prod.fst) →
      streamCast cfg (l.map Prod.fst) (l.map Prod.snd) = inTurn (l.map prog) := by
  obtain ⟨e1, e2⟩ := each_of_length (typed_length hv)
  refine ⟨fun p => (if isDerived fs p.1.id || p.1.isFrozen then writeField cfg ⟨fs, vs⟩ p.1 p.2
    else WrE.checked p.1.constraint p.2 (writeField cfg ⟨fs, vs⟩ p.1 p.2)).tag p.1.id, fun l hp hl => ?_⟩
  have hs : SameTo cfg fs ⟨fs, vs⟩ ⟨l.map Prod.fst, l.map Prod.snd⟩ := by
    have := sameTo_perm (cfg := cfg) hp (by rw [e1]; exact hwf) hl (by rw [e1, e2]; exact hv)
    rwa [e1, e2] at this
  have hm : ∀ p ∈ l, p.1 ∈ fs := fun p hp' => (List.of_mem_zip (hp.mem_iff.2 hp')).1
  rw [streamCast]
  generalize (⟨l.map Prod.fst, l.map Prod.snd⟩ : WCtx) = ctx at hs
  clear hp hl
  induction l with
  | nil => simp only [List.map_nil, writeFields, inTurn]
  | cons p l ih =>
    have hp := hm p (by simp)
    simp only [List.map_cons, writeFields, inTurn, ih fun q hq => hm q (by simp [hq]), hs.derived p.1 hp,
      hs.field hp]

/-- A write in turn succeeds if all its parts do. -/
theorem inTurn_emits (l : List α) (prog : α → WrE CastError Unit) (out : List Byte) :
    WrE.Emits (inTurn (l.map prog)) out () ↔
      (∀ p ∈ l, ((prog p).run).1 = .done (.ok ())) ∧ out = l.flatMap fun p => (prog p).run.2 := by
  induction l generalizing out with
  | nil => simp [inTurn, WrE.Emits, eq_comm]
  | cons p l ih =>
    rw [List.map_cons, inTurn, WrE.emits_andThen]
    simp only [List.mem_cons, forall_eq_or_imp, List.flatMap_cons, Wr.run_eq]
    constructor
    · rintro ⟨⟨⟩, q, s, rfl, h1, h2⟩
      rw [ih] at h2
      simp only [Wr.run_eq] at h2
      exact ⟨⟨by rw [h1], h2.1⟩, by rw [h1, h2.2]⟩
    · rintro ⟨⟨h1, h2⟩, rfl⟩
      refine ⟨(), _, _, rfl, Prod.ext h1 rfl, ?_⟩
      rw [ih]
      simp only [Wr.run_eq]
      exact ⟨h2, trivial⟩

/-- C136, writing: the bytes written fall into one piece for each field, and in any other
accepted order of the fields the same struct is written as the pieces in that order. -/
theorem C136_written (cfg : Cfg) (fs : List Field) (hwf : WellFormed fs) (vs : List Val) (hv : Typed cfg fs vs)
    (out : List Byte) (h : (streamCast cfg fs vs).run = (.done (.ok ()), out)) :
    ∃ piece : Field × Val → List Byte, out = (fs.zip vs).flatMap piece ∧
      ∀ l, (fs.zip vs).Perm l → WellFormed (l.map Prod.fst) →
        (streamCast cfg (l.map Prod.fst) (l.map Prod.snd)).run = (.done (.ok ()), l.flatMap piece) := by
  obtain ⟨e1, e2⟩ := each_of_length (typed_length hv)
  obtain ⟨prog, hprog⟩ := C136_write cfg fs hwf vs hv
  have h0 := hprog _ (.refl _) (by rw [e1]; exact hwf)
  rw [e1, e2] at h0
  rw [h0, Wr.run_eq] at h
  obtain ⟨h1, rfl⟩ := (inTurn_emits _ _ _).1 h
  refine ⟨fun p => (prog p).run.2, rfl, fun l hp hl => ?_⟩
  rw [hprog l hp hl, Wr.run_eq]
  exact (inTurn_emits _ _ _).2 ⟨fun p hm => h1 p (hp.mem_iff.2 hm), rfl⟩

/-- C136, failing: a struct whose write fails in one accepted order fails in every other, where
writing is defined (C50). -/
theorem C136_fails (cfg : Cfg) (fs gs : List Field) (hwf : WellFormed fs) (vs ws : List Val)
    (hv : Typed cfg fs vs) (hl : gs.length = ws.length) (hp : (fs.zip vs).Perm (gs.zip ws)) (hg : WellFormed gs)
    (hsafe : Everywhere (fun gs => Resolves gs ∧ WriteSafe cfg gs) gs) (e : CastError) (p : List Byte)
    (h : (streamCast cfg fs vs).run = (.done (.error e), p)) :
    ∃ e' p', (streamCast cfg gs ws).run = (.done (.error e'), p') := by
  obtain ⟨e1, e2⟩ := each_of_length hl
  obtain ⟨d1, d2⟩ := each_of_length (typed_length hv)
  have hw : Typed cfg gs ws := by
    have := typed_each cfg (fs.zip vs)
    rw [d1, d2] at this
    have h1 := this.1 hv
    have := typed_each cfg (gs.zip ws)
    rw [e1, e2] at this
    exact this.2 fun p hm => h1 p (hp.mem_iff.2 hm)
  obtain ⟨a, q, hr⟩ := C50_defined cfg gs hg hsafe ws hw listOut ([] : List Byte)
  rw [Wr.runOn_listOut, ← Wr.run_eq] at hr
  cases hrun : (streamCast cfg gs ws).run with
  | mk o q' =>
    rw [hrun] at hr
    cases hr
    cases a with
    | error e' => exact ⟨e', q', rfl⟩
    | ok u =>
      obtain ⟨piece, -, hall⟩ := C136_written cfg gs hg ws hw q' hrun
      have := hall _ hp.symm (by rw [d1]; exact hwf)
      rw [d1, d2, h] at this
      cases this

/-! The packet with its fields in another order: the union before the vector, the checksum between
them, the magic number last. -/

/-- The places of the fields of the packet in the other order. -/
def turn (l : List α) : List α := [2, 4, 5, 1, 3, 0].filterMap (l[·]?)

example : packet.Perm (turn packet) := by
  refine .trans (l₂ := [2, 4, 5, 1, 3, 0].filterMap (packet[·]?)) ?_ (.refl _)
  have : ([0, 1, 2, 3, 4, 5] : List Nat).Perm [2, 4, 5, 1, 3, 0] := by decide
  exact this.filterMap (packet[·]?)

/-- Accepted; with the union before its discriminant it is not. -/
example : Backward (turn packet) := by
  have h : packet.Perm (turn packet) := by
    have : ([0, 1, 2, 3, 4, 5] : List Nat).Perm [2, 4, 5, 1, 3, 0] := by decide
    exact this.filterMap (packet[·]?)
  exact (C136_accepted packet _ (by decide) h).1 (by decide +kernel)

example : ¬ Backward packet.reverse := fun h =>
  absurd ((C136_accepted packet _ (by decide) (List.reverse_perm _).symm).2 h) (by decide +kernel)

theorem turn_perm {fs : List Field} {vs : List Val} (hf : fs.length = 6) (hv : vs.length = 6) :
    (fs.zip vs).Perm ((turn fs).zip (turn vs)) := by
  have h : ([0, 1, 2, 3, 4, 5] : List Nat).Perm [2, 4, 5, 1, 3, 0] := by decide
  match fs, vs, hf, hv with
  | [a, b, c, d, e, f], [u, v, w, x, y, z], _, _ =>
    exact h.filterMap ([(a, u), (b, v), (c, w), (d, x), (e, y), (f, z)][·]?)

/-- The pieces of the packet, in the one order and in the other. -/
example : (structCast be64 (turn packet)).run
    [7, 0xff, 1, 2, 0xbe, 0xef, 0, 3, 0, 1, 0, 2, 0xab, 0xcd, 0, 0, 0x12, 0x34] =
      (.done (.ok (turn packetParsed)), []) := by rfl

example : (streamCast be64 (turn packet) (turn packetVal)).run =
    (.done (.ok ()), [7, 0xff, 1, 2, 0xbe, 0xef, 0, 3, 0, 1, 0, 2, 0xab, 0xcd, 0, 0, 0x12, 0x34]) := by rfl

/-- Whatever packet is read, the turned packet reads from its bytes put in that order. -/
example (inp : List Byte) (vs : List Val) (h : (structCast le64 packet).run inp = (.done (.ok vs), [])) :
    ∃ inp', inp'.length = inp.length ∧
      (structCast le64 (turn packet)).run inp' = (.done (.ok (turn vs)), []) := by
  obtain ⟨hl, piece, rfl, hall⟩ := C136_read le64 packet (by decide) _ _ _ h
  have hp := turn_perm (fs := packet) (vs := vs) rfl hl.symm
  have h1 : (turn vs).length = 6 := by
    match vs, hl with
    | [_, _, _, _, _, _], _ => rfl
  obtain ⟨e1, e2⟩ := each_of_length (fs := turn packet) (vs := turn vs) (by rw [h1]; rfl)
  have := hall _ hp (by rw [e1]; decide +kernel) []
  rw [e1, e2] at this
  refine ⟨_, ?_, this⟩
  simp only [List.length_append, (hp.flatMap_right piece).length_eq]

/-- A packet that cannot be written (its union holds a number out of range) in either order. -/
example : (streamCast be64 packet [.int 0, .int 0, .int 0, .seq [], .var 0 (.int 1000), .int 1]).run =
      (.done (.error ⟨.validationFailure, "body"⟩), [0, 0, 0x12, 0x34, 0, 0, 1]) ∧
    (streamCast be64 (turn packet) (turn [.int 0, .int 0, .int 0, .seq [], .var 0 (.int 1000), .int 1])).run =
      (.done (.error ⟨.validationFailure, "body"⟩), [1]) := ⟨rfl, rfl⟩

example : ∃ prog : Field × Val → WrE CastError Unit,
    streamCast be64 packet packetVal = inTurn ((packet.zip packetVal).map prog) := by
  obtain ⟨prog, h⟩ := C136_write be64 packet (by decide) packetVal (by decide +kernel)
  exact ⟨prog, h _ (.refl _) (by decide +kernel)⟩
example : ∃ piece : Field × Val → List Byte, packetBytes = (packet.zip packetVal).flatMap piece := by
  obtain ⟨piece, h, -⟩ := C136_written be64 packet (by decide) packetVal (by decide +kernel) packetBytes (by rfl)
  exact ⟨piece, h⟩

end S2S.Props
