import Verif.Lemmas.Append
import Verif.Lemmas.Order
import Verif.Props.RoundTrip
import Verif.Props.Sizes
/-
C74: fields appended to a schema.
-/
namespace S2S.Props
open Spec Demo

theorem sane_suffix (pre post : List Field) (h : saneFields (pre ++ post) = true) :
    saneFields post = true := by
  induction pre with
  | nil => exact h
  | cons f fs ih =>
    simp only [List.cons_append, saneFields, Bool.and_eq_true] at h
    exact ih h.2

theorem fits_suffix {cfg : Cfg} {pre post : List Field} {us ws : List Val}
    (hl : us.length = pre.length) (h : FitsFields cfg (pre ++ post) (us ++ ws)) :
    FitsFields cfg post ws := by
  induction pre generalizing us with
  | nil =>
    cases us with
    | nil => exact h
    | cons => simp at hl
  | cons f fs ih =>
    cases us with
    | nil => simp at hl
    | cons u us =>
      simp only [List.cons_append, FitsFields] at h
      exact ih (by simpa using hl) h.2

theorem unique_disjoint (seen : List String) (pre post : List Field)
    (h : uniqueFields seen (pre ++ post) = true) : ∀ f ∈ post, f.id ∉ pre.map Field.id := by
  induction pre generalizing seen with
  | nil => simp
  | cons g gs ih =>
    simp only [List.cons_append, uniqueFields, Bool.and_eq_true] at h
    intro f hf
    simp only [List.map_cons, List.mem_cons, not_or]
    refine ⟨fun he => ?_, ih _ h.2 f hf⟩
    refine uniqueFields_not_seen _ _ h.2 g.id (by simp) ?_
    simp only [List.map_append, List.mem_append, List.mem_map]
    exact .inr ⟨f, hf, he⟩

/-! ## An old reader on new data -/

/-- C74, on whatever stream: where the longer schema can be read, the shorter one can be
read too, with the same values for its fields, and from the state where the shorter
cast left the stream the longer one only reads the appended fields. -/
theorem C74_old_reader (cfg : Cfg) (pre post : List Field) (hwf : WellFormed (pre ++ post))
    (S : InStream) (s s' : S.State) (vs : List Val)
    (h : (structCast cfg (pre ++ post)).runOn S s = (.done (.ok vs), s')) :
    ∃ us ws s1, vs = us ++ ws ∧ us.length = pre.length ∧ ws.length = post.length ∧
      (structCast cfg pre).runOn S s = (.done (.ok us), s1) ∧
      (readFields cfg (envOf pre us) post).runOn S s1 = (.done (.ok ws), s') := by
  have h0 := h
  rw [structCast_append cfg pre post hwf, RdE.runOn_andThen] at h
  rcases h1 : (structCast cfg pre).runOn S s with ⟨(e | us) | w, s1⟩
  · rw [h1] at h; cases h
  · rw [runOn_append cfg pre post hwf S s s1 us h1, readRest, RdE.runOn_andThen] at h0
    rcases h2 : (readFields cfg (envOf pre us) post).runOn S s1 with ⟨(e | ws) | w, s2⟩
    · rw [h2] at h0; cases h0
    · rw [h2] at h0
      cases h0
      exact ⟨us, ws, s1, rfl, length_of_run h1, length_of_run h2, rfl, h2⟩
    · rw [h2] at h0; cases h0
  · rw [h1] at h; cases h

example : ∃ us ws s1, packetParsed = us ++ ws ∧ us.length = 3 ∧ ws.length = 3 ∧
    (structCast be64 (packet.take 3)).runOn listIn packetBytes = (.done (.ok us), s1) ∧
    (readFields be64 (envOf (packet.take 3) us) (packet.drop 3)).runOn listIn s1 = (.done (.ok ws), []) :=
  C74_old_reader be64 (packet.take 3) (packet.drop 3) (by decide +kernel) listIn packetBytes [] packetParsed rfl

/-- C74, the bytes: the shorter reader takes the encoding of its own fields and leaves the
encoding of the appended ones. -/
theorem C74_old_reader_bytes (cfg : Cfg) (pre post : List Field) (hwf : WellFormed (pre ++ post))
    (inp rest : List Byte) (vs : List Val)
    (h : (structCast cfg (pre ++ post)).run inp = (.done (.ok vs), rest)) :
    ∃ us ws, vs = us ++ ws ∧ us.length = pre.length ∧
      inp = wire cfg pre us ++ wire cfg post ws ++ rest ∧
      (structCast cfg pre).run inp = (.done (.ok us), wire cfg post ws ++ rest) := by
  obtain ⟨us, ws, s1, rfl, hl, -, h1, -⟩ := C74_old_reader cfg pre post hwf listIn inp rest vs h
  obtain ⟨-, h2⟩ := (read_iff cfg _ hwf inp rest _).1 h
  obtain ⟨-, h3⟩ := (read_iff cfg _ (wf_prefix hwf) inp s1 us).1 h1
  have h4 : wire cfg (pre ++ post) (us ++ ws) = wire cfg pre us ++ wire cfg post ws :=
    wireFields_append _ _ _ _ _ hl
  rw [h4] at h2
  refine ⟨us, ws, rfl, hl, h2, ?_⟩
  have : s1 = wire cfg post ws ++ rest :=
    List.append_cancel_left (by rw [← h3, h2, List.append_assoc])
  rw [← this]
  exact h1

/-- A message with appended fields, written by the newer program and read by the older. -/
example : ∃ us ws, packetParsed = us ++ ws ∧ us.length = 3 ∧
    packetBytes = wire be64 (packet.take 3) us ++ wire be64 (packet.drop 3) ws ++ [] ∧
    (structCast be64 (packet.take 3)).run packetBytes =
      (.done (.ok us), wire be64 (packet.drop 3) ws ++ []) :=
  C74_old_reader_bytes be64 (packet.take 3) (packet.drop 3) (by decide +kernel) packetBytes []
    packetParsed rfl

/-- C74, writing: what the newer program writes the older one reads, as the first fields
of the struct with the library's slots filled, leaving the bytes of the others. A length
or tag among the first fields may well describe an appended one. -/
theorem C74_new_to_old_partial (cfg : Cfg) (pre post : List Field) (hsc : SelfConsistent cfg (pre ++ post))
    (vs : List Val) (hst : Storable cfg (pre ++ post) vs) (p : List Byte)
    (h : (streamCast cfg (pre ++ post) vs).run = (.done (.ok ()), p)) (rest : List Byte) :
    ∃ q, p = wire cfg pre ((settle (pre ++ post) vs).take pre.length) ++ q ∧
      (structCast cfg pre).run (p ++ rest) =
        (.done (.ok ((settle (pre ++ post) vs).take pre.length)), q ++ rest) := by
  obtain ⟨us, ws, h1, hl, h2, h3⟩ := C74_old_reader_bytes cfg pre post hsc.1 (p ++ rest) rest _
    (C45_round_trip cfg _ hsc vs hst p h rest)
  rw [h1, ← hl, List.take_left]
  exact ⟨wire cfg post ws, List.append_cancel_right h2, h3⟩

example (rest : List Byte) : ∃ q, packetBytes = [0, 0, 0x12, 0x34, 0, 3, 7] ++ q ∧
    (structCast be64 (packet.take 3)).run (packetBytes ++ rest) =
      (.done (.ok [.int 0x1234, .int 3, .int 7]), q ++ rest) :=
  C74_new_to_old_partial be64 (packet.take 3) (packet.drop 3) (by decide +kernel) packetVal
    (by decide +kernel) packetBytes rfl rest

/-! ## A new reader on old data -/

/-- C74, on whatever stream: where the shorter schema can be read, the longer one gives the
same values for its first fields, or fails at an appended field, or the behaviour is
undefined. -/
theorem C74_new_reader (cfg : Cfg) (pre post : List Field) (hwf : WellFormed (pre ++ post))
    (S : InStream) (s s1 : S.State) (us : List Val)
    (h : (structCast cfg pre).runOn S s = (.done (.ok us), s1)) :
    (∃ ws s', (structCast cfg (pre ++ post)).runOn S s = (.done (.ok (us ++ ws)), s')) ∨
    (∃ e s', (structCast cfg (pre ++ post)).runOn S s = (.done (.error e), s') ∧
      ∃ f ∈ post, e.failedAt = f.id) ∨
    ∃ w s', (structCast cfg (pre ++ post)).runOn S s = (.stuck w, s') := by
  have h0 := runOn_append cfg pre post hwf S s s1 us h
  rw [readRest, RdE.runOn_andThen] at h0
  rcases h2 : (readFields cfg (envOf pre us) post).runOn S s1 with ⟨(e | ws) | w, s2⟩
  · rw [h2] at h0
    obtain ⟨pre', f, post', _, _, rfl, hf, -, -⟩ := (readFields_error_iff cfg post _ S s1 s2 e).1 h2
    exact .inr (.inl ⟨e, s2, h0, f, by simp, hf⟩)
  · rw [h2] at h0
    exact .inl ⟨ws, s2, h0⟩
  · rw [h2] at h0
    exact .inr (.inr ⟨w, s2, h0⟩)

/-- Whatever follows the first three fields of a packet. -/
example (rest : List Byte) :
    (∃ ws s', (structCast be64 packet).runOn listIn ([0, 0, 0x12, 0x34, 0, 3, 7] ++ rest) =
      (.done (.ok ([.int 0x1234, .int 3, .int 7] ++ ws)), s')) ∨
    (∃ e s', (structCast be64 packet).runOn listIn ([0, 0, 0x12, 0x34, 0, 3, 7] ++ rest) = (.done (.error e), s') ∧
      ∃ f ∈ packet.drop 3, e.failedAt = f.id) ∨
    ∃ w s', (structCast be64 packet).runOn listIn ([0, 0, 0x12, 0x34, 0, 3, 7] ++ rest) = (.stuck w, s') :=
  C74_new_reader be64 (packet.take 3) (packet.drop 3) (by decide +kernel) listIn _ rest _
    ((read_iff be64 (packet.take 3) (by decide +kernel) _ rest _).2 ⟨by decide +kernel, rfl⟩)

/-- C74: a failure of the shorter cast is the failure of the longer one, on whatever stream,
with the stream left in the same state. -/
theorem C74_same_failure (cfg : Cfg) (pre post : List Field) (hwf : WellFormed (pre ++ post))
    (S : InStream) (s s1 : S.State) (e : CastError)
    (h : (structCast cfg pre).runOn S s = (.done (.error e), s1)) :
    (structCast cfg (pre ++ post)).runOn S s = (.done (.error e), s1) := by
  rw [structCast_append cfg pre post hwf, RdE.runOn_andThen, h]

example : (structCast be64 packet).runOn listIn [0, 0, 0x12, 0x35, 7] =
    (.done (.error ⟨.validationFailure, "magic"⟩), [7]) :=
  C74_same_failure be64 (packet.take 1) (packet.drop 1) (by decide +kernel) listIn _ [7] _ rfl

/-- C74: data that ends where the shorter schema ends is never accepted by the longer one
if the appended fields take at least a byte. -/
theorem C74_old_data_rejected (cfg : Cfg) (pre post : List Field) (hwf : WellFormed (pre ++ post))
    (hmin : 1 ≤ minFields post) (inp : List Byte) (us : List Val)
    (h : (structCast cfg pre).run inp = (.done (.ok us), [])) (vs : List Val) (rest : List Byte) :
    (structCast cfg (pre ++ post)).run inp ≠ (.done (.ok vs), rest) := by
  intro h'
  obtain ⟨us', ws, rfl, hl, h2, h3⟩ := C74_old_reader_bytes cfg pre post hwf inp rest vs h'
  rw [h] at h3
  simp only [Prod.mk.injEq] at h3
  obtain ⟨-, h4⟩ := h3
  have h5 : wire cfg post ws = [] := (List.append_eq_nil_iff.1 h4.symm).1
  obtain ⟨hv, -⟩ := (read_iff cfg _ hwf inp rest _).1 h'
  have h6 := wireFields_between cfg cfg.wire post (sane_suffix _ _ hwf.1) ws
    (fits_suffix hl hv.1)
  rw [wire] at h5
  rw [h5] at h6
  simp at h6
  omega

/-- C74: fields that are appended as optionals whose conditions, on the older fields, do not
hold are read as absent and take nothing, on whatever stream: old data stays readable. -/
theorem C74_optional_extension (cfg : Cfg) (pre post : List Field) (hwf : WellFormed (pre ++ post))
    (S : InStream) (s s1 : S.State) (us : List Val)
    (h : (structCast cfg pre).runOn S s = (.done (.ok us), s1))
    (hpost : ∀ f ∈ post, ∃ id k p, f = .maybe id k p ∧ (∀ i ∈ p.ids, ∃ g ∈ pre, g.id = i) ∧
      p.eval (envOf pre us) = .ok false) :
    (structCast cfg (pre ++ post)).runOn S s =
      (.done (.ok (us ++ List.replicate post.length .absent)), s1) := by
  rw [runOn_append cfg pre post hwf S s s1 us h, readRest, RdE.runOn_andThen]
  have key : ∀ (post : List Field) (env : Env), (∀ f ∈ post, f.id ∉ pre.map Field.id) →
      Agree (pre.map Field.id) env (envOf pre us) →
      (∀ f ∈ post, ∃ id k p, f = .maybe id k p ∧ (∀ i ∈ p.ids, ∃ g ∈ pre, g.id = i) ∧
        p.eval (envOf pre us) = .ok false) →
      (readFields cfg env post).runOn S s1 =
        (.done (.ok (List.replicate post.length .absent)), s1) := by
    intro post
    induction post with
    | nil => intro env _ _ _; rfl
    | cons f fs ih =>
      intro env hu ha hp
      obtain ⟨id, k, p, rfl, hids, hev⟩ := hp f (by simp)
      have hev' : p.eval env = .ok false := by
        rw [← hev, Pred.eval, Pred.eval, getAll_congr (env' := envOf pre us)]
        intro i hi
        obtain ⟨g, hg, rfl⟩ := hids i hi
        exact ha _ (List.mem_map.2 ⟨g, hg, rfl⟩)
      have h1 := ih (env.set id .absent) (fun f hf => hu f (by simp [hf]))
        (fun i hi => by
          have : i ≠ id := by
            rintro rfl
            exact hu (.maybe i k p) (by simp) hi
          simp [Env.set, this, ha i hi])
        (fun f hf => hp f (by simp [hf]))
      have h2 : (fieldStep cfg env (.maybe id k p)).runOn S s1 = (.done (.ok .absent), s1) := by
        simp only [fieldStep, readField, hev']
        rfl
      rw [readFields_cons, RdE.runOn_andThen, h2]
      simp only [Field.id]
      rw [RdE.runOn_andThen, h1]
      rfl
  rw [key post _ (unique_disjoint [] _ _ hwf.2.1) (fun _ _ => rfl) hpost]
  rfl

/-- Version 1: a version and a number. Version 2 appends an optional guarded by the
version. -/
def version1 : List Field := [.plain "version" (.num u8 1) .none, .plain "n" (.num u16 2) .none]

def version2 : List Field := [.maybe "extra" (.num u32 4) ⟨["version"], fun vs => vs == [.int 2]⟩]

example (rest : List Byte) : (structCast be64 (version1 ++ version2)).runOn listIn ([1, 0, 5] ++ rest) =
    (.done (.ok [.int 1, .int 5, .absent]), rest) :=
  C74_optional_extension be64 version1 version2 (by decide +kernel) listIn ([1, 0, 5] ++ rest) rest
    [.int 1, .int 5]
    ((read_iff be64 version1 (by decide +kernel) ([1, 0, 5] ++ rest) rest _).2
      ⟨by decide +kernel, rfl⟩)
    (by
      intro f hf
      simp only [version2, List.mem_singleton] at hf
      subst hf
      exact ⟨_, _, _, rfl, by decide +kernel, rfl⟩)

/-- Without a guard the appended field makes old data unreadable. -/
example (vs : List Val) (rest : List Byte) :
    (structCast be64 (version1 ++ [.plain "extra" (.num u32 4) .none])).run [1, 0, 5] ≠
      (.done (.ok vs), rest) :=
  C74_old_data_rejected be64 version1 _ (by decide +kernel) (by decide +kernel) [1, 0, 5]
    [.int 1, .int 5] rfl vs rest

end S2S.Props
