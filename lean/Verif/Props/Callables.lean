import Verif.Lemmas.Place
import Verif.Lemmas.Wellformed
import Verif.Lemmas.WriteFields
import Verif.Props.RoundTrip
/-
C41, C68: what the callables of a schema see while writing is what they see while reading.
-/
namespace S2S.Props
open Spec Demo

/-- What the reader's struct holds when it comes to the field after `pre`, if the fields it
has read have the values `vs`. -/
theorem C68_reader (cfg : Cfg) (pre : List Field) (g : Field) (post : List Field) (env : Env) :
    readFields cfg env (pre ++ g :: post) = (readFields cfg env pre).andThen fun vs =>
      (readFields cfg (setAll env pre vs) (g :: post)).andThen fun ws => RdE.ok (vs ++ ws) :=
  readFields_append cfg pre (g :: post) env

example (env : Env) : readFields be64 env packet =
    (readFields be64 env (packet.take 3)).andThen fun vs =>
      (readFields be64 (setAll env (packet.take 3) vs) (packet.drop 3)).andThen fun ws => RdE.ok (vs ++ ws) :=
  C68_reader be64 (packet.take 3) _ (packet.drop 4) env

/-- C68. For a self-consistent schema: a struct is written and the bytes, whatever follows
them, are read. Take any list of fields of the schema, at any depth, any field `g` of it and
any sibling a callable of `g` reads. What the struct being written holds there (`as`, with
which `g` is written) is what the struct being read holds there when the reader comes to
`g`, having read the fields before it; and it is a value. -/
theorem C68_same_siblings (cfg : Cfg) (fs : List Field) (hsc : SelfConsistent cfg fs) (vs : List Val)
    (hst : Storable cfg fs vs) (p : List Byte)
    (h : (streamCast cfg fs vs).run = (.done (.ok ()), p)) (rest : List Byte) (ws : List Val)
    (tail : List Byte) (hr : (structCast cfg fs).run (p ++ rest) = (.done (.ok ws), tail))
    (pre : List Field) (g : Field) (post : List Field) (as bs : List Val)
    (hp : SamePlace fs vs ws (pre ++ g :: post) as bs) (id : String) (hid : id ∈ callableReads g) :
    ∃ v, WCtx.env ⟨pre ++ g :: post, as⟩ id = some v ∧
      setAll (dfltEnv (pre ++ g :: post)) pre (bs.take pre.length) id = some v := by
  have hws : ws = settle fs vs := by
    have := C45_round_trip cfg fs hsc vs hst p h rest
    rw [hr] at this
    cases this
    rfl
  have hwf := (wellFormed_iff fs).1 hsc.1
  have hall : Everywhere (fun fs => (Distinct fs ∧ Backward fs) ∧
      (Resolves fs ∧ GoodLabels cfg fs ∧ GoodConsts cfg fs ∧ WideSlots cfg fs ∧ NoStale fs)) fs :=
    Everywhere.and.2 ⟨Everywhere.and.2 hwf.2, hsc.2⟩
  obtain ⟨rfl, hev⟩ := samePlace_settle hp hws (fun _ h => ⟨h.1.1, h.2.1⟩) hall
  have hst' := samePlace_storable hp (Everywhere.mono (fun _ h => ⟨h.1.1, h.2.1⟩) hall) hst
  obtain ⟨⟨⟨hd, hb⟩, hres, -, -, -, hns⟩, -⟩ := hev
  have hlen : as.length = (pre ++ g :: post).length := storableFields_length hst'
  have hmem : id ∈ pre.map Field.id := by
    obtain ⟨j, f, hj, hf, rfl⟩ := hb pre.length g
      (by rw [At, List.getElem?_append_right (Nat.le_refl _)]; simp) id (callableReads_deps hid)
    rw [At, List.getElem?_append_left hj] at hf
    exact List.mem_map.2 ⟨f, List.mem_of_getElem? hf, rfl⟩
  have henv : envOf (pre ++ g :: post) as id =
      envOf (pre ++ g :: post) (settle (pre ++ g :: post) as) id :=
    envOf_settle _ _ _ _ id fun f hf hi v =>
      settle_cleanField ((hns g (by simp)).1 id hid f hf hi) as v
  obtain ⟨v, hv⟩ := envOf_some (fs := pre ++ g :: post) (vs := as) hlen.symm
    (i := id) (by rw [List.map_append]; exact List.mem_append_left _ hmem)
  refine ⟨v, hv, ?_⟩
  have hl2 : pre.length ≤ (settle (pre ++ g :: post) as).length := by
    rw [settle, settleFields_length, hlen]; simp
  rw [setAll_take, setAll_eq_envOf _ pre (g :: post) _ id hd hl2 hmem, ← henv]
  exact hv

/-- C68, results: a predicate or computation that reads nothing but those siblings has the
same result. -/
theorem C68_same_results (cfg : Cfg) (fs : List Field) (hsc : SelfConsistent cfg fs) (vs : List Val)
    (hst : Storable cfg fs vs) (p : List Byte)
    (h : (streamCast cfg fs vs).run = (.done (.ok ()), p)) (rest : List Byte) (ws : List Val)
    (tail : List Byte) (hr : (structCast cfg fs).run (p ++ rest) = (.done (.ok ws), tail))
    (pre : List Field) (g : Field) (post : List Field) (as bs : List Val)
    (hp : SamePlace fs vs ws (pre ++ g :: post) as bs) :
    (∀ q : Pred, (∀ id ∈ q.ids, id ∈ callableReads g) →
      q.eval (setAll (dfltEnv (pre ++ g :: post)) pre (bs.take pre.length)) =
        q.eval (WCtx.env ⟨pre ++ g :: post, as⟩)) ∧
    (∀ q : Calc, (∀ id ∈ q.ids, id ∈ callableReads g) →
      q.eval (setAll (dfltEnv (pre ++ g :: post)) pre (bs.take pre.length)) =
        q.eval (WCtx.env ⟨pre ++ g :: post, as⟩)) := by
  have key : ∀ id ∈ callableReads g,
      setAll (dfltEnv (pre ++ g :: post)) pre (bs.take pre.length) id =
        WCtx.env ⟨pre ++ g :: post, as⟩ id := by
    intro id hid
    obtain ⟨v, h1, h2⟩ := C68_same_siblings cfg fs hsc vs hst p h rest ws tail hr pre g post as bs hp id hid
    rw [h1, h2]
  exact ⟨fun q hq => Pred.eval_congr fun i hi => key i (hq i hi),
    fun q hq => Calc.eval_congr fun i hi => key i (hq i hi)⟩

/-- The record inside the union of the packet: its optional reads a sibling of the record. -/
example : ∃ v, envOf inner [.int (-1), .present (.int 0x0102)] "a" = some v ∧
    setAll (dfltEnv inner) (inner.take 1) [.int (-1)] "a" = some v :=
  C68_same_siblings be64 packet (by decide +kernel) packetVal (by decide +kernel) packetBytes (by rfl) []
    packetParsed [] (by rfl) (inner.take 1)
    (.maybe "b" (.num u16 2) ⟨["a"], fun vs => vs == [.int (-1)]⟩) [] [.int (-1), .present (.int 0x0102)]
    [.int (-1), .present (.int 0x0102)]
    (.deeper (i := 4) rfl rfl rfl (.union (i := 1) rfl .record) .here) "a" (by decide)

/-! ## C41 -/

/-- C41. Predicates, ladders, computed discriminants and lengths see on write what the reader
will see, under the conditions of C68. Missing: callables over siblings the library fills
(derived or constant), schemas that are otherwise not self-consistent, and values that do
not fit their declared widths. For the first and the last the statement is false, see
below. -/
theorem C41_same_siblings_partial (cfg : Cfg) (fs : List Field) (hsc : SelfConsistent cfg fs) (vs : List Val)
    (hst : Storable cfg fs vs) (p : List Byte)
    (h : (streamCast cfg fs vs).run = (.done (.ok ()), p)) (rest : List Byte) (ws : List Val)
    (tail : List Byte) (hr : (structCast cfg fs).run (p ++ rest) = (.done (.ok ws), tail))
    (pre : List Field) (g : Field) (post : List Field) (as bs : List Val)
    (hp : SamePlace fs vs ws (pre ++ g :: post) as bs) (id : String) (hid : id ∈ callableReads g) :
    ∃ v, WCtx.env ⟨pre ++ g :: post, as⟩ id = some v ∧
      setAll (dfltEnv (pre ++ g :: post)) pre (bs.take pre.length) id = some v :=
  C68_same_siblings cfg fs hsc vs hst p h rest ws tail hr pre g post as bs hp id hid

example : ∃ v, WCtx.env ⟨inner, [.int (-1), .present (.int 0x0102)]⟩ "a" = some v ∧
    setAll (dfltEnv inner) (inner.take 1) [.int (-1)] "a" = some v :=
  C41_same_siblings_partial be64 packet (by decide +kernel) packetVal (by decide +kernel) packetBytes (by rfl) []
    packetParsed [] (by rfl) (inner.take 1)
    (.maybe "b" (.num u16 2) ⟨["a"], fun vs => vs == [.int (-1)]⟩) [] [.int (-1), .present (.int 0x0102)]
    [.int (-1), .present (.int 0x0102)]
    (.deeper (i := 4) rfl rfl rfl (.union (i := 1) rfl .record) .here) "a" (by decide)

/-- A length slot, its container, and an optional that looks at the length. -/
def peekSchema : List Field :=
  [.plain "n" (.num u8 1) .none,
   .plain "data" (.vec (.scalar u8) (.fromField "n") (some 8)) .none,
   .maybe "x" (.num u8 1) ⟨["n"], fun vs => vs == [.int 0]⟩]

/-- C41 fails for a constant sibling: the predicate sees the stored 0, the reader 1. -/
theorem C41_fails_constant :
    WellFormed staleSchema ∧ Storable le64 staleSchema [.int 0, .absent] ∧
    (streamCast le64 staleSchema [.int 0, .absent]).run = (.done (.ok ()), [1]) ∧
    WCtx.env ⟨staleSchema, [.int 0, .absent]⟩ "ver" = some (.int 0) ∧
    (structCast le64 (staleSchema.take 1)).run [1] = (.done (.ok [.int 1]), []) :=
  ⟨by decide, by decide +kernel, by rfl, by rfl, by rfl⟩

/-- C41 fails for a derived sibling, and both directions succeed: two elements are written,
the predicate saw a stored length 0 and had `x` written; the reader sees 2, takes `x` for
absent and leaves its byte. -/
theorem C41_fails_derived :
    WellFormed peekSchema ∧ Storable le64 peekSchema [.int 0, .seq [.int 5, .int 6], .present (.int 9)] ∧
    (streamCast le64 peekSchema [.int 0, .seq [.int 5, .int 6], .present (.int 9)]).run =
      (.done (.ok ()), [2, 5, 6, 9]) ∧
    (structCast le64 peekSchema).run [2, 5, 6, 9] =
      (.done (.ok [.int 2, .seq [.int 5, .int 6], .absent]), [9]) ∧
    WCtx.env ⟨peekSchema, [.int 0, .seq [.int 5, .int 6], .present (.int 9)]⟩ "n" = some (.int 0) ∧
    setAll (dfltEnv peekSchema) (peekSchema.take 2) [.int 2, .seq [.int 5, .int 6]] "n" = some (.int 2) :=
  ⟨by decide, by decide +kernel, by rfl, by rfl, by rfl, by rfl⟩

/-- One byte of a two-byte number, and an optional that looks at it. -/
def clipSchema : List Field :=
  [.plain "v" (.num u16 1) .none,
   .maybe "x" (.num u8 1) ⟨["v"], fun vs => vs == [.int 300]⟩]

/-- C41 fails for a value wider than its field, although the schema is self-consistent: the
predicate saw 300, the reader sees 44. -/
theorem C41_fails_wide_value :
    SelfConsistent le64 clipSchema ∧
    (streamCast le64 clipSchema [.int 300, .present (.int 9)]).run = (.done (.ok ()), [44, 9]) ∧
    (structCast le64 clipSchema).run [44, 9] = (.done (.ok [.int 44, .absent]), [9]) ∧
    WCtx.env ⟨clipSchema, [.int 300, .present (.int 9)]⟩ "v" = some (.int 300) ∧
    setAll (dfltEnv clipSchema) (clipSchema.take 1) [.int 44] "v" = some (.int 44) :=
  ⟨by decide +kernel, by rfl, by rfl, by rfl, by rfl⟩

end S2S.Props
