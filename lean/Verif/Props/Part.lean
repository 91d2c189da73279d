import Verif.Lemmas.Part
import Verif.Props.Edit
/-
C132: parts of a struct, however deep.
-/
namespace S2S.Props
open Spec Demo

/-- A name behind its length. -/
def nameList : List Field :=
  [.plain "len" (.num u8 1) .none, .plain "name" (.vec (.scalar u8) (.fromField "len") (some 200)) .none]

/-- At least one letter. -/
def notEmpty : Constraint := .user fun v => v != .seq [.int 0, .seq []]

/-- Entries behind their number, each with a name the constraint holds of, and a trailer. -/
def dirList (c : Constraint) : List Field :=
  [.plain "count" (.num u8 1) .none,
   .plain "es" (.vecRec [.plain "kind" (.num u8 1) .none,
     .plain "who" (.record nameList) c]
       (.fromField "count") (some 100) 32) .none,
   .plain "crc" (.num u16 2) .none]

/-- Two entries, the name of the second left open. -/
def dirWith (ps : List Val) : List Val :=
  [.int 2] ++ .seq ([.seq [.int 1, .seq [.int 1, .seq [.int 65]]]] ++ .seq ([.int 7] ++ .seq ps :: []) :: []) ::
    [.int 0xbeef]

/-- The constraints on the way: that of the record, that of the vector. -/
def dirChecks (c : Constraint) (ps : List Val) : List (Constraint × Val) :=
  ([] ++ [(c, .seq ps)]) ++
    [(.none, .seq ([.seq [.int 1, .seq [.int 1, .seq [.int 65]]]] ++ .seq ([.int 7] ++ .seq ps :: []) :: []))]

theorem dirPlace (c : Constraint) : Place (dirList c) nameList (some "es") dirWith (dirChecks c) :=
  Place.inside [.plain "count" (.num u8 1) .none] [.plain "crc" (.num u16 2) .none] [.int 2] [.int 0xbeef]
    rfl (by simp only [Field.id]; decide) (InField.plain "es" .none (InKind.vector _ _ _ _ _ []))
    (Place.inside [.plain "kind" (.num u8 1) .none] [] [.int 7] [] rfl (by simp only [Field.id]; decide)
      (InField.plain "who" _ (InKind.record nameList)) (Place.whole nameList))

/-- The bytes read: the name of the second entry is `BC`. -/
def dirBytes : List Byte := [2, 1, 1, 65, 7, 2, 66, 67, 0xbe, 0xef]

theorem dir_read (c : Constraint) (hc : c = .none ∨ c = notEmpty) :
    (structCast be64 (dirList c)).run (dirBytes ++ [0xaa]) =
    (.done (.ok (dirWith [.int 2, .seq [.int 66, .int 67]])), [0xaa]) := by
  rcases hc with rfl | rfl <;> rfl

/-- C132, where it lies: what stands at a place takes one stretch of the encoding, the rest of
which is always the same. -/
theorem C132_bytes (cfg : Cfg) {fs gs : List Field} {top : Option String} {plug : List Val → List Val}
    {cs : List Val → List (Constraint × Val)} (h : Place fs gs top plug cs) :
    ∃ l r, ∀ ps, wire cfg fs (plug ps) = l ++ wire cfg gs ps ++ r :=
  place_wire cfg h

/-- Two levels down, in an element of a vector: the encodings of two directories are the same
around the name. -/
example : ∃ l r, dirBytes = l ++ [2, 66, 67] ++ r ∧
    wire be64 (dirList notEmpty) (dirWith [.int 1, .seq [.int 90]]) = l ++ [1, 90] ++ r := by
  obtain ⟨l, r, h⟩ := C132_bytes be64 (dirPlace notEmpty)
  exact ⟨l, r, h [.int 2, .seq [.int 66, .int 67]], h [.int 1, .seq [.int 90]]⟩

/-- C132, validity: put into a valid struct, something makes it a valid struct exactly if it is
itself one of its list and the constraints on the way hold. -/
theorem C132_valid (cfg : Cfg) {fs gs : List Field} (hwf : WellFormed fs) {top : Option String}
    {plug : List Val → List Val} {cs : List Val → List (Constraint × Val)} (h : Place fs gs top plug cs)
    (ps : List Val) (hv : Valid cfg fs (plug ps)) (qs : List Val) :
    Valid cfg fs (plug qs) ↔ Valid cfg gs qs ∧ ∀ p ∈ cs qs, Holds p.1 p.2 :=
  place_valid cfg h (wellFormed_everywhere hwf) hv qs

/-- An empty name is a name, but the constraint on the record rejects it. -/
example : Valid be64 nameList [.int 0, .seq []] ∧ ¬ Valid be64 (dirList notEmpty) (dirWith [.int 0, .seq []]) := by
  have h : Valid be64 nameList [.int 0, .seq []] :=
    ((read_iff be64 nameList (by decide) [0] [] [.int 0, .seq []]).1 (by rfl)).1
  refine ⟨h, fun hv => ?_⟩
  have := ((C132_valid be64 (by decide) (dirPlace notEmpty) [.int 2, .seq [.int 66, .int 67]]
    ((read_iff be64 (dirList notEmpty) (by decide) _ _ _).1 (dir_read _ (.inr rfl))).1 _).1 hv).2
    (notEmpty, .seq [.int 0, .seq []]) (by simp [dirChecks])
  exact absurd this (by decide +kernel)

/-- What a sibling looks at is no place: whether the optional is there is decided by the record,
so a valid record in place of a valid one need not make a valid struct, though it holds no
constraint. -/
theorem C132_fails_seen : ∃ (gs post : List Field) (us ws ps qs : List Val),
    WellFormed (.plain "r" (.record gs) .none :: post) ∧
    Valid be64 (.plain "r" (.record gs) .none :: post) (us ++ .seq ps :: ws) ∧ Valid be64 gs qs ∧
    ¬ Valid be64 (.plain "r" (.record gs) .none :: post) (us ++ .seq qs :: ws) := by
  refine ⟨[.plain "x" (.num u8 1) .none],
    [.maybe "o" (.num u8 1) ⟨["r"], fun vs => vs == [.seq [.int 1]]⟩], [], [.absent], [.int 0], [.int 1],
    by decide, ((read_iff be64 _ (by decide) [0] [] _).1 (by rfl)).1,
    ((read_iff be64 _ (by decide) [1] [] [.int 1]).1 (by rfl)).1, fun h => ?_⟩
  have h1 := (read_iff be64 _ (by decide) [1] [] _).2 ⟨h, rfl⟩
  exact absurd h1 (by intro h; cases h)

/-- C132, reading: an input was read; from the place on other bytes `q` follow. If a read of the
list of the place alone delivers `qs` from them and leaves what followed before, then the read
of the whole delivers the struct with `qs` there, or fails with `validation_failure` if a
constraint on the way rejects it; if it fails alone, the read of the whole fails for the same
reason, at the outermost field on the way. -/
theorem C132_read (cfg : Cfg) {fs gs : List Field} (hwf : WellFormed fs) {top : Option String}
    {plug : List Val → List Val} {cs : List Val → List (Constraint × Val)} (h : Place fs gs top plug cs)
    (ps : List Val) (inp rest : List Byte)
    (hr : (structCast cfg fs).run inp = (.done (.ok (plug ps)), rest)) :
    ∃ l r, inp = l ++ wire cfg gs ps ++ r ++ rest ∧ ∀ q,
      (∀ qs tail, (structCast cfg gs).run q = (.done (.ok qs), r ++ tail) →
        ((∀ p ∈ cs qs, Holds p.1 p.2) →
          (structCast cfg fs).run (l ++ q) = (.done (.ok (plug qs)), tail)) ∧
        (∀ a c v b, cs qs = a ++ (c, v) :: b → (∀ p ∈ a, Holds p.1 p.2) → c.check v = .ok false →
          ∀ id ∈ top, ∃ rest', (structCast cfg fs).run (l ++ q) =
            (.done (.error ⟨.validationFailure, id⟩), rest'))) ∧
      ∀ e id rest', (structCast cfg gs).run q = (.done (.error ⟨e, id⟩), rest') →
        ∃ rest', (structCast cfg fs).run (l ++ q) = (.done (.error ⟨e, top.getD id⟩), rest') := by
  have hwf' := wellFormed_everywhere hwf
  have hg : WellFormed gs := (place_every h hwf').1
  obtain ⟨hv, rfl⟩ := (read_iff cfg fs hwf _ _ _).1 hr
  obtain ⟨l, r, h1, h2⟩ := place_refused cfg h hwf'
  obtain ⟨h3, h4⟩ := h2 ps hv
  refine ⟨l, r, by rw [h1], fun q => ⟨fun qs tail hq => ?_, fun e id rest' hq => ?_⟩⟩
  · obtain ⟨hqv, rfl⟩ := (read_iff cfg gs hg _ _ _).1 hq
    refine ⟨fun hc => ?_, fun a c v b hc ha hf id hid => ?_⟩
    · refine (read_iff cfg fs hwf _ _ _).2 ⟨(place_valid cfg h hwf' hv qs).2 ⟨hqv, hc⟩, ?_⟩
      rw [h1]
      simp only [List.append_assoc]
    · have := h4 qs hqv a c v b hc ha hf tail id
      rw [Option.mem_def.1 hid] at this
      simp only [List.append_assoc] at this
      exact (C118_refused_iff cfg fs hwf _ _ _).2 this
  · exact (C118_refused_iff cfg fs hwf _ _ _).2
      (h3 q e id ((C118_refused_iff cfg gs hg q e id).1 ⟨rest', hq⟩))

/-- Other bytes from the name on: a shorter name, no name, a name that is cut off. -/
example : ∃ l r, dirBytes ++ [0xaa] = l ++ [2, 66, 67] ++ r ++ [0xaa] ∧
    (r = [0xbe, 0xef] → (structCast be64 (dirList notEmpty)).run (l ++ [1, 90, 0xbe, 0xef, 3]) =
        (.done (.ok (dirWith [.int 1, .seq [.int 90]])), [3]) ∧
      ∃ rest, (structCast be64 (dirList notEmpty)).run (l ++ [0, 0xbe, 0xef, 3]) =
        (.done (.error ⟨.validationFailure, "es"⟩), rest)) ∧
    ∃ rest, (structCast be64 (dirList notEmpty)).run (l ++ [9, 90]) =
      (.done (.error ⟨.bufferExhaustion, "es"⟩), rest) := by
  obtain ⟨l, r, hi, h⟩ := C132_read be64 (by decide) (dirPlace notEmpty) [.int 2, .seq [.int 66, .int 67]] _ _ (dir_read _ (.inr rfl))
  refine ⟨l, r, hi, fun hr => ?_, (h [9, 90]).2 .bufferExhaustion "name" [90] (by rfl)⟩
  subst hr
  refine ⟨((h [1, 90, 0xbe, 0xef, 3]).1 [.int 1, .seq [.int 90]] [3] (by rfl)).1 ?_,
    ((h [0, 0xbe, 0xef, 3]).1 [.int 0, .seq []] [3] (by rfl)).2 [] _ _ _ rfl (by simp) (by rfl) "es" rfl⟩
  intro p hp
  simp only [dirChecks, List.nil_append, List.singleton_append, List.mem_cons, List.not_mem_nil, or_false] at hp
  rcases hp with rfl | rfl
  · decide +kernel
  · trivial

/-- C132, writing: something, slots filled or not, is put into a struct that was read. The write
of the whole succeeds exactly if a write of it alone does and the constraints on the way hold of
it, its slots filled; it emits the bytes that were read with those of the place replaced by what
the write alone emits. -/
theorem C132_write_partial (cfg : Cfg) {fs gs : List Field} (hsc : SelfConsistent cfg fs)
    (hrw : Rewritable cfg fs) {top : Option String} {plug : List Val → List Val}
    {cs : List Val → List (Constraint × Val)} (h : Place fs gs top plug cs) (ps : List Val)
    (inp rest : List Byte) (hr : (structCast cfg fs).run inp = (.done (.ok (plug ps)), rest)) :
    ∃ l r, inp = l ++ wire cfg gs ps ++ r ++ rest ∧ ∀ qs, Storable cfg gs qs → ∀ p,
      (streamCast cfg fs (plug qs)).run = (.done (.ok ()), p) ↔
        ∃ q, (streamCast cfg gs qs).run = (.done (.ok ()), q) ∧ p = l ++ q ++ r ∧
          ∀ x ∈ cs (settle gs qs), Holds x.1 x.2 := by
  have hwf' := wellFormed_everywhere hsc.1
  have hg : WellFormed gs := (place_every h hwf').1
  obtain ⟨hv, rfl⟩ := (read_iff cfg fs hsc.1 _ _ _).1 hr
  obtain ⟨l, r, h1⟩ := place_wire cfg h
  have hres : Everywhere (fun fs => Resolves fs ∧ uniqueFields [] fs = true) fs :=
    Everywhere.and.2 ⟨Everywhere.mono (fun _ h => h.1) hsc.2, Everywhere.mono (fun _ h => h.2.1) hwf'⟩
  refine ⟨l, r, by rw [h1], fun qs hst p => ?_⟩
  rw [C69_exactly_valid cfg fs hsc hrw _ (place_storable h hres (storable_of_fits hv.1) hst),
    place_settle h hres (settle_valid hsc hrw hv), place_valid cfg h hwf' hv, h1]
  have hscg : SelfConsistent cfg gs := ⟨hg, place_every h hsc.2⟩
  have hrwg : Rewritable cfg gs := ⟨hg, place_every h hrw.2⟩
  constructor
  · rintro ⟨⟨a, b⟩, rfl⟩
    exact ⟨_, (C69_exactly_valid cfg gs hscg hrwg qs hst _).2 ⟨a, rfl⟩, rfl, b⟩
  · rintro ⟨q, hq, rfl, b⟩
    obtain ⟨a, rfl⟩ := (C69_exactly_valid cfg gs hscg hrwg qs hst _).1 hq
    exact ⟨⟨a, b⟩, rfl⟩

/-- A name put in with its length left at zero: both lengths are filled. -/
example : ∃ l r, (streamCast be64 (dirList .none) (dirWith [.int 0, .seq [.int 68]])).run =
    (.done (.ok ()), l ++ [1, 68] ++ r) ∧ dirBytes = l ++ [2, 66, 67] ++ r := by
  obtain ⟨l, r, hi, h⟩ := C132_write_partial be64 (by decide +kernel) (rewritable_of_checked (by decide +kernel))
    (dirPlace .none) [.int 2, .seq [.int 66, .int 67]] _ _ (dir_read _ (.inl rfl))
  refine ⟨l, r, (h [.int 0, .seq [.int 68]] (by decide +kernel) _).2 ⟨[1, 68], by rfl, rfl, ?_⟩,
    List.append_cancel_right hi⟩
  intro p hp
  have hp : p ∈ dirChecks .none [.int 1, .seq [.int 68]] := hp
  simp only [dirChecks, List.nil_append, List.singleton_append, List.mem_cons, List.not_mem_nil, or_false] at hp
  rcases hp with rfl | rfl <;> trivial

end S2S.Props
