import Verif.Lemmas.PartSent
import Verif.Props.Part
import Verif.Props.Sent
import Verif.Props.Unsent
import Verif.Props.Platform
/-
C159: parts of a struct written on their own, for every schema.
-/
namespace S2S.Props
open Spec Demo

/-- C159, what is sent: a struct is sent. With something else at a place of it, the struct sent is the
same but for what is sent of that alone; it is sent exactly if that is sent alone and the constraints
on the way hold of it as it is held. -/
theorem C159_sent (cfg : Cfg) {fs gs : List Field} (hwf : WellFormed fs) {top : Option String}
    {plug : List Val → List Val} {cs : List Val → List (Constraint × Val)} (h : Place fs gs top plug cs)
    (ps us : List Val) (hv : Typed cfg fs (plug ps)) (hs : Sent cfg fs (plug ps) us) :
    ∃ plug₀ cs₀, Place fs gs top plug₀ cs₀ ∧ ∀ qs ws, Sent cfg fs (plug qs) ws ↔
      (∃ qs', ws = plug₀ qs' ∧ Sent cfg gs qs qs') ∧ ∀ x ∈ cs qs, Holds x.1 x.2 := by
  obtain ⟨plug₀, cs₀, _, _, h1, _, h2, _⟩ := place_sent h (wellFormed_everywhere hwf) hv hs
  exact ⟨plug₀, cs₀, h1, h2⟩

/-- C159, the bytes: a struct was written. With something else at a place of it, the write succeeds
exactly if a write of that alone does and the constraints on the way hold of it as it is held; the bytes
are the same, but at the place those of the write alone. If the write alone fails and the constraints
hold, the write of the whole fails for the same reason at the outermost field, after the same bytes. -/
theorem C159_write (cfg : Cfg) {fs gs : List Field} (hwf : WellFormed fs)
    (hc : Everywhere (TypedConsts cfg) fs) {top : Option String} {plug : List Val → List Val}
    {cs : List Val → List (Constraint × Val)} (h : Place fs gs top plug cs) (ps : List Val)
    (hv : Typed cfg fs (plug ps)) (p : List Byte)
    (hw : (streamCast cfg fs (plug ps)).run = (.done (.ok ()), p)) :
    ∃ l m r, p = l ++ m ++ r ∧ (streamCast cfg gs ps).run = (.done (.ok ()), m) ∧
      ∀ qs, Typed cfg gs qs →
        (∀ p', (streamCast cfg fs (plug qs)).run = (.done (.ok ()), p') ↔
          ∃ q, (streamCast cfg gs qs).run = (.done (.ok ()), q) ∧ p' = l ++ q ++ r ∧
            ∀ x ∈ cs qs, Holds x.1 x.2) ∧
        ∀ e id q, (streamCast cfg gs qs).run = (.done (.error ⟨e, id⟩), q) →
          (∀ x ∈ cs qs, Holds x.1 x.2) →
          (streamCast cfg fs (plug qs)).run = (.done (.error ⟨e, top.getD id⟩), l ++ q) := by
  have hwf' := wellFormed_everywhere hwf
  have hwg : WellFormed gs := (place_every h hwf').1
  have hcg : Everywhere (TypedConsts cfg) gs := place_every h hc
  obtain ⟨us, hs, rfl⟩ := (C115_sends cfg fs hwf hc _ hv p).1 hw
  obtain ⟨plug₀, cs₀, l, r, h1, h2, h3, h4⟩ := place_sent h hwf' hv hs
  obtain ⟨⟨ps', rfl, hps⟩, -⟩ := (h3 _ _).1 hs
  have htp : ∀ qs, Typed cfg fs (plug qs) ↔ Typed cfg gs qs := place_typed h hv
  refine ⟨l, wire cfg gs ps', r, h2 _, (C115_sends cfg gs hwg hcg _ ((htp ps).1 hv) _).2 ⟨_, hps, rfl⟩,
    fun qs hq => ⟨fun p' => ?_, fun e id q he hx => ?_⟩⟩
  · rw [C115_sends cfg fs hwf hc _ ((htp qs).2 hq)]
    constructor
    · rintro ⟨us', hs', rfl⟩
      obtain ⟨⟨qs', rfl, hqs⟩, hx⟩ := (h3 _ _).1 hs'
      exact ⟨_, (C115_sends cfg gs hwg hcg _ hq _).2 ⟨_, hqs, rfl⟩, h2 _, hx⟩
    · rintro ⟨q, hq', rfl, hx⟩
      obtain ⟨qs', hqs, rfl⟩ := (C115_sends cfg gs hwg hcg _ hq _).1 hq'
      exact ⟨_, (h3 _ _).2 ⟨⟨qs', rfl, hqs⟩, hx⟩, (h2 _).symm⟩
  · rw [C119_unsent_iff cfg gs hwg hcg _ hq] at he
    exact (C119_unsent_iff cfg fs hwf hc _ ((htp qs).2 hq) _ _ _).2 (h4 qs e id q he hx)

/-- C159, back again: if what was sent before is valid, the bytes of the struct with something else at
the place are read back as what was sent exactly if what was sent of that is valid alone and the
constraints on the way hold of it as it was sent. -/
theorem C159_back (cfg : Cfg) {fs gs : List Field} (hwf : WellFormed fs)
    (hc : Everywhere (TypedConsts cfg) fs) {top : Option String} {plug : List Val → List Val}
    {cs : List Val → List (Constraint × Val)} (h : Place fs gs top plug cs) (ps us : List Val)
    (hv : Typed cfg fs (plug ps)) (hs : Sent cfg fs (plug ps) us) (hus : Valid cfg fs us) :
    ∃ plug₀ cs₀, Place fs gs top plug₀ cs₀ ∧ ∀ qs, Typed cfg gs qs → ∀ p,
      (streamCast cfg fs (plug qs)).run = (.done (.ok ()), p) →
      ∃ qs', Sent cfg gs qs qs' ∧ ∀ rest,
        (structCast cfg fs).run (p ++ rest) = (.done (.ok (plug₀ qs')), rest) ↔
          Valid cfg gs qs' ∧ ∀ x ∈ cs₀ qs', Holds x.1 x.2 := by
  have hwf' := wellFormed_everywhere hwf
  obtain ⟨plug₀, cs₀, h1, h2⟩ := C159_sent cfg hwf h ps us hv hs
  obtain ⟨⟨ps', rfl, -⟩, -⟩ := (h2 _ _).1 hs
  refine ⟨plug₀, cs₀, h1, fun qs hq p hw => ?_⟩
  obtain ⟨ws, hws, rfl⟩ := (C115_sends cfg fs hwf hc _ ((place_typed h hv qs).2 hq) p).1 hw
  obtain ⟨⟨qs', rfl, hqs⟩, -⟩ := (h2 _ _).1 hws
  refine ⟨qs', hqs, fun rest => ?_⟩
  rw [read_iff cfg fs hwf, place_valid cfg h1 hwf' hus]
  exact and_iff_left rfl

/-! ### Examples -/

/-- What was written of two entries. -/
theorem dir_written : (streamCast be64 (dirList notEmpty) (dirWith [.int 0, .seq [.int 66, .int 67]])).run =
    (.done (.ok ()), dirBytes) := by rfl

/-- The constraint on the name sees the length as the struct holds it. With a length of five and no
letters it holds, and what is written is the name without letters, between the bytes there were. -/
example : ∃ l m r, dirBytes = l ++ m ++ r ∧ m = [2, 66, 67] ∧
    (streamCast be64 (dirList notEmpty) (dirWith [.int 5, .seq []])).run = (.done (.ok ()), l ++ [0] ++ r) ∧
    ∀ p, (streamCast be64 (dirList notEmpty) (dirWith [.int 0, .seq []])).run ≠ (.done (.ok ()), p) := by
  obtain ⟨l, m, r, h1, h2, h3⟩ := C159_write be64 (by decide) (by decide +kernel) (dirPlace notEmpty)
    [.int 0, .seq [.int 66, .int 67]] (by decide +kernel) _ dir_written
  have hm : m = [2, 66, 67] := by
    have : (streamCast be64 nameList [.int 0, .seq [.int 66, .int 67]]).run = (.done (.ok ()), [2, 66, 67]) := by rfl
    rw [this] at h2
    cases h2
    rfl
  refine ⟨l, m, r, h1, hm, ((h3 [.int 5, .seq []] (by decide +kernel)).1 _).2 ⟨[0], by rfl, rfl, ?_⟩, fun p hp => ?_⟩
  · intro p hp
    simp only [dirChecks, List.nil_append, List.singleton_append, List.mem_cons, List.not_mem_nil, or_false] at hp
    rcases hp with rfl | rfl
    · decide +kernel
    · trivial
  · obtain ⟨_, _, _, hx⟩ := ((h3 [.int 0, .seq []] (by decide +kernel)).1 p).1 hp
    exact absurd (hx (notEmpty, .seq [.int 0, .seq []]) (by simp [dirChecks])) (by decide +kernel)

/-- A name of 300 letters fails in its length alone, and in the entries of the directory; what is before
it is written. -/
example : ∃ l r, dirBytes = l ++ [2, 66, 67] ++ r ∧
    (streamCast be64 (dirList .none) (dirWith [.int 0, .seq (List.replicate 300 (.int 65))])).run =
      (.done (.error ⟨.validationFailure, "es"⟩), l) := by
  obtain ⟨l, m, r, h1, h2, h3⟩ := C159_write be64 (by decide) (by decide +kernel) (dirPlace .none)
    [.int 0, .seq [.int 66, .int 67]] (by decide +kernel) dirBytes (by rfl)
  have hm : m = [2, 66, 67] := by
    have : (streamCast be64 nameList [.int 0, .seq [.int 66, .int 67]]).run = (.done (.ok ()), [2, 66, 67]) := by rfl
    rw [this] at h2
    cases h2
    rfl
  subst hm
  refine ⟨l, r, h1, ?_⟩
  have := (h3 [.int 0, .seq (List.replicate 300 (.int 65))] (by decide +kernel)).2 .validationFailure "len" []
    (by decide +kernel) (by
      intro p hp
      simp only [dirChecks, List.nil_append, List.singleton_append, List.mem_cons, List.not_mem_nil, or_false] at hp
      rcases hp with rfl | rfl <;> trivial)
  rw [List.append_nil] at this
  exact this

/-- Two bytes of a type of four, in a record. -/
def boxed : List Field := [.plain "r" (.record [.plain "x" (.num u32 2) .none]) .none]

theorem boxedPlace : Place boxed [.plain "x" (.num u32 2) .none] (some "r") (fun ps => [.seq ps])
    fun ps => [] ++ [(.none, .seq ps)] :=
  Place.inside [] [] [] [] rfl (by simp only [Field.id]; decide) (InField.plain "r" .none (InKind.record _)) (Place.whole _)

theorem boxed_sent (x : Int) : Sent le64 boxed [.seq [.int x]] [.seq [.int x]] := by
  have hx : SentKind le64 [.plain "x" (.num u32 2) .none] [.int x] "x" .none (.num u32 2) (.int x) (.int x) := by
    simp only [SentKind]
    refine ⟨by decide, x, rfl, fun f v m hm ha => ?_, by rw [if_neg (by decide)]; trivial⟩
    simp only [List.zip_cons_cons, List.zip_nil_right, List.mem_singleton, Prod.mk.injEq] at hm
    obtain ⟨rfl, -⟩ := hm
    cases ha
  have hr : SentFields le64 [.plain "x" (.num u32 2) .none] [.int x] [.plain "x" (.num u32 2) .none] [.int x] [.int x] := by
    simp only [SentFields]
    refine ⟨_, _, _, _, rfl, rfl, ?_, rfl, rfl⟩
    simp only [SentField]
    rw [if_neg (by decide)]
    exact ⟨rfl, hx⟩
  unfold Sent boxed
  simp only [SentFields]
  refine ⟨_, _, _, _, rfl, rfl, ?_, rfl, rfl⟩
  simp only [SentField]
  rw [if_neg (by decide)]
  exact ⟨rfl, by simp only [SentKind]; exact ⟨_, _, rfl, rfl, hr⟩⟩

/-- What is written of numbers with more than two bytes is not read back. -/
example : ∃ plug₀ cs₀, Place boxed [.plain "x" (.num u32 2) .none] (some "r") plug₀ cs₀ ∧
    ∀ x : Int, u32.InRange x → ∀ p, (streamCast le64 boxed [.seq [.int x]]).run = (.done (.ok ()), p) →
      ∃ qs', Sent le64 [.plain "x" (.num u32 2) .none] [.int x] qs' ∧ ∀ rest,
        (structCast le64 boxed).run (p ++ rest) = (.done (.ok (plug₀ qs')), rest) ↔
          Valid le64 [.plain "x" (.num u32 2) .none] qs' ∧ ∀ x ∈ cs₀ qs', Holds x.1 x.2 := by
  obtain ⟨plug₀, cs₀, h1, h2⟩ := C159_back le64 (by decide) (by decide +kernel) boxedPlace [.int 7] _
    (by decide +kernel) (boxed_sent 7) ((read_iff le64 boxed (by decide) [7, 0] [] _).1 (by rfl)).1
  exact ⟨plug₀, cs₀, h1, fun x hx => h2 [.int x] (by simpa [Typed, TypedFields, TypedField, TypedKind] using hx)⟩

/-- The name without letters is not read back: the constraint on the way does not hold of it as it was
sent. -/
example : (structCast be64 (dirList notEmpty)).run [2, 1, 1, 65, 7, 0, 0xbe, 0xef] =
    (.done (.error ⟨.validationFailure, "es"⟩), [0xbe, 0xef]) := by rfl

/-! ### Why C132 asks for schemas that can be rewritten -/

/-- A length of eight bytes and its bytes, and a record nobody looks at. -/
def wideBeside : List Field := wideLen ++ [.plain "r" (.record [.plain "x" (.num u8 1) .none]) .none]

/-- C132 fails for schemas that are only self-consistent: where `std::size_t` has four bytes a length of
2^32 + 1 is read as 1 and written again as 1, so bytes change that are not those of the record. -/
theorem C132_fails_wide : ∃ (plug : List Val → List Val) (cs : List Val → List (Constraint × Val)),
    SelfConsistent le32 wideBeside ∧ Place wideBeside [.plain "x" (.num u8 1) .none] (some "r") plug cs ∧
    (structCast le32 wideBeside).run [1, 0, 0, 0, 1, 0, 0, 0, 7, 8] = (.done (.ok (plug [.int 8])), []) ∧
    Storable le32 [.plain "x" (.num u8 1) .none] [.int 9] ∧
    (streamCast le32 wideBeside (plug [.int 9])).run = (.done (.ok ()), [1, 0, 0, 0, 0, 0, 0, 0, 7, 9]) :=
  ⟨_, _, by decide +kernel,
    Place.inside wideLen [] [.int 4294967297, .seq [.int 7]] [] rfl (by simp only [Field.id]; decide)
      (InField.plain "r" .none (InKind.record _)) (Place.whole _),
    by decide +kernel, by decide +kernel, by decide +kernel⟩

theorem inField_inj {f : Field} {gs : List Field} {plug : List Val → Val} {cs : List Val → List (Constraint × Val)}
    (h : InField f gs plug cs) {ps qs : List Val} (e : plug ps = plug qs) : ps = qs := by
  have hk : ∀ {k : Kind} {gs : List Field} {plug : List Val → Val}, InKind k gs plug → ∀ {ps qs : List Val},
      plug ps = plug qs → ps = qs := by
    intro k gs plug h ps qs e
    cases h <;> simpa using e
  cases h with
  | plain _ _ h => exact hk h e
  | maybe _ _ h => exact hk h (by simpa using e)
  | union _ _ _ _ h => exact hk h (by simpa using e)

/-- At a place stands one thing. -/
theorem place_inj {fs gs : List Field} {top : Option String} {plug : List Val → List Val}
    {cs : List Val → List (Constraint × Val)} (h : Place fs gs top plug cs) {ps qs : List Val}
    (e : plug ps = plug qs) : ps = qs := by
  induction h with
  | whole => exact e
  | inside pre post us ws hl hu hf _ ih =>
    simp only [List.append_cancel_left_eq, List.cons.injEq, and_true] at e
    exact ih (inField_inj hf e)

/-- What is sent of the whole is what is sent of the part, at a place of its own. -/
example : ∃ plug₀ cs₀, Place boxed [.plain "x" (.num u32 2) .none] (some "r") plug₀ cs₀ ∧
    ∀ x y : Int, Sent le64 boxed [.seq [.int x]] (plug₀ [.int y]) →
      Sent le64 [.plain "x" (.num u32 2) .none] [.int x] [.int y] := by
  obtain ⟨plug₀, cs₀, h1, h2⟩ := C159_sent le64 (fs := boxed) (by decide) boxedPlace [.int 1] [.seq [.int 1]]
    (by decide +kernel) (boxed_sent 1)
  refine ⟨plug₀, cs₀, h1, fun x y hs => ?_⟩
  obtain ⟨⟨qs, e, hq⟩, -⟩ := (h2 [.int x] _).1 hs
  rwa [show [Val.int y] = qs from place_inj h1 e]

end S2S.Props
