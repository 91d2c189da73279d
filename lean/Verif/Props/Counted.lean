import Verif.Lemmas.Counted
import Verif.Lemmas.Made
/-
C153: arrays of records that are given a length.
-/
namespace S2S.Props
open Spec Demo

/-! ## C153 -/

/-- C153, reading: as if the arrays had been given no length. The programs are the same. -/
theorem C153_read (cfg : Cfg) (cs : List CtField) : structCastCt cfg cs = structCast cfg (asArrays cs) :=
  readCtFields_eq cfg _ cs

/-- C153, writing: as if the arrays with `len_from_field` were vectors; those with `len_from_fields`
as if they had been given no length. The programs are the same, on structs whose arrays have the
records their types say. -/
theorem C153_write (cfg : Cfg) (cs : List CtField) (vs : List Val) (h : Full cs vs) :
    streamCastCt cfg cs vs = streamCast cfg (asVectors cs) vs :=
  writeCtFields_eq cfg _ cs vs h

/-- C153: every struct of the types has them. -/
theorem C153_full (cfg : Cfg) (cs : List CtField) (vs : List Val) (h : Typed cfg (asArrays cs) vs) :
    Full cs vs :=
  full_of_typed cfg cs vs h

/-- C153, back again: what was written is read as the struct with the slots filled. -/
theorem C153_round_partial (cfg : Cfg) (cs : List CtField) (hsc : SelfConsistent cfg (asVectors cs)) (vs : List Val)
    (hf : Full cs vs) (hst : Storable cfg (asVectors cs) vs) (p : List Byte)
    (h : (streamCastCt cfg cs vs).run = (.done (.ok ()), p)) (rest : List Byte) :
    (structCastCt cfg cs).run (p ++ rest) = (.done (.ok (settle (asVectors cs) vs)), rest) := by
  rw [C153_write cfg cs vs hf] at h
  obtain ⟨⟨h1, h2, h3⟩, rfl⟩ := write_sound cfg _ hsc vs hst p h
  rw [C153_read, read_iff cfg _ (wellFormed_counted hsc.1)]
  refine ⟨⟨fitsFields_settled cfg _ _ cs vs hf h1, (okFields_counted cs _).1 h2, ?_⟩, ?_⟩
  · rw [← envOf_seen countedArr plainArr]
    exact shapedFields_counted cfg _ cs _ h3
  · unfold wire
    rw [wireFields_counted]

theorem shaped_mem {cfg : Cfg} {env : Env} : ∀ {fs : List Field} {vs : List Val},
    ShapedFields cfg env fs vs → ∀ f v, (f, v) ∈ fs.zip vs → ShapedField cfg env f v
  | [], _, _, f, v, hm => by simp at hm
  | _ :: _, [], _, f, v, hm => by simp at hm
  | g :: gs, w :: ws, h, f, v, hm => by
      rw [ShapedFields] at h
      rw [List.zip_cons_cons, List.mem_cons] at hm
      rcases hm with hm | hm
      · cases hm; exact h.1
      · exact shaped_mem h.2 f v hm

theorem settle_lengths (all : List Field) (vals : List Val) : ∀ {fs : List CtField} {vs : List Val},
    FullFields fs vs → ∀ {cfg : Cfg}, FitsFields cfg (asVectors fs) (settleFields all vals (asVectors fs) vs) →
    ∀ id gs n s c, .plain id (.arrRec gs n (some (.fromField s))) c ∈ fs →
      ∃ xs : List Val, xs.length = n ∧
        (CtField.seen countedArr (.plain id (.arrRec gs n (some (.fromField s))) c), .seq xs) ∈
          (asVectors fs).zip (settleFields all vals (asVectors fs) vs)
  | [], _, _, _, _, id, gs, n, s, c, hm => by simp at hm
  | f :: fs, [], _, _, h, _, _, _, _, _, _ => by simp [asVectors, seenFields, settleFields, FitsFields] at h
  | f :: fs, v :: vs, hf, cfg, h, id, gs, n, s, c, hm => by
      rw [FullFields] at hf
      simp only [asVectors, seenFields, settleFields, FitsFields] at h ⊢
      rw [List.mem_cons] at hm
      rcases hm with rfl | hm
      · have h1 := fitsField_settled cfg all vals _ v hf.1 h.1
        revert h1
        generalize settleField all vals _ v = u
        intro h1
        cases u with
        | seq xs =>
          simp only [CtField.seen, CtKind.seen, plainArr, FitsField, FitsKind] at h1
          exact ⟨xs, h1.1, by simp⟩
        | _ => simp [CtField.seen, CtKind.seen, plainArr, FitsField, FitsKind] at h1
      · obtain ⟨xs, h1, h2⟩ := settle_lengths all vals hf.2 h.2 id gs n s c hm
        exact ⟨xs, h1, List.mem_cons_of_mem _ h2⟩

/-- C153: what was written says of every array that is given a length from a field how many records
it has. -/
theorem C153_says_partial (cfg : Cfg) (cs : List CtField) (hsc : SelfConsistent cfg (asVectors cs)) (vs : List Val)
    (hf : Full cs vs) (hst : Storable cfg (asVectors cs) vs) (p : List Byte)
    (h : (streamCastCt cfg cs vs).run = (.done (.ok ()), p)) (id : String) (gs : List CtField) (n : Nat)
    (s : String) (c : Constraint) (hm : .plain id (.arrRec gs n (some (.fromField s))) c ∈ cs)
    (us : List Val) (rest : List Byte) (hr : (structCastCt cfg cs).run (p ++ rest) = (.done (.ok us), rest)) :
    (LenSpec.fromField s).eval cfg (envOf (asArrays cs) us) = .ok n := by
  rw [C153_round_partial cfg cs hsc vs hf hst p h rest] at hr
  cases hr
  rw [C153_write cfg cs vs hf] at h
  obtain ⟨⟨h1, -, h3⟩, -⟩ := write_sound cfg _ hsc vs hst p h
  obtain ⟨xs, rfl, h5⟩ := settle_lengths _ _ hf h1 id gs n s c hm
  have := shaped_mem h3 _ _ h5
  simp only [CtField.seen, CtKind.seen, countedArr, ShapedField, ShapedKind] at this
  rw [envOf_seen plainArr countedArr]
  exact this.1

/-- C153, the other way round: what was read is written as it was if it says so. -/
theorem C153_rewrite_partial (cfg : Cfg) (cs : List CtField) (hrw : Rewritable cfg (asVectors cs)) (inp rest : List Byte)
    (vs : List Val) (h : (structCastCt cfg cs).run inp = (.done (.ok vs), rest))
    (hv : Valid cfg (asVectors cs) vs) :
    ∃ p, inp = p ++ rest ∧ (streamCastCt cfg cs vs).run = (.done (.ok ()), p) := by
  rw [C153_read, read_iff cfg _ (wellFormed_counted hrw.1)] at h
  have hf := full_of_typed cfg cs vs (typedFields_of_fits cfg _ vs h.1.1)
  refine ⟨wire cfg (asVectors cs) vs, ?_, ?_⟩
  · rw [h.2]
    unfold wire
    rw [wireFields_counted]
  · rw [C153_write cfg cs vs hf, Wr.run_eq]
    exact streamCast_complete hrw hv

/-! ### Examples -/

/-- Two points, counted by a field; if there are two, two more of which another field says how many
they are. -/
def segment : List CtField :=
  [.plain "n" (.leaf (.num u8 1)) .none,
   .plain "m" (.leaf (.num u8 1)) .none,
   .plain "points" (.arrRec [.plain "x" (.leaf (.num u8 1)) .none] 2 (some (.fromField "n"))) .none,
   .maybe "more" (.arrRec [.plain "y" (.leaf (.num u16 2)) .none] 2 (some (.fromField "m")))
     ⟨["m"], fun vs => vs != [.int 0]⟩]

def points (n m : Int) (more : Val) : List Val := [.int n, .int m, .seq [.seq [.int 7], .seq [.int 8]], more]
def twoMore : Val := .present (.seq [.seq [.int 1], .seq [.int 2]])

example : WellFormed (asVectors segment) ∧ SelfConsistent be64 (asVectors segment) := by decide +kernel
example : Full segment (points 0 2 twoMore) :=
  C153_full be64 segment _ (by decide +kernel)

example : structCastCt be64 segment = structCast be64
    [.plain "n" (.num u8 1) .none, .plain "m" (.num u8 1) .none,
     .plain "points" (.arrRec [.plain "x" (.num u8 1) .none] 2) .none,
     .maybe "more" (.arrRec [.plain "y" (.num u16 2) .none] 2) ⟨["m"], fun vs => vs != [.int 0]⟩] :=
  C153_read be64 segment

example : streamCastCt be64 segment (points 0 2 twoMore) = streamCast be64
    [.plain "n" (.num u8 1) .none, .plain "m" (.num u8 1) .none,
     .plain "points" (.vecRec [.plain "x" (.num u8 1) .none] (.fromField "n") (some 2) 1) .none,
     .maybe "more" (.vecRec [.plain "y" (.num u16 2) .none] (.fromField "m") (some 2) 1)
       ⟨["m"], fun vs => vs != [.int 0]⟩] (points 0 2 twoMore) :=
  C153_write be64 segment _ (C153_full be64 segment _ (by decide +kernel))

/-- The library counts the points. -/
example : (streamCastCt be64 segment (points 0 2 twoMore)).run =
    (.done (.ok ()), [2, 2, 7, 8, 0, 1, 0, 2]) := by rfl

/-- Of those in the optional the user says how many they are, and is held to it. -/
example : (streamCastCt be64 segment (points 0 3 twoMore)).run =
    (.done (.error ⟨.foundContradictingLength, "m"⟩), [2]) := by rfl

example (rest : List Byte) : (structCastCt be64 segment).run ([2, 2, 7, 8, 0, 1, 0, 2] ++ rest) =
    (.done (.ok (points 2 2 twoMore)), rest) :=
  C153_round_partial be64 segment (by decide +kernel) (points 0 2 twoMore)
    (C153_full be64 segment _ (by decide +kernel)) (by decide +kernel) _ (by rfl) rest

example (us : List Val) (rest : List Byte)
    (h : (structCastCt be64 segment).run ([2, 2, 7, 8, 0, 1, 0, 2] ++ rest) = (.done (.ok us), rest)) :
    (LenSpec.fromField "n").eval be64 (envOf (asArrays segment) us) = .ok 2 :=
  C153_says_partial be64 segment (by decide +kernel) (points 0 2 twoMore)
    (C153_full be64 segment _ (by decide +kernel)) (by decide +kernel) _ (by rfl) "points"
    [.plain "x" (.leaf (.num u8 1)) .none] 2 "n" .none (by simp [segment]) us rest h

example : ∃ p, [2, 0, 7, 8] = p ++ [] ∧
    (streamCastCt be64 segment (points 2 0 .absent)).run = (.done (.ok ()), p) :=
  C153_rewrite_partial be64 segment (rewritable_of_checked (by decide +kernel)) [2, 0, 7, 8] [] (points 2 0 .absent)
    (by rfl) (by decide +kernel)

/-! ### Where it goes wrong -/

/-- C153 needs the input to say how many records there are: reading does not look. Two points said
to be five are read as two, with nothing to tell, and no more is read for them; written back, they
are said to be two. -/
theorem C153_fails_count :
    (structCastCt be64 segment).run [5, 0, 7, 8] = (.done (.ok (points 5 0 .absent)), []) ∧
    (streamCastCt be64 segment (points 5 0 .absent)).run = (.done (.ok ()), [2, 0, 7, 8]) :=
  ⟨rfl, rfl⟩

/-- In an optional, what was read so is refused when written. -/
theorem C153_fails_refused :
    (structCastCt be64 segment).run [2, 5, 7, 8, 0, 1, 0, 2] = (.done (.ok (points 2 5 twoMore)), []) ∧
    (streamCastCt be64 segment (points 2 5 twoMore)).run =
      (.done (.error ⟨.foundContradictingLength, "m"⟩), [2]) :=
  ⟨rfl, rfl⟩

/-- A length that is computed is not looked at even when writing. -/
theorem C153_fails_computed :
    let cs : List CtField := [.plain "n" (.leaf (.num u8 1)) .none,
      .plain "points" (.arrRec [.plain "x" (.leaf (.num u8 1)) .none] 2
        (some (.computed ⟨["n"], fun vs => match vs with | [.int x] => x | _ => 0⟩))) .none]
    (structCastCt be64 cs).run [5, 7, 8] =
        (.done (.ok [.int 5, .seq [.seq [.int 7], .seq [.int 8]]]), []) ∧
      (streamCastCt be64 cs [.int 5, .seq [.seq [.int 7], .seq [.int 8]]]).run = (.done (.ok ()), [5, 7, 8]) :=
  ⟨rfl, rfl⟩

end S2S.Props
