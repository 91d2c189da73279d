import Verif.Lemmas.Flat
import Verif.Spec.Demo
/-
The dimensions of an array are not on the wire.
-/
namespace S2S.Props
open Spec Demo

/-- C149. Reading, the schema with flat arrays does what the schema with arrays of arrays does, call
by call: it reads the same number of bytes each time, fails where the other fails, and the struct it
gives holds the same scalars in the same order. -/
theorem C149_read (cfg : Cfg) (pick : String → Bool) (fs : List Field) (hu : Unread pick fs)
    (hc : Unchecked pick fs) :
    structCast cfg (fs.map (flatField pick)) = (structCast cfg fs).mapOk (flatStruct pick fs) :=
  readFields_flat pick cfg fs hu hc _ _ fun i hi => (dflts_flat pick fs i hi).symm

/-- C149. Writing, the two do the same, call by call. -/
theorem C149_write (cfg : Cfg) (pick : String → Bool) (fs : List Field) (hu : Unread pick fs)
    (hc : Unchecked pick fs) (vs : List Val) (hd : Dims pick fs vs) :
    streamCast cfg (fs.map (flatField pick)) (flatStruct pick fs vs) = streamCast cfg fs vs :=
  writeFields_flat pick cfg (sameTo_flat pick cfg fs vs hu) hc (unread_flat hu) fs vs (fun _ h => h) hd

/-- C149. So on any stream the one reads when the other does, and leaves it the same. -/
theorem C149_stream (S : InStream) (cfg : Cfg) (pick : String → Bool) (fs : List Field) (hu : Unread pick fs)
    (hc : Unchecked pick fs) (s : S.State) :
    (structCast cfg (fs.map (flatField pick))).runOn S s =
      match (structCast cfg fs).runOn S s with
      | (.done (.ok vs), s') => (.done (.ok (flatStruct pick fs vs)), s')
      | (.done (.error e), s') => (.done (.error e), s')
      | (.stuck w, s') => (.stuck w, s') := by
  rw [C149_read cfg pick fs hu hc, RdE.mapOk, RdE.runOn_andThen]
  rcases Rd.runOn S (structCast cfg fs) s with ⟨(_ | _) | _, s'⟩ <;> rfl

/-- C149. The one is a schema the library accepts if and only if the other is. -/
theorem C149_wellformed (pick : String → Bool) (fs : List Field) :
    WellFormed (fs.map (flatField pick)) ↔ WellFormed fs := by
  simp only [WellFormed, saneFields_flat, uniqueFields_flat, earlierFields_flat]

/-- C149. Which scalar of the flat array it is: that at `i * m + j` is the one at `[i][j]`. -/
theorem C149_index (t : ScalarTy) (m : Nat) (rows : List Val) (hr : ∀ r ∈ rows, HasDims (.arr (.scalar t) m) r)
    (i j : Nat) (hj : j < m) (row : List Val) (hi : rows[i]? = some (.seq row)) :
    (rows.flatMap (scalarsIn (.arr (.scalar t) m)))[i * m + j]? = row[j]? := by
  induction rows generalizing i with
  | nil => simp at hi
  | cons r rows ih =>
    have hl := scalars_length _ r (hr r (by simp))
    simp only [scalarCount, Nat.mul_one] at hl
    cases i with
    | zero =>
      simp only [List.getElem?_cons_zero, Option.some.injEq] at hi
      subst hi
      rw [List.flatMap_cons, Nat.zero_mul, Nat.zero_add, List.getElem?_append_left (by omega)]
      simp [scalarsIn]
    | succ i =>
      rw [List.getElem?_cons_succ] at hi
      rw [List.flatMap_cons, List.getElem?_append_right (by rw [hl, Nat.succ_mul]; omega), hl,
        ← ih (fun r hr' => hr r (by simp [hr'])) i hi]
      congr 1
      rw [Nat.succ_mul]
      omega

/-- A two by three matrix, a flag, an optional two by two by two cube of bytes, and a trailer. -/
def matrices : List Field :=
  [.plain "m" (.fbuf (.arr (.scalar u16) 3) 2) .none,
   .plain "flag" (.num u8 1) .none,
   .maybe "cube" (.fbuf (.arr (.arr (.scalar u8) 2) 2) 2) ⟨["flag"], fun vs => vs == [.int 1]⟩,
   .plain "end" (.num u8 1) .none]

def bothArrays (i : String) : Bool := i == "m" || i == "cube"

theorem matrices_unread : Unread bothArrays matrices := by unfold Unread; decide +kernel

theorem matrices_unchecked : Unchecked bothArrays matrices := by
  intro id k c h hp
  simp only [matrices, List.mem_cons, Field.plain.injEq, List.not_mem_nil, or_false, reduceCtorEq, false_or] at h
  rcases h with ⟨-, -, rfl⟩ | ⟨-, -, rfl⟩ | ⟨-, -, rfl⟩ <;> rfl

/-- The matrix as six numbers, the cube as eight bytes. -/
example :
    (structCast be64 (matrices.map (flatField bothArrays))).runOn listIn
        [0, 1, 0, 2, 0, 3, 0, 4, 0, 5, 0, 6, 1, 11, 12, 13, 14, 15, 16, 17, 18, 9] =
      (.done (.ok [.seq [.int 1, .int 2, .int 3, .int 4, .int 5, .int 6], .int 1,
        .present (.seq [.int 11, .int 12, .int 13, .int 14, .int 15, .int 16, .int 17, .int 18]), .int 9]), []) :=
  C149_stream listIn be64 bothArrays matrices matrices_unread matrices_unchecked _

/-- The same calls to the stream, of the same sizes. -/
example (S : InStream) (s : S.State) : (structCast be64 (matrices.map (flatField bothArrays))).callsOn S s =
    ((structCast be64 matrices).mapOk (flatStruct bothArrays matrices)).callsOn S s := by
  rw [C149_read be64 bothArrays matrices matrices_unread matrices_unchecked]

/-- Whatever the input, the same is left of it. -/
example (inp : List Byte) :
    ((structCast be64 (matrices.map (flatField bothArrays))).run inp).2 = ((structCast be64 matrices).run inp).2 := by
  have h := C149_stream listIn be64 bothArrays matrices matrices_unread matrices_unchecked inp
  show (Rd.runOn listIn _ inp).2 = (Rd.runOn listIn _ inp).2
  rw [h]
  rcases Rd.runOn listIn (structCast be64 matrices) inp with ⟨(_ | _) | _, s'⟩ <;> rfl

example : streamCast be64 (matrices.map (flatField bothArrays))
      [.seq [.int 1, .int 2, .int 3, .int 4, .int 5, .int 6], .int 0, .absent, .int 9] =
    streamCast be64 matrices
      [.seq [.seq [.int 1, .int 2, .int 3], .seq [.int 4, .int 5, .int 6]], .int 0, .absent, .int 9] := by
  refine C149_write be64 bothArrays matrices matrices_unread matrices_unchecked
    [.seq [.seq [.int 1, .int 2, .int 3], .seq [.int 4, .int 5, .int 6]], .int 0, .absent, .int 9] ?_
  simp [matrices, Dims, ArrayDims, HasDims]

example : WellFormed (matrices.map (flatField bothArrays)) :=
  (C149_wellformed bothArrays matrices).2 (by decide +kernel)

/-- The number in the second row and the third column is the sixth. -/
example : (([.seq [.int 1, .int 2, .int 3], .seq [.int 4, .int 5, .int 6]] : List Val).flatMap
    (scalarsIn (.arr (.scalar u16) 3)))[1 * 3 + 2]? = some (.int 6) :=
  C149_index u16 3 _ (by simp [HasDims]) 1 2 (by decide) [.int 4, .int 5, .int 6] rfl

/-- C149. A constraint has to be of the other shape as well: arrays equal to an array of arrays are
not the flat ones. -/
theorem C149_fails_checked : ∃ (fs : List Field) (pick : String → Bool) (inp : List Byte), Unread pick fs ∧
    (∃ vs, (structCast be64 fs).run inp = (.done (.ok vs), [])) ∧
    (structCast be64 (fs.map (flatField pick))).run inp = (.done (.error ⟨.validationFailure, "m"⟩), []) :=
  ⟨[.plain "m" (.fbuf (.arr (.scalar u8) 1) 2) (.arrCmp true (.seq [.seq [.int 1], .seq [.int 2]]))], fun _ => true,
    [1, 2], by unfold Unread; decide +kernel, ⟨[.seq [.seq [.int 1], .seq [.int 2]]], rfl⟩, rfl⟩

end S2S.Props
