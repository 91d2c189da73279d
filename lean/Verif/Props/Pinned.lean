import Verif.Lemmas.Pinned
import Verif.Spec.Demo
/-
A vector whose count can only be one number is the array of that many.
-/
namespace S2S.Props
open Spec Demo

/-- C154. `eq{N}` lets through `N` only, if it does not compare in a type with fewer values. -/
theorem C154_eq (t u : ScalarTy) (N : Nat) (h : ∀ x, t.InRange x → u.InRange x) : LetsOnly t (.cmp .eq u N) N := by
  intro x hx
  rw [Constraint.check, ScalarTy.conv_of_inRange u x (h x hx)]
  rfl

/-- C154. A vector whose count is constrained to one number is read as the array of that many elements:
the same struct, the same error by the same name, and the stream left in the same state, whatever the stream. -/
theorem C154_read (cfg : Cfg) (S : InStream) (n id : String) (t : ScalarTy) (w N : Nat) (c d : Constraint)
    (k k' : Kind) (pre mid post : List Field) (ho : LetsOnly t c N) (hp : Pinned cfg n N k k')
    (hwf : WellFormed (counted n t w c pre mid post (.plain id k d))) (s : S.State) :
    (structCast cfg (counted n t w c pre mid post (.plain id k d))).runOn S s =
      (structCast cfg (counted n t w c pre mid post (.plain id k' d))).runOn S s :=
  readFields_pinned S cfg ho hp hwf.2.1 hwf.2.2 _ _ s

/-- C154. A struct with that many elements is written by the same program, if the count of the array
is a constant, or is in the struct. -/
theorem C154_write (cfg : Cfg) (n id : String) (t : ScalarTy) (w N : Nat) (c d : Constraint)
    (k k' : Kind) (pre mid post : List Field) (ho : LetsOnly t c N) (hp : Pinned cfg n N k k')
    (hwf : WellFormed (counted n t w c pre mid post (.plain id k d))) (hr : t.InRange N) (hw : N < 256 ^ w)
    (hdn : isDerived (counted n t w c pre mid post (.plain id k' d)) n = false)
    (hdi : isDerived (counted n t w c pre mid post (.plain id k' d)) id = false)
    (hci : hasConditional (counted n t w c pre mid post (.plain id k' d)) id = false)
    (hz : frozenVal k' d = none) (vpre vmid vpost ws : List Val) (vn : Val)
    (hl : vpre.length = pre.length) (hm : vmid.length = mid.length) (hN : ws.length = N)
    (hv : (frozenVal (.num t w) c).getD vn = .int N) :
    streamCast cfg (counted n t w c pre mid post (.plain id k d)) (vpre ++ vn :: (vmid ++ .seq ws :: vpost)) =
      streamCast cfg (counted n t w c pre mid post (.plain id k' d)) (vpre ++ vn :: (vmid ++ .seq ws :: vpost)) :=
  writeFields_pinned cfg ho hp hwf.2.1 hr hw hdn hdi hci hz hv hl hm hN

/-- C154. With any other number of elements the vector is refused by the name of its count, when
what is before the count is written. (An array has no other number.) -/
theorem C154_refuses (cfg : Cfg) (n id : String) (t : ScalarTy) (w N : Nat) (c d : Constraint)
    (k k' : Kind) (pre mid post : List Field) (ho : LetsOnly t c N) (hp : Pinned cfg n N k k')
    (hdn : isDerived (counted n t w c pre mid post (.plain id k' d)) n = false)
    (vpre vmid vpost ws : List Val) (vn : Val)
    (hl : vpre.length = pre.length) (hm : vmid.length = mid.length) (hN : ws.length ≠ N) :
    streamCast cfg (counted n t w c pre mid post (.plain id k d)) (vpre ++ vn :: (vmid ++ .seq ws :: vpost)) =
      (writeFields cfg ⟨counted n t w c pre mid post (.plain id k d), vpre ++ vn :: (vmid ++ .seq ws :: vpost)⟩ pre vpre).andThen
        fun _ => WrE.err ⟨.validationFailure, n⟩ :=
  writeFields_unpinned cfg ho hp hdn hl hm hN

/-! ### Examples -/

/-- A kind, the number of coordinates, which has to be 3, a flag, the coordinates, a sum. -/
def vertexWith (k : Kind) : List Field :=
  counted "n" u16 2 (.cmp .eq i32 3) [.plain "kind" (.num u8 1) .none] [.plain "flag" (.num u8 1) .none]
    [.plain "sum" (.num u16 2) (.user fun v => v != .int 0)] (.plain "xyz" k .none)

def vertexVec : Kind := .vec (.scalar u16) (.fromField "n") (some 16)
def vertexArr : Kind := .fbuf (.scalar u16) 3

theorem vertex_only : LetsOnly u16 (.cmp .eq i32 3) 3 :=
  C154_eq u16 i32 3 fun x h => by simp only [ScalarTy.InRange, u16, i32] at h ⊢; omega

example : LetsOnly u8 (.cmp .eq u8 200) 200 := C154_eq u8 u8 200 fun _ h => h

theorem vertex_pinned : Pinned be64 "n" 3 vertexVec vertexArr :=
  .vec (.scalar u16) (some 16) rfl (by decide) (by decide)

example (S : InStream) (s : S.State) :
    (structCast be64 (vertexWith vertexVec)).runOn S s = (structCast be64 (vertexWith vertexArr)).runOn S s :=
  C154_read be64 S "n" "xyz" u16 2 3 _ .none _ _ _ _ _ vertex_only vertex_pinned (by decide) s

example : (structCast be64 (vertexWith vertexVec)).run [9, 0, 3, 1, 0, 1, 0, 2, 0, 3, 0, 6, 5] =
    (.done (.ok [.int 9, .int 3, .int 1, .seq [.int 1, .int 2, .int 3], .int 6]), [5]) := by rfl
example : (structCast be64 (vertexWith vertexArr)).run [9, 0, 2, 1, 0, 1, 0, 2, 0, 6] =
    (.done (.error ⟨.validationFailure, "n"⟩), [1, 0, 1, 0, 2, 0, 6]) := by rfl

example (a b sum : Val) (x y z stale : Val) :
    streamCast be64 (vertexWith vertexVec) [a, stale, b, .seq [x, y, z], sum] =
      streamCast be64 (vertexWith vertexArr) [a, stale, b, .seq [x, y, z], sum] :=
  C154_write be64 "n" "xyz" u16 2 3 _ .none _ _ _ _ _ vertex_only vertex_pinned (by decide)
    (by decide) (by decide) (by decide) (by decide) (by decide) rfl [a] [b] [sum] [x, y, z] stale rfl rfl rfl rfl

example : (streamCast be64 (vertexWith vertexVec) [.int 9, .int 0, .int 1, .seq [.int 1, .int 2, .int 3], .int 6]).run =
    (.done (.ok ()), [9, 0, 3, 1, 0, 1, 0, 2, 0, 3, 0, 6]) := by rfl

example : (streamCast be64 (vertexWith vertexVec) [.int 9, .int 0, .int 1, .seq [.int 1, .int 2], .int 6]).run =
    (.done (.error ⟨.validationFailure, "n"⟩), [9]) := by
  have := C154_refuses be64 "n" "xyz" u16 2 3 (.cmp .eq i32 3) .none _ _ [.plain "kind" (.num u8 1) .none]
    [.plain "flag" (.num u8 1) .none] [.plain "sum" (.num u16 2) (.user fun v => v != .int 0)] vertex_only vertex_pinned
    (by decide) [.int 9] [.int 1] [.int 6] [.int 1, .int 2] (.int 0) rfl rfl (by decide)
  exact (congrArg Wr.run this).trans (by rfl)

/-! Records, the count not a constant but one out of a set of one. -/

def pairWith (k : Kind) : List Field :=
  counted "n" u8 1 (.anyOf u8 [2]) [] [] [] (.plain "pair" k .none)

theorem pair_pinned : Pinned be64 "n" 2 (.vecRec inner (.fromField "n") none 4) (.arrRec inner 2) :=
  .recs inner none 4 (by decide) (by decide +kernel)

theorem pair_only : LetsOnly u8 (.anyOf u8 [2]) 2 := by
  intro x hx
  rw [Constraint.check, ScalarTy.conv_of_inRange u8 x hx]
  simp only [List.any_cons, List.any_nil, Bool.or_false]
  rfl

example (S : InStream) (s : S.State) :
    (structCast be64 (pairWith (.vecRec inner (.fromField "n") none 4))).runOn S s =
      (structCast be64 (pairWith (.arrRec inner 2))).runOn S s :=
  C154_read be64 S "n" "pair" u8 1 2 _ .none _ _ _ _ _ pair_only pair_pinned (by decide) s

example (x y : Val) : streamCast be64 (pairWith (.vecRec inner (.fromField "n") none 4)) [.int 2, .seq [x, y]] =
    streamCast be64 (pairWith (.arrRec inner 2)) [.int 2, .seq [x, y]] :=
  C154_write be64 "n" "pair" u8 1 2 _ .none _ _ _ _ _ pair_only pair_pinned (by decide) (by decide) (by decide)
    (by decide) (by decide) (by decide) rfl [] [] [] [x, y] (.int 2) rfl rfl rfl rfl

/-! ### Where it goes wrong -/

/-- C154 needs a count that is no constant to be in the struct of the array: the vector is counted by
the library, the array is not. -/
theorem C154_fails_stale :
    (streamCast be64 (pairWith (.vecRec inner (.fromField "n") none 4))
      [.int 0, .seq [.seq [.int 1, .absent], .seq [.int 2, .absent]]]).run = (.done (.ok ()), [2, 1, 2]) ∧
    (streamCast be64 (pairWith (.arrRec inner 2))
      [.int 0, .seq [.seq [.int 1, .absent], .seq [.int 2, .absent]]]).run =
        (.done (.error ⟨.validationFailure, "n"⟩), []) :=
  ⟨rfl, rfl⟩

/-- C154 needs the ceiling: an array has none, the vector of as many elements is refused. -/
theorem C154_fails_ceiling :
    let l k := counted "n" u8 1 (.cmp .eq u8 3) [] [] [] (.plain "xyz" k .none)
    (structCast be64 (l (.vec (.scalar u16) (.fromField "n") (some 4)))).run [3, 0, 1, 0, 2, 0, 3] =
        (.done (.error ⟨.excessiveLength, "xyz"⟩), [0, 1, 0, 2, 0, 3]) ∧
      (structCast be64 (l (.fbuf (.scalar u16) 3))).run [3, 0, 1, 0, 2, 0, 3] =
        (.done (.ok [.int 3, .seq [.int 1, .int 2, .int 3]]), []) :=
  ⟨rfl, rfl⟩

/-- C154 needs the stream to be no `constexpr` stream, if the elements are no records: of an array cut
short nothing is taken, of a vector the elements that are there. -/
theorem C154_fails_constexpr :
    let cfg : Cfg := { le64 with constexprStream := true }
    let l k := counted "n" u8 1 (.cmp .eq u8 3) [] [] [] (.plain "xyz" k .none)
    (structCast cfg (l (.vec (.scalar u16) (.fromField "n") none))).run [3, 1, 0, 2, 0, 3] =
        (.done (.error ⟨.bufferExhaustion, "xyz"⟩), [3]) ∧
      (structCast cfg (l (.fbuf (.scalar u16) 3))).run [3, 1, 0, 2, 0, 3] =
        (.done (.error ⟨.bufferExhaustion, "xyz"⟩), [1, 0, 2, 0, 3]) :=
  ⟨rfl, rfl⟩

/-- C154 needs the constraint to compare in a type with no fewer values: `eq` of a `char` with 3 lets
through 259, which is not what the count then is. -/
theorem C154_fails_narrow :
    let l k := counted "n" u16 2 (.cmp .eq u8 3) [] [] [] (.plain "xyz" k .none)
    (structCast be64 (l (.vec (.scalar u8) (.fromField "n") none))).run [1, 3, 7, 8, 9] =
        (.done (.error ⟨.bufferExhaustion, "xyz"⟩), [7, 8, 9]) ∧
      (structCast be64 (l (.fbuf (.scalar u8) 3))).run [1, 3, 7, 8, 9] =
        (.done (.ok [.int 259, .seq [.int 7, .int 8, .int 9]]), []) :=
  ⟨rfl, rfl⟩

end S2S.Props
