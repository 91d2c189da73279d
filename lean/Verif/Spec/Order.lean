import Verif.Model.Schema
/-
Byte order, positionally.
-/
namespace S2S.Spec

/-- The position of the byte of weight `256^i` of a number in `n` bytes. -/
def place : Endian → Nat → Nat → Nat
  | .little, _, i => i
  | .big, n, i => n - 1 - i

/-- `r` is the integer `x` in `n` bytes: the byte of weight `256^i` is in its place. -/
def InOrder (o : Endian) (n : Nat) (x : Int) (r : List Byte) : Prop :=
  r.length = n ∧ ∀ i, i < n → ∃ b, r[place o n i]? = some b ∧ (b.toNat : Int) = x / (256 ^ i : Nat) % 256

/-- `r` is the integers `xs`, one after the other, each in `n` bytes of its own. -/
def EachInOrder (o : Endian) (n : Nat) (xs : List Int) (r : List Byte) : Prop :=
  ∃ rs : List (List Byte), r = rs.flatten ∧ rs.length = xs.length ∧
    ∀ (i : Nat) x b, xs[i]? = some x → rs[i]? = some b → InOrder o n x b

/-- The integer type an element is made of. -/
def baseTy : ElemTy → ScalarTy
  | .scalar t => t
  | .arr e _ => baseTy e

/-- The integers an element consists of, in order of storage. -/
def numbersOf : ElemTy → Val → List Int
  | .scalar _, .int x => [x]
  | .arr e _, .seq vs => vs.flatMap (numbersOf e)
  | _, _ => []

/-- A value consists of the integers `xs`, all of the type `t` and in full width. -/
inductive MadeOf : Kind → Val → ScalarTy → List Int → Prop
  | num {t x} : MadeOf (.num t t.size) (.int x) t [x]
  | fbuf {e n vs} : MadeOf (.fbuf e n) (.seq vs) (baseTy e) (vs.flatMap (numbersOf e))
  | fstr {n vs} : MadeOf (.fstr n) (.seq vs) u8 (vs.flatMap (numbersOf (.scalar u8)))
  | vec {e len b vs} : MadeOf (.vec e len b) (.seq vs) (baseTy e) (vs.flatMap (numbersOf e))

mutual
/-- No vector somewhere inside has elements made of `bool`. -/
def noBoolVecKind : Kind → Bool
  | .vec e _ _ => baseTy e != .bool
  | .record fs => noBoolVecFields fs
  | .arrRec fs _ => noBoolVecFields fs
  | .vecRec fs _ _ _ => noBoolVecFields fs
  | _ => true
def noBoolVecField : Field → Bool
  | .plain _ k _ => noBoolVecKind k
  | .maybe _ k _ => noBoolVecKind k
  | .union _ _ alts _ => noBoolVecAlts alts
def noBoolVecAlts : List Alt → Bool
  | [] => true
  | .mk k _ :: alts => noBoolVecKind k && noBoolVecAlts alts
def noBoolVecFields : List Field → Bool
  | [] => true
  | f :: fs => noBoolVecField f && noBoolVecFields fs
end

example : InOrder .little 4 0x01020304 [4, 3, 2, 1] := by
  refine ⟨rfl, fun i hi => ?_⟩
  rcases i with _ | _ | _ | _ | i <;> first | exact ⟨_, rfl, by decide⟩ | omega
example : InOrder .big 2 (-2) [0xff, 0xfe] := by
  refine ⟨rfl, fun i hi => ?_⟩
  rcases i with _ | _ | i <;> first | exact ⟨_, rfl, by decide⟩ | omega
example : ¬ InOrder .big 2 (-2) [0xfe, 0xff] := by
  rintro ⟨-, h⟩
  obtain ⟨b, hb, he⟩ := h 0 (by decide)
  cases hb
  revert he
  decide

end S2S.Spec
