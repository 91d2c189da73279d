import Verif.Props.Compare
/-
C106: comparisons that round.
-/
set_option exponentiation.threshold 4000

namespace S2S.Props
open Spec Demo Compare

/-- The number a field is, whether it is of integral or of floating-point type. -/
def numberOf : Decl.Ty → Int → Real
  | .float m, x => real m x
  | _, x => .fin (x * one)

/-- A constraint with a floating-point operand on a number. -/
def against (R : Rounding) (op : CmpOp) (src : Decl.Ty) (n : Nat) (k : Int) : Constraint :=
  Compare.constraint R op src (.float n) (.int k) (.int k)

/-- An integral or a floating-point type. -/
def IsNumber : Decl.Ty → Prop
  | .int _ => True
  | .float _ => True
  | _ => False

theorem against_call {R : Rounding} {op : CmpOp} {src : Decl.Ty} (hs : IsNumber src) {n : Nat} {k x : Int} :
    ∃ b, (against R op src n k).check (.int x) = .ok b ∧
      (b = true ↔ call R op src (.float n) (.int k) (.int x) = some true) := by
  simp only [against, Compare.constraint, Constraint.check, call_eq]
  cases src <;> first | (cases hs; done) | (simp only [orderTo, versus, Option.map_some]; exact ⟨_, rfl, by simp⟩)

theorem against_holds {R : Rounding} {op : CmpOp} {src : Decl.Ty} (hs : IsNumber src) {n : Nat} {k x : Int} :
    Holds (against R op src n k) (.int x) ↔ ComparesReal op (R.conv n (numberOf src x)) (real n k) := by
  obtain ⟨b, h1, h2⟩ := against_call (R := R) (op := op) hs (n := n) (k := k) (x := x)
  rw [Holds, h1, Except.ok.injEq, h2, call_eq]
  have hg : (R.conv n (numberOf src x)).cmp (real n k) = some .gt ↔
      (real n k).cmp (R.conv n (numberOf src x)) = some .lt := by rw [← less_iff, greater_iff]
  cases src <;> first
    | (cases hs; done)
    | (simp only [numberOf] at hg ⊢
       cases op <;> simp [orderTo, versus, ComparesReal, less_iff, same_iff, hg])

/-- C106. The value is converted to the type of the operand, the call is defined, and the
result is what the comparison of the number it is converted to and the operand is. -/
theorem C106_meaning (R : Rounding) (op : CmpOp) (src : Decl.Ty) (hs : IsNumber src) (n : Nat) (k x : Int) :
    (∃ b, (against R op src n k).check (.int x) = .ok b) ∧
    (Holds (against R op src n k) (.int x) ↔ ComparesReal op (R.conv n (numberOf src x)) (real n k)) :=
  ⟨(against_call hs).imp fun _ h => h.1, against_holds hs⟩

theorem conv_nan {R : Rounding} {n : Nat} {r : Real} : R.conv n r = .nan ↔ r = .nan := by
  cases r with
  | fin v => simp [Rounding.conv, (R.number n v).1]
  | nan => simp [Rounding.conv]
  | inf p => simp [Rounding.conv]

theorem not_less_bottom {r : Real} : ¬ Less r (.inf true) := by
  rw [less_iff]; cases r with
  | inf p => cases p <;> simp [Real.cmp]
  | _ => simp [Real.cmp]

theorem not_top_less {r : Real} : ¬ Less (.inf false) r := by
  rw [less_iff]; cases r with
  | inf p => cases p <;> simp [Real.cmp]
  | _ => simp [Real.cmp]

theorem less_fin {a b : Int} : Less (.fin a) (.fin b) ↔ a < b := by
  rw [less_iff, Real.cmp, Option.some.injEq, compare_lt]

theorem not_less_self {r : Real} : ¬ Less r r := by
  rw [less_iff]
  cases r with
  | nan => simp [Real.cmp]
  | inf p => cases p <;> simp [Real.cmp]
  | fin v => rw [Real.cmp, Option.some.injEq, compare_lt]; omega

/-- Rounding does not cross a number of the type. -/
theorem conv_ge {R : Rounding} {n : Nat} {r : Real} {x : Int} (h : Less (real n x) r ∨ Same (real n x) r) :
    ¬ Less (R.conv n r) (real n x) := by
  rcases h with h | h
  · cases r with
    | nan => exact absurd rfl (not_less_nan h).2
    | inf p =>
      cases p
      · exact not_top_less
      · exact absurd h not_less_bottom
    | fin v =>
      cases hx : real n x with
      | nan => exact fun hl => (not_less_nan hl).2 rfl
      | inf p =>
        cases p
        · rw [hx] at h; exact absurd h not_top_less
        · exact not_less_bottom
      | fin k =>
        rw [hx, less_fin] at h
        rw [less_iff]
        exact R.notBelow n v x k hx (by omega)
  · rw [← h.1, R.conv_exact]
    exact not_less_self

theorem conv_le {R : Rounding} {n : Nat} {r : Real} {x : Int} (h : Less r (real n x) ∨ Same r (real n x)) :
    ¬ Less (real n x) (R.conv n r) := by
  rcases h with h | h
  · cases r with
    | nan => exact absurd rfl (not_less_nan h).1
    | inf p =>
      cases p
      · exact absurd h not_top_less
      · exact not_less_bottom
    | fin v =>
      cases hx : real n x with
      | nan => exact fun hl => (not_less_nan hl).1 rfl
      | inf p =>
        cases p
        · exact not_top_less
        · rw [hx] at h; exact absurd h not_less_bottom
      | fin k =>
        rw [hx, less_fin] at h
        rw [greater_iff]
        exact R.notAbove n v x k hx (by omega)
  · rw [h.1, R.conv_exact]
    exact not_less_self

/-- Of two numbers one is less or they are the same. -/
theorem trichotomy {a b : Real} (ha : a ≠ .nan) (hb : b ≠ .nan) : Less a b ∨ Same a b ∨ Less b a := by
  rw [less_iff, same_iff, greater_iff]
  cases a with
  | nan => exact absurd rfl ha
  | inf p =>
    cases b with
    | nan => exact absurd rfl hb
    | inf q => cases p <;> cases q <;> simp [Real.cmp]
    | fin b => cases p <;> simp [Real.cmp]
  | fin a =>
    cases b with
    | nan => exact absurd rfl hb
    | inf q => cases q <;> simp [Real.cmp]
    | fin b =>
      simp only [Real.cmp, Option.some.injEq]
      cases compare a b <;> simp

theorem same_symm {a b : Real} (h : Same a b) : Same b a := ⟨h.1.symm, h.1 ▸ h.2⟩

/-- C106. `lt{k}` and `gt{k}` accept only numbers that are less, greater than `k`. -/
theorem C106_sound (R : Rounding) (src : Decl.Ty) (hs : IsNumber src) (n : Nat) (k x : Int) :
    (Holds (against R .lt src n k) (.int x) → Less (numberOf src x) (real n k)) ∧
    (Holds (against R .gt src n k) (.int x) → Less (real n k) (numberOf src x)) := by
  rw [against_holds hs, against_holds hs]
  constructor
  · intro h
    have h0 := not_less_nan h
    rcases trichotomy (fun e => h0.1 (conv_nan.2 e)) h0.2 with h1 | h1 | h1
    · exact h1
    · exact absurd h (conv_ge (.inr (same_symm h1)))
    · exact absurd h (conv_ge (.inl h1))
  · intro h
    have h0 := not_less_nan h
    rcases trichotomy (fun e => h0.2 (conv_nan.2 e)) h0.1 with h1 | h1 | h1
    · exact absurd h (conv_le (.inl h1))
    · exact absurd h (conv_le (.inr h1))
    · exact h1

/-- C106. `lte{k}` accepts all numbers that are at most `k`, and `any_of` all that are one
of the operands. -/
theorem C106_complete (R : Rounding) (src : Decl.Ty) (hs : IsNumber src) (n : Nat) (k x : Int) :
    (Less (numberOf src x) (real n k) ∨ Same (numberOf src x) (real n k) →
      Holds (against R .le src n k) (.int x)) ∧
    ∀ ks : List Int, k ∈ ks → Same (numberOf src x) (real n k) →
      Holds (constraintAnyOf R src (.float n) (ks.map .int)) (.int x) := by
  constructor
  · intro h
    rw [against_holds hs]
    have hk : real n k ≠ .nan := h.elim (fun h => (not_less_nan h).2) fun h => (same_symm h).2
    have hx : numberOf src x ≠ .nan := h.elim (fun h => (not_less_nan h).1) fun h => h.2
    rcases trichotomy (fun e => hx (conv_nan.1 e)) hk with h1 | h1 | h1
    · exact .inl h1
    · exact .inr h1
    · exact absurd h1 (conv_le h)
  · intro ks hk hsame
    have he : R.conv n (numberOf src x) = numberOf src x := by
      rw [hsame.1]; exact R.conv_exact
    have key : equalTo R src (.float n) (.int x) (.int k) = some true := by
      rw [equalTo_eq]
      cases src <;> first
        | (cases hs; done)
        | (simp only [numberOf] at he hsame
           simp only [orderTo, versus, Option.map_some, he, id_eq, same_iff.1 hsame]
           rfl)
    have hall : ∀ j, ∃ b, equalTo R src (.float n) (.int x) (.int j) = some b := by
      intro j
      rw [equalTo_eq]
      cases src <;> first | (cases hs; done) | exact ⟨_, rfl⟩
    have hc : callAnyOf R src (.float n) (ks.map .int) (.int x) = some true := by
      induction ks with
      | nil => cases hk
      | cons j ks ih =>
        rw [List.map_cons, callAnyOf]
        rcases List.mem_cons.1 hk with rfl | hk
        · rw [key]; rfl
        · obtain ⟨b, hb⟩ := hall j
          rw [hb, ih hk]
          cases b <;> rfl
    rw [Holds, constraintAnyOf, Constraint.check, hc]

/-- C106. If the type of the operand has the number, the comparison is the one of the
numbers. -/
theorem C106_exact (R : Rounding) (op : CmpOp) (src : Decl.Ty) (hs : IsNumber src) (n : Nat) (k x y : Int)
    (h : real n y = numberOf src x) :
    Holds (against R op src n k) (.int x) ↔ ComparesReal op (numberOf src x) (real n k) := by
  rw [against_holds hs, ← h, R.conv_exact]

/-- C106. So it is for integers of up to 24 binary digits and a `float`, 53 and a
`double`. -/
theorem C106_digits (R : Rounding) (op : CmpOp) (t : ScalarTy) (n : Nat) (k x : Int)
    (h : x.natAbs < 2 ^ (if n = 4 then 24 else 53)) :
    Holds (against R op (.int t) n k) (.int x) ↔ ComparesReal op (.fin (x * one)) (real n k) := by
  obtain ⟨y, hy⟩ := int_real h
  exact C106_exact R op (.int t) trivial n k x y hy

/-- C106. IEEE 754 rounding goes to a nearest number: none of the type is closer. -/
theorem C106_nearest (n : Nat) (v w k x : Int) (hw : ieee.to n v = .fin w) (hx : real n x = .fin k) :
    (w - v).natAbs ≤ (k - v).natAbs := by
  obtain ⟨m, hm, he⟩ := fin_real.1 ⟨x, hx⟩
  have h1 := nearest_closest (m := v.natAbs) hm
  have h2 : (formatOf n).round v = .fin w := hw
  unfold Format.round at h2
  split at h2
  · cases h2
    split <;> omega
  · cases h2

/-- 16777216.0f, 16777218.0f. -/
theorem neighbours : real 4 0x4b800000 = .fin (16777216 * one) ∧ real 4 0x4b800001 = .fin (16777218 * one) := by
  decide +kernel

theorem no_float_between {s e : Nat} (hs : s < 2 ^ 24) (h1 : 2 ^ 24 * 2 ^ 149 < s * 2 ^ e)
    (h2 : s * 2 ^ e < (2 ^ 24 + 2) * 2 ^ 149) : False := by
  rcases Nat.lt_or_ge e 150 with h | h
  · have h3 : s * 2 ^ e ≤ 2 ^ 24 * 2 ^ 149 :=
      Nat.mul_le_mul (Nat.le_of_lt hs) (Nat.pow_le_pow_right (by decide) (by omega))
    omega
  · obtain ⟨d, rfl⟩ := Nat.exists_eq_add_of_le h
    rw [Nat.pow_add, Nat.mul_left_comm, Nat.mul_comm (2 ^ 150)] at h1 h2
    generalize s * 2 ^ d = j at h1 h2
    have e1 : 2 ^ 24 * 2 ^ 149 = 2 ^ 23 * 2 ^ 150 := by decide
    have e2 : (2 ^ 24 + 2) * 2 ^ 149 = (2 ^ 23 + 1) * 2 ^ 150 := by decide
    rw [e1] at h1
    rw [e2] at h2
    have h3 := Nat.lt_of_mul_lt_mul_right h1
    have h4 := Nat.lt_of_mul_lt_mul_right h2
    omega

/-- C106. Beyond that it is not: 16777217 is greater than 16777216 and less than 16777218,
but `gt{16777216.0f}` or `lt{16777218.0f}` refuses it, however the implementation rounds. -/
theorem C106_refuses (R : Rounding) (t : ScalarTy) :
    Less (real 4 0x4b800000) (.fin (16777217 * one)) ∧ Less (.fin (16777217 * one)) (real 4 0x4b800001) ∧
    ¬ (Holds (against R .gt (.int t) 4 0x4b800000) (.int 16777217) ∧
       Holds (against R .lt (.int t) 4 0x4b800001) (.int 16777217)) := by
  refine ⟨?_, ?_, ?_⟩
  · rw [neighbours.1]; exact .finite (by decide +kernel)
  · rw [neighbours.2]; exact .finite (by decide +kernel)
  · rw [against_holds (show IsNumber (.int t) from trivial), against_holds (show IsNumber (.int t) from trivial)]
    rintro ⟨h1, h2⟩
    obtain ⟨h0, y, hy⟩ := R.number 4 (16777217 * one)
    rw [neighbours.1] at h1
    rw [neighbours.2] at h2
    simp only [ComparesReal, numberOf, Rounding.conv] at h1 h2
    rw [← hy] at h1 h2
    cases hr : real 4 y with
    | nan => rw [hr] at h1; exact (not_less_nan h1).2 rfl
    | inf p =>
      rw [hr] at h1 h2
      cases p
      · exact not_top_less h2
      · exact not_less_bottom h1
    | fin v =>
      rw [hr, less_fin] at h1 h2
      obtain ⟨m, ⟨s, e, rfl, hs, -⟩, he⟩ := fin_real.1 ⟨y, hr⟩
      rw [show (formatOf 4).unit = 2 ^ 925 from rfl] at he
      have ho : one = 2 ^ 149 * 2 ^ 925 := by decide
      rw [ho] at h1 h2
      refine no_float_between (e := e) hs (Nat.lt_of_mul_lt_mul_right (a := 2 ^ 925) ?_)
        (Nat.lt_of_mul_lt_mul_right (a := 2 ^ 925) ?_) <;> omega

/-- C106. With IEEE 754 rounding it is `gt{16777216.0f}`, and `lte{16777216.0f}` and
`any_of{16777216.0f}` accept it. -/
theorem C106_ieee (t : ScalarTy) :
    ¬ Holds (against ieee .gt (.int t) 4 0x4b800000) (.int 16777217) ∧
    Holds (against ieee .le (.int t) 4 0x4b800000) (.int 16777217) ∧
    Holds (constraintAnyOf ieee (.int t) (.float 4) [.int 0x4b800000]) (.int 16777217) := by
  have h : ieee.to 4 (16777217 * one) = .fin (16777216 * one) := by decide +kernel
  refine ⟨?_, ?_, ?_⟩
  · rw [against_holds (show IsNumber (.int t) from trivial), show numberOf (.int t) 16777217 = .fin (16777217 * one) from rfl,
      Rounding.conv, h, neighbours.1]
    exact not_less_self
  · rw [against_holds (show IsNumber (.int t) from trivial), show numberOf (.int t) 16777217 = .fin (16777217 * one) from rfl,
      Rounding.conv, h, neighbours.1]
    exact .inr ⟨rfl, by simp⟩
  · rw [Holds, constraintAnyOf, Constraint.check, callAnyOf, equalTo_eq]
    simp only [orderTo, versus, Rounding.conv, h, neighbours.1, Option.map_some]
    simp [same_iff.1 (show Same (.fin (16777216 * one)) (.fin (16777216 * one)) from ⟨rfl, by simp⟩)]

/-- `basic_field<"n", u32, 4_B, gt{16777216.0f}>`. -/
def manySchema : List Field := [.plain "n" (.num u32 4) (against ieee .gt (.int u32) 4 0x4b800000)]

set_option maxRecDepth 20000 in
/-- 16777217 is refused, 16777218 is not. -/
example : (structCast le64 manySchema).run [1, 0, 0, 1] = (.done (.error ⟨.validationFailure, "n"⟩), []) ∧
    (structCast le64 manySchema).run [2, 0, 0, 1] = (.done (.ok [.int 16777218]), []) := by
  constructor <;> rfl
/-- A `double` 0.1 is less than `0.1f`, but not once it is one. -/
example : Less (real 8 0x3fb999999999999a) (real 4 0x3dcccccd) ∧
    ¬ Holds (against ieee .lt (.float 8) 4 0x3dcccccd) (.int 0x3fb999999999999a) := by
  constructor
  · rw [less_iff]; decide +kernel
  · rw [against_holds (show IsNumber (.float 8) from trivial), ComparesReal, less_iff]; decide +kernel
/-- 2^53 + 1 and a `double`. -/
example : ¬ Holds (against ieee .gt (.int (.int 8 false)) 8 0x4340000000000000) (.int (2 ^ 53 + 1)) := by
  rw [against_holds (show IsNumber (.int _) from trivial), ComparesReal, less_iff]; decide +kernel
/-- What is accepted is greater. -/
example : Less (real 4 0x4b800000) (.fin (16777218 * one)) :=
  (C106_sound ieee (.int u32) trivial 4 0x4b800000 16777218).2
    ((C106_exact ieee .gt (.int u32) trivial 4 _ _ 0x4b800001 neighbours.2).2
      (by rw [neighbours.1]; exact less_fin.2 (by decide)))
/-- 16-bit integers are compared exactly with a `float`. -/
example (R : Rounding) : Holds (against R .lt (.int u16) 4 0x47000080) (.int 32768) :=
  (C106_digits R .lt u16 4 _ _ (by decide)).2 (less_iff.2 (by decide +kernel))
example (R : Rounding) : Holds (against R .le (.int u32) 4 0x4b800001) (.int 16777217) :=
  (C106_complete R (.int u32) trivial 4 _ _).1 (.inl (by rw [neighbours.2]; exact less_fin.2 (by decide +kernel)))

example (R : Rounding) : ∃ b, (against R .lt (.int u32) 4 0x47000080).check (.int 32768) = .ok b :=
  (C106_meaning R .lt (.int u32) trivial 4 _ _).1
/-- 16777217 goes to a `float` that is at most one away. -/
example (w : Int) (h : ieee.to 4 (16777217 * one) = .fin w) : (w - 16777217 * one).natAbs ≤ (16777216 * one - 16777217 * one).natAbs :=
  C106_nearest 4 _ w _ 0x4b800000 h neighbours.1
example : ¬ (Holds (against ieee .gt (.int u32) 4 0x4b800000) (.int 16777217) ∧
    Holds (against ieee .lt (.int u32) 4 0x4b800001) (.int 16777217)) := (C106_refuses ieee u32).2.2

end S2S.Props
