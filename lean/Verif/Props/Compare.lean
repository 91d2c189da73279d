import Verif.Lemmas.Rounding
import Verif.Spec.Compare
import Verif.Props.Reading
import Verif.Lemmas.WriteComplete
import Verif.Lemmas.Slots
import Verif.Props.RoundTrip
/-
C88 - C91: the library's constraints over operands of any type.
-/
set_option exponentiation.threshold 4000

namespace S2S.Props
open Spec Demo Compare

/-! ## C88 -/

theorem hasEq_iff : ∀ t : Decl.Ty, (structural t && hasEq t) = true ↔
    (∃ s, innermost t = .int s) ∨ (∃ n, innermost t = .float n) ∨ ∃ n, innermost t = .fixedString n
  | .int s => by simp [structural, hasEq, innermost]
  | .float n => by simp [structural, hasEq, innermost]
  | .fixedString n => by simp [structural, hasEq, innermost]
  | .array e n => by simpa [structural, hasEq, innermost] using hasEq_iff e
  | .carray e n => by simp [structural, innermost]
  | .vector e => by simp [structural, innermost]
  | .string => by simp [structural, innermost]
  | .fieldList ds => by simp [structural, innermost]
  | .other k => by simp [structural, innermost]
termination_by structural t => t

theorem hasOrder_iff : ∀ t : Decl.Ty, (structural t && hasOrder t) = true ↔
    (∃ s, innermost t = .int s) ∨ ∃ n, innermost t = .float n
  | .int s => by simp [structural, hasOrder, innermost]
  | .float n => by simp [structural, hasOrder, innermost]
  | .fixedString n => by simp [structural, hasOrder, innermost]
  | .array e n => by simpa [structural, hasOrder, innermost] using hasOrder_iff e
  | .carray e n => by simp [structural, innermost]
  | .vector e => by simp [structural, innermost]
  | .string => by simp [structural, innermost]
  | .fieldList ds => by simp [structural, innermost]
  | .other k => by simp [structural, innermost]
termination_by structural t => t

/-- C88. `eq` and `neq`: over integers and strings, arrays of them, and arrays of
floating-point numbers; not over a floating-point number. -/
theorem C88_equality (op : CmpOp) (h : op = .eq ∨ op = .ne) (t : Decl.Ty) :
    usable (.cmp op) t = true ↔ ((∃ s, innermost t = .int s) ∨ (∃ n, innermost t = .fixedString n) ∨
      ∃ n, innermost t = .float n) ∧ ∀ n, t ≠ .float n := by
  have hf : isFloating t = false ↔ ∀ n, t ≠ .float n := by
    cases t <;> simp [isFloating]
  have := hasEq_iff t
  rw [← hf]
  rcases h with rfl | rfl <;> simp only [usable, required, needed, equalityComparable, Bool.and_eq_true,
    Bool.not_eq_true'] at this ⊢ <;> grind

/-- C88. `lt`, `gt` and `lte`: over integers, floating-point numbers and arrays of either. -/
theorem C88_order (op : CmpOp) (h : op = .lt ∨ op = .gt ∨ op = .le) (t : Decl.Ty) :
    usable (.cmp op) t = true ↔ (∃ s, innermost t = .int s) ∨ ∃ n, innermost t = .float n := by
  have := hasOrder_iff t
  rcases h with rfl | rfl | rfl <;> simp only [usable, required, needed, comparable, Bool.and_eq_true, and_assoc,
    and_self, and_true] at this ⊢ <;> exact this

/-- C88. `gte`: over integers only. -/
theorem C88_gte (t : Decl.Ty) : usable (.cmp .ge) t = true ↔ ∃ s, t = .int s := by
  cases t <;> simp [usable, required, needed, inequalityComparable, comparable, structural, hasOrder, isIntegral,
    Decl.Ty.isFixedString]

/-- C88. `any_of`: over everything `==` is there for, floating-point numbers included. -/
theorem C88_any_of (t : Decl.Ty) : usable .anyOf t = true ↔
    (∃ s, innermost t = .int s) ∨ (∃ n, innermost t = .float n) ∨ ∃ n, innermost t = .fixedString n := by
  rw [← hasEq_iff]
  simp only [usable, required, needed, Bool.and_true]

example : usable (.cmp .eq) (.array (.float 4) 3) = true := (C88_equality .eq (.inl rfl) _).2 ⟨.inr (.inr ⟨4, rfl⟩), nofun⟩
example : usable (.cmp .le) (.float 8) = true := (C88_order .le (.inr (.inr rfl)) _).2 (.inr ⟨8, rfl⟩)
/-- What docs/constraints.md 31 says `gte` is there for. -/
example : usable (.cmp .ge) (.fixedString 3) = false := by
  cases h : usable (.cmp .ge) (.fixedString 3) with
  | false => rfl
  | true => obtain ⟨s, h⟩ := (C88_gte _).1 h; cases h

/-! ### The constraints over integers are instances -/

theorem holds_eq (op : CmpOp) (a b : Int) : op.holds a b =
    match op with
    | .eq => (some (compare a b) == some Ordering.eq)
    | .ne => !(some (compare a b) == some Ordering.eq)
    | .lt => (some (compare a b) == some Ordering.lt)
    | .gt => (some (compare a b) == some Ordering.gt)
    | .le => some (compare a b) == some Ordering.lt || some (compare a b) == some Ordering.eq
    | .ge => some (compare a b) == some Ordering.gt || some (compare a b) == some Ordering.eq := by
  cases op <;> rw [Bool.eq_iff_iff] <;>
    simp only [CmpOp.holds, beq_iff_eq, bne_iff_ne, Bool.not_eq_true', beq_eq_false_iff_ne, ne_eq, Bool.or_eq_true, Option.some.injEq,
      compare_eq, compare_lt, compare_gt, decide_eq_true_eq] <;> omega

/-- C88. Over integers these are the constraints `cmp` of the model. -/
theorem C88_int (R : Rounding) (op : CmpOp) (s t : ScalarTy) (k x : Int) (u : Val) :
    (Compare.constraint R op (.int s) (.int t) (.int k) u).check (.int x) = (Constraint.cmp op t k).check (.int x) := by
  simp only [Compare.constraint, Constraint.check, call_eq, orderTo, versus, Option.map_some, id_eq, holds_eq]
  cases op <;> rfl

example : (Compare.constraint ieee .lt (.int u16) (.int u8) (.int 7) .absent).check (.int 258) = .ok true :=
  (C88_int ieee .lt u16 u8 7 258 .absent).trans (by decide)

/-- C88. So are those of `any_of`. -/
theorem C88_int_any (R : Rounding) (s t : ScalarTy) (ks : List Int) (x : Int) :
    (constraintAnyOf R (.int s) (.int t) (ks.map .int)).check (.int x) = (Constraint.anyOf t ks).check (.int x) := by
  simp only [constraintAnyOf, Constraint.check]
  have : callAnyOf R (.int s) (.int t) (ks.map .int) (.int x) = some (ks.any fun k => t.conv x == k) := by
    induction ks with
    | nil => rfl
    | cons k ks ih =>
      rw [List.map_cons, callAnyOf, List.any_cons, ih]
      simp only [equalTo, versus, Option.bind_some]
      have : (some (compare (t.conv x) k) == some Ordering.eq) = (t.conv x == k) := by
        rw [Bool.eq_iff_iff, beq_iff_eq, beq_iff_eq, Option.some.injEq, compare_eq]
      rw [this]
      cases t.conv x == k <;> rfl
  rw [this]

example : (constraintAnyOf ieee (.int u16) (.int u8) [.int 1, .int 2]).check (.int 258) = .ok true :=
  (C88_int_any ieee u16 u8 [1, 2] 258).trans (by decide)

theorem equal_eqb : ∀ (t : Decl.Ty) (s : ScalarTy), innermost t = .int s → ∀ v k : Val, IsOf t v → IsOf t k →
    equal t v k = Val.eqb v k
  | .int _, _, _, v, k, hv, hk => by
    cases v <;> simp only [IsOf] at hv
    cases k <;> simp only [IsOf] at hk
    rw [equal, Bool.eq_iff_iff, Val.eqb_iff, beq_iff_eq, Val.int.injEq]
  | .array e n, s, h, v, k, hv, hk => by
    cases v <;> simp only [IsOf] at hv
    cases k <;> simp only [IsOf] at hk
    rename_i vs ks
    rw [equal, Bool.eq_iff_iff, Val.eqb_iff, Val.seq.injEq, equalAll_iff]
    have ih := equal_eqb e s h
    constructor
    · intro ⟨hl, hi⟩
      refine List.ext_getElem hl fun i h1 h2 => ?_
      have := hi i h1 h2
      rw [ih _ _ (hv.2 _ (List.getElem_mem h1)) (hk.2 _ (List.getElem_mem h2))] at this
      exact (Val.eqb_iff _ _).1 this
    · rintro rfl
      refine ⟨rfl, fun i h1 h2 => ?_⟩
      rw [ih _ _ (hv.2 _ (List.getElem_mem h1)) (hk.2 _ (List.getElem_mem h2))]
      exact (Val.eqb_iff _ _).2 rfl
  | .float _, _, h, _, _, _, _ => by cases h
  | .fixedString _, _, h, _, _, _, _ => by cases h
  | .carray _ _, _, h, _, _, _, _ => by cases h
  | .vector _, _, h, _, _, _, _ => by cases h
  | .string, _, h, _, _, _, _ => by cases h
  | .fieldList _, _, h, _, _, _, _ => by cases h
  | .other _, _, h, _, _, _, _ => by cases h
termination_by structural t => t

/-- C88. And those of `eq` and `neq` over arrays of integers. -/
theorem C88_int_array (R : Rounding) (b : Bool) (e : Decl.Ty) (n : Nat) (s : ScalarTy) (he : innermost e = .int s) (v k u : Val)
    (hv : IsOf (.array e n) v) (hk : IsOf (.array e n) k) :
    (Compare.constraint R (if b then .eq else .ne) (.array e n) (.array e n) k u).check v =
      (Constraint.arrCmp b k).check v := by
  have h := equal_eqb (.array e n) s he v k hv hk
  cases b <;> simp [Compare.constraint, Constraint.check, call, equalTo, versus, h]

example : (Compare.constraint ieee .eq (.array (.int u8) 2) (.array (.int u8) 2) (.seq [.int 1, .int 2]) .absent).check
    (.seq [.int 1, .int 2]) = .ok true := by
  rw [show CmpOp.eq = if true then .eq else .ne from rfl, C88_int_array ieee true (.int u8) 2 u8 rfl _ _ _ (by simp [IsOf]) (by simp [IsOf])]
  rfl

/-! ## C89 -/

theorem less_iff {a b : Real} : Less a b ↔ a.cmp b = some .lt := by
  constructor
  · intro h
    cases h with
    | finite h => rw [Real.cmp, compare_lt.2 h]
    | below => rfl
    | above => rfl
    | across => rfl
  · intro h
    cases a with
    | nan => cases h
    | inf p =>
      cases b with
      | nan => cases p <;> cases h
      | inf q => cases p <;> cases q <;> first | (cases h; done) | exact .across
      | fin b => cases p <;> first | (cases h; done) | exact .below
    | fin a =>
      cases b with
      | nan => cases h
      | inf q => cases q <;> first | (cases h; done) | exact .above
      | fin b => exact .finite (compare_lt.1 (Option.some.inj h))

theorem greater_iff {a b : Real} : Less b a ↔ a.cmp b = some .gt := by
  constructor
  · intro h
    cases h with
    | finite h => rw [Real.cmp, compare_gt.2 h]
    | below => rfl
    | above => rfl
    | across => rfl
  · intro h
    cases a with
    | nan => cases h
    | inf p =>
      cases b with
      | nan => cases p <;> cases h
      | inf q => cases p <;> cases q <;> first | (cases h; done) | exact .across
      | fin b => cases p <;> first | (cases h; done) | exact .above
    | fin a =>
      cases b with
      | nan => cases h
      | inf q => cases q <;> first | (cases h; done) | exact .below
      | fin b => exact .finite (compare_gt.1 (Option.some.inj h))

theorem same_iff {a b : Real} : Same a b ↔ a.cmp b = some .eq := by
  unfold Same
  cases a with
  | nan => simp [Real.cmp]
  | inf p => cases b <;> cases p <;> first | (rename_i q; cases q <;> simp [Real.cmp]; done) | simp [Real.cmp]
  | fin a =>
    cases b with
    | nan => simp [Real.cmp]
    | inf q => cases q <;> simp [Real.cmp]
    | fin b => simp only [Real.fin.injEq, ne_eq, reduceCtorEq, not_false_eq_true, and_true, Real.cmp, Option.some.injEq, compare_eq]

/-- The comparison of a floating-point field, with an operand of the same or of a larger
floating-point type. -/
def floats (R : Rounding) (op : CmpOp) (m n : Nat) (k : Int) : Constraint :=
  Compare.constraint R op (.float m) (.float n) (.int k) (.int k)

/-- C89. Comparisons of floating-point numbers are defined for every value. -/
theorem C89_defined (R : Rounding) (op : CmpOp) (m n : Nat) (k x : Int) : ∃ b, (floats R op m n k).check (.int x) = .ok b := by
  simp only [floats, Compare.constraint, Constraint.check, call_eq, orderTo, versus, Option.map_some]
  exact ⟨_, rfl⟩

example : ∃ b, (floats ieee .lt 4 8 0x3ff8000000000000).check (.int 0x7fc00000) = .ok b := C89_defined ieee .lt 4 8 _ _

theorem holds_floats (R : Rounding) (op : CmpOp) (m n : Nat) (k x : Int) :
    Holds (floats R op m n k) (.int x) ↔ call R op (.float m) (.float n) (.int k) (.int x) = some true := by
  simp only [Holds, floats, Compare.constraint, Constraint.check]
  cases call R op (.float m) (.float n) (.int k) (.int x) <;> simp

/-- C89. `lt{k}`, `gt{k}`, `lte{k}` accept the numbers less than `k`, greater than `k`,
less than or equal to `k`. -/
theorem C89_meaning (R : Rounding) (op : CmpOp) (m n : Nat) (hw : n = 4 → m = 4) (k x : Int) :
    Holds (floats R op m n k) (.int x) ↔ ComparesReal op (real m x) (real n k) := by
  rw [holds_floats, call_eq]
  have hg : (real m x).cmp (real n k) = some .gt ↔ (real n k).cmp (real m x) = some .lt := by
    rw [← less_iff, greater_iff]
  cases op <;> simp [orderTo, versus, R.conv_widens hw, ComparesReal, less_iff, same_iff, hg]

/-- A `double` that is not less than itself. -/
example : ¬ Holds (floats ieee .lt 8 8 0x3ff8000000000000) (.int 0x3ff8000000000000) := by
  rw [C89_meaning ieee .lt 8 8 (by decide)]
  exact fun h => by
    have h' := less_iff.1 h
    revert h'; decide +kernel

theorem callAnyOf_iff (R : Rounding) (m n : Nat) (hw : n = 4 → m = 4) (ks : List Int) (x : Int) :
    ∃ b, callAnyOf R (.float m) (.float n) (ks.map .int) (.int x) = some b ∧
      (b = true ↔ ∃ k ∈ ks, (real m x).cmp (real n k) = some .eq) := by
  induction ks with
  | nil => exact ⟨false, rfl, by simp⟩
  | cons k ks ih =>
    obtain ⟨b, h1, h2⟩ := ih
    rw [List.map_cons, callAnyOf, h1]
    simp only [equalTo, versus, R.conv_widens hw, Option.bind_some, List.mem_cons, exists_eq_or_imp, ← h2]
    cases h : (real m x).cmp (real n k) == some .eq with
    | true => exact ⟨true, rfl, by simp [beq_iff_eq.1 h]⟩
    | false => exact ⟨b, rfl, by simp [beq_eq_false_iff_ne.1 h]⟩

/-- C89. `any_of{ks...}` accepts the numbers among them. -/
theorem C89_any_of (R : Rounding) (m n : Nat) (hw : n = 4 → m = 4) (ks : List Int) (x : Int) :
    Holds (constraintAnyOf R (.float m) (.float n) (ks.map .int)) (.int x) ↔
      ∃ k ∈ ks, Same (real m x) (real n k) := by
  obtain ⟨b, h1, h2⟩ := callAnyOf_iff R m n hw ks x
  simp only [Holds, constraintAnyOf, Constraint.check, h1, Except.ok.injEq, h2, same_iff]

/-- Both zeros are among 1.0 and 0.0. -/
example : Holds (constraintAnyOf ieee (.float 4) (.float 4) ([0x3f800000, 0].map .int)) (.int 0x80000000) :=
  (C89_any_of ieee 4 4 (by decide) [0x3f800000, 0] 0x80000000).2 ⟨0, by simp, by decide +kernel, by decide +kernel⟩

theorem not_less_nan {a b : Real} (h : Less a b) : a ≠ .nan ∧ b ≠ .nan := by
  cases h <;> simp

/-- C89. A NaN passes none of them; nothing passes a NaN. -/
theorem C89_nan (R : Rounding) (op : CmpOp) (hop : op ≠ .ne) (m n : Nat) (k x : Int) (h : real m x = .nan ∨ real n k = .nan) :
    ¬ Holds (floats R op m n k) (.int x) := by
  have hc : (R.conv n (real m x)).cmp (real n k) = none := by
    rcases h with h | h
    · rw [h]; rfl
    · rw [h]; cases R.conv n (real m x) <;> simp [Real.cmp]
  rw [holds_floats, call_eq]
  cases op <;> first | exact absurd rfl hop | simp [orderTo, versus, hc]

example : ¬ Holds (floats ieee .le 4 4 0x7fc00000) (.int 0x7fc00000) :=
  C89_nan ieee .le (by decide) 4 4 _ _ (.inl (by decide))

/-! ### The numbers -/

/-- The bits of a number: sign, exponent, significand. -/
def bitsAt (F : Format) (neg : Bool) (e m : Nat) : Nat :=
  (if neg then 2 ^ (F.exp + F.mant) else 0) + e * 2 ^ F.mant + m

theorem fields_bitsAt {F : Format} {neg : Bool} {e m : Nat} (he : e < 2 ^ F.exp) (hm : m < 2 ^ F.mant) :
    F.expField (bitsAt F neg e m) = e ∧ F.mantField (bitsAt F neg e m) = m ∧
      F.neg (bitsAt F neg e m) = neg := by
  have hM : 0 < 2 ^ F.mant := Nat.two_pow_pos _
  have h1 : bitsAt F neg e m = m + 2 ^ F.mant * ((if neg then 2 ^ F.exp else 0) + e) := by
    rw [bitsAt, Nat.pow_add, Nat.mul_add, Nat.mul_comm e]
    cases neg <;> simp [Nat.mul_comm] <;> omega
  have h2 : bitsAt F neg e m / 2 ^ F.mant = (if neg then 2 ^ F.exp else 0) + e := by
    rw [h1, Nat.add_mul_div_left _ _ hM, Nat.div_eq_of_lt hm, Nat.zero_add]
  refine ⟨?_, ?_, ?_⟩
  · rw [Format.expField, h2]
    cases neg
    · simpa using Nat.mod_eq_of_lt he
    · simpa using Nat.mod_eq_of_lt he
  · rw [Format.mantField, h1, Nat.add_mul_mod_self_left, Nat.mod_eq_of_lt hm]
  · rw [Format.neg, Nat.add_comm F.exp, Nat.pow_add, ← Nat.div_div_eq_div_mul, h2]
    cases neg
    · simp [Nat.div_eq_of_lt he]
    · rw [if_pos rfl, Nat.add_comm, Nat.add_div_right _ (Nat.two_pow_pos _), Nat.div_eq_of_lt he]
      rfl

theorem real_bitsAt {F : Format} {neg : Bool} {e m : Nat} (he : e + 1 < 2 ^ F.exp) (hm : m < 2 ^ F.mant) :
    F.real (bitsAt F neg e m) = .fin ((if neg then -1 else 1) *
      ((if e = 0 then m else (2 ^ F.mant + m) * 2 ^ (e - 1)) * F.unit : Nat)) := by
  obtain ⟨h1, h2, h3⟩ := fields_bitsAt (neg := neg) (show e < 2 ^ F.exp by omega) hm
  rw [Format.real, Format.magnitude, h1, h2, h3, if_neg (by omega)]

/-- C89. Which number the bits of a `float` or a `double` stand for: sign, biased exponent,
significand with its leading one, subnormal numbers without (IEEE 754). Numbers are counted
in units of `2^-1074`. -/
theorem C89_number (neg : Bool) (e m : Nat) :
    (e < 255 → m < 2 ^ 23 →
      real 4 (((if neg then 2 ^ 31 else 0) + e * 2 ^ 23 + m : Nat)) =
        .fin ((if neg then -1 else 1) * ((if e = 0 then m else (2 ^ 23 + m) * 2 ^ (e - 1)) * 2 ^ (1074 - 149) : Nat))) ∧
    (e < 2047 → m < 2 ^ 52 →
      real 8 (((if neg then 2 ^ 63 else 0) + e * 2 ^ 52 + m : Nat)) =
        .fin ((if neg then -1 else 1) * ((if e = 0 then m else (2 ^ 52 + m) * 2 ^ (e - 1)) : Nat))) := by
  refine ⟨fun he hm => ?_, fun he hm => ?_⟩
  · have := real_bitsAt (F := binary32) (neg := neg) (e := e) (m := m) (by simp only [binary32]; omega) hm
    exact this
  · have := real_bitsAt (F := binary64) (neg := neg) (e := e) (m := m) (by simp only [binary64]; omega) hm
    rw [show binary64.unit = 1 from rfl, Nat.mul_one] at this
    exact this

/-- `1.5f` is one and a half, `-0.5` is minus one half, and `bits 1` is the least positive number. -/
example : real 4 0x3fc00000 = .fin (3 * 2 ^ 1073) ∧ real 8 0xbfe0000000000000 = .fin (-(2 ^ 1073)) ∧
    real 8 1 = .fin 1 := by
  refine ⟨?_, ?_, ?_⟩
  · have := (C89_number false 127 (2 ^ 22)).1 (by decide) (by decide)
    refine Eq.trans this ?_
    decide +kernel
  · have := (C89_number true 1022 0).2 (by decide) (by decide)
    refine Eq.trans this ?_
    decide +kernel
  · exact (C89_number false 0 1).2 (by decide) (by decide)

/-! ### By the bits -/

theorem key_eq {n x : Nat} (hn : n = 4 ∨ n = 8) (hx : x < 256 ^ n) :
    (formatOf n).key x = signedBits n x ∧ ((formatOf n).isNaN x = true ↔ NaNBits n x) := by
  rcases hn with rfl | rfl
  · simp only [formatOf, if_true, binary32, Format.key, Format.neg, Format.low, Format.isNaN, Format.expField,
      Format.mantField, signedBits, unsignedBits, NaNBits, infinityBits, Bool.and_eq_true, beq_iff_eq, bne_iff_ne]
    refine ⟨?_, ?_⟩
    · by_cases h : x < 2 ^ 31
      · rw [if_neg (by omega), if_pos (by omega)]; omega
      · rw [if_pos (by omega), if_neg (by omega)]; omega
    · omega
  · simp only [formatOf, show (8 : Nat) ≠ 4 by decide, if_false, binary64, Format.key, Format.neg, Format.low, Format.isNaN, Format.expField,
      Format.mantField, signedBits, unsignedBits, NaNBits, infinityBits, Bool.and_eq_true, beq_iff_eq, bne_iff_ne]
    refine ⟨?_, ?_⟩
    · by_cases h : x < 2 ^ 63
      · rw [if_neg (by omega), if_pos (by omega)]; omega
      · rw [if_pos (by omega), if_neg (by omega)]; omega
    · omega

theorem formatOf_exp (n : Nat) : 0 < (formatOf n).exp := by
  unfold formatOf
  split <;> decide

theorem cmp_signed {n x k : Nat} (hn : n = 4 ∨ n = 8) (hx : x < 256 ^ n) (hk : k < 256 ^ n) :
    (real n x).cmp (real n k) =
      if NaNBits n x ∨ NaNBits n k then none else some (compare (signedBits n x) (signedBits n k)) := by
  obtain ⟨h1, h2⟩ := key_eq hn hx
  obtain ⟨h3, h4⟩ := key_eq hn hk
  simp only [← h1, ← h3, ← h2, ← h4, real, Int.toNat_natCast]
  cases hx' : (formatOf n).isNaN x with
  | true => simp only [true_or, if_true, real_nan.2 hx']; cases (formatOf n).real k <;> rfl
  | false =>
    cases hk' : (formatOf n).isNaN k with
    | true =>
      simp only [or_true, if_true, real_nan.2 hk']
      cases (formatOf n).real x <;> simp [Real.cmp]
    | false => simp [cmp_bits (formatOf_exp n) hx' hk']

/-- C89, by the bits on the wire: neither is a NaN, and the bits are ordered as numbers
with a sign. -/
theorem C89_lt_bits (R : Rounding) (n x k : Nat) (hn : n = 4 ∨ n = 8) (hx : x < 256 ^ n) (hk : k < 256 ^ n) :
    Holds (floats R .lt n n k) (.int x) ↔ ¬ NaNBits n x ∧ ¬ NaNBits n k ∧ signedBits n x < signedBits n k := by
  rw [C89_meaning R _ n n id, ComparesReal, less_iff, cmp_signed hn hx hk]
  split
  · rename_i h; simp only [reduceCtorEq, false_iff]; intro ⟨h1, h2, _⟩; exact h.elim h1 h2
  · rename_i h
    rw [not_or] at h
    simp only [Option.some.injEq, compare_lt, h.1, h.2, not_false_eq_true, true_and]

theorem C89_lte_bits (R : Rounding) (n x k : Nat) (hn : n = 4 ∨ n = 8) (hx : x < 256 ^ n) (hk : k < 256 ^ n) :
    Holds (floats R .le n n k) (.int x) ↔ ¬ NaNBits n x ∧ ¬ NaNBits n k ∧ signedBits n x ≤ signedBits n k := by
  rw [C89_meaning R _ n n id, ComparesReal, less_iff, same_iff, cmp_signed hn hx hk]
  split
  · rename_i h; simp only [reduceCtorEq, false_or, false_iff]; intro ⟨h1, h2, _⟩; exact h.elim h1 h2
  · rename_i h
    rw [not_or] at h
    simp only [Option.some.injEq, compare_lt, compare_eq, h.1, h.2, not_false_eq_true, true_and]
    omega

/-- C89, for a struct that was read: a constrained floating-point number in it is no NaN
and is where the constraint says. -/
theorem C89_read (R : Rounding) (cfg : Cfg) (fs : List Field) (hwf : WellFormed fs) (S : InStream) (s s' : S.State)
    (vs : List Val) (h : (structCast cfg fs).runOn S s = (.done (.ok vs), s'))
    (id : String) (m n w : Nat) (hw : n = 4 → m = 4) (op : CmpOp) (k : Int) (v : Val)
    (hm : (Field.plain id (.num (Decl.bitsOf m) w) (floats R op m n k), v) ∈ fs.zip vs) :
    ∃ x, v = .int x ∧ ComparesReal op (real m x) (real n k) ∧ (op ≠ .ne → real m x ≠ .nan) := by
  have hv := (success_on_any_stream cfg fs hwf S s s' vs h).1
  have hf := fits_zip hv.1 hm
  have ho := ok_zip hv.2.1 hm
  rw [FitsField] at hf
  rw [OkField] at ho
  cases v <;> simp only [FitsKind] at hf
  refine ⟨_, rfl, (C89_meaning R op m n hw k _).1 ho.2, fun hop hn => C89_nan R op hop m n k _ (.inl hn) ho.2⟩

/-- `basic_field<"ratio", float, 4_B, lt{1.5}>`: the operand is a `double`. -/
def ratioSchema : List Field := [.plain "ratio" (.num (Decl.bitsOf 4) 4) (floats ieee .lt 4 8 0x3ff8000000000000)]

set_option maxRecDepth 20000 in
/-- 1.25, and a NaN. -/
theorem ratio_read : (structCast le64 ratioSchema).run [0, 0, 0xa0, 0x3f] = (.done (.ok [.int 0x3fa00000]), []) := by rfl
example : (structCast le64 ratioSchema).run [0, 0, 0xc0, 0x7f] =
    (.done (.error ⟨.validationFailure, "ratio"⟩), []) := by rfl
example : real 4 0x3fa00000 ≠ .nan := by
  obtain ⟨x, hx, -, h⟩ := C89_read ieee le64 ratioSchema (by decide) listIn [0, 0, 0xa0, 0x3f] [] [.int 0x3fa00000] ratio_read
    "ratio" 4 8 4 (by decide) .lt 0x3ff8000000000000 (.int 0x3fa00000) (by simp [ratioSchema])
  cases hx
  exact h (by decide)
/-- -1.0 is less than 0.5; both zeros are the same. -/
example : Holds (floats ieee .lt 4 4 (0x3f000000 : Nat)) (.int (0xbf800000 : Nat)) :=
  (C89_lt_bits ieee 4 _ _ (.inl rfl) (by decide) (by decide)).2 (by decide)
example : Holds (floats ieee .le 8 8 (0x8000000000000000 : Nat)) (.int (0 : Nat)) :=
  (C89_lte_bits ieee 8 _ _ (.inr rfl) (by decide) (by decide)).2 (by decide)

/-! ## C90 -/

theorem alike_iff : ∀ (t : Decl.Ty) (a b : Val), Alike t a b ↔ order t a b = some .eq
  | .int _, a, b => by
    cases a <;> cases b <;> simp only [Alike, order, reduceCtorEq, Option.some.injEq, compare_eq]
  | .float n, a, b => by
    cases a <;> cases b <;> simp only [Alike, order, reduceCtorEq, same_iff]
  | .array e n, a, b => by
    cases a <;> cases b <;> simp only [Alike, order, reduceCtorEq]
    rw [lex_eq_iff]
    simp only [alike_iff e]
  | .fixedString _, a, b => by simp [Alike, order]
  | .carray _ _, a, b => by simp [Alike, order]
  | .vector _, a, b => by simp [Alike, order]
  | .string, a, b => by simp [Alike, order]
  | .fieldList _, a, b => by simp [Alike, order]
  | .other _, a, b => by simp [Alike, order]
termination_by structural t => t

theorem alike_symm : ∀ (t : Decl.Ty) (a b : Val), Alike t a b ↔ Alike t b a
  | .int _, a, b => by
    cases a <;> cases b <;> simp only [Alike]
    exact eq_comm
  | .float n, a, b => by
    cases a <;> cases b <;> simp only [Alike, Same]
    constructor <;> (rintro ⟨h1, h2⟩; exact ⟨h1.symm, h1 ▸ h2⟩)
  | .array e n, a, b => by
    cases a <;> cases b <;> simp only [Alike]
    constructor <;> (rintro ⟨h1, h2⟩; exact ⟨h1.symm, fun i h3 h4 => (alike_symm e _ _).1 (h2 i h4 h3)⟩)
  | .fixedString _, a, b => by simp [Alike]
  | .carray _ _, a, b => by simp [Alike]
  | .vector _, a, b => by simp [Alike]
  | .string, a, b => by simp [Alike]
  | .fieldList _, a, b => by simp [Alike]
  | .other _, a, b => by simp [Alike]
termination_by structural t => t

theorem lex_total {f : α → α → Option Ordering} (as bs : List α) (h : ∀ a ∈ as, ∀ b ∈ bs, ∃ r, f a b = some r) :
    ∃ r, lex f as bs = some r := by
  induction as generalizing bs with
  | nil => cases bs <;> exact ⟨_, rfl⟩
  | cons a as ih =>
    cases bs with
    | nil => exact ⟨_, rfl⟩
    | cons b bs =>
      rw [lex]
      obtain ⟨r, hr⟩ := h a (by simp) b (by simp)
      rw [hr]
      cases r with
      | eq => exact ih bs fun a ha b hb => h a (by simp [ha]) b (by simp [hb])
      | lt => exact ⟨_, rfl⟩
      | gt => exact ⟨_, rfl⟩

theorem order_total : ∀ (t : Decl.Ty) (s : ScalarTy), innermost t = .int s → ∀ a b : Val, IsOf t a → IsOf t b →
    ∃ r, order t a b = some r
  | .int _, _, _, a, b, ha, hb => by
    cases a <;> simp only [IsOf] at ha
    cases b <;> simp only [IsOf] at hb
    exact ⟨_, rfl⟩
  | .array e n, s, h, a, b, ha, hb => by
    cases a <;> simp only [IsOf] at ha
    cases b <;> simp only [IsOf] at hb
    exact lex_total _ _ fun a h1 b h2 => order_total e s h a b (ha.2 a h1) (hb.2 b h2)
  | .float _, _, h, _, _, _, _ => by cases h
  | .fixedString _, _, h, _, _, _, _ => by cases h
  | .carray _ _, _, h, _, _, _, _ => by cases h
  | .vector _, _, h, _, _, _, _ => by cases h
  | .string, _, h, _, _, _, _ => by cases h
  | .fieldList _, _, h, _, _, _, _ => by cases h
  | .other _, _, h, _, _, _, _ => by cases h
termination_by structural t => t

theorem before_iff : ∀ (t : Decl.Ty) (a b : Val), IsOf t a → IsOf t b →
    ((Before t a b ↔ order t a b = some .lt) ∧ (Before t b a ↔ order t a b = some .gt))
  | .int _, a, b, _, _ => by
    cases a <;> cases b <;> simp only [Before, order, reduceCtorEq, Option.some.injEq, compare_lt, compare_gt, and_self]
  | .float n, a, b, _, _ => by
    cases a <;> cases b <;> simp only [Before, order, reduceCtorEq, and_self]
    exact ⟨less_iff, greater_iff⟩
  | .array e n, a, b, ha, hb => by
    cases a <;> simp only [IsOf] at ha
    cases b <;> simp only [IsOf] at hb
    rename_i as bs
    have hl : as.length = bs.length := ha.1.trans hb.1.symm
    have hsym : ∀ a b, Alike e a b ↔ Alike e b a := alike_symm e
    simp only [Before, order]
    rw [lex_iff hl (by simp), lex_iff hl (by simp)]
    refine ⟨?_, ?_⟩
    · constructor
      · rintro ⟨i, h1, h2, h3, h4⟩
        exact ⟨i, h1, h2, (before_iff e _ _ (ha.2 _ (List.getElem_mem h1)) (hb.2 _ (List.getElem_mem h2))).1.1 h3,
          fun j h5 h6 hj => (alike_iff e _ _).1 (h4 j h5 h6 hj)⟩
      · rintro ⟨i, h1, h2, h3, h4⟩
        exact ⟨i, h1, h2, (before_iff e _ _ (ha.2 _ (List.getElem_mem h1)) (hb.2 _ (List.getElem_mem h2))).1.2 h3,
          fun j h5 h6 hj => (alike_iff e _ _).2 (h4 j h5 h6 hj)⟩
    · constructor
      · rintro ⟨i, h1, h2, h3, h4⟩
        exact ⟨i, h2, h1, (before_iff e _ _ (ha.2 _ (List.getElem_mem h2)) (hb.2 _ (List.getElem_mem h1))).2.1 h3,
          fun j h5 h6 hj => (alike_iff e _ _).1 ((hsym _ _).1 (h4 j h6 h5 hj))⟩
      · rintro ⟨i, h1, h2, h3, h4⟩
        exact ⟨i, h2, h1, (before_iff e _ _ (ha.2 _ (List.getElem_mem h1)) (hb.2 _ (List.getElem_mem h2))).2.2 h3,
          fun j h5 h6 hj => (hsym _ _).1 ((alike_iff e _ _).2 (h4 j h6 h5 hj))⟩
  | .fixedString _, a, b, ha, _ => by simp [IsOf] at ha
  | .carray _ _, a, b, ha, _ => by simp [IsOf] at ha
  | .vector _, a, b, ha, _ => by simp [IsOf] at ha
  | .string, a, b, ha, _ => by simp [IsOf] at ha
  | .fieldList _, a, b, ha, _ => by simp [IsOf] at ha
  | .other _, a, b, ha, _ => by simp [IsOf] at ha
termination_by structural t => t

/-- `eq{k}` and its like over a `std::array`. -/
def arrays (R : Rounding) (op : CmpOp) (e : Decl.Ty) (n : Nat) (k : Val) : Constraint :=
  Compare.constraint R op (.array e n) (.array e n) k k

/-- C90. Comparisons of arrays are defined for all values, and are lexicographic: the
first elements that are not equal decide. -/
theorem C90_meaning (R : Rounding) (op : CmpOp) (e : Decl.Ty) (n : Nat) (k v : Val) (hv : IsOf (.array e n) v)
    (hk : IsOf (.array e n) k) :
    (Holds (arrays R op e n k) v ↔ Ordered (.array e n) op v k) ∧ ∃ b, (arrays R op e n k).check v = .ok b := by
  obtain ⟨h1, h2⟩ := before_iff _ v k hv hk
  have h3 := alike_iff (.array e n) v k
  simp only [Holds, arrays, Compare.constraint, Constraint.check, call_eq, orderTo, versus, Option.map_some]
  refine ⟨?_, _, rfl⟩
  cases op <;> simp [Ordered, h1, h2, h3]

example : Holds (arrays ieee .lt (.int u8) 2 (.seq [.int 1, .int 3])) (.seq [.int 1, .int 2]) ↔
    Ordered (.array (.int u8) 2) .lt (.seq [.int 1, .int 2]) (.seq [.int 1, .int 3]) :=
  (C90_meaning ieee .lt (.int u8) 2 _ _ (by simp [IsOf]) (by simp [IsOf])).1

/-- C90. Over arrays of integers, one of less, equal and greater is true. -/
theorem C90_total (R : Rounding) (e : Decl.Ty) (n : Nat) (s : ScalarTy) (he : innermost e = .int s) (k v : Val)
    (hv : IsOf (.array e n) v) (hk : IsOf (.array e n) k) :
    (Holds (arrays R .lt e n k) v ∨ Holds (arrays R .eq e n k) v ∨ Holds (arrays R .gt e n k) v) ∧
    (Holds (arrays R .le e n k) v ↔ ¬ Holds (arrays R .gt e n k) v) := by
  have ht : ∃ r, order (.array e n) v k = some r := order_total (.array e n) s he v k hv hk
  obtain ⟨r, hr⟩ := ht
  simp only [Holds, arrays, Compare.constraint, Constraint.check, call_eq, orderTo, versus, Option.map_some, hr]
  cases r <;> simp

example : Holds (arrays ieee .le (.int u8) 2 (.seq [.int 1, .int 3])) (.seq [.int 1, .int 2]) :=
  (C90_total ieee (.int u8) 2 u8 rfl _ _ (by simp [IsOf]) (by simp [IsOf])).2.2 (fun h => by cases h)

/-- C90. An array with a NaN in it passes no `eq` and every `neq`, the operand's own
bits included. -/
theorem C90_nan (R : Rounding) (m n : Nat) (xs ks : List Int) (hx : xs.length = n) (hk : ks.length = n) (x : Int) (hm : x ∈ xs)
    (hn : real m x = .nan) :
    ¬ Holds (arrays R .eq (.float m) n (.seq (ks.map .int))) (.seq (xs.map .int)) ∧
    Holds (arrays R .ne (.float m) n (.seq (ks.map .int))) (.seq (xs.map .int)) := by
  have hi : ∀ zs : List Int, zs.length = n → IsOf (.array (.float m) n) (.seq (zs.map .int)) := by
    intro zs hz
    rw [IsOf]
    refine ⟨by simpa using hz, fun v hv => ?_⟩
    obtain ⟨z, -, rfl⟩ := List.mem_map.1 hv
    trivial
  have key : ¬ Alike (.array (.float m) n) (.seq (xs.map .int)) (.seq (ks.map .int)) := by
    rw [Alike]
    rintro ⟨h1, h2⟩
    obtain ⟨i, hi, rfl⟩ := List.getElem_of_mem hm
    have := h2 i (by simpa using hi) (by simp only [List.length_map]; omega)
    rw [List.getElem_map, List.getElem_map, Alike] at this
    exact this.2 hn
  exact ⟨fun h => key ((C90_meaning R .eq _ n _ _ (hi xs hx) (hi ks hk)).1.1 h),
    (C90_meaning R .ne _ n _ _ (hi xs hx) (hi ks hk)).1.2 key⟩

/-! ### Arrays of bytes -/

theorem byteArray_is (p : List Byte) : IsOf (.array (.int u8) p.length) (byteArray p) := by
  rw [byteArray, IsOf]
  refine ⟨by simp, fun v hv => ?_⟩
  obtain ⟨b, -, rfl⟩ := List.mem_map.1 hv
  trivial

theorem numeral_big_cons (b : Byte) (p : List Byte) : numeral .big (b :: p) = b.toNat * 256 ^ p.length + numeral .big p := by
  rw [numeral_big, numeral_big, List.reverse_cons]
  have : ∀ (q : List Byte) (c : Byte), leNat (q ++ [c]) = leNat q + c.toNat * 256 ^ q.length := by
    intro q c
    induction q with
    | nil => simp [leNat]
    | cons d q ih =>
      rw [List.cons_append, leNat, ih, leNat, List.length_cons, Nat.pow_succ]
      have : 256 * (c.toNat * 256 ^ q.length) = c.toNat * (256 ^ q.length * 256) := by
        rw [Nat.mul_comm 256, Nat.mul_assoc]
      omega
  rw [this, List.length_reverse]
  omega

theorem numeral_big_lt (p : List Byte) : numeral .big p < 256 ^ p.length := by
  rw [numeral_big, ← List.length_reverse]
  exact leNat_lt _

theorem order_bytes (p q : List Byte) (n : Nat) (h : p.length = q.length) :
    order (.array (.int u8) n) (byteArray p) (byteArray q) =
      some (compare (numeral .big p : Int) (numeral .big q : Int)) := by
  rw [byteArray, byteArray, order]
  induction p generalizing q with
  | nil => cases q with
    | nil => rfl
    | cons c q => simp at h
  | cons b p ih =>
    cases q with
    | nil => simp at h
    | cons c q =>
      have hl : p.length = q.length := by simpa using h
      have hp := numeral_big_lt p
      have hq := numeral_big_lt q
      rw [← hl] at hq
      rw [List.map_cons, List.map_cons, lex, order, numeral_big_cons, numeral_big_cons]
      rcases Nat.lt_trichotomy b.toNat c.toNat with hbc | hbc | hbc
      · have : (b.toNat + 1) * 256 ^ p.length ≤ c.toNat * 256 ^ p.length := Nat.mul_le_mul_right _ hbc
        rw [Nat.add_mul] at this
        rw [compare_lt.2 (by omega), compare_lt.2 (by rw [← hl]; omega)]
      · rw [hbc, compare_eq.2 rfl]
        simp only
        rw [ih q hl, ← hl]
        congr 1
        refine compare_congr ?_ ?_ <;> omega
      · have : (c.toNat + 1) * 256 ^ p.length ≤ b.toNat * 256 ^ p.length := Nat.mul_le_mul_right _ hbc
        rw [Nat.add_mul] at this
        rw [compare_gt.2 (by omega), compare_gt.2 (by rw [← hl]; omega)]

/-- C90. An array of bytes is compared as the number its bytes write in big endian order. -/
theorem C90_bytes (R : Rounding) (op : CmpOp) (p q : List Byte) (h : p.length = q.length) :
    Holds (arrays R op (.int u8) p.length (byteArray q)) (byteArray p) ↔
      op.holds (numeral .big p) (numeral .big q) = true := by
  simp only [Holds, arrays, Compare.constraint, Constraint.check, call_eq, orderTo, versus, Option.map_some, holds_eq]
  rw [order_bytes p q p.length h]
  cases op <;> simp

example : Holds (arrays ieee .gt (.int u8) 3 (byteArray [1, 255, 7])) (byteArray [2, 0, 0]) :=
  (C90_bytes ieee .gt [2, 0, 0] [1, 255, 7] rfl).2 (by decide)

theorem wire_bytes (o : Endian) (p : List Byte) :
    wireKind o (.fbuf (.scalar u8) p.length) (byteArray p) = p := by
  rw [byteArray, wireKind]
  induction p with
  | nil => rfl
  | cons b p ih => rw [List.map_cons, List.flatMap_cons, wireElem_u8, ih]; rfl

/-- C90, for a read: in whatever byte order, a field of bytes is accepted if the bytes
write a number in big endian order that is. -/
theorem C90_read (R : Rounding) (cfg : Cfg) (id : String) (op : CmpOp) (p q rest : List Byte) (h : p.length = q.length) :
    (structCast cfg [.plain id (.fbuf (.scalar u8) p.length) (arrays R op (.int u8) p.length (byteArray q))]).run (p ++ rest) =
        (.done (.ok [byteArray p]), rest) ↔
      op.holds (numeral .big p) (numeral .big q) = true := by
  rw [read_iff]
  · rw [← C90_bytes R op p q h]
    simp only [Valid, FitsFields, FitsField, OkFields, OkField, ShapedFields, ShapedField, wire, wireFields, wireField,
      wire_bytes, List.append_nil, and_true]
    constructor
    · exact fun hv => hv.2.1.2
    · refine fun hv => ⟨⟨by simp, fun v hm => ?_⟩, ⟨by simp [OkKind], hv⟩, by simp [ShapedKind]⟩
      obtain ⟨b, -, rfl⟩ := List.mem_map.1 hm
      have := b.toNat_lt
      rw [ElemFits]
      simp only [ScalarTy.InRange]
      omega
  · simp [WellFormed, saneFields, saneField, saneKind, uniqueFields, uniqueField, uniqueKind, earlierFields, earlierField, earlierKind, fieldDeps, kindDeps]

/-- `fixed_array_field<"version", u8, 3, lt{std::array<u8, 3>{2, 0, 0}}>`. -/
example : (structCast le64 [.plain "version" (.fbuf (.scalar u8) 3)
      (arrays ieee .lt (.int u8) 3 (byteArray [2, 0, 0]))]).run [1, 255, 7] = (.done (.ok [byteArray [1, 255, 7]]), []) :=
  (C90_read ieee le64 "version" .lt [1, 255, 7] [2, 0, 0] [] rfl).2 (by decide)
/-- 1.5, 0.25 comes before 1.5, 0.5; with a NaN in place of 1.5 none comes before the other. -/
example : Holds (arrays ieee .lt (.float 4) 2 (.seq [.int 0x3fc00000, .int 0x3f000000])) (.seq [.int 0x3fc00000, .int 0x3e800000]) := by rfl
example : ¬ Holds (arrays ieee .eq (.float 4) 1 (.seq [.int 0x7fc00000])) (.seq [.int 0x7fc00000]) :=
  (C90_nan ieee 4 1 [0x7fc00000] [0x7fc00000] rfl rfl 0x7fc00000 (by simp) (by decide)).1
/-- Elements of more than one byte are compared as numbers, not by their bytes. -/
example : Holds (arrays ieee .gt (.int u16) 1 (.seq [.int 0x00ff])) (.seq [.int 0x0100]) := by rfl

/-! ## C91 -/

/-- An integral operand on a floating-point field. -/
def truncating (R : Rounding) (op : CmpOp) (m : Nat) (t : ScalarTy) (k : Int) (u : Val) : Constraint :=
  Compare.constraint R op (.float m) (.int t) (.int k) u

theorem one_pos : 0 < one := by decide

theorem floor_iff {v z o : Int} (ho : 0 < o) : z * o ≤ v ∧ v < (z + 1) * o ↔ z = v / o := by
  rw [← Int.le_ediv_iff_mul_le ho, ← Int.ediv_lt_iff_lt_mul ho]
  omega

theorem truncates_iff {v z : Int} : Truncates (.fin v) z ↔ z = v.tdiv one := by
  have ho := one_pos
  unfold Truncates
  generalize one = o at *
  simp only [Real.fin.injEq]
  have key : (0 ≤ v → z * o ≤ v ∧ v < (z + 1) * o) ∧ (v < 0 → (z - 1) * o < v ∧ v ≤ z * o) ↔ z = v.tdiv o := by
    rcases Int.lt_or_le v 0 with h | h
    · have hn : v.tdiv o = -(-v / o) := by
        rw [← Int.tdiv_eq_ediv_of_nonneg (a := -v) (by omega), Int.neg_tdiv, Int.neg_neg]
      have hf := floor_iff (v := -v) (z := -z) ho
      have e1 : -z * o = -(z * o) := Int.neg_mul z o
      have e2 : (-z + 1) * o = -((z - 1) * o) := by rw [← Int.neg_mul]; congr 1; omega
      rw [e1, e2] at hf
      rw [hn]
      constructor
      · intro h1
        have := hf.1 ⟨by have := (h1.2 h).2; omega, by have := (h1.2 h).1; omega⟩
        omega
      · intro h1
        have := hf.2 (by omega)
        exact ⟨fun h2 => by omega, fun _ => ⟨by omega, by omega⟩⟩
    · rw [Int.tdiv_eq_ediv_of_nonneg h, ← floor_iff ho]
      exact ⟨fun h1 => h1.1 h, fun h1 => ⟨fun _ => h1, fun h2 => by omega⟩⟩
  rw [← key]
  constructor
  · rintro ⟨w, rfl, h⟩; exact h
  · exact fun h => ⟨v, rfl, h⟩

theorem toInt_iff {r : Real} {b : Nat} {s : Bool} {z : Int} :
    r.toInt (.int b s) = some z ↔ Truncates r z ∧ (ScalarTy.int b s).InRange z := by
  cases r with
  | fin v =>
    rw [truncates_iff, Real.toInt]
    split
    · rename_i h
      rw [Option.some.injEq]
      exact ⟨fun e => ⟨e.symm, e ▸ h⟩, fun e => e.1.symm⟩
    · rename_i h
      simp only [reduceCtorEq, false_iff]
      rintro ⟨rfl, h1⟩
      exact h h1
  | nan => simp [Real.toInt, Truncates]
  | inf p => simp [Real.toInt, Truncates]

theorem check_truncating (R : Rounding) (op : CmpOp) (m : Nat) (t : ScalarTy) (k x : Int) (u : Val) :
    (truncating R op m t k u).check (.int x) =
      match (real m x).toInt t with
      | some z => .ok (op.holds z k)
      | none => .error .badConversion := by
  simp only [truncating, Compare.constraint, Constraint.check, call_eq, orderTo, versus, Option.map_map]
  cases (real m x).toInt t with
  | none => rfl
  | some z =>
    simp only [Option.map_some, Function.comp, id_eq, holds_eq]
    cases op <;> rfl

/-- C91. An integral operand on a floating-point field: what is compared is the value
without its fraction. -/
theorem C91_meaning (R : Rounding) (op : CmpOp) (m b : Nat) (s : Bool) (k x : Int) (u : Val) (c : Bool) :
    (truncating R op m (.int b s) k u).check (.int x) = .ok c ↔
      ∃ z, Truncates (real m x) z ∧ (ScalarTy.int b s).InRange z ∧ c = op.holds z k := by
  rw [check_truncating]
  constructor
  · intro h
    split at h
    · rename_i z hz
      obtain ⟨h1, h2⟩ := toInt_iff.1 hz
      cases h
      exact ⟨z, h1, h2, rfl⟩
    · cases h
  · rintro ⟨z, h1, h2, rfl⟩
    rw [toInt_iff.2 ⟨h1, h2⟩]

/-- 5.75 passes `eq{5}`. -/
example : ∃ z, Truncates (real 4 0x40b80000) z ∧ i32.InRange z ∧ true = CmpOp.eq.holds z 5 :=
  (C91_meaning ieee .eq 4 4 true 5 0x40b80000 .absent true).1 (by decide +kernel)

/-- C91. It is undefined if that is no value of the operand's type. -/
theorem C91_undefined (R : Rounding) (op : CmpOp) (m b : Nat) (s : Bool) (k x : Int) (u : Val) :
    (truncating R op m (.int b s) k u).check (.int x) = .error .badConversion ↔
      ¬ ∃ z, Truncates (real m x) z ∧ (ScalarTy.int b s).InRange z := by
  rw [check_truncating]
  constructor
  · rintro h ⟨z, h1⟩
    rw [toInt_iff.2 h1] at h
    cases h
  · intro h
    split
    · rename_i z hz
      exact absurd ⟨z, toInt_iff.1 hz⟩ h
    · rfl

/-- C91. Of NaN and of infinities it always is. -/
theorem C91_nan (R : Rounding) (op : CmpOp) (m b : Nat) (s : Bool) (k x : Int) (u : Val)
    (h : ∀ v, real m x ≠ .fin v) : (truncating R op m (.int b s) k u).check (.int x) = .error .badConversion := by
  rw [C91_undefined]
  rintro ⟨z, ⟨v, hv, -⟩, -⟩
  exact h v hv

example : (truncating ieee .lt 4 i32 5 .absent).check (.int 0x7f800000) = .error .badConversion :=
  C91_nan ieee .lt 4 4 true 5 _ _ (fun v h => by
    rw [show real 4 0x7f800000 = .inf false from by decide] at h; cases h)

/-- C91. A positive `eq{k}` accepts the numbers from `k` up to below `k + 1`. -/
theorem C91_eq (R : Rounding) (m b : Nat) (s : Bool) (k x : Int) (u : Val) (hk : 0 < k) (hr : (ScalarTy.int b s).InRange k) :
    Holds (truncating R .eq m (.int b s) k u) (.int x) ↔
      ∃ v, real m x = .fin v ∧ k * one ≤ v ∧ v < (k + 1) * one := by
  have ho := one_pos
  rw [Holds, C91_meaning]
  constructor
  · rintro ⟨z, ⟨v, hv, h1, h2⟩, -, h3⟩
    have h3 := h3.symm
    rw [CmpOp.holds, beq_iff_eq] at h3
    subst h3
    refine ⟨v, hv, h1 ?_⟩
    rcases Int.lt_or_le v 0 with h | h
    · have := (h2 h).1
      have : 0 ≤ (z - 1) * one := Int.mul_nonneg (by omega) (by omega)
      omega
    · exact h
  · rintro ⟨v, hv, h1⟩
    refine ⟨k, ⟨v, hv, fun _ => h1, fun h => ?_⟩, hr, by simp [CmpOp.holds]⟩
    have : 0 ≤ k * one := Int.mul_nonneg (by omega) (by omega)
    omega

/-- C91. A `bool` operand: what is compared is whether the number is other than zero. This
is defined for every number, fractions, infinities and NaN included. -/
theorem C91_bool (R : Rounding) (op : CmpOp) (m : Nat) (k x : Int) (u : Val) (c : Bool) :
    (truncating R op m .bool k u).check (.int x) = .ok c ↔
      (real m x = .fin 0 ∧ c = op.holds 0 k) ∨ (real m x ≠ .fin 0 ∧ c = op.holds 1 k) := by
  rw [check_truncating]
  cases real m x with
  | fin v =>
    by_cases h : v = 0
    · simp [Real.toInt, h, eq_comm]
    · simp [Real.toInt, h, eq_comm]
  | nan => simp [Real.toInt, eq_comm]
  | inf p => simp [Real.toInt, eq_comm]

/-- One half is not zero: `eq{true}` accepts it. -/
example : (truncating ieee .eq 4 .bool 1 (.int 0x3f800000)).check (.int 0x3f000000) = .ok true := by decide +kernel

/-- `basic_field<"x", float, 4_B, eq{5}>`. -/
def fiveSchema : List Field :=
  [.plain "x" (.num (Decl.bitsOf 4) 4) (truncating ieee .eq 4 i32 5 (.int 0x40a00000))]

/-- C91. 5.75 is read and written again as 5. -/
theorem C91_rewrites :
    (structCast le64 fiveSchema).run [0, 0, 0xb8, 0x40] = (.done (.ok [.int 0x40b80000]), []) ∧
    (streamCast le64 fiveSchema [.int 0x40b80000]).run = (.done (.ok ()), [0, 0, 0xa0, 0x40]) :=
  ⟨by rfl, by rfl⟩

/-- C27 fails: a constraint with an integral operand converts a floating-point number from
the input, whatever it is. -/
theorem C27_fails_conversion :
    WellFormed fiveSchema ∧ (structCast le64 fiveSchema).run [0, 0, 0, 0x7f] = (.stuck .badConversion, []) :=
  ⟨by decide, by rfl⟩

/-- C91. Reading a NaN is undefined. -/
theorem C91_reads_nan : (structCast le64 fiveSchema).run [0, 0, 0xc0, 0x7f] = (.stuck .badConversion, []) := by rfl

example : Holds (truncating ieee .eq 4 i32 5 (.int 0x40a00000)) (.int 0x40b80000) :=
  (C91_eq ieee 4 4 true 5 _ _ (by decide) (by decide)).2 ⟨23 * 2 ^ 1072, by decide, by decide, by decide⟩
/-- 3e9 is no `int`. -/
example : (truncating ieee .lt 4 i32 5 .absent).check (.int 0x4f32d05e) = .error .badConversion := by
  rw [C91_undefined]
  rintro ⟨z, h1, h2⟩
  have : z = 3000000000 := by
    have h3 : real 4 0x4f32d05e = .fin (3000000000 * one) := by decide
    rw [h3, truncates_iff, Int.mul_tdiv_cancel _ (by decide)] at h1
    exact h1
  subst this
  exact absurd h2 (by decide)

end S2S.Props
