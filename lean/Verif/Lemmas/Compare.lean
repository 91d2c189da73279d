import Verif.Model.Compare
/-
Floating-point numbers by their bits, lexicographic order.
-/
namespace S2S.Compare

theorem compare_lt {a b : Int} : compare a b = .lt ↔ a < b := by
  simp only [compare, compareOfLessAndEq]
  split
  · simp_all
  · split <;> simp_all

theorem compare_eq {a b : Int} : compare a b = .eq ↔ a = b := by
  simp only [compare, compareOfLessAndEq]
  split
  · simp only [reduceCtorEq, false_iff]; omega
  · split <;> simp_all

theorem compare_gt {a b : Int} : compare a b = .gt ↔ b < a := by
  simp only [compare, compareOfLessAndEq]
  split
  · simp only [reduceCtorEq, false_iff]; omega
  · split
    · simp only [reduceCtorEq, false_iff]; omega
    · simp only [true_iff]; omega

/-- Two comparisons agree if they agree on less and on equal. -/
theorem compare_congr {a b c d : Int} (h1 : a < b ↔ c < d) (h2 : a = b ↔ c = d) : compare a b = compare c d := by
  simp only [compare, compareOfLessAndEq, h1, h2]

/-- The bits below the sign. -/
def Format.low (F : Format) (x : Nat) : Nat := x % 2 ^ (F.exp + F.mant)

theorem expField_eq (F : Format) (x : Nat) : F.expField x = F.low x / 2 ^ F.mant := by
  rw [Format.expField, Format.low, Nat.pow_add, Nat.mul_comm, Nat.mod_mul_right_div_self]

theorem mantField_eq (F : Format) (x : Nat) : F.mantField x = F.low x % 2 ^ F.mant := by
  rw [Format.mantField, Format.low, Nat.mod_mod_of_dvd]
  exact ⟨2 ^ F.exp, by rw [Nat.pow_add, Nat.mul_comm]⟩

/-- The magnitude by the bits below the sign. -/
def steps (m a : Nat) : Nat :=
  if a / 2 ^ m = 0 then a % 2 ^ m else (2 ^ m + a % 2 ^ m) * 2 ^ (a / 2 ^ m - 1)

theorem magnitude_eq (F : Format) (x : Nat) : F.magnitude x = steps F.mant (F.low x) := by
  rw [Format.magnitude, expField_eq, mantField_eq, steps]

theorem steps_lt_next (m a : Nat) : steps m a < 2 ^ m * 2 ^ (a / 2 ^ m) := by
  have hM : 0 < 2 ^ m := Nat.two_pow_pos m
  have hr := Nat.mod_lt a hM
  rw [steps]
  split
  · rename_i h; rw [h]; simpa using hr
  · rename_i h
    obtain ⟨e, he⟩ := Nat.exists_eq_succ_of_ne_zero h
    rw [he, Nat.succ_sub_one, Nat.pow_succ, ← Nat.mul_assoc, Nat.mul_right_comm]
    exact Nat.mul_lt_mul_of_pos_right (by omega) (Nat.two_pow_pos e)

theorem le_steps {m a : Nat} (h : a / 2 ^ m ≠ 0) : 2 ^ m * 2 ^ (a / 2 ^ m - 1) ≤ steps m a := by
  rw [steps, if_neg h]
  exact Nat.mul_le_mul_right _ (by omega)

theorem steps_mono {m a b : Nat} (h : a < b) : steps m a < steps m b := by
  have hd : a / 2 ^ m ≤ b / 2 ^ m := Nat.div_le_div_right (Nat.le_of_lt h)
  rcases Nat.lt_or_eq_of_le hd with hlt | heq
  · have h0 : b / 2 ^ m ≠ 0 := Nat.ne_of_gt (Nat.lt_of_le_of_lt (Nat.zero_le _) hlt)
    refine Nat.lt_of_lt_of_le (steps_lt_next m a) (Nat.le_trans ?_ (le_steps h0))
    exact Nat.mul_le_mul_left _ (Nat.pow_le_pow_right (by decide) (by omega))
  · have ha := Nat.div_add_mod a (2 ^ m)
    have hb := Nat.div_add_mod b (2 ^ m)
    have hr : a % 2 ^ m < b % 2 ^ m := by rw [heq] at ha; omega
    rw [steps, steps, heq]
    split
    · exact hr
    · exact Nat.mul_lt_mul_of_pos_right (by omega) (Nat.two_pow_pos _)

theorem steps_zero (m : Nat) : steps m 0 = 0 := by simp [steps]

theorem steps_lt_iff {m a b : Nat} : steps m a < steps m b ↔ a < b := by
  refine ⟨fun h => ?_, steps_mono⟩
  rcases Nat.lt_trichotomy a b with h1 | h1 | h1
  · exact h1
  · subst h1; omega
  · have := steps_mono (m := m) h1; omega

theorem steps_inj {m a b : Nat} : steps m a = steps m b ↔ a = b := by
  refine ⟨fun h => ?_, fun h => by rw [h]⟩
  rcases Nat.lt_trichotomy a b with h1 | h1 | h1
  · have := steps_mono (m := m) h1; omega
  · exact h1
  · have := steps_mono (m := m) h1; omega

/-- The bits as a number in sign and magnitude. -/
def Format.key (F : Format) (x : Nat) : Int := (if F.neg x then -1 else 1) * (F.low x : Int)

theorem signed_compare (m u : Nat) (hu : 0 < u) (p q : Bool) (a b : Nat) :
    compare ((if p then -1 else 1) * ((steps m a * u : Nat) : Int)) ((if q then -1 else 1) * ((steps m b * u : Nat) : Int)) =
    compare ((if p then -1 else 1) * (a : Int)) ((if q then -1 else 1) * (b : Int)) := by
  have hlt : ∀ a b, steps m a * u < steps m b * u ↔ a < b := fun a b => by
    rw [Nat.mul_lt_mul_right hu, steps_lt_iff]
  have heq : ∀ a b, steps m a * u = steps m b * u ↔ a = b := fun a b => by
    rw [Nat.mul_left_inj (Nat.pos_iff_ne_zero.1 hu), steps_inj]
  have h1 := hlt a b
  have h2 := hlt b a
  have h3 := heq a b
  have h4 := heq a 0
  have h5 := heq b 0
  have h0 : steps m 0 * u = 0 := by rw [steps_zero, Nat.zero_mul]
  rw [h0] at h4 h5
  refine compare_congr ?_ ?_ <;> cases p <;> cases q <;> simp only [if_true, Bool.false_eq_true, if_false] <;> omega

/-- Is it a NaN? -/
def Format.isNaN (F : Format) (x : Nat) : Bool :=
  F.expField x == 2 ^ F.exp - 1 && F.mantField x != 0

theorem real_nan {F : Format} {x : Nat} : F.real x = .nan ↔ F.isNaN x = true := by
  rw [Format.real, Format.isNaN]
  split
  · rename_i h
    rw [h]
    split <;> simp_all
  · simp_all

theorem unit_pos (F : Format) : 0 < F.unit := Nat.two_pow_pos _

theorem low_lt (F : Format) (x : Nat) : F.low x < 2 ^ F.exp * 2 ^ F.mant := by
  rw [← Nat.pow_add]
  exact Nat.mod_lt _ (Nat.two_pow_pos _)

/-- Infinities have the greatest bits of all that are no NaN. -/
theorem low_finite {F : Format} {x : Nat} (h : F.expField x ≠ 2 ^ F.exp - 1) :
    F.low x < (2 ^ F.exp - 1) * 2 ^ F.mant := by
  rw [expField_eq] at h
  have h1 : F.low x / 2 ^ F.mant < 2 ^ F.exp := Nat.div_lt_of_lt_mul (by rw [Nat.mul_comm]; exact low_lt F x)
  have h2 : F.low x / 2 ^ F.mant < 2 ^ F.exp - 1 := by omega
  exact (Nat.div_lt_iff_lt_mul (Nat.two_pow_pos _)).1 h2

theorem low_infinite {F : Format} {x : Nat} (h : F.expField x = 2 ^ F.exp - 1) (h0 : F.mantField x = 0) :
    F.low x = (2 ^ F.exp - 1) * 2 ^ F.mant := by
  rw [expField_eq] at h
  rw [mantField_eq] at h0
  have := Nat.div_add_mod (F.low x) (2 ^ F.mant)
  rw [h, h0, Nat.mul_comm] at this
  omega

/-- Numbers of the same format are ordered as their bits are in sign and magnitude. -/
theorem cmp_bits {F : Format} (he : 0 < F.exp) {x y : Nat} (hx : F.isNaN x = false) (hy : F.isNaN y = false) :
    (F.real x).cmp (F.real y) = some (compare (F.key x) (F.key y)) := by
  have hE : 0 < (2 ^ F.exp - 1) * 2 ^ F.mant := by
    have : 2 ^ 1 ≤ 2 ^ F.exp := Nat.pow_le_pow_right (by decide) he
    exact Nat.mul_pos (by omega) (Nat.two_pow_pos _)
  have hm : ∀ z, F.isNaN z = false → F.expField z = 2 ^ F.exp - 1 → F.mantField z = 0 := by
    intro z hz hh
    rw [Format.isNaN, hh] at hz
    simpa using hz
  unfold Format.real Format.key
  by_cases h1 : F.expField x = 2 ^ F.exp - 1 <;> by_cases h2 : F.expField y = 2 ^ F.exp - 1
  · rw [if_pos h1, if_pos (hm x hx h1), if_pos h2, if_pos (hm y hy h2), low_infinite h1 (hm x hx h1),
      low_infinite h2 (hm y hy h2)]
    cases F.neg x <;> cases F.neg y <;> simp only [Real.cmp, if_true, Bool.false_eq_true, if_false, Option.some.injEq]
    · exact (compare_eq.2 rfl).symm
    · exact (compare_gt.2 (by omega)).symm
    · exact (compare_lt.2 (by omega)).symm
    · exact (compare_eq.2 rfl).symm
  · rw [if_pos h1, if_pos (hm x hx h1), if_neg h2, low_infinite h1 (hm x hx h1)]
    have := low_finite h2
    cases F.neg x <;> cases F.neg y <;> simp only [Real.cmp, if_true, Bool.false_eq_true, if_false, Option.some.injEq]
    · exact (compare_gt.2 (by omega)).symm
    · exact (compare_gt.2 (by omega)).symm
    · exact (compare_lt.2 (by omega)).symm
    · exact (compare_lt.2 (by omega)).symm
  · rw [if_neg h1, if_pos h2, if_pos (hm y hy h2), low_infinite h2 (hm y hy h2)]
    have := low_finite h1
    cases F.neg x <;> cases F.neg y <;> simp only [Real.cmp, if_true, Bool.false_eq_true, if_false, Option.some.injEq]
    · exact (compare_lt.2 (by omega)).symm
    · exact (compare_gt.2 (by omega)).symm
    · exact (compare_lt.2 (by omega)).symm
    · exact (compare_gt.2 (by omega)).symm
  · rw [if_neg h1, if_neg h2, Real.cmp, magnitude_eq, magnitude_eq, signed_compare _ _ (unit_pos F)]

/-! ### Lexicographic order -/

theorem lex_eq_iff {f : α → α → Option Ordering} {as bs : List α} :
    lex f as bs = some .eq ↔ as.length = bs.length ∧ ∀ i (h1 : i < as.length) (h2 : i < bs.length), f as[i] bs[i] = some .eq := by
  induction as generalizing bs with
  | nil => cases bs <;> simp [lex]
  | cons a as ih =>
    cases bs with
    | nil => simp [lex]
    | cons b bs =>
      rw [lex]
      constructor
      · intro h
        split at h
        · rename_i h0
          obtain ⟨hl, hi⟩ := ih.1 h
          refine ⟨by simp [hl], fun i h1 h2 => ?_⟩
          cases i with
          | zero => exact h0
          | succ i => exact hi i (by simpa using h1) (by simpa using h2)
        · rename_i h0; exact absurd h h0
      · intro ⟨hl, hi⟩
        rw [show f a b = some .eq from hi 0 (by simp) (by simp)]
        exact ih.2 ⟨by simpa using hl, fun i h1 h2 => hi (i + 1) (by simpa using h1) (by simpa using h2)⟩

/-- What decides is the first place that is not equal. -/
theorem lex_iff {f : α → α → Option Ordering} {as bs : List α} (hl : as.length = bs.length) {r : Option Ordering}
    (hr : r ≠ some .eq) :
    lex f as bs = r ↔ ∃ i, ∃ (h1 : i < as.length) (h2 : i < bs.length), f as[i] bs[i] = r ∧
      ∀ j (h3 : j < as.length) (h4 : j < bs.length), j < i → f as[j] bs[j] = some .eq := by
  induction as generalizing bs with
  | nil =>
    cases bs with
    | nil =>
      constructor
      · intro h; exact absurd h.symm hr
      · intro ⟨i, h1, _⟩; exact absurd h1 (Nat.not_lt_zero i)
    | cons b bs => simp at hl
  | cons a as ih =>
    cases bs with
    | nil => simp at hl
    | cons b bs =>
      have hl' : as.length = bs.length := by simpa using hl
      rw [lex]
      constructor
      · intro h
        split at h
        · rename_i h0
          obtain ⟨i, h1, h2, h3, h4⟩ := (ih hl').1 h
          refine ⟨i + 1, by simpa using h1, by simpa using h2, h3, fun j h5 h6 hj => ?_⟩
          cases j with
          | zero => exact h0
          | succ j => exact h4 j (by simpa using h5) (by simpa using h6) (by omega)
        · exact ⟨0, by simp, by simp, h, fun j _ _ hj => absurd hj (Nat.not_lt_zero j)⟩
      · intro ⟨i, h1, h2, h3, h4⟩
        cases i with
        | zero =>
          simp only [List.getElem_cons_zero] at h3
          split
          · rename_i h0; exact absurd (h3.symm.trans h0) hr
          · exact h3
        | succ i =>
          have h0 : f a b = some .eq := h4 0 (by simp) (by simp) (by omega)
          rw [h0]
          exact (ih hl').2 ⟨i, by simpa using h1, by simpa using h2, h3,
            fun j h5 h6 hj => h4 (j + 1) (by simpa using h5) (by simpa using h6) (by omega)⟩

theorem equalAll_iff {f : α → α → Bool} {as bs : List α} :
    equalAll f as bs = true ↔ as.length = bs.length ∧ ∀ i (h1 : i < as.length) (h2 : i < bs.length), f as[i] bs[i] = true := by
  induction as generalizing bs with
  | nil => cases bs <;> simp [equalAll]
  | cons a as ih =>
    cases bs with
    | nil => simp [equalAll]
    | cons b bs =>
      rw [equalAll, Bool.and_eq_true, ih]
      constructor
      · intro ⟨h0, hl, hi⟩
        refine ⟨by simp [hl], fun i h1 h2 => ?_⟩
        cases i with
        | zero => exact h0
        | succ i => exact hi i (by simpa using h1) (by simpa using h2)
      · intro ⟨hl, hi⟩
        exact ⟨hi 0 (by simp) (by simp), by simpa using hl,
          fun i h1 h2 => hi (i + 1) (by simpa using h1) (by simpa using h2)⟩

/-- `==` is what `<=>` says it is. -/
theorem equal_iff_order : ∀ (t : Decl.Ty) (a b : Val), equal t a b = true ↔ order t a b = some .eq
  | .int _, a, b => by
    cases a <;> cases b <;> simp only [equal, order, Bool.false_eq_true, reduceCtorEq, beq_iff_eq, Option.some.injEq]
    exact compare_eq.symm
  | .float n, a, b => by
    cases a <;> cases b <;> simp only [equal, order, Bool.false_eq_true, reduceCtorEq, beq_iff_eq]
  | .array e n, a, b => by
    cases a <;> cases b <;> simp only [equal, order, Bool.false_eq_true, reduceCtorEq]
    rw [equalAll_iff, lex_eq_iff]
    simp only [equal_iff_order e]
  | .fixedString _, a, b => by simp [equal, order]
  | .carray _ _, a, b => by simp [equal, order]
  | .vector _, a, b => by simp [equal, order]
  | .string, a, b => by simp [equal, order]
  | .fieldList _, a, b => by simp [equal, order]
  | .other _, a, b => by simp [equal, order]
termination_by structural t => t

theorem equalTo_eq (R : Rounding) (src dst : Decl.Ty) (v k : Val) :
    equalTo R src dst v k = (orderTo R src dst v k).map (· == some .eq) := by
  unfold equalTo orderTo versus
  split <;> simp only [Option.map_some, Option.map_map, id_eq]
  · rfl
  · congr 1
    rw [Bool.eq_iff_iff, equal_iff_order, beq_iff_eq]

/-- All the functors from the order. -/
theorem call_eq (R : Rounding) (op : CmpOp) (src dst : Decl.Ty) (k v : Val) :
    call R op src dst k v = (orderTo R src dst v k).map fun r =>
      match op with
      | .eq => r == some .eq
      | .ne => !(r == some .eq)
      | .lt => r == some .lt
      | .gt => r == some .gt
      | .le => r == some .lt || r == some .eq
      | .ge => r == some .gt || r == some .eq := by
  cases op <;> simp only [call, equalTo_eq, Option.map_map] <;> rfl

end S2S.Compare
