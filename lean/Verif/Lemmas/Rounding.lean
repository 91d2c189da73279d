import Verif.Lemmas.Compare
/-
Which numbers a floating-point type has, and rounding to them.
-/
set_option exponentiation.threshold 4000

namespace S2S.Compare

/-- Digits and exponent: the finite numbers of a format are those with few enough digits
that are not too large. -/
def Digits (F : Format) (m : Nat) : Prop :=
  ∃ s e, m = s * 2 ^ e ∧ s < 2 ^ (F.mant + 1) ∧ m < 2 ^ (F.mant + (2 ^ F.exp - 2))

theorem bits_of {F : Format} {neg : Bool} {e m : Nat} (he : e + 1 < 2 ^ F.exp) (hm : m < 2 ^ F.mant) :
    F.real ((if neg then 2 ^ (F.exp + F.mant) else 0) + e * 2 ^ F.mant + m) = .fin ((if neg then -1 else 1) *
      ((if e = 0 then m else (2 ^ F.mant + m) * 2 ^ (e - 1)) * F.unit : Nat)) := by
  have hM : 0 < 2 ^ F.mant := Nat.two_pow_pos _
  have he' : e < 2 ^ F.exp := by omega
  generalize hx : (if neg then 2 ^ (F.exp + F.mant) else 0) + e * 2 ^ F.mant + m = x
  have h1 : x = m + 2 ^ F.mant * ((if neg then 2 ^ F.exp else 0) + e) := by
    rw [← hx, Nat.pow_add, Nat.mul_add, Nat.mul_comm e]
    cases neg <;> simp [Nat.mul_comm] <;> omega
  have h2 : x / 2 ^ F.mant = (if neg then 2 ^ F.exp else 0) + e := by
    rw [h1, Nat.add_mul_div_left _ _ hM, Nat.div_eq_of_lt hm, Nat.zero_add]
  have h3 : F.expField x = e := by
    rw [Format.expField, h2]
    cases neg <;> simpa using Nat.mod_eq_of_lt he'
  have h4 : F.mantField x = m := by
    rw [Format.mantField, h1, Nat.add_mul_mod_self_left, Nat.mod_eq_of_lt hm]
  have h5 : F.neg x = neg := by
    rw [Format.neg, Nat.add_comm F.exp, Nat.pow_add, ← Nat.div_div_eq_div_mul, h2]
    cases neg
    · simp [Nat.div_eq_of_lt he']
    · rw [if_pos rfl, Nat.add_comm, Nat.add_div_right _ (Nat.two_pow_pos _), Nat.div_eq_of_lt he']
      rfl
  rw [Format.real, Format.magnitude, h3, h4, h5, if_neg (by omega)]

theorem digits_bits {F : Format} (hF : 2 ≤ 2 ^ F.exp) (neg : Bool) : ∀ (e s : Nat), s < 2 ^ (F.mant + 1) →
    s * 2 ^ e < 2 ^ (F.mant + (2 ^ F.exp - 2)) →
    ∃ x, F.real x = .fin ((if neg then -1 else 1) * (s * 2 ^ e * F.unit : Nat))
  | 0, s, hs, hb => by
    rw [Nat.pow_zero, Nat.mul_one] at hb
    by_cases h : s < 2 ^ F.mant
    · refine ⟨_, (bits_of (neg := neg) (e := 0) (m := s) (by omega) h).trans ?_⟩
      simp
    · have h2 : 0 + 1 + 1 < 2 ^ F.exp := by
        rcases Nat.lt_or_ge 2 (2 ^ F.exp) with h' | h'
        · exact h'
        · have h3 : 2 ^ F.exp - 2 = 0 := by omega
          rw [h3, Nat.add_zero] at hb
          exact absurd hb h
      refine ⟨_, (bits_of (neg := neg) (e := 1) (m := s - 2 ^ F.mant) h2 ?_).trans ?_⟩
      · rw [Nat.pow_succ] at hs; omega
      · rw [if_neg (c := 1 = 0) (by decide), Nat.add_sub_cancel' (by omega)]
  | e + 1, s, hs, hb => by
    by_cases h : s < 2 ^ F.mant
    · obtain ⟨x, hx⟩ := digits_bits hF neg e (2 * s) (by rw [Nat.pow_succ]; omega)
        (by rw [Nat.pow_succ] at hb; rwa [Nat.mul_comm 2, Nat.mul_assoc, Nat.mul_comm 2])
      refine ⟨x, hx.trans ?_⟩
      rw [Nat.pow_succ, Nat.mul_comm 2, Nat.mul_assoc s, Nat.mul_comm 2]
    · have h1 : 2 ^ (F.mant + (e + 1)) < 2 ^ (F.mant + (2 ^ F.exp - 2)) := by
        refine Nat.lt_of_le_of_lt ?_ hb
        rw [Nat.pow_add]
        exact Nat.mul_le_mul_right _ (by omega)
      have h2 := (Nat.pow_lt_pow_iff_right (by decide)).1 h1
      refine ⟨_, (bits_of (neg := neg) (e := e + 2) (m := s - 2 ^ F.mant) (by omega) ?_).trans ?_⟩
      · rw [Nat.pow_succ] at hs; omega
      · rw [if_neg (c := e + 2 = 0) (by omega), Nat.add_sub_cancel' (by omega)]
        rfl

theorem steps_digits {F : Format} {x : Nat} (h : F.expField x ≠ 2 ^ F.exp - 1) : Digits F (F.magnitude x) := by
  have hm : F.mantField x < 2 ^ F.mant := Nat.mod_lt _ (Nat.two_pow_pos _)
  have he : F.expField x < 2 ^ F.exp := Nat.mod_lt _ (Nat.two_pow_pos _)
  have hp : (2 : Nat) ^ (F.mant + 1) = 2 ^ F.mant * 2 := Nat.pow_succ ..
  unfold Format.magnitude
  split
  · refine ⟨F.mantField x, 0, by simp, by omega, Nat.lt_of_lt_of_le hm ?_⟩
    exact Nat.pow_le_pow_right (by decide) (by omega)
  · refine ⟨_, _, rfl, by omega, ?_⟩
    have h1 : (2 ^ F.mant + F.mantField x) * 2 ^ (F.expField x - 1) < 2 ^ (F.mant + 1) * 2 ^ (F.expField x - 1) :=
      Nat.mul_lt_mul_of_pos_right (by omega) (Nat.two_pow_pos _)
    rw [← Nat.pow_add] at h1
    exact Nat.lt_of_lt_of_le h1 (Nat.pow_le_pow_right (by decide) (by omega))

/-- The finite numbers of a format. -/
theorem fin_iff {F : Format} (hF : 2 ≤ 2 ^ F.exp) {v : Int} :
    (∃ x, F.real x = .fin v) ↔ ∃ m, Digits F m ∧ v.natAbs = m * F.unit := by
  constructor
  · rintro ⟨x, hx⟩
    unfold Format.real at hx
    split at hx
    · split at hx <;> cases hx
    · rename_i h
      refine ⟨_, steps_digits h, ?_⟩
      cases hx
      rw [Int.natAbs_mul, Int.natAbs_natCast]
      cases F.neg x <;> simp
  · rintro ⟨m, ⟨s, e, rfl, hs, hb⟩, hv⟩
    obtain ⟨x, hx⟩ := digits_bits hF (decide (v < 0)) e s hs hb
    refine ⟨x, hx.trans ?_⟩
    rw [← hv]
    congr 1
    by_cases h : v < 0
    · rw [decide_eq_true h, if_pos rfl]; omega
    · rw [decide_eq_false h, if_neg (by simp)]; omega

/-- The infinities. -/
theorem inf_bits {F : Format} (hF : 2 ≤ 2 ^ F.exp) (neg : Bool) : ∃ x, F.real x = .inf neg := by
  have hM : 0 < 2 ^ F.mant := Nat.two_pow_pos _
  have he' : 2 ^ F.exp - 1 < 2 ^ F.exp := by omega
  refine ⟨2 ^ F.mant * ((if neg then 2 ^ F.exp else 0) + (2 ^ F.exp - 1)), ?_⟩
  generalize hx : 2 ^ F.mant * ((if neg then 2 ^ F.exp else 0) + (2 ^ F.exp - 1)) = x
  have h2 : x / 2 ^ F.mant = (if neg then 2 ^ F.exp else 0) + (2 ^ F.exp - 1) := by
    rw [← hx, Nat.mul_div_cancel_left _ hM]
  have h3 : F.expField x = 2 ^ F.exp - 1 := by
    rw [Format.expField, h2]
    cases neg <;> simp
  have h4 : F.mantField x = 0 := by
    rw [Format.mantField, ← hx, Nat.mul_mod_right]
  have h5 : F.neg x = neg := by
    rw [Format.neg, Nat.add_comm F.exp, Nat.pow_add, ← Nat.div_div_eq_div_mul, h2]
    cases neg
    · simp [Nat.div_eq_of_lt he']
    · rw [if_pos rfl, Nat.add_comm, Nat.add_div_right _ (Nat.two_pow_pos _), Nat.div_eq_of_lt he']
      rfl
  rw [Format.real, if_pos h3, if_pos h4, h5]

/-! ### Rounding to the nearest number -/

namespace Format
/-- The exponent of the last digit of a number of that magnitude, in units. -/
def last (F : Format) (m : Nat) : Nat := (m / F.unit).log2 - F.mant

/-- The distance of the numbers around it. -/
def gap (F : Format) (m : Nat) : Nat := 2 ^ F.last m * F.unit

/-- The magnitudes from there on are infinite. -/
def limit (F : Format) : Nat := 2 ^ (F.mant + (2 ^ F.exp - 2)) * F.unit

/-- Round to nearest, ties to even. -/
def nearest (F : Format) (m : Nat) : Nat :=
  let q := m / F.gap m
  let r := m % F.gap m
  if F.gap m < 2 * r ∨ (2 * r = F.gap m ∧ q % 2 = 1) then (q + 1) * F.gap m else q * F.gap m

/-- IEEE 754 roundTiesToEven. -/
def round (F : Format) (v : Int) : Real :=
  if F.nearest v.natAbs < F.limit then .fin ((if v < 0 then -1 else 1) * F.nearest v.natAbs)
  else .inf (decide (v < 0))
end Format

theorem gap_pos (F : Format) (m : Nat) : 0 < F.gap m := Nat.mul_pos (Nat.two_pow_pos _) (unit_pos F)

/-- Above the subnormal numbers, the digits before the last place are all needed. -/
theorem le_div_gap {F : Format} {m : Nat} (h : F.last m ≠ 0) : 2 ^ F.mant ≤ m / F.gap m := by
  have hu := unit_pos F
  have h0 : m / F.unit ≠ 0 := by
    intro h0
    rw [Format.last, h0] at h
    simp at h
  have h1 := Nat.log2_self_le h0
  rw [Format.gap, Nat.mul_comm, ← Nat.div_div_eq_div_mul, Nat.le_div_iff_mul_le (Nat.two_pow_pos _), ← Nat.pow_add]
  refine Nat.le_trans (Nat.pow_le_pow_right (by decide) ?_) h1
  unfold Format.last at *
  omega

theorem div_gap_lt (F : Format) (m : Nat) : m / F.gap m < 2 ^ (F.mant + 1) := by
  rw [Format.gap, Nat.mul_comm, ← Nat.div_div_eq_div_mul, Nat.div_lt_iff_lt_mul (Nat.two_pow_pos _), ← Nat.pow_add]
  refine Nat.lt_of_lt_of_le Nat.lt_log2_self (Nat.pow_le_pow_right (by decide) ?_)
  unfold Format.last
  omega

/-- A number of the format either is a multiple of the gap or below all that is rounded
with that gap. -/
theorem multiple_or_below {F : Format} {m k : Nat} (hk : Digits F k) :
    (∃ j, k * F.unit = j * F.gap m) ∨ (F.last m ≠ 0 ∧ k * F.unit < 2 ^ F.mant * F.gap m) := by
  obtain ⟨s, e, rfl, hs, -⟩ := hk
  rcases Nat.lt_or_ge e (F.last m) with h | h
  · refine .inr ⟨by omega, ?_⟩
    rw [Format.gap, ← Nat.mul_assoc, Nat.mul_lt_mul_right (unit_pos F)]
    refine Nat.lt_of_lt_of_le (Nat.mul_lt_mul_of_pos_right hs (Nat.two_pow_pos e)) ?_
    rw [← Nat.pow_add, ← Nat.pow_add]
    exact Nat.pow_le_pow_right (by decide) (by omega)
  · refine .inl ⟨s * 2 ^ (e - F.last m), ?_⟩
    rw [Format.gap, ← Nat.mul_assoc, Nat.mul_assoc s (2 ^ (e - F.last m)), ← Nat.pow_add, Nat.sub_add_cancel h]

theorem nearest_cases (F : Format) (m : Nat) :
    F.nearest m = m / F.gap m * F.gap m ∨ (F.nearest m = (m / F.gap m + 1) * F.gap m ∧ m % F.gap m ≠ 0) := by
  have := gap_pos F m
  unfold Format.nearest
  simp only
  split
  · refine .inr ⟨rfl, ?_⟩
    omega
  · exact .inl rfl

/-- No number of the format is between a magnitude and what it is rounded to. -/
theorem nearest_ge {F : Format} {m k : Nat} (hk : Digits F k) (h : k * F.unit ≤ m) : k * F.unit ≤ F.nearest m := by
  have hg := gap_pos F m
  have key : k * F.unit ≤ m / F.gap m * F.gap m := by
    rcases multiple_or_below (m := m) hk with ⟨j, hj⟩ | ⟨h0, hj⟩
    · rw [hj] at h ⊢
      exact Nat.mul_le_mul_right _ ((Nat.le_div_iff_mul_le hg).2 h)
    · exact Nat.le_trans (Nat.le_of_lt hj) (Nat.mul_le_mul_right _ (le_div_gap h0))
  rcases nearest_cases F m with h1 | ⟨h1, -⟩ <;> rw [h1]
  · exact key
  · rw [Nat.add_mul]; omega

theorem nearest_le {F : Format} {m k : Nat} (hk : Digits F k) (h : m ≤ k * F.unit) : F.nearest m ≤ k * F.unit := by
  have hg := gap_pos F m
  have hm := Nat.div_mul_le_self m (F.gap m)
  rcases nearest_cases F m with h1 | ⟨h1, h2⟩ <;> rw [h1]
  · omega
  · have hd := Nat.div_add_mod m (F.gap m)
    rw [Nat.mul_comm] at hd
    rcases multiple_or_below (m := m) hk with ⟨j, hj⟩ | ⟨h0, hj⟩
    · rw [hj] at h ⊢
      refine Nat.mul_le_mul_right _ ?_
      refine Nat.lt_of_mul_lt_mul_right (a := F.gap m) (Nat.lt_of_lt_of_le ?_ h)
      omega
    · have := Nat.mul_le_mul_right (F.gap m) (le_div_gap h0)
      omega

/-- It is nearest: no number of the format is closer. -/
theorem nearest_closest {F : Format} {m k : Nat} (hk : Digits F k) :
    (F.nearest m - m) + (m - F.nearest m) ≤ (k * F.unit - m) + (m - k * F.unit) := by
  have hg := gap_pos F m
  have hr := Nat.mod_lt m hg
  have hd := Nat.div_add_mod m (F.gap m)
  rw [Nat.mul_comm] at hd
  have h1 := nearest_ge (m := m) hk
  have h2 := nearest_le (m := m) hk
  have e1 : (m / F.gap m + 1) * F.gap m = m / F.gap m * F.gap m + F.gap m := by rw [Nat.add_mul, Nat.one_mul]
  have hn : F.nearest m = (if F.gap m < 2 * (m % F.gap m) ∨ (2 * (m % F.gap m) = F.gap m ∧ m / F.gap m % 2 = 1)
      then m / F.gap m * F.gap m + F.gap m else m / F.gap m * F.gap m) := by rw [← e1]; rfl
  have low : k * F.unit ≤ m → k * F.unit ≤ m / F.gap m * F.gap m := by
    intro h
    rcases multiple_or_below (m := m) hk with ⟨j, hj⟩ | ⟨h0, hj⟩
    · rw [hj] at h ⊢
      exact Nat.mul_le_mul_right _ ((Nat.le_div_iff_mul_le hg).2 h)
    · exact Nat.le_trans (Nat.le_of_lt hj) (Nat.mul_le_mul_right _ (le_div_gap h0))
  have high : m < k * F.unit → m / F.gap m * F.gap m + F.gap m ≤ k * F.unit := by
    intro h
    rcases multiple_or_below (m := m) hk with ⟨j, hj⟩ | ⟨h0, hj⟩
    · rw [hj] at h ⊢
      rw [← e1]
      exact Nat.mul_le_mul_right _ ((Nat.div_lt_iff_lt_mul hg).2 h)
    · have := Nat.mul_le_mul_right (F.gap m) (le_div_gap h0)
      omega
  split at hn <;> omega

theorem nearest_digits {F : Format} {m : Nat} (h : F.nearest m < F.limit) :
    ∃ k, Digits F k ∧ F.nearest m = k * F.unit := by
  have hu := unit_pos F
  have key : ∀ q, q ≤ 2 ^ (F.mant + 1) → q * F.gap m < F.limit → ∃ k, Digits F k ∧ q * F.gap m = k * F.unit := by
    intro q hq hl
    have h1 : q * F.gap m = q * 2 ^ F.last m * F.unit := by rw [Format.gap, Nat.mul_assoc]
    rw [h1, Format.limit, Nat.mul_lt_mul_right hu] at hl
    refine ⟨_, ?_, h1⟩
    rcases Nat.lt_or_eq_of_le hq with hq | hq
    · exact ⟨q, _, rfl, hq, hl⟩
    · refine ⟨2 ^ F.mant, F.last m + 1, ?_, Nat.pow_lt_pow_right (by decide) (by omega), hl⟩
      rw [hq, ← Nat.pow_add, ← Nat.pow_add]
      congr 1
      omega
  have hq := div_gap_lt F m
  rcases nearest_cases F m with h1 | ⟨h1, -⟩ <;> rw [h1] at h ⊢
  · exact key _ (by omega) h
  · exact key _ (by omega) h

theorem digits_lt_limit {F : Format} {k : Nat} (hk : Digits F k) : k * F.unit < F.limit := by
  obtain ⟨s, e, -, -, h⟩ := hk
  exact (Nat.mul_lt_mul_right (unit_pos F)).2 h

theorem formatOf_wide (n : Nat) : 2 ≤ 2 ^ (formatOf n).exp := by
  unfold formatOf
  split <;> decide

theorem cmp_not_lt {a b : Int} (h : b ≤ a) : (Real.fin a).cmp (.fin b) ≠ some .lt := by
  rw [Real.cmp, Ne, Option.some.injEq, compare_lt]; omega
theorem cmp_not_gt {a b : Int} (h : a ≤ b) : (Real.fin a).cmp (.fin b) ≠ some .gt := by
  rw [Real.cmp, Ne, Option.some.injEq, compare_gt]; omega

theorem real_natCast (n x : Nat) : real n x = (formatOf n).real x := by rw [real, Int.toNat_natCast]

/-- Rounding to nearest is one way to round. -/
def ieee : Rounding where
  to n v := (formatOf n).round v
  number n v := by
    have hF := formatOf_wide n
    unfold Format.round
    split
    · rename_i h
      refine ⟨by simp, ?_⟩
      obtain ⟨k, hk, he⟩ := nearest_digits h
      have : ∃ x, (formatOf n).real x = .fin ((if v < 0 then -1 else 1) * ((formatOf n).nearest v.natAbs : Int)) := by
        rw [fin_iff hF]
        refine ⟨k, hk, ?_⟩
        rw [← he]
        split <;> omega
      obtain ⟨x, hx⟩ := this
      exact ⟨x, (real_natCast n x).trans hx⟩
    · refine ⟨by simp, ?_⟩
      obtain ⟨x, hx⟩ := inf_bits hF (decide (v < 0))
      exact ⟨x, (real_natCast n x).trans hx⟩
  notBelow n v x k hx hk := by
    obtain ⟨m, hm, he⟩ := (fin_iff (formatOf_wide n)).1 ⟨_, hx⟩
    have hl := digits_lt_limit hm
    have h1 := nearest_ge (m := v.natAbs) hm
    have h2 := nearest_le (m := v.natAbs) hm
    unfold Format.round
    split
    · refine cmp_not_lt ?_
      split <;> omega
    · by_cases hv : v < 0
      · omega
      · simp [hv, Real.cmp]
  notAbove n v x k hx hk := by
    obtain ⟨m, hm, he⟩ := (fin_iff (formatOf_wide n)).1 ⟨_, hx⟩
    have hl := digits_lt_limit hm
    have h1 := nearest_ge (m := v.natAbs) hm
    have h2 := nearest_le (m := v.natAbs) hm
    unfold Format.round
    split
    · refine cmp_not_gt ?_
      split <;> omega
    · by_cases hv : v < 0
      · simp [hv, Real.cmp]
      · omega

/-! ### What every rounding does -/

/-- A number of the type is not changed. -/
theorem Rounding.exact (R : Rounding) {n : Nat} {v x : Int} (h : real n x = .fin v) : R.to n v = .fin v := by
  obtain ⟨h1, y, hy⟩ := R.number n v
  have h2 := R.notBelow n v x v h (Int.le_refl v)
  have h3 := R.notAbove n v x v h (Int.le_refl v)
  cases hr : R.to n v with
  | nan => exact absurd hr h1
  | inf p => rw [hr] at h2 h3; cases p <;> simp [Real.cmp] at h2 h3
  | fin w =>
    rw [hr, Real.cmp, Ne, Option.some.injEq] at h2 h3
    rw [compare_lt] at h2
    rw [compare_gt] at h3
    congr 1
    omega

theorem Rounding.conv_exact (R : Rounding) {n : Nat} {x : Int} : R.conv n (real n x) = real n x := by
  cases h : real n x with
  | fin v => exact R.exact h
  | nan => rfl
  | inf p => rfl

theorem fin_real {n : Nat} {v : Int} :
    (∃ x, real n x = .fin v) ↔ ∃ m, Digits (formatOf n) m ∧ v.natAbs = m * (formatOf n).unit := by
  rw [← fin_iff (formatOf_wide n)]
  exact ⟨fun ⟨x, h⟩ => ⟨_, h⟩, fun ⟨x, h⟩ => ⟨x, (real_natCast n x).trans h⟩⟩

/-- What a `float` can be, a `double` can be. -/
theorem widens {m n : Nat} (h : n = 4 → m = 4) {v x : Int} (hx : real m x = .fin v) : ∃ y, real n y = .fin v := by
  by_cases hm : m = 4
  · by_cases hn : n = 4
    · rw [hn, ← hm]; exact ⟨x, hx⟩
    · rw [fin_real]
      obtain ⟨k, ⟨s, e, rfl, hs, hb⟩, hv⟩ := fin_real.1 ⟨x, hx⟩
      simp only [formatOf, if_pos hm, if_neg hn] at *
      refine ⟨s * 2 ^ e * binary32.unit, ⟨s, e + 925, ?_, Nat.lt_of_lt_of_le hs (by decide), ?_⟩, ?_⟩
      · rw [show binary32.unit = 2 ^ 925 from rfl, Nat.mul_assoc, ← Nat.pow_add]
      · have : s * 2 ^ e * binary32.unit < 2 ^ (binary32.mant + (2 ^ binary32.exp - 2)) * binary32.unit :=
          Nat.mul_lt_mul_of_pos_right hb (unit_pos _)
        exact Nat.lt_of_lt_of_le this (by decide +kernel)
      · rw [hv, show binary64.unit = 1 from rfl, Nat.mul_one]
  · have hn : n ≠ 4 := fun hn => hm (h hn)
    refine ⟨x, ?_⟩
    rw [← hx, real, real, formatOf, formatOf, if_neg hn, if_neg hm]

theorem Rounding.conv_widens (R : Rounding) {m n : Nat} (h : n = 4 → m = 4) (x : Int) :
    R.conv n (real m x) = real m x := by
  cases hx : real m x with
  | fin v =>
    obtain ⟨y, hy⟩ := widens h hx
    exact R.exact hy
  | nan => rfl
  | inf p => rfl

/-- Integers with few enough digits are numbers of the type. -/
theorem int_real {n : Nat} {x : Int} (h : x.natAbs < 2 ^ (if n = 4 then 24 else 53)) :
    ∃ y, real n y = .fin (x * one) := by
  rw [fin_real]
  by_cases hn : n = 4
  · simp only [formatOf, if_pos hn] at *
    refine ⟨x.natAbs * 2 ^ 149, ⟨x.natAbs, 149, rfl, h, ?_⟩, ?_⟩
    · refine Nat.lt_of_lt_of_le (Nat.mul_lt_mul_of_pos_right h (Nat.two_pow_pos _)) (by decide +kernel)
    · rw [Int.natAbs_mul, Nat.mul_assoc]
      congr 1
  · simp only [formatOf, if_neg hn] at *
    refine ⟨x.natAbs * 2 ^ 1074, ⟨x.natAbs, 1074, rfl, h, ?_⟩, ?_⟩
    · refine Nat.lt_of_lt_of_le (Nat.mul_lt_mul_of_pos_right h (Nat.two_pow_pos _)) (by decide +kernel)
    · rw [Int.natAbs_mul, Nat.mul_assoc]
      congr 1

end S2S.Compare
