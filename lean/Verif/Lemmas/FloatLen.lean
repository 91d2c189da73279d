import Verif.Spec.FloatLen
import Verif.Lemmas.Rounding
import Verif.Props.Compare
/-
Lengths that are floating-point numbers.
-/
set_option exponentiation.threshold 4000

namespace S2S.Props
open Spec Compare

/-- How many of the least positive numbers of the format make one, as a power of two. -/
def unitsOfOne (F : Format) : Nat := 2 ^ (F.exp - 1) + F.mant - 2

theorem one_units (n : Nat) : one.natAbs = 2 ^ unitsOfOne (formatOf n) * (formatOf n).unit := by
  unfold formatOf
  split <;> decide +kernel

/-- What is left of a number of the format without its fraction is one. -/
theorem digits_whole {F : Format} {m : Nat} (j : Nat) (h : Digits F m) : Digits F (m / 2 ^ j * 2 ^ j) := by
  obtain ⟨s, e, rfl, hs, hb⟩ := h
  have hle := Nat.div_mul_le_self (s * 2 ^ e) (2 ^ j)
  rcases Nat.lt_or_ge e j with h | h
  · obtain ⟨d, rfl⟩ : ∃ d, j = e + d := ⟨j - e, by omega⟩
    have h1 : s * 2 ^ e / 2 ^ (e + d) = s / 2 ^ d := by
      rw [Nat.pow_add, Nat.mul_comm s, Nat.mul_div_mul_left _ _ (Nat.two_pow_pos _)]
    rw [h1] at hle ⊢
    exact ⟨_, _, rfl, Nat.lt_of_le_of_lt (Nat.div_le_self _ _) hs, Nat.lt_of_le_of_lt hle hb⟩
  · obtain ⟨d, rfl⟩ : ∃ d, e = j + d := ⟨e - j, by omega⟩
    have h1 : s * 2 ^ (j + d) / 2 ^ j * 2 ^ j = s * 2 ^ (j + d) := by
      rw [Nat.div_mul_cancel]
      exact ⟨s * 2 ^ d, by rw [Nat.pow_add, Nat.mul_left_comm]⟩
    rw [h1]
    exact ⟨s, _, rfl, hs, hb⟩

theorem real_fin_iff {n : Nat} {v : Int} :
    (∃ x, real n x = .fin v) ↔ ∃ m, Digits (formatOf n) m ∧ v.natAbs = m * (formatOf n).unit := by
  rw [← fin_iff (formatOf_wide n)]
  constructor
  · rintro ⟨x, hx⟩; exact ⟨x.toNat, hx⟩
  · rintro ⟨x, hx⟩; exact ⟨x, (real_natCast n x).trans hx⟩

theorem whole_number {n : Nat} {x v : Int} (h : real n x = .fin v) :
    ∃ y, real n y = .fin (v.tdiv one * one) := by
  obtain ⟨m, hm, he⟩ := real_fin_iff.1 ⟨x, h⟩
  refine real_fin_iff.2 ⟨_, digits_whole (unitsOfOne (formatOf n)) hm, ?_⟩
  have h1 : ∀ a b : Nat, a.div b = a / b := fun _ _ => rfl
  rw [Int.natAbs_mul, Int.natAbs_tdiv, he, one_units n, h1,
    Nat.mul_div_mul_right _ _ (unit_pos _), Nat.mul_assoc]

theorem hasNumber_iff {n k : Nat} : HasNumber n k ↔ Digits (formatOf n) (k * 2 ^ unitsOfOne (formatOf n)) := by
  unfold HasNumber
  rw [real_fin_iff]
  have h1 : ((k : Int) * one).natAbs = k * 2 ^ unitsOfOne (formatOf n) * (formatOf n).unit := by
    rw [Int.natAbs_mul, one_units n, Int.natAbs_natCast, Nat.mul_assoc]
  rw [h1]
  constructor
  · rintro ⟨m, hm, he⟩
    rw [Nat.eq_of_mul_eq_mul_right (unit_pos _) he]; exact hm
  · intro h; exact ⟨_, h, rfl⟩

/-- A number of the type is converted as it is. -/
theorem to_number (R : Rounding) {n : Nat} {x v : Int} (h : real n x = .fin v) : R.to n v = .fin v := by
  have h1 := R.notBelow n v x v h (Int.le_refl v)
  have h2 := R.notAbove n v x v h (Int.le_refl v)
  have h3 := (R.number n v).1
  cases hr : R.to n v with
  | nan => exact absurd hr h3
  | inf p => rw [hr] at h1 h2; cases p <;> simp [Real.cmp] at h1 h2
  | fin u =>
    rw [hr] at h1 h2
    simp only [Real.cmp, ne_eq, Option.some.injEq, compare_lt, compare_gt] at h1 h2
    rw [show u = v by omega]


theorem asLength_ok {cfg : Cfg} {bytes : Nat} {x : Int} {n : Nat} :
    asLength cfg bytes x = .ok n ↔ IsLength cfg bytes x n := by
  unfold asLength IsLength
  split
  · rename_i z hz
    obtain ⟨h1, h2⟩ := toInt_iff.1 hz
    simp only [ScalarTy.InRange] at h2
    rw [Except.ok.injEq]
    constructor
    · rintro rfl
      rw [Int.toNat_of_nonneg h2.1]
      exact ⟨h1, by omega⟩
    · rintro ⟨⟨v, hv, h3⟩, _⟩
      obtain ⟨v', hv', _⟩ := h1
      have h4 : Truncates (.fin v') n := ⟨v, by rw [← hv', hv], h3⟩
      rw [hv'] at hz
      have h5 := (toInt_iff.1 hz).1
      rw [truncates_iff] at h4 h5
      omega
  · rename_i hz
    simp only [reduceCtorEq, false_iff]
    rintro ⟨h1, h2⟩
    have := (toInt_iff (b := cfg.szBytes) (s := false)).2 ⟨h1, by simp only [ScalarTy.InRange]; omega⟩
    rw [this] at hz
    cases hz

theorem asLength_bad {cfg : Cfg} {bytes : Nat} {x : Int} (h : ∀ n, ¬ IsLength cfg bytes x n) :
    asLength cfg bytes x = .error .badConversion := by
  cases ha : asLength cfg bytes x with
  | ok n => exact absurd (asLength_ok.1 ha) (h n)
  | error w =>
    unfold asLength at ha
    split at ha
    · cases ha
    · cases ha; rfl

/-- A size is converted to a floating-point number and back exactly if that type has it. -/
theorem converts_back {R : Rounding} (C : FloatOf R) {cfg : Cfg} {bytes n : Nat} (hb : bytes = 4 ∨ bytes = 8) :
    asLength cfg bytes (C.bits bytes n) = .ok n ↔ HasNumber bytes n ∧ n < 256 ^ cfg.szBytes := by
  rw [asLength_ok]
  unfold IsLength
  rw [C.is bytes n hb]
  refine and_congr_left fun _ => ⟨?_, ?_⟩
  · intro h
    obtain ⟨v, hv, h3⟩ := h
    obtain ⟨x, hx⟩ := (R.number bytes (n * one)).2
    rw [hv] at hx
    obtain ⟨y, hy⟩ := whole_number hx
    refine ⟨y, ?_⟩
    rw [hy, ← truncates_iff.1 ⟨v, rfl, h3⟩]
  · rintro ⟨x, hx⟩
    rw [to_number R hx, truncates_iff, Int.mul_tdiv_cancel _ (Int.ne_of_gt one_pos)]

/-- Rounding a size below a power of two that the type has does not leave what `std::size_t` holds. -/
theorem stays_below {R : Rounding} (C : FloatOf R) {cfg : Cfg} {bytes n k : Nat} (hb : bytes = 4 ∨ bytes = 8)
    (hk : HasNumber bytes k) (hn : n ≤ k) (hlt : k < 256 ^ cfg.szBytes) :
    ∃ m, asLength cfg bytes (C.bits bytes n) = .ok m := by
  obtain ⟨x, hx⟩ := hk
  obtain ⟨z, hz⟩ : HasNumber bytes 0 := by
    rw [hasNumber_iff]
    exact ⟨0, 0, by simp, Nat.two_pow_pos _, by simpa using Nat.two_pow_pos _⟩
  have ho := one_pos
  have h1 := R.notAbove bytes (n * one) x _ hx (Int.mul_le_mul_of_nonneg_right (by omega) (by omega))
  have h2 := R.notBelow bytes (n * one) z _ hz (by
    exact Int.mul_le_mul_of_nonneg_right (by omega) (by omega))
  have h3 := (R.number bytes (n * one)).1
  cases hr : R.to bytes (n * one) with
  | nan => exact absurd hr h3
  | inf p => rw [hr] at h1 h2; cases p <;> simp [Real.cmp] at h1 h2
  | fin u =>
    rw [hr] at h1 h2
    simp only [Real.cmp, ne_eq, Option.some.injEq, compare_lt, compare_gt] at h1 h2
    have h4 : 0 ≤ u := by
      rw [show ((0 : Nat) : Int) * one = 0 from Int.zero_mul _] at h2; omega
    have h5 : 0 ≤ u / one := Int.ediv_nonneg h4 (by omega)
    have h6 : u / one ≤ k := by
      have := Int.ediv_le_ediv ho (show u ≤ k * one by omega)
      rwa [Int.mul_ediv_cancel _ (by omega)] at this
    refine ⟨(u / one).toNat, asLength_ok.2 ⟨?_, by omega⟩⟩
    rw [C.is bytes n hb, hr, truncates_iff, Int.tdiv_eq_ediv_of_nonneg h4]
    omega

theorem digits_small {F : Format} (j n : Nat) (h : n ≤ 2 ^ (F.mant + 1)) (hj : j + 2 < 2 ^ F.exp - 2) :
    Digits F (n * 2 ^ j) := by
  have key : n * 2 ^ j < 2 ^ (F.mant + (2 ^ F.exp - 2)) := by
    refine Nat.lt_of_le_of_lt (Nat.mul_le_mul_right _ h) ?_
    rw [← Nat.pow_add]
    exact Nat.pow_lt_pow_right (by decide) (by omega)
  rcases Nat.lt_or_eq_of_le h with h | h
  · exact ⟨n, j, rfl, h, key⟩
  · refine ⟨2 ^ F.mant, j + 1, ?_, Nat.pow_lt_pow_right (by decide) (by omega), key⟩
    rw [h, ← Nat.pow_add, ← Nat.pow_add]
    congr 1
    omega

theorem not_digits {F : Format} (j : Nat) (hm : 0 < F.mant) : ¬ Digits F ((2 ^ (F.mant + 1) + 1) * 2 ^ j) := by
  rintro ⟨s, e, he, hs, -⟩
  rcases Nat.lt_or_ge j e with h | h
  · obtain ⟨d, rfl⟩ : ∃ d, e = j + 1 + d := ⟨e - j - 1, by omega⟩
    have h1 : 2 ^ (F.mant + 1) + 1 = s * 2 ^ d * 2 := by
      refine Nat.eq_of_mul_eq_mul_right (Nat.two_pow_pos j) ?_
      rw [he, Nat.pow_add, Nat.pow_add, Nat.pow_one]
      ac_rfl
    rw [Nat.pow_succ] at h1
    omega
  · obtain ⟨d, rfl⟩ : ∃ d, j = e + d := ⟨j - e, by omega⟩
    have h1 : (2 ^ (F.mant + 1) + 1) * 2 ^ d = s := by
      refine Nat.eq_of_mul_eq_mul_right (Nat.two_pow_pos e) ?_
      rw [← he, Nat.pow_add 2 e d, Nat.mul_assoc, Nat.mul_comm (2 ^ d)]
    have h2 := Nat.two_pow_pos d
    have h3 : 2 ^ (F.mant + 1) + 1 ≤ (2 ^ (F.mant + 1) + 1) * 2 ^ d := Nat.le_mul_of_pos_right _ h2
    omega

/-- The sizes up to 2^24 are numbers of type `float`, those up to 2^53 of type `double`. -/
theorem small_sizes (n : Nat) : (n ≤ 2 ^ 24 → HasNumber 4 n) ∧ (n ≤ 2 ^ 53 → HasNumber 8 n) := by
  refine ⟨fun h => hasNumber_iff.2 (digits_small _ n h ?_), fun h => hasNumber_iff.2 (digits_small _ n h ?_)⟩
    <;> decide +kernel

/-- The next are not. -/
theorem next_size : ¬ HasNumber 4 (2 ^ 24 + 1) ∧ ¬ HasNumber 8 (2 ^ 53 + 1) := by
  rw [hasNumber_iff, hasNumber_iff]
  exact ⟨not_digits (F := binary32) _ (by decide), not_digits (F := binary64) _ (by decide)⟩

/-- Powers of two are. -/
theorem powers {bytes : Nat} (e : Nat) (he : e ≤ 64) : HasNumber bytes (2 ^ e) := by
  rw [hasNumber_iff]
  refine ⟨1, e + unitsOfOne (formatOf bytes), ?_, Nat.one_lt_two_pow (by omega), ?_⟩
  · rw [Nat.one_mul, Nat.pow_add]
  · rw [← Nat.pow_add]
    refine Nat.pow_lt_pow_right (by decide) ?_
    have : 64 + unitsOfOne (formatOf bytes) < (formatOf bytes).mant + (2 ^ (formatOf bytes).exp - 2) := by
      unfold formatOf
      split <;> decide +kernel
    omega

end S2S.Props
