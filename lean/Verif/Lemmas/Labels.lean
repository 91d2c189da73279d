import Verif.Spec.Labels
import Verif.Lemmas.Rounding
import Verif.Lemmas.WriteMain
import Verif.Lemmas.WriteSel
import Verif.Lemmas.Append
import Verif.Props.Compare
/-
Labels of any arithmetic type.
-/
namespace S2S
open Spec Compare

theorem asPred_eval {R : Rounding} {sid : String} {t : ScalarTy} {l : Label} {env : Env} {x : Int}
    (h : env sid = some (.int x)) : (l.asPred R sid t).eval env = .ok (l.matched R t x) := by
  simp [Label.asPred, Pred.eval, Env.getAll, h]

/-- The ladder picks the first case that compares equal. -/
theorem ladder_labels {R : Rounding} {sid : String} {t : ScalarTy} {env : Env} {x : Int}
    (h : env sid = some (.int x)) (ls : List Label) :
    (∃ i, Picks R t x ls i ∧ ladderIdx env (ls.map (Label.asPred R sid t)) = .ok (some i)) ∨
    ((∀ l ∈ ls, l.matched R t x = false) ∧
      ladderIdx env (ls.map (Label.asPred R sid t)) = .ok none) := by
  induction ls with
  | nil => exact .inr ⟨by simp, rfl⟩
  | cons l ls ih =>
    simp only [List.map_cons, ladderIdx, asPred_eval h]
    cases hm : l.matched R t x with
    | true =>
      exact .inl ⟨0, ⟨⟨l, rfl, hm⟩, fun j _ hj => absurd hj (by omega)⟩, rfl⟩
    | false =>
      rcases ih with ⟨i, ⟨hp, hf⟩, he⟩ | ⟨hn, he⟩
      · refine .inl ⟨i + 1, ⟨hp, ?_⟩, by rw [he]; rfl⟩
        intro j l' hj hl
        cases j with
        | zero => cases hl; exact hm
        | succ j => exact hf j l' (by omega) hl
      · exact .inr ⟨by simpa [hm] using hn, by rw [he]; rfl⟩

theorem picks_unique {R : Rounding} {t : ScalarTy} {x : Int} {ls : List Label} {i j : Nat}
    (hi : Picks R t x ls i) (hj : Picks R t x ls j) : i = j := by
  obtain ⟨⟨l, hl, hm⟩, h1⟩ := hi
  obtain ⟨⟨l', hl', hm'⟩, h2⟩ := hj
  rcases Nat.lt_trichotomy i j with h | h | h
  · rw [h2 i l h hl] at hm; cases hm
  · exact h
  · rw [h1 j l' h hl'] at hm'; cases hm'

theorem ladder_picks {R : Rounding} {sid : String} {t : ScalarTy} {env : Env} {x : Int}
    (h : env sid = some (.int x)) (ls : List Label) (i : Nat) :
    ladderIdx env (ls.map (Label.asPred R sid t)) = .ok (some i) ↔ Picks R t x ls i := by
  rcases ladder_labels (R := R) (t := t) h ls with ⟨j, hj, he⟩ | ⟨hn, he⟩
  · rw [he]
    constructor
    · rintro h; cases h; exact hj
    · intro hi; rw [picks_unique hi hj]
  · rw [he]
    constructor
    · intro h; cases h
    · rintro ⟨⟨l, hl, hm⟩, _⟩
      rw [hn l (List.mem_of_getElem? hl)] at hm; cases hm

theorem ladder_none {R : Rounding} {sid : String} {t : ScalarTy} {env : Env} {x : Int}
    (h : env sid = some (.int x)) (ls : List Label) :
    ladderIdx env (ls.map (Label.asPred R sid t)) = .ok none ↔ ∀ l ∈ ls, l.matched R t x = false := by
  rcases ladder_labels (R := R) (t := t) h ls with ⟨j, ⟨⟨l, hl, hm⟩, _⟩, he⟩ | ⟨hn, he⟩
  · rw [he]
    constructor
    · intro h; cases h
    · intro h
      rw [h l (List.mem_of_getElem? hl)] at hm; cases hm
  · exact ⟨fun _ => hn, fun _ => he⟩

theorem inRange_abs {t : ScalarTy} {x : Int} (h : t.InRange x) : x.natAbs < 2 ^ (8 * t.size) := by
  cases t with
  | bool => simp only [ScalarTy.InRange, ScalarTy.size] at *; omega
  | int b s =>
    have h256 : (2 : Nat) ^ (8 * b) = 256 ^ b := by rw [Nat.pow_mul]
    cases s <;> simp only [ScalarTy.InRange, ScalarTy.size] at * <;> rw [h256] <;> omega

/-- Where comparing rounds nothing, a label is matched by the number it is. -/
theorem matched_iff {R : Rounding} {t : ScalarTy} {x : Int} {l : Label} (hx : t.InRange x)
    (hc : Comparable t l) : l.matched R t x = true ↔ IsWhole l x := by
  cases l with
  | int lt lv =>
    rw [Label.matched, labelMatches_iff (l := (lt, lv)) hx hc, IsWhole, Label.number, Real.fin.injEq]
    have := Props.one_pos
    constructor
    · rintro rfl; rfl
    · intro h
      exact (Int.eq_of_mul_eq_mul_right (by omega) h).symm
  | float n k =>
    have h1 : x.natAbs < 2 ^ (if n = 4 then 24 else 53) :=
      Nat.lt_of_lt_of_le (inRange_abs hx) (Nat.pow_le_pow_right (by decide) hc)
    obtain ⟨y, hy⟩ := int_real h1
    rw [Label.matched, ← hy, R.conv_exact, beq_iff_eq, ← Props.same_iff, IsWhole, Label.number, hy]
    constructor
    · intro h; exact h.1.symm
    · intro h; exact ⟨h.symm, by simp⟩
  | object _ _ => exact hc.elim

theorem storedLabels_some {cfg : Cfg} {ls : List Label} {as : List (ScalarTy × Int)}
    (h : storedLabels cfg ls = some as) : as.length = ls.length ∧
      ∀ (i : Nat) (l : Label), ls[i]? = some l → ∃ a, as[i]? = some a ∧ l.stored cfg = some a := by
  induction ls generalizing as with
  | nil => cases h; simp
  | cons l ls ih =>
    rw [storedLabels] at h
    split at h
    · rename_i a as' h1 h2
      cases h
      obtain ⟨h3, h4⟩ := ih h2
      refine ⟨by simp [h3], fun i l' hl => ?_⟩
      cases i with
      | zero => cases hl; exact ⟨a, rfl, h1⟩
      | succ i => exact h4 i l' hl
    · cases h

theorem whole_tdiv (z : Int) : (z * one).tdiv one = z := by
  have := Props.one_pos
  exact Int.mul_tdiv_cancel z (by omega)

/-- A whole label is stored as the number it is. -/
theorem stored_whole {cfg : Cfg} {l : Label} {a : ScalarTy × Int} {z : Int}
    (h : l.stored cfg = some a) (hw : IsWhole l z) : a.2 = z := by
  have := Props.one_pos
  cases l with
  | int lt lv =>
    cases h
    rw [IsWhole, Label.number, Real.fin.injEq] at hw
    exact Int.eq_of_mul_eq_mul_right (by omega) hw
  | float n k =>
    rw [IsWhole, Label.number] at hw
    simp only [Label.stored, hw, Real.toInt, whole_tdiv] at h
    split at h
    · cases h; rfl
    · cases h
  | object _ _ => cases hw

end S2S
