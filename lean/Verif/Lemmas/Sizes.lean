import Verif.Spec.Sizes
import Verif.Lemmas.ReadPrim
/-
The length of an encoding is within the bounds the schema gives.
-/
namespace S2S
open Spec

theorem flatMap_between (W : Val → List Byte) (lo hi : Nat) (vs : List Val)
    (h : ∀ v ∈ vs, lo ≤ (W v).length ∧ (W v).length ≤ hi) :
    vs.length * lo ≤ (vs.flatMap W).length ∧ (vs.flatMap W).length ≤ vs.length * hi := by
  induction vs with
  | nil => simp
  | cons v vs ih =>
    have h1 := h v (by simp)
    have h2 := ih fun w hw => h w (by simp [hw])
    simp only [List.flatMap_cons, List.length_append, List.length_cons, Nat.add_mul, Nat.one_mul]
    omega

theorem count_le_maxCount {cfg : Cfg} {b : Option Nat} {size n : Nat} (hs : 0 < size)
    (h : StorageFits cfg b size n) : n ≤ maxCount cfg b size := by
  unfold maxCount
  rw [Nat.le_div_iff_mul_le hs]
  exact Nat.le_min.2 ⟨h.1, h.2⟩

theorem minAlts_cons_le (k : Kind) (c : Constraint) (alts : List Alt) :
    minAlts (.mk k c :: alts) ≤ minKind k := by
  cases alts with
  | nil => simp [minAlts]
  | cons b alts => rw [minAlts]; exact Nat.min_le_left _ _

theorem minAlts_cons_le' (k : Kind) (c : Constraint) (alts : List Alt) (h : alts ≠ []) :
    minAlts (.mk k c :: alts) ≤ minAlts alts := by
  cases alts with
  | nil => exact absurd rfl h
  | cons b alts => rw [minAlts]; exact Nat.min_le_right _ _

mutual
theorem wireKind_between (cfg : Cfg) (o : Endian) : (k : Kind) → saneKind k = true → ∀ v, FitsKind cfg k v →
    minKind k ≤ (wireKind o k v).length ∧ (wireKind o k v).length ≤ maxKind cfg k
  | .num t w, _, v, h => by
      cases v <;> simp only [FitsKind] at h
      simp [wireKind, minKind, maxKind]
  | .fbuf e n, _, v, h => by
      cases v <;> simp only [FitsKind] at h
      rename_i vs
      rw [wireKind, flatMap_length _ e.size _ fun v hv => wireElem_length o e v (h.2 v hv), h.1]
      simp [minKind, maxKind]
  | .fstr n, _, v, h => by
      cases v <;> simp only [FitsKind] at h
      rename_i vs
      rw [wireKind, flatMap_length _ 1 _ fun v hv => wireElem_length o (.scalar u8) v (h.2 v hv), h.1]
      simp [minKind, maxKind]
  | .vec e len b, hs, v, h => by
      cases v <;> simp only [FitsKind] at h
      rename_i vs
      rw [wireKind, flatMap_length _ e.size _ fun v hv => wireElem_length o e v (h.2 v hv)]
      simp only [saneKind, decide_eq_true_eq] at hs
      refine ⟨by simp [minKind], ?_⟩
      rw [maxKind]
      exact Nat.mul_le_mul_right _ (count_le_maxCount hs h.1)
  | .record fs, hs, v, h => by
      cases v <;> simp only [FitsKind] at h
      rw [saneKind] at hs
      rw [wireKind, minKind, maxKind]; exact wireFields_between cfg o fs hs _ h
  | .arrRec fs n, hs, v, h => by
      cases v <;> simp only [FitsKind] at h
      rename_i vs
      rw [saneKind] at hs
      rw [wireKind, minKind, maxKind, ← h.1]
      refine flatMap_between _ _ _ _ fun v hv => ?_
      obtain ⟨ws, rfl, hw⟩ := h.2 v hv
      exact wireFields_between cfg o fs hs _ hw
  | .vecRec fs len b sz, hs, v, h => by
      cases v <;> simp only [FitsKind] at h
      rename_i vs
      simp only [saneKind, Bool.and_eq_true, decide_eq_true_eq] at hs
      refine ⟨by simp [minKind], ?_⟩
      rw [wireKind, maxKind]
      refine Nat.le_trans (flatMap_between _ (minFields fs) (maxFields cfg fs) _ fun v hv => ?_).2
        (Nat.mul_le_mul_right _ (count_le_maxCount hs.1 h.1))
      obtain ⟨ws, rfl, hw⟩ := h.2 v hv
      exact wireFields_between cfg o fs hs.2 _ hw
  termination_by structural k => k
theorem wireField_between (cfg : Cfg) (o : Endian) : (f : Field) → saneField f = true → ∀ v, FitsField cfg f v →
    minField f ≤ (wireField o f v).length ∧ (wireField o f v).length ≤ maxField cfg f
  | .plain _ k _, hs, v, h => by
      rw [FitsField] at h; rw [saneField] at hs
      rw [wireField, minField, maxField]; exact wireKind_between cfg o k hs v h
  | .maybe _ k _, hs, v, h => by
      rw [saneField] at hs
      cases v <;> simp only [FitsField] at h
      · simp [wireField, minField]
      · rw [wireField, minField, maxField]
        exact ⟨Nat.zero_le _, (wireKind_between cfg o k hs _ h).2⟩
  | .union _ d alts _, hs, v, h => by
      simp only [saneField, Bool.and_eq_true] at hs
      cases v <;> simp only [FitsField] at h
      rw [wireField, minField, maxField]; exact wireAlts_between cfg o alts hs.2 _ _ h
  termination_by structural f => f
theorem wireAlts_between (cfg : Cfg) (o : Endian) : (alts : List Alt) → saneAlts alts = true → ∀ i v,
    FitsAlts cfg alts i v →
    minAlts alts ≤ (wireAlts o alts i v).length ∧ (wireAlts o alts i v).length ≤ maxAlts cfg alts
  | [], _, i, v, h => by simp [FitsAlts] at h
  | .mk k c :: alts, hs, 0, v, h => by
      simp only [saneAlts, Bool.and_eq_true] at hs
      rw [FitsAlts] at h
      rw [wireAlts, maxAlts]
      have := wireKind_between cfg o k hs.1 v h
      exact ⟨Nat.le_trans (minAlts_cons_le k c alts) this.1, Nat.le_trans this.2 (Nat.le_max_left _ _)⟩
  | .mk k c :: alts, hs, i + 1, v, h => by
      simp only [saneAlts, Bool.and_eq_true] at hs
      rw [FitsAlts] at h
      rw [wireAlts, maxAlts]
      have := wireAlts_between cfg o alts hs.2 i v h
      refine ⟨Nat.le_trans (minAlts_cons_le' k c alts ?_) this.1, Nat.le_trans this.2 (Nat.le_max_right _ _)⟩
      rintro rfl
      simp [FitsAlts] at h
  termination_by structural alts => alts
theorem wireFields_between (cfg : Cfg) (o : Endian) : (fs : List Field) → saneFields fs = true → ∀ vs,
    FitsFields cfg fs vs →
    minFields fs ≤ (wireFields o fs vs).length ∧ (wireFields o fs vs).length ≤ maxFields cfg fs
  | [], _, [], _ => by simp [wireFields, minFields]
  | [], _, _ :: _, h => by simp [FitsFields] at h
  | _ :: _, _, [], h => by simp [FitsFields] at h
  | f :: fs, hs, v :: vs, h => by
      simp only [saneFields, Bool.and_eq_true] at hs
      rw [FitsFields] at h
      have h1 := wireField_between cfg o f hs.1 v h.1
      have h2 := wireFields_between cfg o fs hs.2 vs h.2
      simp only [wireFields, minFields, maxFields, List.length_append]
      omega
  termination_by structural fs => fs
end

end S2S
