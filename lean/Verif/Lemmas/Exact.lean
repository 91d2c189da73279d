import Verif.Lemmas.WriteComplete
import Verif.Spec.Settle
/-
A struct that fits is storable.
-/
namespace S2S
open Spec

mutual
theorem storableKind_of_fits (cfg : Cfg) : (k : Kind) → ∀ v, FitsKind cfg k v → StorableKind cfg k v
  | .num _ _, v, h => by rw [StorableKind]; exact h
  | .fbuf _ _, v, h => by rw [StorableKind]; exact h
  | .fstr _, v, h => by rw [StorableKind]; exact h
  | .vec _ _ _, v, h => by rw [StorableKind]; exact h
  | .record fs, v, h => by
      cases v <;> simp only [FitsKind] at h
      rw [StorableKind]; exact storableFields_of_fits cfg fs fs _ h
  | .arrRec fs n, v, h => by
      cases v <;> simp only [FitsKind] at h
      rw [StorableKind]
      refine ⟨h.1, fun v hv => ?_⟩
      obtain ⟨ws, he, hw⟩ := h.2 v hv
      exact ⟨ws, he, storableFields_of_fits cfg fs fs _ hw⟩
  | .vecRec fs len b sz, v, h => by
      cases v <;> simp only [FitsKind] at h
      rw [StorableKind]
      refine ⟨h.1, fun v hv => ?_⟩
      obtain ⟨ws, he, hw⟩ := h.2 v hv
      exact ⟨ws, he, storableFields_of_fits cfg fs fs _ hw⟩
  termination_by structural k => k
theorem storableField_of_fits (cfg : Cfg) : (f : Field) → ∀ all v, FitsField cfg f v →
    StorableField cfg all f v
  | .plain _ k _, all, v, h => by
      rw [FitsField] at h
      rw [StorableField]; exact .inr (.inr (storableKind_of_fits cfg k v h))
  | .maybe _ k _, all, v, h => by
      cases v <;> simp only [FitsField] at h
      · rw [StorableField]; trivial
      · rw [StorableField]; exact storableKind_of_fits cfg k _ h
  | .union _ _ alts _, all, v, h => by
      cases v <;> simp only [FitsField] at h
      rw [StorableField]; exact storableAlts_of_fits cfg alts _ _ h
  termination_by structural f => f
theorem storableAlts_of_fits (cfg : Cfg) : (alts : List Alt) → ∀ i v, FitsAlts cfg alts i v →
    StorableAlts cfg alts i v
  | [], i, v, h => by simp [FitsAlts] at h
  | .mk k c :: alts, 0, v, h => by
      rw [FitsAlts] at h; rw [StorableAlts]; exact storableKind_of_fits cfg k v h
  | .mk k c :: alts, i + 1, v, h => by
      rw [FitsAlts] at h; rw [StorableAlts]; exact storableAlts_of_fits cfg alts i v h
  termination_by structural alts => alts
theorem storableFields_of_fits (cfg : Cfg) : (fs : List Field) → ∀ all vs, FitsFields cfg fs vs →
    StorableFields cfg all fs vs
  | [], all, [], _ => by rw [StorableFields]; trivial
  | [], all, _ :: _, h => by simp [FitsFields] at h
  | _ :: _, all, [], h => by simp [FitsFields] at h
  | f :: fs, all, v :: vs, h => by
      rw [FitsFields] at h; rw [StorableFields]
      exact ⟨storableField_of_fits cfg f all v h.1, storableFields_of_fits cfg fs all vs h.2⟩
  termination_by structural fs => fs
end

theorem storable_of_fits {cfg : Cfg} {fs : List Field} {vs : List Val} (h : FitsFields cfg fs vs) :
    Storable cfg fs vs := storableFields_of_fits cfg fs fs vs h

end S2S
