import Verif.Lemmas.WriteSettle
import Verif.Lemmas.WriteSound
/-
Settling is idempotent and keeps a struct storable.
-/
namespace S2S
open Spec

theorem produced_settle {all : List Field} (hu : uniqueFields [] all = true)
    (hres : Resolves all) (vals : List Val) (target : String) {f : Field} (hm : f ∈ all) (v : Val) :
    produced target f (settleField all vals f v) = produced target f v := by
  cases f with
  | plain id k c =>
    cases hk : k.isFixed with
    | true =>
      have hl := lenTarget_of_fixed hk
      have : ∀ u, produced target (.plain id k c) u = none := by
        intro u; cases u <;> simp [produced, hl]
      rw [this, this]
    | false =>
      rw [settleField_plain hu hres hm hk]
      have := settleKind_size k v
      cases hv : settleKind k v <;> cases v <;> rw [hv] at this <;> simp only [Val.size?] at this <;>
        simp only [produced, reduceCtorEq] at *
      rw [Option.some.inj this]
  | maybe id k p => cases v <;> simp [produced]
  | union id d alts c => cases d <;> cases v <;> simp [settleField, produced]

theorem producers_settle {all : List Field} (hu : uniqueFields [] all = true)
    (hres : Resolves all) (vals : List Val) (target : String) (fs : List Field)
    (hsub : ∀ f ∈ fs, f ∈ all) (vs : List Val) :
    producers target fs (settleFields all vals fs vs) = producers target fs vs := by
  induction fs generalizing vs with
  | nil => simp [settleFields]
  | cons f fs ih =>
    cases vs with
    | nil => simp [settleFields]
    | cons v vs =>
      rw [settleFields, producers, producers, produced_settle hu hres vals target (hsub f (by simp)),
        ih fun g hg => hsub g (by simp [hg])]

theorem slotValue_settle {fs : List Field} (hu : uniqueFields [] fs = true)
    (hres : Resolves fs) (vs : List Val) (target : String) :
    slotValue fs (settleFields fs vs fs vs) target = slotValue fs vs target := by
  unfold slotValue
  rw [producers_settle hu hres vs target fs (fun _ h => h)]

theorem mapRecord_twice {f : List Val → List Val} (h : ∀ ws, f (f ws) = f ws) (vs : List Val) :
    (vs.map (mapRecord f)).map (mapRecord f) = vs.map (mapRecord f) := by
  rw [List.map_map]
  refine List.map_congr_left fun v _ => ?_
  cases v <;> simp [mapRecord, h]

mutual
theorem idem_kind : (k : Kind) → uniqueKind k = true → EveryKind Resolves k → ∀ v,
    settleKind k (settleKind k v) = settleKind k v
  | .num _ _, _, _, v => by cases v <;> simp [settleKind]
  | .fbuf _ _, _, _, v => by cases v <;> simp [settleKind]
  | .fstr _, _, _, v => by cases v <;> simp [settleKind]
  | .vec _ _ _, _, _, v => by cases v <;> simp [settleKind]
  | .record fs, hu, h, v => by
      rw [EveryKind] at h
      rw [uniqueKind] at hu
      cases v <;> simp only [settleKind]
      rw [idem_fields fs [] hu h.2 fs _ _ (fun id => slotValue_settle hu h.1 _ id)]
  | .arrRec fs n, hu, h, v => by
      rw [EveryKind] at h
      rw [uniqueKind] at hu
      cases v <;> simp only [settleKind]
      rw [mapRecord_twice fun ws => idem_fields fs [] hu h.2 fs _ _
        (fun id => slotValue_settle hu h.1 _ id) _]
  | .vecRec fs _ _ _, hu, h, v => by
      rw [EveryKind] at h
      rw [uniqueKind] at hu
      cases v <;> simp only [settleKind]
      rw [mapRecord_twice fun ws => idem_fields fs [] hu h.2 fs _ _
        (fun id => slotValue_settle hu h.1 _ id) _]
theorem idem_field : (f : Field) → uniqueField f = true → EveryField Resolves f →
    ∀ all vals vals', (∀ id, slotValue all vals' id = slotValue all vals id) → ∀ v,
    settleField all vals' f (settleField all vals f v) = settleField all vals f v
  | .plain id k c, hu, h, all, vals, vals', hv, v => by
      rw [EveryField] at h
      rw [uniqueField] at hu
      simp only [settleField, hv]
      by_cases hs : isSlot all id = true
      · rw [if_pos hs, if_pos hs]
      · rw [if_neg hs, if_neg hs]
        cases constOf k c with
        | none => exact idem_kind k hu h v
        | some u => rfl
  | .maybe id k p, hu, h, all, vals, vals', hv, v => by
      rw [EveryField] at h
      rw [uniqueField] at hu
      cases v <;> simp only [settleField]
      rw [idem_kind k hu h]
  | .union id d alts c, hu, h, all, vals, vals', hv, v => by
      rw [EveryField] at h
      rw [uniqueField] at hu
      cases v <;> simp only [settleField]
      rw [idem_alts alts hu h]
theorem idem_alts : (alts : List Alt) → uniqueAlts alts = true → EveryAlts Resolves alts →
    ∀ i v, settleAlts alts i (settleAlts alts i v) = settleAlts alts i v
  | [], _, _, i, v => by simp [settleAlts]
  | .mk k c :: alts, hu, h, 0, v => by
      simp only [uniqueAlts, Bool.and_eq_true] at hu
      rw [EveryAlts] at h
      simp only [settleAlts]
      exact idem_kind k hu.1 h.1 v
  | .mk k c :: alts, hu, h, i + 1, v => by
      simp only [uniqueAlts, Bool.and_eq_true] at hu
      rw [EveryAlts] at h
      simp only [settleAlts]
      exact idem_alts alts hu.2 h.2 i v
theorem idem_fields : (fs : List Field) → ∀ seen, uniqueFields seen fs = true →
    EveryFields Resolves fs → ∀ all vals vals',
    (∀ id, slotValue all vals' id = slotValue all vals id) → ∀ vs,
    settleFields all vals' fs (settleFields all vals fs vs) = settleFields all vals fs vs
  | [], _, _, _, all, vals, vals', hv, vs => by simp [settleFields]
  | f :: fs, seen, hu, h, all, vals, vals', hv, [] => by simp [settleFields]
  | f :: fs, seen, hu, h, all, vals, vals', hv, v :: vs => by
      simp only [uniqueFields, Bool.and_eq_true] at hu
      rw [EveryFields] at h
      simp only [settleFields]
      rw [idem_field f hu.1.2 h.1 all vals vals' hv, idem_fields fs _ hu.2 h.2 all vals vals' hv]
end

/-- Settling a settled struct changes nothing. -/
theorem settle_settle {fs : List Field} (hu : uniqueFields [] fs = true)
    (hres : Everywhere Resolves fs) (vs : List Val) : settle fs (settle fs vs) = settle fs vs :=
  idem_fields fs [] hu hres.2 fs _ _ (fun id => slotValue_settle hu hres.1 vs id) vs

mutual
theorem storable_kind (cfg : Cfg) : (k : Kind) → ∀ v, StorableKind cfg k v →
    StorableKind cfg k (settleKind k v)
  | .num _ _, v, h => by cases v <;> simpa [settleKind] using h
  | .fbuf _ _, v, h => by cases v <;> simpa [settleKind] using h
  | .fstr _, v, h => by cases v <;> simpa [settleKind] using h
  | .vec _ _ _, v, h => by cases v <;> simpa [settleKind] using h
  | .record fs, v, h => by
      cases v <;> simp only [StorableKind, settleKind] at h ⊢
      exact storable_fields cfg fs fs _ _ h
  | .arrRec fs n, v, h => by
      cases v <;> simp only [StorableKind, settleKind] at h ⊢
      refine ⟨by rw [List.length_map]; exact h.1, fun v hv => ?_⟩
      obtain ⟨u, hu, rfl⟩ := List.mem_map.1 hv
      obtain ⟨ws, rfl, hws⟩ := h.2 u hu
      exact ⟨_, rfl, storable_fields cfg fs fs _ _ hws⟩
  | .vecRec fs _ _ _, v, h => by
      cases v <;> simp only [StorableKind, settleKind] at h ⊢
      refine ⟨by rw [List.length_map]; exact h.1, fun v hv => ?_⟩
      obtain ⟨u, hu, rfl⟩ := List.mem_map.1 hv
      obtain ⟨ws, rfl, hws⟩ := h.2 u hu
      exact ⟨_, rfl, storable_fields cfg fs fs _ _ hws⟩
theorem storable_field (cfg : Cfg) : (f : Field) → ∀ all vals v, StorableField cfg all f v →
    StorableField cfg all f (settleField all vals f v)
  | .plain id k c, all, vals, v, h => by
      rw [StorableField] at h ⊢
      rw [settleField]
      rcases h with h | h | h
      · exact .inl h
      · exact .inr (.inl h)
      · by_cases hs : isSlot all id = true
        · exact .inl hs
        · rw [if_neg hs]
          cases hc : constOf k c with
          | none => exact .inr (.inr (storable_kind cfg k v h))
          | some u => exact .inr (.inl rfl)
  | .maybe id k p, all, vals, v, h => by
      cases v <;> simp only [StorableField, settleField] at h ⊢
      exact storable_kind cfg k _ h
  | .union id d alts c, all, vals, v, h => by
      cases v <;> simp only [StorableField, settleField] at h ⊢
      exact storable_alts cfg alts _ _ h
theorem storable_alts (cfg : Cfg) : (alts : List Alt) → ∀ i v, StorableAlts cfg alts i v →
    StorableAlts cfg alts i (settleAlts alts i v)
  | [], i, v, h => by simp [StorableAlts] at h
  | .mk k c :: alts, 0, v, h => by
      simp only [StorableAlts, settleAlts] at h ⊢
      exact storable_kind cfg k v h
  | .mk k c :: alts, i + 1, v, h => by
      simp only [StorableAlts, settleAlts] at h ⊢
      exact storable_alts cfg alts i v h
theorem storable_fields (cfg : Cfg) : (fs : List Field) → ∀ all vals vs,
    StorableFields cfg all fs vs → StorableFields cfg all fs (settleFields all vals fs vs)
  | [], all, vals, vs, h => by simpa [settleFields] using h
  | f :: fs, all, vals, [], h => by simp [StorableFields] at h
  | f :: fs, all, vals, v :: vs, h => by
      simp only [StorableFields, settleFields] at h ⊢
      exact ⟨storable_field cfg f all vals v h.1, storable_fields cfg fs all vals vs h.2⟩
end

theorem storable_settle {cfg : Cfg} {fs : List Field} {vs : List Val} (h : Storable cfg fs vs) :
    Storable cfg fs (settle fs vs) := storable_fields cfg fs fs vs vs h

mutual
theorem every_kind {P Q : List Field → Prop} (hpq : ∀ fs, P fs → Q fs) : (k : Kind) →
    EveryKind P k → EveryKind Q k
  | .record fs, h => by
      rw [EveryKind] at h ⊢; exact ⟨hpq _ h.1, every_fields hpq fs h.2⟩
  | .arrRec fs _, h => by
      rw [EveryKind] at h ⊢; exact ⟨hpq _ h.1, every_fields hpq fs h.2⟩
  | .vecRec fs _ _ _, h => by
      rw [EveryKind] at h ⊢; exact ⟨hpq _ h.1, every_fields hpq fs h.2⟩
  | .num _ _, _ => by rw [EveryKind]; trivial
  | .fbuf _ _, _ => by rw [EveryKind]; trivial
  | .fstr _, _ => by rw [EveryKind]; trivial
  | .vec _ _ _, _ => by rw [EveryKind]; trivial
theorem every_field {P Q : List Field → Prop} (hpq : ∀ fs, P fs → Q fs) : (f : Field) →
    EveryField P f → EveryField Q f
  | .plain _ k _, h => by rw [EveryField] at h ⊢; exact every_kind hpq k h
  | .maybe _ k _, h => by rw [EveryField] at h ⊢; exact every_kind hpq k h
  | .union _ _ alts _, h => by rw [EveryField] at h ⊢; exact every_alts hpq alts h
theorem every_alts {P Q : List Field → Prop} (hpq : ∀ fs, P fs → Q fs) : (alts : List Alt) →
    EveryAlts P alts → EveryAlts Q alts
  | [], _ => by rw [EveryAlts]; trivial
  | .mk k _ :: alts, h => by
      rw [EveryAlts] at h ⊢; exact ⟨every_kind hpq k h.1, every_alts hpq alts h.2⟩
theorem every_fields {P Q : List Field → Prop} (hpq : ∀ fs, P fs → Q fs) : (fs : List Field) →
    EveryFields P fs → EveryFields Q fs
  | [], _ => by rw [EveryFields]; trivial
  | f :: fs, h => by
      rw [EveryFields] at h ⊢; exact ⟨every_field hpq f h.1, every_fields hpq fs h.2⟩
end

theorem everywhere_mono {P Q : List Field → Prop} (hpq : ∀ fs, P fs → Q fs) {fs : List Field}
    (h : Everywhere P fs) : Everywhere Q fs := ⟨hpq _ h.1, every_fields hpq fs h.2⟩

end S2S
