import Verif.Lemmas.Accept
/-
`WellFormed` in terms of positions, list by list.
-/
namespace S2S.Spec

theorem at_cons_zero {f g : Field} {fs : List Field} (h : At (f :: fs) 0 g) : g = f := by
  simpa [At, eq_comm] using h

theorem declaredBefore_cons {f : Field} {fs : List Field} {i : Nat} {d : String} :
    DeclaredBefore (f :: fs) (i + 1) d ↔ f.id = d ∨ DeclaredBefore fs i d := by
  constructor
  · rintro ⟨j, g, hj, hg, rfl⟩
    cases j with
    | zero => rw [at_cons_zero hg]; exact .inl rfl
    | succ j => exact .inr ⟨j, g, by omega, by simpa [At] using hg, rfl⟩
  · rintro (rfl | ⟨j, g, hj, hg, rfl⟩)
    · exact ⟨0, f, by omega, rfl, rfl⟩
    · exact ⟨j + 1, g, by omega, by simpa [At] using hg, rfl⟩

mutual
theorem uniqueKind_iff : (k : Kind) → (uniqueKind k = true ↔ EveryKind Distinct k)
  | .record fs => by
      simp only [uniqueKind, EveryKind, uniqueFields_iff [] fs]; simp
  | .arrRec fs _ => by
      simp only [uniqueKind, EveryKind, uniqueFields_iff [] fs]; simp
  | .vecRec fs _ _ _ => by
      simp only [uniqueKind, EveryKind, uniqueFields_iff [] fs]; simp
  | .num _ _ => by simp [uniqueKind, EveryKind]
  | .fbuf _ _ => by simp [uniqueKind, EveryKind]
  | .fstr _ => by simp [uniqueKind, EveryKind]
  | .vec _ _ _ => by simp [uniqueKind, EveryKind]
theorem uniqueField_iff : (f : Field) → (uniqueField f = true ↔ EveryField Distinct f)
  | .plain _ k _ => by simp only [uniqueField, EveryField, uniqueKind_iff k]
  | .maybe _ k _ => by simp only [uniqueField, EveryField, uniqueKind_iff k]
  | .union _ _ alts _ => by simp only [uniqueField, EveryField, uniqueAlts_iff alts]
theorem uniqueAlts_iff : (alts : List Alt) → (uniqueAlts alts = true ↔ EveryAlts Distinct alts)
  | [] => by simp [uniqueAlts, EveryAlts]
  | .mk k _ :: alts => by
      simp only [uniqueAlts, EveryAlts, Bool.and_eq_true, uniqueKind_iff k, uniqueAlts_iff alts]
theorem uniqueFields_iff (seen : List String) : (fs : List Field) →
    (uniqueFields seen fs = true ↔ Distinct fs ∧ EveryFields Distinct fs ∧ ∀ f ∈ fs, f.id ∉ seen)
  | [] => by simp [uniqueFields, EveryFields, Distinct]
  | f :: fs => by
      simp only [uniqueFields, EveryFields, Bool.and_eq_true, uniqueField_iff f,
        uniqueFields_iff (seen ++ [f.id]) fs, Bool.not_eq_true', List.contains_eq_mem,
        decide_eq_false_iff_not, List.mem_append, List.mem_singleton, not_or]
      rw [Distinct, Distinct, List.map_cons, List.nodup_cons]
      constructor
      · rintro ⟨⟨h1, h2⟩, h3, h4, h5⟩
        refine ⟨⟨?_, h3⟩, ⟨h2, h4⟩, ?_⟩
        · intro hm
          obtain ⟨g, hg, he⟩ := List.mem_map.1 hm
          exact (h5 g hg).2 he
        · intro g hg
          rcases List.mem_cons.1 hg with rfl | hg
          · exact h1
          · exact (h5 g hg).1
      · rintro ⟨⟨h1, h3⟩, ⟨h2, h4⟩, h5⟩
        exact ⟨⟨h5 f (by simp), h2⟩, h3, h4, fun g hg =>
          ⟨h5 g (by simp [hg]), fun he => h1 (he ▸ List.mem_map_of_mem hg)⟩⟩
end

mutual
theorem earlierKind_iff : (k : Kind) → (earlierKind k = true ↔ EveryKind Backward k)
  | .record fs => by
      simp only [earlierKind, EveryKind, earlierFields_iff [] fs, Backward]; simp
  | .arrRec fs _ => by
      simp only [earlierKind, EveryKind, earlierFields_iff [] fs, Backward]; simp
  | .vecRec fs _ _ _ => by
      simp only [earlierKind, EveryKind, earlierFields_iff [] fs, Backward]; simp
  | .num _ _ => by simp [earlierKind, EveryKind]
  | .fbuf _ _ => by simp [earlierKind, EveryKind]
  | .fstr _ => by simp [earlierKind, EveryKind]
  | .vec _ _ _ => by simp [earlierKind, EveryKind]
theorem earlierField_iff : (f : Field) → (earlierField f = true ↔ EveryField Backward f)
  | .plain _ k _ => by simp only [earlierField, EveryField, earlierKind_iff k]
  | .maybe _ k _ => by simp only [earlierField, EveryField, earlierKind_iff k]
  | .union _ _ alts _ => by simp only [earlierField, EveryField, earlierAlts_iff alts]
theorem earlierAlts_iff : (alts : List Alt) → (earlierAlts alts = true ↔ EveryAlts Backward alts)
  | [] => by simp [earlierAlts, EveryAlts]
  | .mk k _ :: alts => by
      simp only [earlierAlts, EveryAlts, Bool.and_eq_true, earlierKind_iff k, earlierAlts_iff alts]
theorem earlierFields_iff (seen : List String) : (fs : List Field) →
    (earlierFields seen fs = true ↔
      (∀ i f, At fs i f → ∀ d ∈ fieldDeps f, d ∈ seen ∨ DeclaredBefore fs i d) ∧ EveryFields Backward fs)
  | [] => by simp [earlierFields, EveryFields, At]
  | f :: fs => by
      simp only [earlierFields, EveryFields, Bool.and_eq_true, earlierField_iff f,
        earlierFields_iff (seen ++ [f.id]) fs, List.all_eq_true, List.contains_eq_mem,
        decide_eq_true_eq, List.mem_append, List.mem_singleton]
      constructor
      · rintro ⟨⟨h1, h2⟩, h3, h4⟩
        refine ⟨fun i g hg d hd => ?_, h2, h4⟩
        cases i with
        | zero => rw [at_cons_zero hg] at hd; exact .inl (h1 d hd)
        | succ i =>
          rw [declaredBefore_cons]
          rcases h3 i g (by simpa [At] using hg) d hd with (h | h) | h
          · exact .inl h
          · exact .inr (.inl h.symm)
          · exact .inr (.inr h)
      · rintro ⟨h1, h2, h4⟩
        refine ⟨⟨fun d hd => ?_, h2⟩, fun i g hg d hd => ?_, h4⟩
        · rcases h1 0 f rfl d hd with h | ⟨j, _, hj, _⟩
          · exact h
          · omega
        · rcases h1 (i + 1) g (by simpa [At] using hg) d hd with h | h
          · exact .inl (.inl h)
          · rw [declaredBefore_cons] at h
            rcases h with h | h
            · exact .inl (.inr h.symm)
            · exact .inr h
end

/-- `WellFormed`: the types are sane, and in every list names are distinct and
dependencies point backwards. -/
theorem wellFormed_iff (fs : List Field) :
    WellFormed fs ↔ saneFields fs = true ∧ Everywhere Distinct fs ∧ Everywhere Backward fs := by
  rw [WellFormed, uniqueFields_iff, earlierFields_iff, Everywhere, Everywhere, Backward]
  simp

mutual
theorem EveryKind.mono {P Q : List Field → Prop} (h : ∀ fs, P fs → Q fs) :
    (k : Kind) → EveryKind P k → EveryKind Q k
  | .record fs, hk => ⟨h fs hk.1, EveryFields.mono h fs hk.2⟩
  | .arrRec fs _, hk => ⟨h fs hk.1, EveryFields.mono h fs hk.2⟩
  | .vecRec fs _ _ _, hk => ⟨h fs hk.1, EveryFields.mono h fs hk.2⟩
  | .num _ _, _ => True.intro
  | .fbuf _ _, _ => True.intro
  | .fstr _, _ => True.intro
  | .vec _ _ _, _ => True.intro
theorem EveryField.mono {P Q : List Field → Prop} (h : ∀ fs, P fs → Q fs) :
    (f : Field) → EveryField P f → EveryField Q f
  | .plain _ k _, hf => EveryKind.mono h k hf
  | .maybe _ k _, hf => EveryKind.mono h k hf
  | .union _ _ alts _, hf => EveryAlts.mono h alts hf
theorem EveryAlts.mono {P Q : List Field → Prop} (h : ∀ fs, P fs → Q fs) :
    (alts : List Alt) → EveryAlts P alts → EveryAlts Q alts
  | [], _ => True.intro
  | .mk k _ :: alts, ha => ⟨EveryKind.mono h k ha.1, EveryAlts.mono h alts ha.2⟩
theorem EveryFields.mono {P Q : List Field → Prop} (h : ∀ fs, P fs → Q fs) :
    (fs : List Field) → EveryFields P fs → EveryFields Q fs
  | [], _ => True.intro
  | f :: fs, hf => ⟨EveryField.mono h f hf.1, EveryFields.mono h fs hf.2⟩
end

theorem Everywhere.mono {P Q : List Field → Prop} (h : ∀ fs, P fs → Q fs) {fs : List Field}
    (hp : Everywhere P fs) : Everywhere Q fs := ⟨h fs hp.1, EveryFields.mono h fs hp.2⟩

mutual
theorem EveryKind.and {P Q : List Field → Prop} :
    (k : Kind) → (EveryKind (fun fs => P fs ∧ Q fs) k ↔ EveryKind P k ∧ EveryKind Q k)
  | .record fs => by simp only [EveryKind, EveryFields.and fs]; exact and_and_and_comm
  | .arrRec fs _ => by simp only [EveryKind, EveryFields.and fs]; exact and_and_and_comm
  | .vecRec fs _ _ _ => by simp only [EveryKind, EveryFields.and fs]; exact and_and_and_comm
  | .num _ _ => by simp [EveryKind]
  | .fbuf _ _ => by simp [EveryKind]
  | .fstr _ => by simp [EveryKind]
  | .vec _ _ _ => by simp [EveryKind]
theorem EveryField.and {P Q : List Field → Prop} :
    (f : Field) → (EveryField (fun fs => P fs ∧ Q fs) f ↔ EveryField P f ∧ EveryField Q f)
  | .plain _ k _ => by simp only [EveryField, EveryKind.and k]
  | .maybe _ k _ => by simp only [EveryField, EveryKind.and k]
  | .union _ _ alts _ => by simp only [EveryField, EveryAlts.and alts]
theorem EveryAlts.and {P Q : List Field → Prop} :
    (alts : List Alt) → (EveryAlts (fun fs => P fs ∧ Q fs) alts ↔ EveryAlts P alts ∧ EveryAlts Q alts)
  | [] => by simp [EveryAlts]
  | .mk k _ :: alts => by
      simp only [EveryAlts, EveryKind.and k, EveryAlts.and alts]; exact and_and_and_comm
theorem EveryFields.and {P Q : List Field → Prop} :
    (fs : List Field) → (EveryFields (fun fs => P fs ∧ Q fs) fs ↔ EveryFields P fs ∧ EveryFields Q fs)
  | [] => by simp [EveryFields]
  | f :: fs => by
      simp only [EveryFields, EveryField.and f, EveryFields.and fs]; exact and_and_and_comm
end

theorem Everywhere.and {P Q : List Field → Prop} {fs : List Field} :
    Everywhere (fun fs => P fs ∧ Q fs) fs ↔ Everywhere P fs ∧ Everywhere Q fs := by
  rw [Everywhere, Everywhere, Everywhere, EveryFields.and]; exact and_and_and_comm

end S2S.Spec
