import Verif.Lemmas.Accept
import Verif.Lemmas.WriteComplete
/-
What `operator[]` gives access to.
-/
namespace S2S.Meta
open Spec

theorem mem_lenDerived (fs : List Field) (id : String) : id ∈ lenDerivedIds fs ↔ LengthTarget fs id := by
  rw [lenDerivedIds, List.mem_filterMap, LengthTarget]
  constructor
  · rintro ⟨f, hf, h⟩
    cases f with
    | plain j k c => exact ⟨j, k, c, hf, h⟩
    | maybe j k p => cases h
    | union j d alts c => cases h
  · rintro ⟨j, k, c, hf, h⟩
    exact ⟨_, hf, h⟩

theorem mem_discDerived (fs : List Field) (id : String) : id ∈ discDerivedIds fs ↔ SwitchedOn fs id := by
  rw [discDerivedIds, List.mem_filterMap, SwitchedOn]
  constructor
  · rintro ⟨f, hf, h⟩
    cases f with
    | plain j k c => cases h
    | maybe j k p => cases h
    | union j d alts c =>
      cases d with
      | matchField i t ls =>
        obtain rfl : i = id := by simpa using h
        exact ⟨j, t, ls, alts, c, hf⟩
      | matchCompute c t ls => cases h
      | ladder ps => cases h
  · rintro ⟨j, t, ls, alts, c, hf⟩
    exact ⟨_, hf, rfl⟩

theorem isSlot_iff (fs : List Field) (id : String) :
    isSlot fs id = true ↔ LengthTarget fs id ∨ SwitchedOn fs id := by
  rw [← isDerived_eq, isDerived, Bool.or_eq_true, ← mem_lenDerived, ← mem_discDerived]
  simp

theorem isFrozen_iff (f : Field) : f.isFrozen = true ↔ Frozen f := by
  cases f with
  | plain id k c => rw [Field.isFrozen, Frozen, typedConst_eq]
  | maybe id k p => simp [Field.isFrozen, Frozen]
  | union id d alts c => simp [Field.isFrozen, Frozen]

theorem derivedIds_contains {l : List String} (h : l.length ≤ maxDeps) (id : String) :
    ∃ l', ((pushAll maxDeps [] l).bind removeDuplicates) = some l' ∧ (l'.contains id = true ↔ id ∈ l) := by
  refine ⟨addNew [] l, ?_, ?_⟩
  · rw [pushAll_lim, if_pos h, Option.bind_some, removeDuplicates_eq l h]
  · simp [mem_addNew]

theorem subscript_eq (lt : String → String → Bool) (tid : Field → Nat) {fs : List Field}
    (hn : fs.length ≤ maxFields) (hd : Distinct fs)
    (htid : ∀ f ∈ fs, ∀ g ∈ fs, tid f = tid g → f = g)
    (hl : (lenDerivedIds fs).length ≤ maxDeps) (hs : (discDerivedIds fs).length ≤ maxDeps)
    {id : String} (hid : id ≠ "") (r : Field × Access) :
    subscript lt tid fs id = some r ↔
      r.1 ∈ fs ∧ r.1.id = id ∧ ¬ LengthTarget fs id ∧
      ((r.2 = .readOnly) ↔ (SwitchedOn fs id ∨ Frozen r.1)) := by
  obtain ⟨t, ht, hget⟩ := fieldTable_get lt tid hn hd
  obtain ⟨l, hl1, hl2⟩ := derivedIds_contains hl id
  obtain ⟨s, hs1, hs2⟩ := derivedIds_contains hs id
  rw [mem_lenDerived] at hl2
  rw [mem_discDerived] at hs2
  rw [subscript, ht, Option.bind_some, lengthDerivedIds, hl1, Option.bind_some, discriminantDerivedIds,
    hs1, Option.bind_some]
  have hget' : ∀ info, mapGet t id = some info ↔ ∃ f, At fs info.occursAt f ∧ f.id = id ∧ tid f = info.typeId := by
    intro info
    rw [hget, if_neg (fun h => hid h.1)]
  cases hm : mapGet t id with
  | none =>
    simp only [Option.bind_none]
    constructor
    · intro h; cases h
    · rintro ⟨hf, he, _⟩
      obtain ⟨i, hi⟩ := at_mem hf
      have := (hget' ⟨tid r.1, i⟩).2 ⟨r.1, hi, he, rfl⟩
      rw [hm] at this
      cases this
  | some info =>
    obtain ⟨f, hf, he, hti⟩ := (hget' info).1 hm
    have hfm := mem_of_at hf
    have hfind : (fs.find? fun g => tid g == info.typeId) = some f := by
      cases hq : fs.find? fun g => tid g == info.typeId with
      | none =>
        have := List.find?_eq_none.1 hq f hfm
        simp [hti] at this
      | some g =>
        have h1 := List.mem_of_find?_eq_some hq
        have h2 : tid g = info.typeId := by simpa using List.find?_some hq
        rw [htid g h1 f hfm (h2.trans hti.symm)]
    simp only [Option.bind_some, hfind]
    have huniq : r.1 ∈ fs → r.1.id = id → r.1 = f := by
      intro h1 h2
      obtain ⟨i, hi⟩ := at_mem h1
      have := at_inj hd hi hf (h2.trans he.symm)
      subst this
      have h3 : fs[info.occursAt]? = some f := hf
      have h4 : fs[info.occursAt]? = some r.1 := hi
      rw [h3] at h4
      exact (Option.some.inj h4).symm
    obtain ⟨g, a⟩ := r
    by_cases hL : LengthTarget fs id
    · simp only [hl2.2 hL, Bool.true_or, Bool.not_true, Bool.false_and, Bool.and_false, Bool.false_eq_true, if_false,
        hL, not_true_eq_false, false_and, and_false, reduceCtorEq]
    · have hlf : l.contains id = false := by
        cases h : l.contains id with
        | false => rfl
        | true => exact absurd (hl2.1 h) hL
      simp only [hlf, Bool.false_or, Bool.not_false, Bool.and_true]
      by_cases hS : SwitchedOn fs id
      · simp only [hs2.2 hS, Bool.not_true, Bool.false_and, Bool.false_eq_true, if_false, Bool.true_or, if_true,
          Option.some.injEq, Prod.mk.injEq, hS, true_or, iff_true, hL, not_false_eq_true, true_and]
        constructor
        · rintro ⟨rfl, rfl⟩; exact ⟨hfm, he, rfl⟩
        · rintro ⟨h1, h2, rfl⟩; exact ⟨(huniq h1 h2).symm, rfl⟩
      · have hsf : s.contains id = false := by
          cases h : s.contains id with
          | false => rfl
          | true => exact absurd (hs2.1 h) hS
        simp only [hsf, Bool.not_false, Bool.true_and, Bool.false_or, hS, false_or, hL, not_false_eq_true,
          true_and]
        by_cases hF : f.isFrozen = true
        · simp only [hF, Bool.not_true, Bool.false_eq_true, if_false, if_true, Option.some.injEq, Prod.mk.injEq]
          constructor
          · rintro ⟨rfl, rfl⟩; exact ⟨hfm, he, by simp [← isFrozen_iff, hF]⟩
          · rintro ⟨h1, h2, h3⟩
            have := huniq h1 h2
            subst this
            exact ⟨rfl, (h3.2 ((isFrozen_iff _).1 hF)).symm⟩
        · have hF' : f.isFrozen = false := by simpa using hF
          simp only [hF', Bool.not_false, if_true, Option.some.injEq, Prod.mk.injEq]
          constructor
          · rintro ⟨rfl, rfl⟩; exact ⟨hfm, he, by simp [← isFrozen_iff, hF']⟩
          · rintro ⟨h1, h2, h3⟩
            have := huniq h1 h2
            subst this
            refine ⟨rfl, ?_⟩
            cases a with
            | mutable => rfl
            | readOnly => exact absurd ((isFrozen_iff _).2 (h3.1 rfl)) hF

end S2S.Meta
