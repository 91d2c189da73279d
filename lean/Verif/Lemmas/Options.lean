import Verif.Spec.Tables
/-
Option packs.
-/
namespace S2S.Meta
open Spec

theorem optionCount_eq (p : O → Bool) (opts : List O) : optionCount p opts = (opts.filter p).length := by
  induction opts with
  | nil => rfl
  | cons o os ih =>
    rw [optionCount, ih, List.filter_cons]
    by_cases h : p o = true
    · rw [if_pos h, if_pos h, List.length_cons]; omega
    · rw [if_neg h, if_neg h]; omega

theorem inPack_eq (p : O → Bool) (d : O) (opts : List O) : inPack p d opts = (opts.filter p).headD d := by
  induction opts with
  | nil => rfl
  | cons o os ih =>
    rw [inPack, List.filter_cons]
    by_cases h : p o = true
    · rw [if_pos h, if_pos h]; rfl
    · rw [if_neg h, if_neg h, ih]

theorem provides_iff (p : O → Bool) (d : O) (opts : List O) (o : O) :
    Provides p d opts o ↔ optionCount p opts ≤ 1 ∧ o = inPack p d opts := by
  rw [optionCount_eq, inPack_eq, Provides]
  cases opts.filter p with
  | nil => simp
  | cons a l =>
    cases l with
    | nil => simp [eq_comm]
    | cons b l => simp

theorem resolvedOptions_iff (K : OptKinds O) (d : Resolved O) (opts : List O) (r : Resolved O) :
    resolvedOptions K d opts = some r ↔
      Provides K.isSize d.size opts r.size ∧ Provides K.isConstraint d.constraint opts r.constraint ∧
      Provides K.isBound d.bound opts r.bound := by
  simp only [provides_iff]
  rw [resolvedOptions]
  obtain ⟨a, b, c⟩ := r
  split
  · rename_i h
    simp only [Option.some.injEq, Resolved.mk.injEq, h, true_and]
    constructor
    · rintro ⟨rfl, rfl, rfl⟩; exact ⟨rfl, rfl, rfl⟩
    · rintro ⟨rfl, rfl, rfl⟩; exact ⟨rfl, rfl, rfl⟩
  · rename_i h
    simp only [reduceCtorEq, false_iff]
    rintro ⟨⟨h1, -⟩, ⟨h2, -⟩, ⟨h3, -⟩⟩
    exact h ⟨h1, h2, h3⟩

theorem describe_iff (K : OptKinds O) (d : Resolved O) (admits : O → Bool) (fine : Resolved O → Bool)
    (opts : List O) (r : Resolved O) :
    describe K d admits fine opts = some r ↔
      (∀ o ∈ opts, admits o = true) ∧ fine r = true ∧
      Provides K.isSize d.size opts r.size ∧ Provides K.isConstraint d.constraint opts r.constraint ∧
      Provides K.isBound d.bound opts r.bound := by
  rw [describe, ← resolvedOptions_iff]
  by_cases h : opts.all admits = true
  · rw [if_pos h, Option.filter_eq_some_iff]
    rw [List.all_eq_true] at h
    constructor
    · rintro ⟨h1, h2⟩; exact ⟨h, h2, h1⟩
    · rintro ⟨-, h2, h1⟩; exact ⟨h1, h2⟩
  · rw [if_neg h]
    rw [List.all_eq_true] at h
    simp only [reduceCtorEq, false_iff]
    rintro ⟨h1, -⟩
    exact h h1

theorem provides_perm {p : O → Bool} {d : O} {opts opts' : List O} (h : opts.Perm opts') (o : O) :
    Provides p d opts o ↔ Provides p d opts' o := by
  have hf := h.filter p
  rw [Provides, Provides]
  have e1 : opts.filter p = [o] ↔ opts'.filter p = [o] := by
    constructor
    · intro e; rw [e] at hf; exact List.perm_singleton.1 hf.symm
    · intro e; rw [e] at hf; exact List.perm_singleton.1 hf
  have e2 : opts.filter p = [] ↔ opts'.filter p = [] := by
    constructor
    · intro e; rw [e] at hf; exact List.perm_nil.1 hf.symm
    · intro e; rw [e] at hf; exact List.perm_nil.1 hf
  rw [e1, e2]

end S2S.Meta
