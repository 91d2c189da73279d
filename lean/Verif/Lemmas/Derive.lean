import Verif.Lemmas.WritePrim
import Verif.Lemmas.Fields
import Verif.Spec.Settle
/-
The scans of derived_value.hpp against the producers of a slot.
-/
namespace S2S
open Spec

/-! ### names -/

theorem unique_nodup (seen : List String) (fs : List Field) (h : uniqueFields seen fs = true) :
    (fs.map Field.id).Nodup := by
  induction fs generalizing seen with
  | nil => simp
  | cons f fs ih =>
    simp only [uniqueFields, Bool.and_eq_true] at h
    rw [List.map_cons, List.nodup_cons]
    exact ⟨uniqueFields_not_seen _ fs h.2 f.id (by simp), ih _ h.2⟩

theorem field_inj {fs : List Field} (h : uniqueFields [] fs = true) {f g : Field} (hf : f ∈ fs)
    (hg : g ∈ fs) (hid : f.id = g.id) : f = g := by
  have hn := unique_nodup [] fs h
  clear h
  induction fs with
  | nil => cases hf
  | cons a fs ih =>
    rw [List.map_cons, List.nodup_cons] at hn
    rcases List.mem_cons.1 hf with h1 | h1 <;> rcases List.mem_cons.1 hg with h2 | h2
    · rw [h1, h2]
    · exact absurd (h1 ▸ hid ▸ List.mem_map_of_mem h2) hn.1
    · exact absurd (h2 ▸ hid ▸ List.mem_map_of_mem h1) hn.1
    · exact ih h1 h2 hn.2

theorem maps_zip {env : Env} {fs : List Field} {vs : List Val} (h : Maps env fs vs) {f : Field}
    {v : Val} (hm : (f, v) ∈ fs.zip vs) : env f.id = some v := by
  induction fs generalizing vs with
  | nil => simp at hm
  | cons a fs ih =>
    cases vs with
    | nil => simp at hm
    | cons b vs =>
      simp only [Maps] at h
      rw [List.zip_cons_cons] at hm
      rcases List.mem_cons.1 hm with hm | hm
      · cases hm; exact h.1
      · exact ih h.2 hm

theorem env_zip {fs : List Field} {vs : List Val} (h : uniqueFields [] fs = true) {f : Field}
    {v : Val} (hm : (f, v) ∈ fs.zip vs) : envOf fs vs f.id = some v :=
  maps_zip (maps_envOf [] fs vs h) hm

theorem zip_of_mem {fs : List Field} {vs : List Val} (hl : fs.length = vs.length) {f : Field}
    (hm : f ∈ fs) : ∃ v, (f, v) ∈ fs.zip vs := by
  induction fs generalizing vs with
  | nil => cases hm
  | cons a fs ih =>
    cases vs with
    | nil => simp at hl
    | cons b vs =>
      rcases List.mem_cons.1 hm with rfl | hm
      · exact ⟨b, by simp⟩
      · obtain ⟨v, hv⟩ := ih (by simpa using hl) hm
        exact ⟨v, by rw [List.zip_cons_cons]; exact List.mem_cons_of_mem _ hv⟩

theorem mem_of_zip {fs : List Field} {vs : List Val} {f : Field} {v : Val}
    (h : (f, v) ∈ fs.zip vs) : f ∈ fs := (List.of_mem_zip h).1

theorem fits_length {cfg : Cfg} {fs : List Field} {vs : List Val} (h : FitsFields cfg fs vs) :
    fs.length = vs.length := by
  induction fs generalizing vs with
  | nil => cases vs <;> simp_all [FitsFields]
  | cons f fs ih =>
    cases vs with
    | nil => simp [FitsFields] at h
    | cons v vs => rw [FitsFields] at h; simp [ih h.2]

theorem fits_zip {cfg : Cfg} {fs : List Field} {vs : List Val} (h : FitsFields cfg fs vs)
    {f : Field} {v : Val} (hm : (f, v) ∈ fs.zip vs) : FitsField cfg f v := by
  induction fs generalizing vs with
  | nil => simp at hm
  | cons a fs ih =>
    cases vs with
    | nil => simp at hm
    | cons b vs =>
      rw [FitsFields] at h
      rw [List.zip_cons_cons] at hm
      rcases List.mem_cons.1 hm with hm | hm
      · cases hm; exact h.1
      · exact ih h.2 hm

theorem sane_mem {fs : List Field} (h : saneFields fs = true) {f : Field} (hm : f ∈ fs) :
    saneField f = true := by
  induction fs with
  | nil => cases hm
  | cons a fs ih =>
    simp only [saneFields, Bool.and_eq_true] at h
    rcases List.mem_cons.1 hm with rfl | hm
    · exact h.1
    · exact ih h.2 hm

/-! ### slots -/

theorem isDerived_eq (fs : List Field) (id : String) : isDerived fs id = isSlot fs id := by
  have : isDerived fs id = true ↔ isSlot fs id = true := by
    unfold isDerived isSlot lenDerivedIds discDerivedIds
    simp only [Bool.or_eq_true, List.contains_eq_mem, decide_eq_true_eq, List.mem_filterMap,
      List.any_eq_true]
    constructor
    · rintro (⟨f, hf, h⟩ | ⟨f, hf, h⟩)
      · refine ⟨f, hf, ?_⟩
        cases f <;> simp_all
      · refine ⟨f, hf, ?_⟩
        split at h <;> simp_all
    · rintro ⟨f, hf, h⟩
      split at h
      · exact .inl ⟨_, hf, by simpa using h⟩
      · exact .inr ⟨_, hf, by simpa using h⟩
      · cases h
      · cases h
      · cases h
  cases h1 : isDerived fs id <;> cases h2 : isSlot fs id <;> simp_all

theorem frozen_of_const {k : Kind} {c : Constraint} : (frozenVal k c).isSome = (constOf k c).isSome := by
  unfold frozenVal constOf
  cases k <;> cases c <;> first | rfl | (rename_i b _ _; cases b <;> rfl) | (rename_i b _; cases b <;> rfl)

/-- A container that fits has fewer elements than `std::size_t` has values. -/
theorem count_lt {cfg : Cfg} {k : Kind} {vs : List Val} {id : String} (hs : saneKind k = true)
    (h : FitsKind cfg k (.seq vs)) (ht : k.lenTarget? = some id) : vs.length ≤ cfg.ptrdiffMax := by
  cases k <;> simp [Kind.lenTarget?, Kind.lenSpec?] at ht
  · simp only [saneKind, decide_eq_true_eq] at hs
    simp only [FitsKind, StorageFits] at h
    exact Nat.le_trans (Nat.le_mul_of_pos_right _ hs) h.1.2
  · simp only [saneKind, Bool.and_eq_true, decide_eq_true_eq] at hs
    simp only [FitsKind, StorageFits] at h
    exact Nat.le_trans (Nat.le_mul_of_pos_right _ hs.1) h.1.2

theorem toSz_count {cfg : Cfg} {n : Nat} (h : n ≤ cfg.ptrdiffMax) : cfg.toSz (n : Int) = n := by
  unfold Cfg.toSz
  rw [residue_ofNat]
  exact Nat.mod_eq_of_lt (ptrdiff_lt cfg n h)

/-- Only containers have a length slot. -/
theorem fits_container {cfg : Cfg} {k : Kind} {v : Val} {id : String}
    (h : FitsKind cfg k v) (ht : k.lenTarget? = some id) : ∃ vs, v = .seq vs := by
  cases k <;> simp [Kind.lenTarget?, Kind.lenSpec?] at ht <;>
    cases v <;> simp [FitsKind] at h <;> exact ⟨_, rfl⟩

theorem fitsAlts_lt {cfg : Cfg} {alts : List Alt} {i : Nat} {v : Val} (h : FitsAlts cfg alts i v) :
    i < alts.length := by
  induction alts generalizing i with
  | nil => simp [FitsAlts] at h
  | cons a alts ih =>
    cases i with
    | zero => simp
    | succ i =>
      cases a
      rw [FitsAlts] at h
      simpa using ih h

theorem counted_of_fits {cfg : Cfg} {fs : List Field} {vs : List Val} (hs : saneFields fs = true)
    (h : FitsFields cfg fs vs) : Counted cfg fs vs := by
  refine ⟨fits_length h, fun f v hz => ?_⟩
  have h1 := fits_zip h hz
  have h2 := sane_mem hs (mem_of_zip hz)
  cases f with
  | plain id k c =>
    rw [FitsField] at h1
    rw [saneField] at h2
    intro tgt ht
    obtain ⟨us, rfl⟩ := fits_container h1 ht
    exact ⟨us, rfl, count_lt h2 h1 ht⟩
  | maybe id k p => trivial
  | union id d alts c =>
    cases v <;> simp only [FitsField] at h1
    simp only [saneField, Bool.and_eq_true, decide_eq_true_eq] at h2
    have := fitsAlts_lt h1
    exact ⟨_, _, rfl, by omega⟩

/-- What a field implies is what it produces, as `std::size_t`. -/
theorem implies_eq (cfg : Cfg) (target : String) (f : Field) (v : Val) (h : CountedField cfg f v) :
    f.implies cfg target v = .ok ((produced target f v).map cfg.toSz) := by
  cases f with
  | plain id k c =>
    by_cases ht : k.lenTarget? = some target
    · obtain ⟨vs, rfl, hl⟩ := h target ht
      simp only [Field.implies, produced, ht, if_true, Val.size?, Option.map_some, toSz_count hl]
    · cases v <;> simp [Field.implies, produced, ht]
  | maybe id k p => cases v <;> simp [Field.implies, produced]
  | union id d alts c =>
    obtain ⟨i, w, rfl, hi⟩ := h
    cases d with
    | matchField m t ls =>
      simp only [arity] at hi
      simp only [Field.implies, produced]
      split
      · rw [List.getElem?_eq_getElem hi]
        rfl
      · rfl
    | matchCompute _ _ _ => rfl
    | ladder _ => rfl

theorem counted_tail {cfg : Cfg} {f : Field} {fs : List Field} {v : Val} {vs : List Val}
    (h : Counted cfg (f :: fs) (v :: vs)) : CountedField cfg f v ∧ Counted cfg fs vs :=
  ⟨h.2 f v (by simp), by simpa using h.1,
    fun g u hg => h.2 g u (by rw [List.zip_cons_cons]; exact List.mem_cons_of_mem _ hg)⟩

theorem deriveScan_eq (cfg : Cfg) (target : String) (fs : List Field) (vs : List Val)
    (h : Counted cfg fs vs) (d : Derivation) :
    deriveScan cfg target fs vs d =
      .ok (((producers target fs vs).map cfg.toSz).foldl Derivation.record d) := by
  induction fs generalizing vs d with
  | nil => cases vs <;> rfl
  | cons f fs ih =>
    cases vs with
    | nil => exact absurd h.1 (by simp)
    | cons v vs =>
      obtain ⟨h1, h2⟩ := counted_tail h
      simp only [deriveScan, producers, implies_eq cfg target f v h1]
      cases produced target f v with
      | none => simp only [Option.map_none, Option.toList, List.nil_append]; exact ih _ h2 _
      | some x =>
        simp only [Option.map_some, Option.toList, List.cons_append, List.nil_append,
          List.map_cons, List.foldl_cons]
        exact ih _ h2 _

/-- If the scan ends agreed, everything recorded is the value it ends with. -/
theorem record_agreed (ns : List Nat) (d : Derivation)
    (h : (ns.foldl Derivation.record d).agreed = true) :
    d.agreed = true ∧ (∀ n ∈ ns, n = (ns.foldl Derivation.record d).derived) ∧
    (d.seen = true → d.derived = (ns.foldl Derivation.record d).derived) := by
  induction ns generalizing d with
  | nil => exact ⟨h, by simp, fun _ => rfl⟩
  | cons n ns ih =>
    rw [List.foldl_cons] at h ⊢
    obtain ⟨h1, h2, h3⟩ := ih _ h
    have h4 := h3 rfl
    simp only [Derivation.record] at h1
    by_cases hc : (d.seen && decide (n ≠ d.derived)) = true
    · rw [if_pos hc] at h1; cases h1
    · rw [if_neg hc] at h1
      refine ⟨h1, ?_, ?_⟩
      · intro m hm
        rcases List.mem_cons.1 hm with rfl | hm
        · exact h4
        · exact h2 m hm
      · intro hd
        rw [hd] at hc
        simp only [Bool.true_and, decide_eq_true_eq, ne_eq, Decidable.not_not] at hc
        rw [← hc]
        exact h4

/-- If everything recorded is the same, the scan ends agreed with it. -/
theorem record_same (ns : List Nat) (m : Nat) (h : ∀ n ∈ ns, n = m) (hne : ns ≠ []) (d : Derivation)
    (hd : d.agreed = true) (hs : d.seen = true → d.derived = m) :
    (ns.foldl Derivation.record d).agreed = true ∧ (ns.foldl Derivation.record d).derived = m := by
  induction ns generalizing d with
  | nil => exact absurd rfl hne
  | cons n ns ih =>
    have hn := h n (by simp)
    subst hn
    rw [List.foldl_cons]
    have h1 : (d.record n).agreed = true := by
      simp only [Derivation.record]
      split
      · rename_i hc
        simp only [Bool.and_eq_true, decide_eq_true_eq] at hc
        exact absurd (hs hc.1).symm hc.2
      · exact hd
    have h2 : (d.record n).derived = n := rfl
    cases ns with
    | nil => exact ⟨h1, h2⟩
    | cons n' ns => exact ih (fun k hk => h k (by simp [hk])) (by simp) _ h1 fun _ => h2

theorem mem_producers {target : String} {fs : List Field} {vs : List Val} {f : Field} {v : Val}
    {x : Int} (hm : (f, v) ∈ fs.zip vs) (h : produced target f v = some x) :
    x ∈ producers target fs vs := by
  induction fs generalizing vs with
  | nil => simp at hm
  | cons a fs ih =>
    cases vs with
    | nil => simp at hm
    | cons b vs =>
      rw [List.zip_cons_cons] at hm
      rw [producers, List.mem_append]
      rcases List.mem_cons.1 hm with hm | hm
      · cases hm; left; simp [h]
      · exact .inr (ih hm)

theorem producers_mem {target : String} {fs : List Field} {vs : List Val}
    {x : Int} (hx : x ∈ producers target fs vs) :
    ∃ f v, (f, v) ∈ fs.zip vs ∧ produced target f v = some x := by
  induction fs generalizing vs with
  | nil => simp [producers] at hx
  | cons a fs ih =>
    cases vs with
    | nil => simp [producers] at hx
    | cons b vs =>
      rw [producers, List.mem_append] at hx
      rcases hx with hx | hx
      · exact ⟨a, b, by simp, by simpa using hx⟩
      · obtain ⟨f, v, h1, h2⟩ := ih hx
        exact ⟨f, v, by rw [List.zip_cons_cons]; exact List.mem_cons_of_mem _ h1, h2⟩

theorem slotValue_mem {target : String} {fs : List Field} {vs : List Val}
    (h : producers target fs vs ≠ []) : slotValue fs vs target ∈ producers target fs vs := by
  unfold slotValue
  cases hp : producers target fs vs with
  | nil => exact absurd hp h
  | cons x xs => simp

/-- A slot has a producer. -/
theorem producers_ne {cfg : Cfg} {target : String} {fs : List Field} {vs : List Val}
    (h : Counted cfg fs vs) (hslot : isSlot fs target = true) : producers target fs vs ≠ [] := by
  unfold isSlot at hslot
  rw [List.any_eq_true] at hslot
  obtain ⟨f, hf, hslot⟩ := hslot
  obtain ⟨v, hv⟩ := zip_of_mem h.1 hf
  have hfit := h.2 _ _ hv
  have key : ∃ x, produced target f v = some x := by
    split at hslot
    · simp only [beq_iff_eq] at hslot
      obtain ⟨us, rfl, _⟩ := hfit target hslot
      exact ⟨us.length, by simp [produced, hslot]⟩
    · simp only [beq_iff_eq] at hslot
      obtain ⟨i, w, rfl, hi⟩ := hfit
      simp only [arity] at hi
      simp only [produced, hslot, if_true]
      rw [List.getElem?_eq_getElem hi]
      exact ⟨_, rfl⟩
    all_goals cases hslot
  obtain ⟨x, hx⟩ := key
  exact List.ne_nil_of_mem (mem_producers hv hx)

theorem slot_scalar {fs : List Field} {id : String} (hres : Resolves fs)
    (hs : isSlot fs id = true) : HasScalar fs id fun _ _ => True := by
  unfold isSlot at hs
  rw [List.any_eq_true] at hs
  obtain ⟨f, hf, h⟩ := hs
  have h1 := hres f hf
  split at h
  · simp only [beq_iff_eq] at h
    exact h1.1 id (by simp [lengthTargets, h])
  · simp only [beq_iff_eq] at h
    subst h
    obtain ⟨g, hg, h2⟩ := h1.2
    refine ⟨g, hg, ?_⟩
    split at h2
    · exact ⟨h2.1, trivial⟩
    · exact h2.elim
  all_goals cases h

/-- Slots are plain scalar fields. -/
theorem slot_plain {fs : List Field} (hu : uniqueFields [] fs = true) (hres : Resolves fs)
    {f : Field} (hf : f ∈ fs) (hs : isSlot fs f.id = true) :
    ∃ t w c, f = .plain f.id (.num t w) c := by
  obtain ⟨g, hg, h⟩ := slot_scalar hres hs
  split at h
  · rename_i i t w c
    obtain ⟨h, -⟩ := h
    have := field_inj hu hg hf h
    subst this
    exact ⟨t, w, c, rfl⟩
  · exact h.elim

theorem lenTarget_of_fixed {k : Kind} (h : k.isFixed = true) : k.lenTarget? = none := by
  cases k <;> simp_all [Kind.isFixed, Kind.lenTarget?, Kind.lenSpec?]

end S2S
