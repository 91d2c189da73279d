import Verif.Lemmas.Group
/-
Lists of fields in another order: what the fields see of one another stays the same.
-/
namespace S2S
open Spec

/-! ### Conditions field by field -/

theorem fits_each (cfg : Cfg) (l : List (Field × Val)) :
    FitsFields cfg (l.map Prod.fst) (l.map Prod.snd) ↔ ∀ p ∈ l, FitsField cfg p.1 p.2 := by
  induction l with
  | nil => simp [FitsFields]
  | cons p l ih => simp [FitsFields, ih]

theorem ok_each (l : List (Field × Val)) :
    OkFields (l.map Prod.fst) (l.map Prod.snd) ↔ ∀ p ∈ l, OkField p.1 p.2 := by
  induction l with
  | nil => simp [OkFields]
  | cons p l ih => simp [OkFields, ih]

theorem shaped_each (cfg : Cfg) (env : Env) (l : List (Field × Val)) :
    ShapedFields cfg env (l.map Prod.fst) (l.map Prod.snd) ↔ ∀ p ∈ l, ShapedField cfg env p.1 p.2 := by
  induction l with
  | nil => simp [ShapedFields]
  | cons p l ih => simp [ShapedFields, ih]

theorem typed_each (cfg : Cfg) (l : List (Field × Val)) :
    TypedFields cfg (l.map Prod.fst) (l.map Prod.snd) ↔ ∀ p ∈ l, TypedField cfg p.1 p.2 := by
  induction l with
  | nil => simp [TypedFields]
  | cons p l ih => simp [TypedFields, ih]

theorem wire_each (o : Endian) (l : List (Field × Val)) :
    wireFields o (l.map Prod.fst) (l.map Prod.snd) = l.flatMap fun p => wireField o p.1 p.2 := by
  induction l with
  | nil => simp [wireFields]
  | cons p l ih => simp [wireFields, ih]

theorem producers_each (i : String) (l : List (Field × Val)) :
    producers i (l.map Prod.fst) (l.map Prod.snd) = l.flatMap fun p => (produced i p.1 p.2).toList := by
  induction l with
  | nil => simp [producers]
  | cons p l ih => simp [producers, ih]

theorem zip_each (l : List (Field × Val)) : (l.map Prod.fst).zip (l.map Prod.snd) = l := by
  induction l with
  | nil => rfl
  | cons p l ih => simp [ih]

/-- A struct next to its fields. -/
theorem each_of_length {fs : List Field} {vs : List Val} (h : fs.length = vs.length) :
    (fs.zip vs).map Prod.fst = fs ∧ (fs.zip vs).map Prod.snd = vs := by
  induction fs generalizing vs with
  | nil => cases vs <;> simp_all
  | cons f fs ih =>
    cases vs with
    | nil => simp at h
    | cons v vs =>
      have := ih (vs := vs) (by simpa using h)
      simp [this]

/-! ### Names -/

theorem envOf_each {l : List (Field × Val)} (hn : ((l.map Prod.fst).map Field.id).Nodup) (i : String) (v : Val) :
    envOf (l.map Prod.fst) (l.map Prod.snd) i = some v ↔ ∃ p ∈ l, p.1.id = i ∧ p.2 = v := by
  induction l with
  | nil => simp [envOf, Env.empty]
  | cons p l ih =>
    simp only [List.map_cons, List.nodup_cons] at hn
    simp only [List.map_cons, envOf, Env.set]
    by_cases hi : i = p.1.id
    · subst hi
      have : ∀ q ∈ l, q.1.id ≠ p.1.id := fun q hq he =>
        hn.1 (by rw [← he]; exact List.mem_map_of_mem (List.mem_map_of_mem hq))
      simp only [if_true, Option.some.injEq, List.mem_cons, exists_eq_or_imp, true_and]
      constructor
      · exact fun h => .inl h
      · rintro (h | ⟨q, hq, h1, -⟩)
        · exact h
        · exact (this q hq h1).elim
    · simp only [if_neg hi, ih hn.2, List.mem_cons, exists_eq_or_imp]
      simp [Ne.symm hi]

theorem envOf_perm {l l' : List (Field × Val)} (hp : l.Perm l') (hu : uniqueFields [] (l.map Prod.fst) = true) :
    envOf (l.map Prod.fst) (l.map Prod.snd) = envOf (l'.map Prod.fst) (l'.map Prod.snd) := by
  have hn := unique_nodup [] _ hu
  have hn' : ((l'.map Prod.fst).map Field.id).Nodup := ((hp.map Prod.fst).map Field.id).nodup_iff.1 hn
  funext i
  apply Option.ext
  intro v
  rw [envOf_each hn, envOf_each hn']
  exact ⟨fun ⟨p, h, h'⟩ => ⟨p, hp.mem_iff.1 h, h'⟩, fun ⟨p, h, h'⟩ => ⟨p, hp.mem_iff.2 h, h'⟩⟩

/-! ### Reading -/

theorem valid_perm {cfg : Cfg} {l l' : List (Field × Val)} (hp : l.Perm l')
    (hu : uniqueFields [] (l.map Prod.fst) = true) (h : Valid cfg (l.map Prod.fst) (l.map Prod.snd)) :
    Valid cfg (l'.map Prod.fst) (l'.map Prod.snd) := by
  obtain ⟨h1, h2, h3⟩ := h
  rw [fits_each] at h1
  rw [ok_each] at h2
  rw [shaped_each, envOf_perm hp hu] at h3
  refine ⟨?_, ?_, ?_⟩
  · rw [fits_each]; exact fun p hm => h1 p (hp.mem_iff.2 hm)
  · rw [ok_each]; exact fun p hm => h2 p (hp.mem_iff.2 hm)
  · rw [shaped_each]; exact fun p hm => h3 p (hp.mem_iff.2 hm)

/-! ### Writing -/

theorem isSlot_perm {fs gs : List Field} (hp : fs.Perm gs) (i : String) : isSlot fs i = isSlot gs i := by
  unfold isSlot
  rw [Bool.eq_iff_iff, List.any_eq_true, List.any_eq_true]
  exact ⟨fun ⟨f, h, h'⟩ => ⟨f, hp.mem_iff.1 h, h'⟩, fun ⟨f, h, h'⟩ => ⟨f, hp.mem_iff.2 h, h'⟩⟩

theorem hasConditional_perm {fs gs : List Field} (hp : fs.Perm gs) (i : String) :
    hasConditional fs i = hasConditional gs i := by
  unfold hasConditional
  rw [Bool.eq_iff_iff, List.any_eq_true, List.any_eq_true]
  exact ⟨fun ⟨f, h, h'⟩ => ⟨f, hp.mem_iff.1 h, h'⟩, fun ⟨f, h, h'⟩ => ⟨f, hp.mem_iff.2 h, h'⟩⟩

theorem produced_slot {i : String} {f : Field} {v : Val} {x : Int} (h : produced i f v = some x) {fs : List Field}
    (hf : f ∈ fs) : isSlot fs i = true := by
  unfold isSlot
  rw [List.any_eq_true]
  refine ⟨f, hf, ?_⟩
  cases f with
  | plain id k c => cases v <;> simp [produced] at h ⊢; exact h.1
  | maybe id k p => cases v <;> simp [produced] at h
  | union id d alts c => cases d <;> cases v <;> simp [produced] at h ⊢; exact h.1

theorem producers_unslotted {i : String} {l : List (Field × Val)} (h : isSlot (l.map Prod.fst) i = false) :
    producers i (l.map Prod.fst) (l.map Prod.snd) = [] := by
  rw [producers_each, List.flatMap_eq_nil_iff]
  intro p hm
  cases hx : produced i p.1 p.2 with
  | none => rfl
  | some x =>
    rw [produced_slot hx (List.mem_map_of_mem hm)] at h
    cases h

theorem deriveValue_perm {cfg : Cfg} {l l' : List (Field × Val)} (hp : l.Perm l')
    (hc : Counted cfg (l.map Prod.fst) (l.map Prod.snd)) (hc' : Counted cfg (l'.map Prod.fst) (l'.map Prod.snd))
    (i : String) (t : ScalarTy) (w : Nat) :
    deriveValue cfg (l.map Prod.fst) (l.map Prod.snd) i t w =
      deriveValue cfg (l'.map Prod.fst) (l'.map Prod.snd) i t w := by
  have hs := isSlot_perm (hp.map Prod.fst) i
  cases hsl : isSlot (l.map Prod.fst) i with
  | false =>
    have hsl' : isSlot (l'.map Prod.fst) i = false := by rw [← hs, hsl]
    unfold deriveValue
    rw [deriveScan_eq _ _ _ _ hc, deriveScan_eq _ _ _ _ hc', producers_unslotted hsl, producers_unslotted hsl']
  | true =>
    have hsl' : isSlot (l'.map Prod.fst) i = true := by rw [← hs, hsl]
    have hpr : ∀ x, x ∈ producers i (l.map Prod.fst) (l.map Prod.snd) ↔
        x ∈ producers i (l'.map Prod.fst) (l'.map Prod.snd) := by
      intro x
      rw [producers_each, producers_each]
      exact (hp.flatMap_right _).mem_iff
    have hm := slotValue_mem (producers_ne hc hsl)
    have hm' := slotValue_mem (producers_ne hc' hsl')
    rcases deriveValue_eq (t := t) (w := w) hc hsl with ⟨⟨y, hy, z, hz, hne⟩, h1⟩ | ⟨ha, h1⟩ <;>
      rcases deriveValue_eq (t := t) (w := w) hc' hsl' with ⟨⟨y', hy', z', hz', hne'⟩, h2⟩ | ⟨hb, h2⟩
    · rw [h1, h2]
    · exact (hne ((hb y ((hpr y).1 hy)).trans (hb z ((hpr z).1 hz)).symm)).elim
    · exact (hne' ((ha y' ((hpr y').2 hy')).trans (ha z' ((hpr z').2 hz')).symm)).elim
    · have he := ha _ ((hpr _).2 hm')
      rcases h1 with ⟨h3, h1⟩ | ⟨h3, h1⟩ <;> rcases h2 with ⟨h4, h2⟩ | ⟨h4, h2⟩
      · rw [h1, h2, he]
      · rw [he, h3] at h4; cases h4
      · rw [he, h3] at h4; cases h4
      · rw [h1, h2]

theorem verifyScan_perm {cfg : Cfg} {env : Env} {l l' : List (Field × Val)} (hp : l.Perm l')
    (hs : saneFields (l.map Prod.fst) = true) (hs' : saneFields (l'.map Prod.fst) = true)
    (ht : TypedFields cfg (l.map Prod.fst) (l.map Prod.snd))
    (hpr : ∀ id k p, Field.maybe id k p ∈ l.map Prod.fst → ∃ b, p.eval env = .ok b) (i : String) (n : Nat) :
    verifyScan env i n (l.map Prod.fst) (l.map Prod.snd) =
      verifyScan env i n (l'.map Prod.fst) (l'.map Prod.snd) := by
  have ht' : TypedFields cfg (l'.map Prod.fst) (l'.map Prod.snd) := by
    rw [typed_each] at ht ⊢
    exact fun p hm => ht p (hp.mem_iff.2 hm)
  have h1 := verifyScan_active (target := i) (n := n) hs ht hpr
  have h2 := verifyScan_active (target := i) (n := n) hs' ht' fun id k p hm =>
    hpr id k p ((hp.map Prod.fst).mem_iff.2 hm)
  rw [zip_each] at h1 h2
  rcases h1 with ⟨h1, h3⟩ | ⟨h1, f, v, m, hm, ha, hne⟩ <;> rcases h2 with ⟨h2, h4⟩ | ⟨h2, f', v', m', hm', ha', hne'⟩
  · rw [h1, h2]
  · exact (hne' (h3 _ _ _ (hp.mem_iff.2 hm') ha')).elim
  · exact (hne (h4 _ _ _ (hp.mem_iff.1 hm) ha)).elim
  · rw [h1, h2]

/-- To every field the list is the same in both orders. -/
theorem sameTo_perm {cfg : Cfg} {l l' : List (Field × Val)} (hp : l.Perm l') (hwf : WellFormed (l.map Prod.fst))
    (hwf' : WellFormed (l'.map Prod.fst)) (ht : TypedFields cfg (l.map Prod.fst) (l.map Prod.snd)) :
    SameTo cfg (l.map Prod.fst) ⟨l.map Prod.fst, l.map Prod.snd⟩ ⟨l'.map Prod.fst, l'.map Prod.snd⟩ := by
  have henv := envOf_perm hp hwf.2.1
  have ht' : TypedFields cfg (l'.map Prod.fst) (l'.map Prod.snd) := by
    rw [typed_each] at ht ⊢
    exact fun p hm => ht p (hp.mem_iff.2 hm)
  refine ⟨fun f hf i hi => ?_, fun f hf => ?_, fun f hf t w => ?_, fun f hf => ?_, fun f hf n => ?_⟩
  · simp only [WCtx.env, henv]
  · rw [isDerived_eq, isDerived_eq]; exact isSlot_perm (hp.map Prod.fst) _
  · exact deriveValue_perm hp (counted_of_typed hwf.1 ht) (counted_of_typed hwf'.1 ht') _ t w
  · exact hasConditional_perm (hp.map Prod.fst) _
  · simp only [WCtx.env, ← henv]
    refine verifyScan_perm hp hwf.1 hwf'.1 ht (fun id k p hm => ?_) _ n
    refine Pred.eval_ok fun j hj => deps_some hwf.acceptable (by simp) hm j ?_
    simp [fieldDeps, hj]

end S2S
