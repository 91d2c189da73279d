import Verif.Spec.Evolve
import Verif.Spec.Sent
import Verif.Lemmas.Sizes
import Verif.Lemmas.Wellformed
import Verif.Lemmas.Place
/-
What is sent by one version of a schema has the same encoding in another, and its length
is within the bounds the schema gives.
-/
namespace S2S
open Spec

/-! ### Encodings under a looser schema -/

mutual
theorem looser_wireKind {keep cfg o} : ∀ {k k'}, LooserKind keep cfg k k' → ∀ {v}, TypedKind cfg k v →
    wireKind o k' v = wireKind o k v
  | _, _, .num, _, _ => rfl
  | _, _, .fbuf, _, _ => rfl
  | _, _, .fstr, _, _ => rfl
  | _, _, .vec _, v, _ => by cases v <;> rfl
  | _, _, .record h, v, ht => by
      cases v <;> simp only [TypedKind] at ht
      simp only [wireKind]
      exact looser_wireFields h ht
  | _, _, .arrRec h, v, ht => by
      cases v <;> simp only [TypedKind] at ht
      simp only [wireKind]
      rename_i vs
      refine congrArg List.flatten (List.map_congr_left fun v hv => ?_)
      obtain ⟨ws, rfl, hw⟩ := ht.2 v hv
      simp only [recordBytes]
      exact looser_wireFields h hw
  | _, _, .vecRec h _, v, ht => by
      cases v <;> simp only [TypedKind] at ht
      simp only [wireKind]
      rename_i vs
      refine congrArg List.flatten (List.map_congr_left fun v hv => ?_)
      obtain ⟨ws, rfl, hw⟩ := ht.2 v hv
      simp only [recordBytes]
      exact looser_wireFields h hw
theorem looser_wireField {keep cfg o} : ∀ {f g}, LooserField keep cfg f g → ∀ {v}, TypedField cfg f v →
    wireField o g v = wireField o f v
  | _, _, .plain h _ _, v, ht => by
      simp only [TypedField] at ht
      simp only [wireField]
      exact looser_wireKind h ht
  | _, _, .maybe h, v, ht => by
      cases v <;> simp only [TypedField] at ht
      · rfl
      · simp only [wireField]
        exact looser_wireKind h ht
  | _, _, .union _ _ h _, v, ht => by
      cases v <;> simp only [TypedField] at ht
      simp only [wireField]
      exact looser_wireAlts h ht
theorem looser_wireAlts {keep cfg o} : ∀ {a b}, LooserAlts keep cfg a b → ∀ {i v}, TypedAlts cfg a i v →
    wireAlts o b i v = wireAlts o a i v
  | _, _, .more, i, v, ht => by simp [TypedAlts] at ht
  | _, _, .cons h _ _, 0, v, ht => by
      simp only [TypedAlts] at ht
      simp only [wireAlts]
      exact looser_wireKind h ht
  | _, _, .cons _ _ h, i + 1, v, ht => by
      simp only [TypedAlts] at ht
      simp only [wireAlts]
      exact looser_wireAlts h ht
theorem looser_wireFields {keep cfg o} : ∀ {fs gs}, LooserFields keep cfg fs gs → ∀ {vs},
    TypedFields cfg fs vs → wireFields o gs vs = wireFields o fs vs
  | _, _, .nil, _, _ => rfl
  | _, _, .cons _ _, [], _ => rfl
  | _, _, .cons hf h, v :: vs, ht => by
      simp only [TypedFields] at ht
      simp only [wireFields]
      rw [looser_wireField hf ht.1, looser_wireFields h ht.2]
end

/-! ### Lengths -/

theorem oneByOne_length {R : List Val → List Val → Prop} : ∀ {vs us}, OneByOne R vs us →
    us.length = vs.length
  | [], us, h => by rw [OneByOne] at h; rw [h]
  | v :: vs, us, h => by
      obtain ⟨ws, xs, us', rfl, rfl, -, h⟩ := h
      simp [oneByOne_length h]

theorem oneByOne_mem {R : List Val → List Val → Prop} : ∀ {vs us}, OneByOne R vs us → ∀ u ∈ us,
    ∃ ws xs, u = .seq xs ∧ .seq ws ∈ vs ∧ R ws xs
  | [], us, h, u, hu => by rw [OneByOne] at h; rw [h] at hu; cases hu
  | v :: vs, us, h, u, hu => by
      obtain ⟨ws, xs, us', rfl, rfl, hr, h⟩ := h
      rcases List.mem_cons.1 hu with rfl | hu
      · exact ⟨ws, xs, rfl, by simp, hr⟩
      · obtain ⟨ws', xs', rfl, hm, hr'⟩ := oneByOne_mem h u hu
        exact ⟨ws', xs', rfl, by simp [hm], hr'⟩

/-- Kinds without a ceiling: those of slots and constants. -/
theorem fixed_between {cfg : Cfg} {o : Endian} {k : Kind} {v : Val}
    (hk : k.isFixed = true) (ht : TypedKind cfg k v) :
    minKind k ≤ (wireKind o k v).length ∧ (wireKind o k v).length ≤ maxKind cfg k := by
  cases k <;> cases v <;> simp_all only [Kind.isFixed, TypedKind, Bool.false_eq_true]
  · simp [wireKind, minKind, maxKind]
  · rename_i e n vs
    rw [wireKind, flatMap_length _ e.size _ fun v hv => wireElem_length o e v (ht.2 v hv), ht.1]
    simp [minKind, maxKind]
  · rename_i n vs
    rw [wireKind, flatMap_length _ 1 _ fun v hv => wireElem_length o (.scalar u8) v (ht.2 v hv), ht.1]
    simp [minKind, maxKind]

/-- Slots are of fixed size. -/
def SlotsFixed (all : List Field) : Prop :=
  ∀ f ∈ all, ∀ id k c, f = .plain id k c → isSlot all id = true → k.isFixed = true

theorem slotsFixed {all : List Field} (hd : Distinct all) (hr : Resolves all) : SlotsFixed all := by
  rintro f hf id k c rfl hs
  obtain ⟨i, hi⟩ := List.mem_iff_getElem?.1 hf
  rcases hk : k.isFixed with _ | _
  · have := (container_free hd hr hi hk).1
    rw [hs] at this
    cases this
  · rfl

mutual
theorem sentKind_between {cfg : Cfg} {o : Endian} {all vals id c} : (k : Kind) → saneKind k = true →
    EveryKind SlotsFixed k → ∀ {v u}, SentKind cfg all vals id c k v u → StorableKind cfg k v → TypedKind cfg k u →
    minKind k ≤ (wireKind o k u).length ∧ (wireKind o k u).length ≤ maxKind cfg k
  | .num t w, _, _, _, _, _, _, ht => fixed_between rfl ht
  | .fbuf e n, _, _, _, _, _, _, ht => fixed_between rfl ht
  | .fstr n, _, _, _, _, _, _, ht => fixed_between rfl ht
  | .vec e len b, hs, _, v, u, h, hst, _ => by
      simp only [SentKind] at h
      obtain ⟨rfl, vs, rfl, -⟩ := h
      simp only [StorableKind] at hst
      exact wireKind_between cfg o _ hs _ hst
  | .record fs, hs, hp, v, u, h, hst, ht => by
      simp only [SentKind] at h
      obtain ⟨vs, us, rfl, rfl, h⟩ := h
      simp only [StorableKind] at hst
      simp only [TypedKind] at ht
      rw [saneKind] at hs
      rw [wireKind, minKind, maxKind]
      exact sentFields_between fs hs hp.1 hp.2 h hst ht
  | .arrRec fs n, hs, hp, v, u, h, hst, ht => by
      simp only [SentKind] at h
      obtain ⟨vs, us, rfl, rfl, hl, h⟩ := h
      simp only [StorableKind] at hst
      simp only [TypedKind] at ht
      rw [saneKind] at hs
      rw [wireKind, minKind, maxKind, ← ht.1]
      refine flatMap_between _ _ _ _ fun u hu => ?_
      obtain ⟨ws, xs, rfl, hm, hr⟩ := oneByOne_mem h u hu
      obtain ⟨_, e, hst⟩ := hst.2 _ hm
      cases e
      obtain ⟨_, e, ht⟩ := ht.2 _ hu
      cases e
      exact sentFields_between fs hs hp.1 hp.2 hr hst ht
  | .vecRec fs len b sz, hs, hp, v, u, h, hst, ht => by
      simp only [SentKind] at h
      obtain ⟨vs, us, rfl, rfl, -, h⟩ := h
      simp only [StorableKind] at hst
      simp only [TypedKind] at ht
      simp only [saneKind, Bool.and_eq_true, decide_eq_true_eq] at hs
      refine ⟨by simp [minKind], ?_⟩
      rw [wireKind, maxKind]
      refine Nat.le_trans (flatMap_between _ (minFields fs) (maxFields cfg fs) _ fun u hu => ?_).2
        (Nat.mul_le_mul_right _ (by
          rw [oneByOne_length h]; exact count_le_maxCount hs.1 hst.1))
      obtain ⟨ws, xs, rfl, hm, hr⟩ := oneByOne_mem h u hu
      obtain ⟨_, e, hst⟩ := hst.2 _ hm
      cases e
      obtain ⟨_, e, ht⟩ := ht.2 _ hu
      cases e
      exact sentFields_between fs hs.2 hp.1 hp.2 hr hst ht
  termination_by structural k => k
theorem sentField_between {cfg : Cfg} {o : Endian} {all vals} : (f : Field) → saneField f = true →
    (∀ id k c, f = .plain id k c → isSlot all id = true → k.isFixed = true) → EveryField SlotsFixed f → ∀ {v u},
    SentField cfg all vals f v u → StorableField cfg all f v → TypedField cfg f u →
    minField f ≤ (wireField o f u).length ∧ (wireField o f u).length ≤ maxField cfg f
  | .plain id k c, hs, hf, hp, v, u, h, hst, ht => by
      rw [saneField] at hs
      simp only [TypedField] at ht
      rw [wireField, minField, maxField]
      by_cases hsl : isSlot all id = true
      · exact fixed_between (hf _ _ _ rfl hsl) ht
      · simp only [SentField] at h
        rw [if_neg hsl] at h
        by_cases hc : (constOf k c).isSome = true
        · exact fixed_between (by
            revert hc; cases k <;> cases c <;> simp [constOf, Kind.isFixed]) ht
        · simp only [StorableField] at hst
          rcases hst with hst | hst | hst
          · exact absurd hst hsl
          · exact absurd hst hc
          · split at h
            · rename_i hx
              exact fixed_between (by
                revert hx; cases k <;> simp [typedConst, Kind.isFixed] <;> cases c <;> simp [constOf]) ht
            · exact sentKind_between k hs hp h.2 hst ht
  | .maybe id k p, hs, _, hp, v, u, h, hst, ht => by
      rw [saneField] at hs
      simp only [SentField] at h
      rcases h with ⟨rfl, rfl, -⟩ | ⟨w, x, rfl, rfl, -, h⟩
      · simp [wireField, minField]
      · simp only [TypedField] at ht
        simp only [StorableField] at hst
        rw [wireField, minField, maxField]
        exact ⟨Nat.zero_le _, (sentKind_between k hs hp h hst ht).2⟩
  | .union id d alts c, hs, _, hp, v, u, h, hst, ht => by
      simp only [saneField, Bool.and_eq_true] at hs
      simp only [SentField] at h
      obtain ⟨i, w, x, rfl, rfl, -, -, h⟩ := h
      simp only [TypedField] at ht
      simp only [StorableField] at hst
      rw [wireField, minField, maxField]
      exact sentAlts_between alts hs.2 hp h hst ht
  termination_by structural f => f
theorem sentAlts_between {cfg : Cfg} {o : Endian} {all vals id} : (alts : List Alt) → saneAlts alts = true →
    EveryAlts SlotsFixed alts → ∀ {i v u}, SentAlts cfg all vals id alts i v u → StorableAlts cfg alts i v → TypedAlts cfg alts i u →
    minAlts alts ≤ (wireAlts o alts i u).length ∧ (wireAlts o alts i u).length ≤ maxAlts cfg alts
  | [], _, _, _, _, _, h, _, _ => by simp [SentAlts] at h
  | .mk k c :: alts, hs, hp, 0, v, u, h, hst, ht => by
      simp only [saneAlts, Bool.and_eq_true] at hs
      simp only [SentAlts] at h
      simp only [StorableAlts] at hst
      simp only [TypedAlts] at ht
      rw [wireAlts, maxAlts]
      have := sentKind_between (o := o) k hs.1 hp.1 h.2 hst ht
      exact ⟨Nat.le_trans (minAlts_cons_le k c alts) this.1, Nat.le_trans this.2 (Nat.le_max_left _ _)⟩
  | .mk k c :: alts, hs, hp, i + 1, v, u, h, hst, ht => by
      simp only [saneAlts, Bool.and_eq_true] at hs
      simp only [SentAlts] at h
      simp only [StorableAlts] at hst
      simp only [TypedAlts] at ht
      rw [wireAlts, maxAlts]
      have := sentAlts_between (o := o) alts hs.2 hp.2 h hst ht
      refine ⟨Nat.le_trans (minAlts_cons_le' k c alts ?_) this.1, Nat.le_trans this.2 (Nat.le_max_right _ _)⟩
      rintro rfl
      simp [SentAlts] at h
  termination_by structural alts => alts
theorem sentFields_between {cfg : Cfg} {o : Endian} {all vals} : (fs : List Field) → saneFields fs = true →
    (∀ f ∈ fs, ∀ id k c, f = .plain id k c → isSlot all id = true → k.isFixed = true) → EveryFields SlotsFixed fs → ∀ {vs us},
    SentFields cfg all vals fs vs us → StorableFields cfg all fs vs → TypedFields cfg fs us →
    minFields fs ≤ (wireFields o fs us).length ∧ (wireFields o fs us).length ≤ maxFields cfg fs
  | [], _, _, _, _, _, _, _, _ => by simp [wireFields, minFields]
  | f :: fs, hs, hf, hp, vs, us, h, hst, ht => by
      simp only [saneFields, Bool.and_eq_true] at hs
      simp only [SentFields] at h
      obtain ⟨v, vs', u, us', rfl, rfl, h1, h2⟩ := h
      simp only [StorableFields] at hst
      simp only [TypedFields] at ht
      have h1 := sentField_between (o := o) f hs.1 (hf f (by simp)) hp.1 h1 hst.1 ht.1
      have h2 := sentFields_between (o := o) fs hs.2 (fun g hg => hf g (by simp [hg])) hp.2 h2 hst.2 ht.2
      simp only [wireFields, minFields, maxFields, List.length_append]
      omega
  termination_by structural fs => fs
end

end S2S
