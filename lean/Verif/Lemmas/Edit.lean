import Verif.Spec.Edit
import Verif.Lemmas.Damage
import Verif.Lemmas.WriteComplete
import Verif.Lemmas.SettleIdem
/-
Edited structs: settling, and validity field by field.
-/
namespace S2S
open Spec

/-- Valid is: a value for every field, and every value one of its field beside the others. -/
theorem valid_pointwise (cfg : Cfg) (fs : List Field) (vs : List Val) :
    Valid cfg fs vs ↔ fs.length = vs.length ∧
      ∀ f v, (f, v) ∈ fs.zip vs → IsField cfg (envOf fs vs) f v := by
  constructor
  · rintro ⟨h1, h2, h3⟩
    exact ⟨(fitsFields_length h1).symm, fun f v hm => ⟨fits_zip h1 hm, ok_zip h2 hm, shaped_zip h3 hm⟩⟩
  · rintro ⟨hl, h⟩
    unfold Valid
    generalize envOf fs vs = env at h
    induction fs generalizing vs with
    | nil =>
      cases vs with
      | nil => simp [FitsFields, OkFields, ShapedFields]
      | cons v vs => simp at hl
    | cons f fs ih =>
      cases vs with
      | nil => simp at hl
      | cons v vs =>
        have h1 := h f v (by simp)
        have h2 := ih vs (by simpa using hl) fun g w hm => h g w (by simp [hm])
        simp only [FitsFields, OkFields, ShapedFields]
        exact ⟨⟨h1.1, h2.1⟩, ⟨h1.2.1, h2.2.1⟩, h1.2.2, h2.2.2⟩

theorem produced_none {target : String} {f : Field} (h : target ∉ fills f) (v : Val) :
    produced target f v = none := by
  cases f with
  | plain id k c =>
    simp only [fills, Option.mem_toList] at h
    cases v <;> simp only [produced]
    rw [if_neg (by simpa using h)]
  | maybe id k p => cases v <;> simp [produced]
  | union id d alts c =>
    cases d <;> cases v <;> simp only [produced]
    simp only [fills, List.mem_singleton] at h
    rw [if_neg fun he => h he.symm]

theorem producers_sameBut {hit : Field → Prop} {target : String} {fs : List Field} {vs vs' : List Val}
    (h : SameBut hit fs vs vs') (hn : ∀ f ∈ fs, hit f → target ∉ fills f) :
    producers target fs vs = producers target fs vs' := by
  induction h with
  | nil => rfl
  | same _ ih =>
    rw [producers, producers, ih fun g hg => hn g (by simp [hg])]
  | @other f fs v v' vs vs' hh _ ih =>
    rw [producers, producers, ih fun g hg => hn g (by simp [hg]),
      produced_none (hn f (by simp) hh), produced_none (hn f (by simp) hh)]

theorem settleField_same {all : List Field} {vals vals' : List Val} {f : Field}
    (h : slotValue all vals f.id = slotValue all vals' f.id) (v : Val) :
    settleField all vals f v = settleField all vals' f v := by
  cases f with
  | plain id k c =>
    simp only [Field.id] at h
    simp only [settleField, h]
  | maybe id k p => cases v <;> simp only [settleField]
  | union id d alts c => cases v <;> simp only [settleField]

theorem settleFields_sameBut {hit : Field → Prop} {all : List Field} {vals vals' : List Val}
    (hs : SameBut hit all vals vals') {fs : List Field} {vs vs' : List Val}
    (h : SameBut hit fs vs vs') :
    SameBut (Affected all hit) fs (settleFields all vals fs vs) (settleFields all vals' fs vs') := by
  induction h with
  | nil => simp only [settleFields]; exact .nil
  | @same f fs v vs vs' _ ih =>
    rw [settleFields, settleFields]
    by_cases ha : ∃ g ∈ all, hit g ∧ f.id ∈ fills g
    · exact .other (.inr ha) ih
    · rw [settleField_same (vals' := vals')]
      · exact .same ih
      · unfold slotValue
        rw [producers_sameBut hs fun g hg hh hi => ha ⟨g, hg, hh, hi⟩]
  | @other f fs v v' vs vs' hh _ ih =>
    rw [settleFields, settleFields]
    exact .other (.inl hh) ih

theorem sameBut_length {hit : Field → Prop} {fs : List Field} {vs vs' : List Val}
    (h : SameBut hit fs vs vs') : fs.length = vs.length ∧ fs.length = vs'.length := by
  induction h with
  | nil => simp
  | same _ ih => simp [ih.1, ← ih.2]
  | other _ _ ih => simp [ih.1, ← ih.2]

theorem sameBut_zip {hit : Field → Prop} {fs : List Field} {vs vs' : List Val}
    (h : SameBut hit fs vs vs') {g : Field} {w : Val} (hm : (g, w) ∈ fs.zip vs') (hg : ¬ hit g) :
    (g, w) ∈ fs.zip vs := by
  induction h with
  | nil => simp at hm
  | same _ ih =>
    simp only [List.zip_cons_cons, List.mem_cons] at hm ⊢
    exact hm.imp id ih
  | other hh _ ih =>
    simp only [List.zip_cons_cons, List.mem_cons, Prod.mk.injEq] at hm ⊢
    rcases hm with ⟨rfl, _⟩ | hm
    · exact absurd hh hg
    · exact .inr (ih hm)

theorem sameBut_env {hit : Field → Prop} {fs : List Field} {vs vs' : List Val}
    (h : SameBut hit fs vs vs') {i : String} (hi : ∀ f ∈ fs, hit f → f.id ≠ i) :
    envOf fs vs i = envOf fs vs' i := by
  induction h with
  | nil => rfl
  | same _ ih =>
    simp only [envOf, Env.set]
    rw [ih fun g hg => hi g (by simp [hg])]
  | @other f fs v v' vs vs' hh _ ih =>
    simp only [envOf, Env.set]
    rw [ih fun g hg => hi g (by simp [hg]), if_neg fun he => hi f (by simp) hh he.symm,
      if_neg fun he => hi f (by simp) hh he.symm]

/-- Only what was affected and what looks at it has to be valid again. -/
theorem valid_recheck {cfg : Cfg} {fs : List Field} (hwf : WellFormed fs) {hit : Field → Prop}
    {vs ws : List Val} (hv : Valid cfg fs vs) (h : SameBut hit fs vs ws) :
    Valid cfg fs ws ↔ ∀ g w, (g, w) ∈ fs.zip ws →
      (hit g ∨ ∃ f ∈ fs, hit f ∧ f.id ∈ fieldDeps g) → IsField cfg (envOf fs ws) g w := by
  rw [valid_pointwise]
  constructor
  · rintro ⟨_, h1⟩ g w hm _
    exact h1 g w hm
  · intro h1
    refine ⟨(sameBut_length h).2, fun g w hm => ?_⟩
    by_cases ht : hit g ∨ ∃ f ∈ fs, hit f ∧ f.id ∈ fieldDeps g
    · exact h1 g w hm ht
    · rw [not_or] at ht
      have hmem : g ∈ fs := (List.of_mem_zip hm).1
      obtain ⟨a, b, c⟩ := ((valid_pointwise cfg fs vs).1 hv).2 g w (sameBut_zip h hm ht.1)
      refine ⟨a, b, (shapedField_congr cfg g (uniqueField_mem hwf.2.1 g hmem)
        (earlierField_mem hwf.2.2 g hmem) (fun i hi => ?_) w).mp c⟩
      exact sameBut_env h fun f hf hh he => ht.2 ⟨f, hf, hh, he ▸ hi⟩

theorem sameBut_refl {hit : Field → Prop} {fs : List Field} {vs : List Val}
    (hl : fs.length = vs.length) : SameBut hit fs vs vs := by
  induction fs generalizing vs with
  | nil =>
    cases vs with
    | nil => exact .nil
    | cons v vs => simp at hl
  | cons f fs ih =>
    cases vs with
    | nil => simp at hl
    | cons v vs => exact .same (ih (by simpa using hl))

theorem sameBut_trans {hit : Field → Prop} {fs : List Field} {a b c : List Val}
    (h : SameBut hit fs a b) (h' : SameBut hit fs b c) : SameBut hit fs a c := by
  induction h generalizing c with
  | nil => exact h'
  | same _ ih =>
    cases h' with
    | same h' => exact .same (ih h')
    | other hh h' => exact .other hh (ih h')
  | other hh _ ih =>
    cases h' with
    | same h' => exact .other hh (ih h')
    | other _ h' => exact .other hh (ih h')

theorem sameBut_at {hit : Field → Prop} {pre post : List Field} {f : Field} {us ws : List Val}
    (v v' : Val) (hl : us.length = pre.length) (hw : ws.length = post.length) (hf : hit f) :
    SameBut hit (pre ++ f :: post) (us ++ v :: ws) (us ++ v' :: ws) := by
  induction pre generalizing us with
  | nil =>
    have : us = [] := by simpa using hl
    subst this
    exact .other hf (sameBut_refl hw.symm)
  | cons g gs ih =>
    cases us with
    | nil => simp at hl
    | cons u us => exact .same (ih (by simpa using hl))

/-- What is stored in a slot does not matter. -/
theorem settleFields_slot {all : List Field} {vals vals' : List Val} {fs : List Field}
    {vs vs' : List Val} (hsv : ∀ id, slotValue all vals id = slotValue all vals' id)
    (h : SameBut (fun g => ∃ id k c, g = .plain id k c ∧ isSlot all id = true) fs vs vs') :
    settleFields all vals fs vs = settleFields all vals' fs vs' := by
  induction h with
  | nil => rfl
  | same _ ih =>
    rw [settleFields, settleFields, ih, settleField_same (hsv _)]
  | other hh _ ih =>
    obtain ⟨id, k, c, rfl, hi⟩ := hh
    rw [settleFields, settleFields, ih]
    simp only [settleField, hi, if_true, hsv]

theorem isSlot_of_fills {fs : List Field} {f : Field} {id : String} (hf : f ∈ fs)
    (h : id ∈ fills f) : isSlot fs id = true := by
  unfold isSlot
  rw [List.any_eq_true]
  refine ⟨f, hf, ?_⟩
  cases f with
  | plain i k c => simpa [fills] using h
  | maybe i k p => simp [fills] at h
  | union i d alts c =>
    cases d <;> simp [fills] at h
    simp [h]

end S2S
