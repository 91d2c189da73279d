import Verif.Spec.Again
import Verif.Lemmas.PartSent
/-
Structs that were edited: what is sent of them.
-/
namespace S2S
open Spec Props

theorem fills_deps {f : Field} {i : String} (h : i ∈ fills f) : i ∈ fieldDeps f := by
  cases f with
  | plain id k c =>
    simp only [fills, Option.mem_toList] at h
    cases k with
    | vec e len b => cases len <;> simp_all [fieldDeps, kindDeps, lenDeps, Kind.lenTarget?, Kind.lenSpec?]
    | vecRec gs len b sz => cases len <;> simp_all [fieldDeps, kindDeps, lenDeps, Kind.lenTarget?, Kind.lenSpec?]
    | num => simp [Kind.lenTarget?, Kind.lenSpec?] at h
    | fbuf => simp [Kind.lenTarget?, Kind.lenSpec?] at h
    | fstr => simp [Kind.lenTarget?, Kind.lenSpec?] at h
    | record => simp [Kind.lenTarget?, Kind.lenSpec?] at h
    | arrRec => simp [Kind.lenTarget?, Kind.lenSpec?] at h
  | maybe id k p => simp [fills] at h
  | union id d alts c => cases d <;> simp_all [fills, fieldDeps, deducerDeps]

theorem lenTarget_deps {k : Kind} {i : String} (h : k.lenTarget? = some i) : i ∈ kindDeps k := by
  cases k with
  | vec e len b => cases len <;> simp_all [kindDeps, lenDeps, Kind.lenTarget?, Kind.lenSpec?]
  | vecRec gs len b sz => cases len <;> simp_all [kindDeps, lenDeps, Kind.lenTarget?, Kind.lenSpec?]
  | num => simp [Kind.lenTarget?, Kind.lenSpec?] at h
  | fbuf => simp [Kind.lenTarget?, Kind.lenSpec?] at h
  | fstr => simp [Kind.lenTarget?, Kind.lenSpec?] at h
  | record => simp [Kind.lenTarget?, Kind.lenSpec?] at h
  | arrRec => simp [Kind.lenTarget?, Kind.lenSpec?] at h

theorem activeLen_deps {env : Env} {id : String} {f : Field} {v : Val} {m : Nat} (h : ActiveLen env id f v m) :
    id ∈ fieldDeps f := by
  cases h with
  | optional h1 h2 => simp [fieldDeps, lenTarget_deps h1]
  | @alternative i d alts c j a us h1 h2 =>
    simp only [fieldDeps, List.mem_append, List.mem_flatMap]
    exact .inr ⟨a, List.mem_of_getElem? h1, lenTarget_deps h2⟩

theorem sameBut_symm {hit : Field → Prop} {fs : List Field} {vs vs' : List Val}
    (h : SameBut hit fs vs vs') : SameBut hit fs vs' vs := by
  induction h with
  | nil => exact .nil
  | same _ ih => exact .same ih
  | other hh _ ih => exact .other hh ih

theorem near_env {hit : Field → Prop} {fs : List Field} {vs vs' : List Val} (h : SameBut hit fs vs vs')
    {g : Field} (hn : ¬ Near fs hit g) : Agree (fieldDeps g) (envOf fs vs) (envOf fs vs') := fun i hi =>
  sameBut_env h fun f hf hh e => hn (.inr ⟨f, hf, hh, e ▸ hi⟩)

theorem active_again {cfg : Cfg} {hit : Field → Prop} {fs : List Field} {vs vs' : List Val}
    (h : SameBut hit fs vs vs') {g : Field} (hn : ¬ Again fs hit g) (y : Int)
    (ha : ActiveAgree cfg fs vs g.id y) : ActiveAgree cfg fs vs' g.id y := by
  intro f v m hm hl
  have hf : ¬ Near fs hit f := fun hf => hn (.inr ⟨f, (List.of_mem_zip hm).1, hf, activeLen_deps hl⟩)
  exact ha f v m (sameBut_zip h hm fun hh => hf (.inl hh))
    (activeLen_context (near_env (sameBut_symm h) hf) hl)

theorem sentField_again {cfg : Cfg} {hit : Field → Prop} {fs : List Field} {vs vs' : List Val}
    (h : SameBut hit fs vs vs') {g : Field} (hn : ¬ Again fs hit g) (v u : Val) :
    SentField cfg fs vs g v u ↔ SentField cfg fs vs' g v u :=
  sentField_context (producers_sameBut h fun f hf hh hi => hn (.inr ⟨f, hf, .inl hh, fills_deps hi⟩))
    (fun y => ⟨active_again h hn y, active_again (sameBut_symm h) hn y⟩)
    (near_env h fun hg => hn (.inl hg)) v u

theorem resent_iff {cfg : Cfg} {hit : Field → Prop} {fs : List Field} {vs vs' us : List Val}
    (hwf : Acceptable fs) (ht : Typed cfg fs vs) (h : SameBut hit fs vs vs') (hs : Sent cfg fs vs us)
    (us' : List Val) :
    Sent cfg fs vs' us' ↔ Resent (Again fs hit) (SentField cfg fs vs') fs vs' us us' := by
  have hc := counted_of_typed hwf.1 ht
  have key : ∀ {gs : List Field} {ws ws' xs : List Val}, saneFields gs = true → SameBut hit gs ws ws' →
      TypedFields cfg gs ws → SentFields cfg fs vs gs ws xs → ∀ ys,
      (SentFields cfg fs vs' gs ws' ys ↔ Resent (Again fs hit) (SentField cfg fs vs') gs ws' xs ys) := by
    intro gs ws ws' xs hsane hb
    induction hb generalizing xs with
    | nil =>
      intro _ h ys
      simp only [SentFields] at h ⊢
      obtain rfl := h.2
      constructor
      · rintro ⟨-, rfl⟩; exact .nil
      · intro h; cases h; exact ⟨trivial, rfl⟩
    | @same f gs v ws ws' hb ih =>
      intro ht h ys
      rw [saneFields, Bool.and_eq_true] at hsane
      simp only [SentFields] at h ⊢
      rw [TypedFields] at ht
      obtain ⟨_, _, u, us, e, rfl, h1, h2⟩ := h
      cases e
      constructor
      · rintro ⟨_, _, u', us', e, rfl, h3, h4⟩
        cases e
        by_cases ha : Again fs hit f
        · exact .again ha h3 ((ih hsane.2 ht.2 h2 _).1 h4)
        · obtain rfl := sentField_unique cfg f hsane.1 fs vs v u u' hc ht.1 h1 ((sentField_again h ha _ _).2 h3)
          exact .kept ha ((ih hsane.2 ht.2 h2 _).1 h4)
      · intro hr
        cases hr with
        | again ha h3 hr => exact ⟨_, _, _, _, rfl, rfl, h3, (ih hsane.2 ht.2 h2 _).2 hr⟩
        | kept ha hr =>
          exact ⟨_, _, _, _, rfl, rfl, (sentField_again h ha _ _).1 h1, (ih hsane.2 ht.2 h2 _).2 hr⟩
    | @other f gs v v' ws ws' hh hb ih =>
      intro ht h ys
      rw [saneFields, Bool.and_eq_true] at hsane
      simp only [SentFields] at h ⊢
      rw [TypedFields] at ht
      obtain ⟨_, _, u, us, e, rfl, h1, h2⟩ := h
      cases e
      have ha : Again fs hit f := .inl (.inl hh)
      constructor
      · rintro ⟨_, _, u', us', e, rfl, h3, h4⟩
        cases e
        exact .again ha h3 ((ih hsane.2 ht.2 h2 _).1 h4)
      · intro hr
        cases hr with
        | again ha h3 hr => exact ⟨_, _, _, _, rfl, rfl, h3, (ih hsane.2 ht.2 h2 _).2 hr⟩
        | kept ha' hr => exact absurd ha ha'
  exact key hwf.1 h ht hs us'

end S2S
