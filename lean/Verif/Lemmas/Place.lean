import Verif.Spec.Place
import Verif.Lemmas.WriteSettle
import Verif.Lemmas.Append
import Verif.Spec.Names
/-
Places of a struct and of the struct it settles to.
-/
namespace S2S
open Spec

theorem settleFields_get (all : List Field) (vals : List Val) (fs : List Field) (vs : List Val) (i : Nat)
    {f : Field} {v : Val} (hf : fs[i]? = some f) (hv : vs[i]? = some v) :
    (settleFields all vals fs vs)[i]? = some (settleField all vals f v) := by
  induction fs generalizing vs i with
  | nil => simp at hf
  | cons a fs ih =>
    cases vs with
    | nil => simp at hv
    | cons b vs =>
      rw [settleFields]
      cases i with
      | zero =>
        simp only [List.getElem?_cons_zero, Option.some.injEq] at hf hv
        subst hf hv
        rfl
      | succ i =>
        simp only [List.getElem?_cons_succ] at hf hv ⊢
        exact ih vs i hf hv

theorem samePlace_settleKind {k : Kind} {v w : Val} {gs : List Field} {as bs : List Val}
    (hw : w = settleKind k v) (h : SamePlaceKind k v w gs as bs) :
    bs = settle gs as ∧ ∀ P, EveryKind P k → Everywhere P gs := by
  cases h with
  | record =>
    rw [settleKind, Val.seq.injEq] at hw
    exact ⟨hw, fun P h => h⟩
  | arrRec h1 h2 =>
    rw [settleKind, Val.seq.injEq] at hw
    subst hw
    rw [List.getElem?_map, h1] at h2
    simp only [Option.map_some, mapRecord, Option.some.injEq, Val.seq.injEq] at h2
    exact ⟨h2.symm, fun P h => h⟩
  | vecRec h1 h2 =>
    rw [settleKind, Val.seq.injEq] at hw
    subst hw
    rw [List.getElem?_map, h1] at h2
    simp only [Option.map_some, mapRecord, Option.some.injEq, Val.seq.injEq] at h2
    exact ⟨h2.symm, fun P h => h⟩

theorem samePlaceKind_not_fixed {k : Kind} {v w : Val} {gs : List Field} {as bs : List Val}
    (h : SamePlaceKind k v w gs as bs) : k.isFixed = false := by cases h <;> rfl

theorem everyAlts_get {P : List Field → Prop} {alts : List Alt} (h : EveryAlts P alts) {i : Nat} {a : Alt}
    (ha : alts[i]? = some a) : EveryKind P a.kind := by
  induction alts generalizing i with
  | nil => simp at ha
  | cons b alts ih =>
    cases b
    rw [EveryAlts] at h
    cases i with
    | zero => simp only [List.getElem?_cons_zero, Option.some.injEq] at ha; subst ha; exact h.1
    | succ i => simp only [List.getElem?_cons_succ] at ha; exact ih h.2 ha

theorem everyFields_get {P : List Field → Prop} {fs : List Field} (h : EveryFields P fs) {i : Nat} {f : Field}
    (hf : fs[i]? = some f) : EveryField P f := by
  induction fs generalizing i with
  | nil => simp at hf
  | cons b fs ih =>
    rw [EveryFields] at h
    cases i with
    | zero => simp only [List.getElem?_cons_zero, Option.some.injEq] at hf; subst hf; exact h.1
    | succ i => simp only [List.getElem?_cons_succ] at hf; exact ih h.2 hf

/-- A field with fields inside is no slot and no constant. -/
theorem container_free {fs : List Field} (hn : (fs.map Field.id).Nodup) (hr : Resolves fs) {i : Nat}
    {id : String} {k : Kind} {c : Constraint} (hf : fs[i]? = some (.plain id k c)) (hfix : k.isFixed = false) :
    isSlot fs id = false ∧ constOf k c = none := by
  refine ⟨?_, by cases k <;> simp_all [Kind.isFixed, constOf]⟩
  rw [← Bool.not_eq_true]
  intro hc
  obtain ⟨g, hg, hgm⟩ := slot_scalar hr hc
  split at hgm
  · rename_i j t w c'
    obtain ⟨rfl, -⟩ := hgm
    obtain ⟨j', hj'⟩ := List.mem_iff_getElem?.1 hg
    have e1 : (fs.map Field.id)[i]? = some j := by rw [List.getElem?_map, hf]; rfl
    have e2 : (fs.map Field.id)[j']? = some j := by rw [List.getElem?_map, hj']; rfl
    have hij := (List.getElem?_inj (List.getElem?_eq_some_iff.1 e1).1 hn).1 (e1.trans e2.symm)
    subst hij
    rw [hf] at hj'
    cases hj'
    cases hfix
  · exact hgm

theorem samePlaceKind_every {P : List Field → Prop} {k : Kind} {v w : Val} {gs : List Field} {as bs : List Val}
    (h : SamePlaceKind k v w gs as bs) (hk : EveryKind P k) : Everywhere P gs := by
  cases h <;> exact hk

/-- In the settled struct, every place is settled; and conditions on every list hold there. -/
theorem samePlace_settle {fs gs : List Field} {vs ws as bs : List Val} (h : SamePlace fs vs ws gs as bs)
    (hw : ws = settle fs vs) {P : List Field → Prop}
    (hP : ∀ fs, P fs → (fs.map Field.id).Nodup ∧ Resolves fs) (he : Everywhere P fs) :
    bs = settle gs as ∧ Everywhere P gs := by
  induction h with
  | here => exact ⟨hw, he⟩
  | @deeper fs vs ws f v w gs as bs hs us us' i hf hv hw' hfield _ ih =>
    subst hw
    rw [settle, settleFields_get fs vs fs vs i hf hv, Option.some.injEq] at hw'
    have hef := everyFields_get he.2 hf
    have key : bs = settle gs as ∧ Everywhere P gs := by
      cases hfield with
      | @plain id k c _ _ _ _ _ hk =>
        have hfix := samePlaceKind_not_fixed hk
        obtain ⟨hns, hnc⟩ := container_free (hP fs he.1).1 (hP fs he.1).2 hf hfix
        rw [settleField, hns, hnc] at hw'
        obtain ⟨h1, h2⟩ := samePlace_settleKind hw'.symm hk
        exact ⟨h1, h2 P hef⟩
      | @maybe id k p v w _ _ _ hk =>
        rw [settleField, Val.present.injEq] at hw'
        obtain ⟨h1, h2⟩ := samePlace_settleKind hw'.symm hk
        exact ⟨h1, h2 P hef⟩
      | @union id d alts c a v w _ _ _ i ha hk =>
        rw [settleField, Val.var.injEq, settleAlts_get, ha] at hw'
        obtain ⟨h1, h2⟩ := samePlace_settleKind hw'.2.symm hk
        exact ⟨h1, h2 P (everyAlts_get hef ha)⟩
    exact ih key.1 key.2

/-- In the settled struct nothing is lost: values that can be stored can be stored at every
place. -/
theorem samePlace_storableKind {cfg : Cfg} {k : Kind} {v w : Val} {gs : List Field} {as bs : List Val}
    (h : SamePlaceKind k v w gs as bs) (hs : StorableKind cfg k v) : Storable cfg gs as := by
  cases h with
  | record => rw [StorableKind] at hs; exact hs
  | arrRec h1 _ =>
    rw [StorableKind] at hs
    obtain ⟨ws, he, hws⟩ := hs.2 _ (List.mem_of_getElem? h1)
    cases he
    exact hws
  | vecRec h1 _ =>
    rw [StorableKind] at hs
    obtain ⟨ws, he, hws⟩ := hs.2 _ (List.mem_of_getElem? h1)
    cases he
    exact hws

theorem storableFields_get {cfg : Cfg} {all : List Field} {fs : List Field} {vs : List Val}
    (h : StorableFields cfg all fs vs) {i : Nat} {f : Field} {v : Val} (hf : fs[i]? = some f)
    (hv : vs[i]? = some v) : StorableField cfg all f v := by
  induction fs generalizing vs i with
  | nil => simp at hf
  | cons g fs ih =>
    cases vs with
    | nil => simp at hv
    | cons u vs =>
      rw [StorableFields] at h
      cases i with
      | zero =>
        simp only [List.getElem?_cons_zero, Option.some.injEq] at hf hv
        subst hf hv
        exact h.1
      | succ i =>
        simp only [List.getElem?_cons_succ] at hf hv
        exact ih h.2 hf hv

theorem storableFields_length {cfg : Cfg} {all : List Field} {fs : List Field} {vs : List Val}
    (h : StorableFields cfg all fs vs) : vs.length = fs.length := by
  induction fs generalizing vs with
  | nil => cases vs <;> simp_all [StorableFields]
  | cons g fs ih =>
    cases vs with
    | nil => simp [StorableFields] at h
    | cons u vs => rw [StorableFields] at h; simp [ih h.2]

theorem storableAlts_get {cfg : Cfg} {alts : List Alt} {i : Nat} {v : Val} (h : StorableAlts cfg alts i v)
    {a : Alt} (ha : alts[i]? = some a) : StorableKind cfg a.kind v := by
  induction alts generalizing i with
  | nil => simp at ha
  | cons b alts ih =>
    cases b
    cases i with
    | zero =>
      rw [StorableAlts] at h
      simp only [List.getElem?_cons_zero, Option.some.injEq] at ha
      subst ha
      exact h
    | succ i =>
      rw [StorableAlts] at h
      simp only [List.getElem?_cons_succ] at ha
      exact ih h ha

theorem samePlace_storable {cfg : Cfg} {fs gs : List Field} {vs ws as bs : List Val}
    (h : SamePlace fs vs ws gs as bs)
    (he : Everywhere (fun fs => (fs.map Field.id).Nodup ∧ Resolves fs) fs) (hs : Storable cfg fs vs) :
    Storable cfg gs as := by
  induction h with
  | here => exact hs
  | @deeper fs vs ws f v w gs as bs hs' us us' i hf hv hw' hfield _ ih =>
    have hsf := storableFields_get hs hf hv
    have hef := everyFields_get he.2 hf
    cases hfield with
    | @plain id k c _ _ _ _ _ hk =>
      obtain ⟨h1, h2⟩ := container_free he.1.1 he.1.2 hf (samePlaceKind_not_fixed hk)
      rw [StorableField] at hsf
      rcases hsf with hsf | hsf | hsf
      · rw [h1] at hsf; cases hsf
      · rw [h2] at hsf; cases hsf
      · exact ih (samePlaceKind_every hk hef) (samePlace_storableKind hk hsf)
    | @maybe id k p v w _ _ _ hk =>
      rw [StorableField] at hsf
      exact ih (samePlaceKind_every hk hef) (samePlace_storableKind hk hsf)
    | @union id d alts c a v w _ _ _ i ha hk =>
      rw [StorableField] at hsf
      exact ih (samePlaceKind_every hk (everyAlts_get hef ha))
        (samePlace_storableKind hk (storableAlts_get hsf ha))

/-- Once `pre` has been read, the fields of `pre` have the values they will have in the
finished struct. -/
theorem setAll_eq_envOf (env : Env) (pre post : List Field) (vs : List Val) (id : String)
    (hn : ((pre ++ post).map Field.id).Nodup) (hl : pre.length ≤ vs.length) (hm : id ∈ pre.map Field.id) :
    setAll env pre vs id = envOf (pre ++ post) vs id := by
  induction pre generalizing env vs with
  | nil => simp at hm
  | cons f pre ih =>
    cases vs with
    | nil => simp at hl
    | cons v vs =>
      simp only [List.cons_append, List.map_cons, List.nodup_cons] at hn
      rw [setAll, List.cons_append, envOf]
      by_cases h : id ∈ pre.map Field.id
      · have hne : id ≠ f.id := by
          rintro rfl
          exact hn.1 (by rw [List.map_append]; exact List.mem_append_left _ h)
        rw [ih (env.set f.id v) vs hn.2 (by simpa using hl) h]
        simp [Env.set, hne]
      · rw [setAll_of_not_mem _ _ _ _ h]
        simp only [List.map_cons, List.mem_cons] at hm
        rcases hm with rfl | hm
        · simp [Env.set]
        · exact absurd hm h

theorem setAll_take (env : Env) (pre : List Field) (vs : List Val) :
    setAll env pre (vs.take pre.length) = setAll env pre vs := by
  induction pre generalizing env vs with
  | nil => cases vs <;> rfl
  | cons f pre ih => cases vs with
    | nil => rfl
    | cons u us => exact ih _ _

theorem callableReads_deps {f : Field} {id : String} (h : id ∈ callableReads f) : id ∈ fieldDeps f := by
  have key : ∀ k : Kind, id ∈ callableReads.computedIds k → id ∈ kindDeps k := by
    intro k hk
    cases k with
    | vec e len b => cases len <;> simp_all [callableReads.computedIds, Kind.lenSpec?, kindDeps, lenDeps]
    | vecRec e len b => cases len <;> simp_all [callableReads.computedIds, Kind.lenSpec?, kindDeps, lenDeps]
    | _ => simp [callableReads.computedIds, Kind.lenSpec?] at hk
  cases f with
  | plain i k c => exact key k h
  | maybe i k p =>
    simp only [callableReads, List.mem_append] at h
    simp only [fieldDeps, List.mem_append]
    rcases h with h | h
    · exact .inr h
    · exact .inl (key k h)
  | union i d alts c =>
    simp only [callableReads, List.mem_append, List.mem_flatMap] at h
    simp only [fieldDeps, List.mem_append, List.mem_flatMap]
    rcases h with h | ⟨a, ha, h⟩
    · left
      cases d with
      | matchField => simp at h
      | matchCompute => exact h
      | ladder => exact h
    · exact .inr ⟨a, ha, key _ h⟩

end S2S
