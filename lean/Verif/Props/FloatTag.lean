import Verif.Spec.FloatTag
import Verif.Props.FloatLen
/-
C163: discriminants that are floating-point numbers.
-/
namespace S2S.Props.FloatTag
open Spec Demo Compare

/-! ### Reading -/

theorem cmp_eq_iff {a b : Real} (hb : b ≠ .nan) : (a.cmp b == some .eq) = decide (a = b) := by
  cases a with
  | nan => cases b <;> simp_all [Real.cmp]
  | inf p => cases b with
    | nan => exact absurd rfl hb
    | inf q => cases p <;> cases q <;> rfl
    | fin v => cases p <;> rfl
  | fin u => cases b with
    | nan => exact absurd rfl hb
    | inf q => cases q <;> rfl
    | fin v =>
      simp only [Real.cmp, Real.fin.injEq]
      by_cases h : u = v
      · subst h
        simp [Int.compare_eq_eq.2]
      · have : compare u v ≠ .eq := fun h' => h (Int.compare_eq_eq.1 h')
        simp [h, this]

theorem tells_is (R : Rounding) (src : String) (bytes : Nat) (l : ScalarTy × Int) (v : Val) :
    (tells R src bytes l).fn [v] = tagIs R bytes l v := by
  cases v with
  | int x => simp only [tells, tagIs, cmp_eq_iff (R.number bytes (l.2 * one)).1]
  | _ => rfl

theorem tagIn_ladder (R : Rounding) (env : Env) (src : String) (bytes : Nat) (ls : List (ScalarTy × Int)) :
    tagIn R env src bytes ls = ladderIdx env (ls.map (tells R src bytes)) := by
  induction ls with
  | nil => rfl
  | cons l ls ih =>
    simp only [tagIn, List.map_cons, ladderIdx, Pred.eval, ih]
    have hi : (tells R src bytes l).ids = [src] := rfl
    rw [hi]
    cases hs : env src with
    | none => simp [Env.getAll, hs]
    | some v =>
      simp only [Env.getAll, hs, tells_is]
      cases tagIs R bytes l v
      · simp only [Bool.false_eq_true, if_false]
        cases ladderIdx env (ls.map (tells R src bytes)) <;> rfl
      · rfl

theorem choosing_id (ch : TField → List Pred) (g : TField) : (choosing ch g).id = g.usual.id := by cases g <;> rfl

theorem dflt_same (ch : TField → List Pred) (gs : List TField) :
    dfltEnv (gs.map TField.usual) = dfltEnv (gs.map (choosing ch)) := by
  unfold dfltEnv
  induction gs with
  | nil => rfl
  | cons g gs ih =>
    simp only [List.map_cons, Field.dflts, envOf, ih, choosing_id]
    cases g <;> simp only [TField.usual, choosing, Field.dflt]

/-! ### Writing -/

/-- The name is not that of a floating-point number. -/
def NoTag (gs : List TField) (i : String) : Prop := ∀ id bytes w c, .slot id bytes w c ∈ gs → id ≠ i

section
variable {cfg : Cfg} {R : Rounding} {C : FloatOf R} {gs : List TField} {vs : List Val} {ch : TField → List Pred}

theorem src_ne (ha : TagsApart gs) {i : String} (hi : NoTag gs i) {id src : String} {bytes : Nat}
    {labels : List (ScalarTy × Int)} {alts : List Alt}
    {c : Constraint} (h : .switched id src bytes labels alts c ∈ gs) : src ≠ i := by
  obtain ⟨⟨w, c', h1⟩, _⟩ := ha.2.2.1 _ _ _ _ _ _ h
  exact hi _ _ _ _ h1

theorem env_filled {hs : List TField} {vs' us' : List Val} (hf : TagFilledAll cfg C gs vs hs vs' us') :
    ∀ i, NoTag hs i → envOf (hs.map TField.usual) vs' i = envOf (hs.map (choosing ch)) us' i := by
  induction hf with
  | nil => intro i _; rfl
  | @cons g v u hs vs' us' h1 _ ih =>
    intro i hi
    have h4 := ih i fun id bytes w c hm => hi id bytes w c (by simp [hm])
    simp only [List.map_cons, envOf, Env.set, h4, choosing_id]
    split
    · rename_i he
      cases h1 with
      | std f v => rfl
      | switched => rfl
      | free => rfl
      | slot id bytes w c v n => exact absurd he.symm (hi id bytes w c (by simp))
    · rfl

theorem implies_other {id src i : String} {bytes : Nat} {labels : List (ScalarTy × Int)} {alts : List Alt}
    {c : Constraint} (h : src ≠ i) (v : Val) :
    (TField.switched id src bytes labels alts c).usual.implies cfg i v = .ok none := by
  cases v <;> simp only [TField.usual, Field.implies, if_neg h]

theorem implies_filled (ha : TagsApart gs) {g : TField} (hg : g ∈ gs) {v u : Val}
    (hf : TagFilled1 cfg C gs vs g v u) {i : String} (hi : NoTag gs i) :
    g.usual.implies cfg i v = (choosing ch g).implies cfg i u := by
  cases g with
  | std f => cases hf; rfl
  | slot id bytes w c =>
    have h1 : ∀ v, (TField.slot id bytes w c).usual.implies cfg i v = .ok none := fun v =>
      implies_unseen cfg (by simp [TField.usual, fieldDeps, kindDeps]) v
    rw [h1]
    exact (h1 u).symm
  | switched id src bytes labels alts c =>
    rw [implies_other (src_ne ha hi hg)]
    cases u <;> simp only [choosing, Field.implies]

theorem scan_filled (ha : TagsApart gs) {i : String} (hi : NoTag gs i) {hs : List TField} {vs' us' : List Val}
    (hf : TagFilledAll cfg C gs vs hs vs' us') : (∀ g ∈ hs, g ∈ gs) → ∀ d,
      deriveScan cfg i (hs.map TField.usual) vs' d = deriveScan cfg i (hs.map (choosing ch)) us' d := by
  induction hf with
  | nil => intro _ d; rfl
  | @cons g v u hs vs' us' h1 _ ih =>
    intro hsub d
    simp only [List.map_cons, deriveScan, implies_filled (ch := ch) ha (hsub g (by simp)) h1 hi,
      ih (fun g hg => hsub g (by simp [hg]))]

theorem lenDerived_same (ch : TField → List Pred) (hs : List TField) :
    lenDerivedIds (hs.map TField.usual) = lenDerivedIds (hs.map (choosing ch)) := by
  simp only [lenDerivedIds, List.filterMap_map]
  congr 1
  funext g
  cases g <;> rfl

theorem discDerived_iff (fs : List Field) (i : String) :
    i ∈ discDerivedIds fs ↔ ∃ f ∈ fs, ∃ id t ls alts c, f = .union id (.matchField i t ls) alts c := by
  simp only [discDerivedIds, List.mem_filterMap]
  constructor
  · rintro ⟨f, hf, h⟩
    cases f with
    | union id d alts c =>
      cases d with
      | matchField j t ls => cases h; exact ⟨_, hf, _, _, _, _, _, rfl⟩
      | _ => cases h
    | _ => cases h
  · rintro ⟨f, hf, id, t, ls, alts, c, rfl⟩
    exact ⟨_, hf, rfl⟩

theorem disc_same (ch : TField → List Pred) {i : String} {hs : List TField}
    (h : ∀ id src bytes labels alts c, .switched id src bytes labels alts c ∈ hs → src ≠ i) :
    i ∈ discDerivedIds (hs.map TField.usual) ↔ i ∈ discDerivedIds (hs.map (choosing ch)) := by
  simp only [discDerived_iff, List.mem_map]
  constructor
  · rintro ⟨f, ⟨g, hg, rfl⟩, id, t, ls, alts, c, he⟩
    cases g with
    | std f => exact ⟨f, ⟨_, hg, rfl⟩, _, _, _, _, _, he⟩
    | slot => cases he
    | switched => cases he; exact absurd rfl (h _ _ _ _ _ _ hg)
  · rintro ⟨f, ⟨g, hg, rfl⟩, id, t, ls, alts, c, he⟩
    cases g with
    | std f => exact ⟨f, ⟨_, hg, rfl⟩, _, _, _, _, _, he⟩
    | slot => cases he
    | switched => cases he

theorem derived_filled (ha : TagsApart gs) {i : String} (hi : NoTag gs i) :
    isDerived (gs.map TField.usual) i = isDerived (gs.map (choosing ch)) i := by
  have h := disc_same ch (hs := gs) fun _ _ _ _ _ _ h => src_ne ha hi h
  simp only [isDerived, lenDerived_same ch gs, List.contains_eq_mem, h]

theorem cond_filled (ch : TField → List Pred) (hs : List TField) (i : String) :
    hasConditional (hs.map TField.usual) i = hasConditional (hs.map (choosing ch)) i := by
  simp only [hasConditional, List.any_map]
  congr 1
  funext g
  cases g <;> rfl

theorem verify_filled {i : String} {n : Nat} {env env' : Env}
    {hs : List TField} {vs' us' : List Val} (hf : TagFilledAll cfg C gs vs hs vs' us') :
    (∀ f, .std f ∈ hs → Agree (fieldDeps f) env env') →
      verifyScan env i n (hs.map TField.usual) vs' = verifyScan env' i n (hs.map (choosing ch)) us' := by
  induction hf with
  | nil => intro _; rfl
  | @cons g v u hs vs' us' h1 _ ih =>
    intro he
    have hh : g.usual.condAgrees env i n v = (choosing ch g).condAgrees env' i n u := by
      cases g with
      | std f =>
        cases h1
        have h4 := he f (by simp)
        cases f with
        | maybe id k p =>
          have hp := Pred.eval_congr (p := p) (h4.mono (by simp +contextual [fieldDeps]))
          simp only [TField.usual, choosing, Field.condAgrees, hp]
        | _ => rfl
      | slot => rfl
      | switched => cases h1; rfl
    simp only [List.map_cons, verifyScan, hh, ih (fun f hf => he f (by simp [hf]))]

/-! The slots. -/

theorem usual_implies (ha : TagsApart gs) {id : String} {bytes w : Nat} {c : Constraint}
    (hid : .slot id bytes w c ∈ gs) {g : TField} (hg : g ∈ gs) (v : Val) :
    (¬ SwitchedBy id g → g.usual.implies cfg id v = .ok none) ∧
    (SwitchedBy id g → (∀ n, Labelled cfg g v n ↔ g.usual.implies cfg id v = .ok (some n)) ∧
      g.usual.implies cfg id v ≠ .ok none) := by
  constructor
  · intro h
    cases g with
    | std f => exact implies_unseen cfg (ha.2.1 f _ _ _ _ hg hid) v
    | slot => exact implies_unseen cfg (by simp [TField.usual, fieldDeps, kindDeps]) v
    | switched i src bytes labels alts c =>
      refine implies_other ?_ v
      rintro rfl
      exact h ⟨_, _, _, _, _, rfl⟩
  · rintro ⟨i, bytes', labels, alts, c', rfl⟩
    cases v with
    | var k w =>
      simp only [TField.usual, Field.implies, if_true]
      cases hl : labels[k]? with
      | none =>
        refine ⟨fun n => ⟨?_, by simp⟩, by simp⟩
        rintro ⟨_, _, _, _, _, _, _, _, _, h1, h2, h3, _⟩
        cases h1; cases h2
        rw [hl] at h3; cases h3
      | some l =>
        refine ⟨fun n => ⟨?_, fun h => ?_⟩, by simp⟩
        · rintro ⟨_, _, _, _, _, _, _, _, _, h1, h2, h3, rfl⟩
          cases h1; cases h2
          rw [hl] at h3; cases h3; rfl
        · refine ⟨_, _, _, _, _, _, _, _, _, rfl, rfl, hl, ?_⟩
          simpa using h
    | _ =>
      refine ⟨fun n => ⟨?_, by simp [TField.usual, Field.implies]⟩, by simp [TField.usual, Field.implies]⟩
      rintro ⟨_, _, _, _, _, _, _, _, _, _, h2, _⟩
      cases h2

/-- The scan for a discriminant finds the labels of its unions. -/
theorem scan_agreed (ha : TagsApart gs) {id : String} {bytes w : Nat} {c : Constraint}
    (hid : .slot id bytes w c ∈ gs) {n : Nat} : ∀ (hs : List TField) (vs' : List Val), (∀ g ∈ hs, g ∈ gs) →
    hs.length = vs'.length →
    (∀ g u, (g, u) ∈ hs.zip vs' → SwitchedBy id g → Labelled cfg g u n) →
    ∀ d : Derivation, d.agreed = true → (d.seen = true → d.derived = n) →
    ∃ d', deriveScan cfg id (hs.map TField.usual) vs' d = .ok d' ∧ d'.agreed = true ∧
      (d'.seen = true → d'.derived = n) ∧ (d.seen = true ∨ (∃ g ∈ hs, SwitchedBy id g) → d'.seen = true) := by
  intro hs
  induction hs with
  | nil =>
    intro vs' _ _ _ d h1 h2
    refine ⟨d, by cases vs' <;> rfl, h1, h2, ?_⟩
    rintro (h | ⟨g, hg, _⟩)
    · exact h
    · simp at hg
  | cons g hs ih =>
    intro vs' hsub hl hn d h1 h2
    cases vs' with
    | nil => simp at hl
    | cons v vs' =>
      obtain ⟨e1, e2⟩ := usual_implies (cfg := cfg) ha hid (hsub g (by simp)) v
      have ih := ih vs' (fun g hg => hsub g (by simp [hg])) (by simpa using hl)
        (fun g u hm => hn g u (by simp [hm]))
      by_cases hs' : SwitchedBy id g
      · have e3 := ((e2 hs').1 n).1 (hn g v (by simp) hs')
        obtain ⟨d', h3, h4, h5, h6⟩ := ih (d.record n)
          (by
            simp only [Derivation.record]
            split
            · rename_i h
              simp only [Bool.and_eq_true, decide_eq_true_eq, ne_eq] at h
              exact absurd (by rw [h2 h.1]) h.2
            · exact h1)
          (fun _ => rfl)
        refine ⟨d', ?_, h4, h5, fun _ => h6 (.inl rfl)⟩
        simp only [List.map_cons, deriveScan, e3, h3]
      · obtain ⟨d', h3, h4, h5, h6⟩ := ih d h1 h2
        refine ⟨d', ?_, h4, h5, ?_⟩
        · simp only [List.map_cons, deriveScan, e1 hs', h3]
        · rintro (h | ⟨g', hg', h⟩)
          · exact h6 (.inl h)
          · rcases List.mem_cons.1 hg' with rfl | hg'
            · exact absurd h hs'
            · exact h6 (.inr ⟨g', hg', h⟩)

theorem agreed_scan (ha : TagsApart gs) {id : String} {bytes w : Nat} {c : Constraint}
    (hid : .slot id bytes w c ∈ gs) : ∀ (hs : List TField) (vs' : List Val), (∀ g ∈ hs, g ∈ gs) →
    ∀ d d' : Derivation, deriveScan cfg id (hs.map TField.usual) vs' d = .ok d' → d'.agreed = true →
    d.agreed = true ∧ (d.seen = true → d.derived = d'.derived) ∧
    ∀ g u, (g, u) ∈ hs.zip vs' → SwitchedBy id g → Labelled cfg g u d'.derived := by
  intro hs
  induction hs with
  | nil =>
    intro vs' _ d d' h h1
    have : d' = d := by cases vs' <;> (simp only [List.map_nil, deriveScan] at h; cases h; rfl)
    subst this
    exact ⟨h1, fun _ => rfl, fun g u hm => by simp at hm⟩
  | cons g hs ih =>
    intro vs' hsub d d' h h1
    cases vs' with
    | nil =>
      simp only [List.map_cons, deriveScan] at h
      cases h
      exact ⟨h1, fun _ => rfl, fun g u hm => by simp at hm⟩
    | cons v vs' =>
      obtain ⟨e1, e2⟩ := usual_implies (cfg := cfg) ha hid (hsub g (by simp)) v
      by_cases hs' : SwitchedBy id g
      · obtain ⟨e3, e4⟩ := e2 hs'
        cases hv : g.usual.implies cfg id v with
        | error e =>
          simp only [List.map_cons, deriveScan, hv] at h
          cases h
        | ok o =>
          cases o with
          | none => exact absurd hv e4
          | some m =>
            simp only [List.map_cons, deriveScan, hv] at h
            obtain ⟨h2, h3, h4⟩ := ih vs' (fun g hg => hsub g (by simp [hg])) _ _ h h1
            have h5 : m = d'.derived := h3 rfl
            have h7 := (e3 m).2 hv
            simp only [Derivation.record] at h2
            split at h2
            · cases h2
            · rename_i h6
              refine ⟨h2, fun hd => ?_, fun g' u hm hg' => ?_⟩
              · simp only [hd, Bool.true_and, decide_eq_true_eq, ne_eq, Decidable.not_not] at h6
                omega
              · simp only [List.zip_cons_cons, List.mem_cons, Prod.mk.injEq] at hm
                rcases hm with ⟨rfl, rfl⟩ | hm
                · exact h5 ▸ h7
                · exact h4 g' u hm hg'
      · simp only [List.map_cons, deriveScan, e1 hs'] at h
        obtain ⟨h2, h3, h4⟩ := ih vs' (fun g hg => hsub g (by simp [hg])) _ _ h h1
        refine ⟨h2, h3, fun g' u hm hg' => ?_⟩
        simp only [List.zip_cons_cons, List.mem_cons, Prod.mk.injEq] at hm
        rcases hm with ⟨rfl, rfl⟩ | hm
        · exact absurd hg' hs'
        · exact h4 g' u hm hg'

theorem slot_cond (ha : TagsApart gs) {id : String} {bytes w : Nat} {c : Constraint}
    (hid : .slot id bytes w c ∈ gs) : hasConditional (gs.map TField.usual) id = false := by
  simp only [hasConditional, List.any_map, List.any_eq_false, Function.comp]
  intro g hg
  cases g with
  | std f => simp [TField.usual, condTargets_unseen (ha.2.1 f _ _ _ _ hg hid)]
  | slot => simp [TField.usual, Field.condTargets]
  | switched i src bytes' labels alts c' =>
    have h := (ha.2.2.1 _ _ _ _ _ _ hg).2 _ _ _ _ hid
    simp only [TField.usual, Field.condTargets, anyAltTargets, List.any_eq_true, decide_eq_true_eq, not_exists, not_and]
    exact fun a ham ht => h a ham (lenTarget_mem ht)

theorem not_len (ha : TagsApart gs) {id : String} {bytes w : Nat} {c : Constraint}
    (hid : .slot id bytes w c ∈ gs) : id ∉ lenDerivedIds (gs.map TField.usual) := by
  rw [lenDerived_iff]
  rintro ⟨f, hf, i, k, c', rfl, hk⟩
  obtain ⟨g, hg, he⟩ := List.mem_map.1 hf
  cases g with
  | std f =>
    simp only [TField.usual] at he
    subst he
    exact ha.2.1 _ _ _ _ _ hg hid (lenTarget_mem hk)
  | slot => cases he; cases hk
  | switched => cases he

theorem slot_derived (ha : TagsApart gs) {id : String} {bytes w : Nat} {c : Constraint}
    (hid : .slot id bytes w c ∈ gs) : isDerived (gs.map TField.usual) id = true ↔ ∃ g ∈ gs, SwitchedBy id g := by
  simp only [isDerived, List.contains_eq_mem, decide_eq_false (not_len ha hid), Bool.false_or, decide_eq_true_eq,
    discDerived_iff, List.mem_map]
  constructor
  · rintro ⟨f, ⟨g, hg, rfl⟩, i, t, ls, alts, c', he⟩
    refine ⟨g, hg, ?_⟩
    cases g with
    | std f =>
      simp only [TField.usual] at he
      subst he
      exact absurd (by simp [fieldDeps, deducerDeps]) (ha.2.1 _ _ _ _ _ hg hid)
    | slot => cases he
    | switched => cases he; exact ⟨_, _, _, _, _, rfl⟩
  · rintro ⟨g, hg, i, bytes', labels, alts, c', rfl⟩
    exact ⟨_, ⟨_, hg, rfl⟩, _, _, _, _, _, rfl⟩

theorem ladder_free (ch : TField → List Pred) (ha : TagsApart gs) {id : String} {bytes w : Nat} {c : Constraint}
    (hid : .slot id bytes w c ∈ gs) :
    isDerived (gs.map (choosing ch)) id = false ∧ hasConditional (gs.map (choosing ch)) id = false := by
  refine ⟨?_, cond_filled ch gs id ▸ slot_cond ha hid⟩
  simp only [isDerived, ← lenDerived_same, List.contains_eq_mem, decide_eq_false (not_len ha hid), Bool.false_or,
    decide_eq_false_iff_not, discDerived_iff, List.mem_map]
  rintro ⟨f, ⟨g, hg, rfl⟩, i, t, ls, alts, c', he⟩
  cases g with
  | std f =>
    simp only [choosing] at he
    subst he
    exact ha.2.1 _ _ _ _ _ hg hid (by simp [fieldDeps, deducerDeps])
  | slot => cases he
  | switched => cases he

theorem slot_env {hs : List TField} {vs' us' : List Val} (hf : TagFilledAll cfg C gs vs hs vs' us') :
    (hs.map fun g => g.usual.id).Nodup →
    ∀ {id : String} {bytes w : Nat} {c : Constraint}, .slot id bytes w c ∈ hs → (∃ g ∈ gs, SwitchedBy id g) →
    ∃ n, envOf (hs.map (choosing ch)) us' id = some (.int (C.bits bytes n)) ∧ Fits cfg bytes w n ∧
      ∀ g u, (g, u) ∈ gs.zip vs → SwitchedBy id g → Labelled cfg g u n := by
  induction hf with
  | nil => intro _ id bytes w c h; simp at h
  | @cons g v u hs vs' us' h1 _ ih =>
    intro hn id bytes w c hm hex
    simp only [List.map_cons, List.nodup_cons] at hn
    rcases List.mem_cons.1 hm with rfl | hm
    · cases h1 with
      | free _ _ _ _ _ hno =>
        obtain ⟨g, hg, h⟩ := hex
        exact absurd h (hno g hg)
      | slot _ _ _ _ _ n _ h4 h5 h6 =>
        refine ⟨n, ?_, h5, h4⟩
        simp [envOf, Env.set, choosing, Field.id]
    · obtain ⟨n, h4, h5⟩ := ih hn.2 hm hex
      refine ⟨n, ?_, h5⟩
      have hne : id ≠ (choosing ch g).id := by
        rw [choosing_id]
        rintro rfl
        exact hn.1 (List.mem_map.2 ⟨_, hm, rfl⟩)
      simp only [List.map_cons, envOf, Env.set, if_neg hne, h4]

theorem noTag_of {g : TField} (hn : (gs.map fun g => g.usual.id).Nodup) (hg : g ∈ gs)
    (h : ∀ id bytes w c, g ≠ .slot id bytes w c) : NoTag gs g.usual.id := by
  intro id bytes w c hm he
  refine h id bytes w c ?_
  clear h
  induction gs with
  | nil => simp at hg
  | cons a gs ih =>
    simp only [List.map_cons, List.nodup_cons] at hn
    rcases List.mem_cons.1 hg with rfl | hg1
    · rcases List.mem_cons.1 hm with rfl | hm1
      · rfl
      · exact absurd (List.mem_map.2 ⟨_, hm1, he⟩) hn.1
    · rcases List.mem_cons.1 hm with rfl | hm1
      · exact absurd (List.mem_map.2 ⟨g, hg1, he.symm⟩) hn.1
      · exact ih hn.2 hg1 hm1

theorem filled_length {hs : List TField} {vs' us' : List Val} (hf : TagFilledAll cfg C gs vs hs vs' us') :
    hs.length = vs'.length := by
  induction hf with
  | nil => rfl
  | cons _ _ ih => simp [ih]

theorem not_frozen (ha : TagsApart gs) {id : String} {bytes w : Nat} {c : Constraint} (hid : .slot id bytes w c ∈ gs) :
    frozenVal (.num (.int bytes false) w) c = none := by
  have h := (ha.2.2.2 _ _ _ _ hid).2
  have h1 := frozen_of_const (k := .num (.int bytes false) w) (c := c)
  rw [h] at h1
  simpa using h1

/-- What the writer derives for a discriminant. -/
theorem derive_filled (ha : TagsApart gs) (hl : gs.length = vs.length) {id : String} {bytes w : Nat} {c : Constraint}
    (hid : .slot id bytes w c ∈ gs) {n : Nat} (hex : ∃ g ∈ gs, SwitchedBy id g)
    (hd : ∀ g u, (g, u) ∈ gs.zip vs → SwitchedBy id g → Labelled cfg g u n)
    (hfit : Fits cfg bytes w n) :
    deriveFloat C cfg (gs.map TField.usual) vs id bytes w = .ok (.ok (C.bits bytes n)) := by
  obtain ⟨d, h1, h2, h3, h4⟩ := scan_agreed (cfg := cfg) ha hid gs vs (fun _ h => h) hl hd {} rfl (by simp)
  have h5 := h3 (h4 (.inr hex))
  simp only [deriveFloat, h1, h2, h5, (fits_iff (ha.2.2.2 _ _ _ _ hid).1).2 hfit]
  rfl

/-- A label that tells its alternative is found again. -/
theorem ladder_at {env : Env} {src : String} {bytes n : Nat} (hb : bytes = 4 ∨ bytes = 8)
    (he : env src = some (.int (C.bits bytes n))) : ∀ (labels : List (ScalarTy × Int)) (k : Nat) (l : ScalarTy × Int),
    labels[k]? = some l → (n : Int) = l.2 →
    (∀ j l', j < k → labels[j]? = some l' → R.to bytes (l'.2 * one) ≠ R.to bytes (l.2 * one)) →
    ladderIdx env (labels.map (tells R src bytes)) = .ok (some k) := by
  have hr := C.is bytes n hb
  have hev : ∀ l, (tells R src bytes l).eval env = .ok (decide (R.to bytes (n * one) = R.to bytes (l.2 * one))) := by
    intro l
    have hi : (tells R src bytes l).ids = [src] := rfl
    simp only [Pred.eval, hi, Env.getAll, he, tells, hr]
  intro labels
  induction labels with
  | nil => intro k l h; simp at h
  | cons a ls ih =>
    intro k l hk hn hd
    cases k with
    | zero =>
      simp only [List.getElem?_cons_zero, Option.some.injEq] at hk
      subst hk
      simp only [List.map_cons, ladderIdx, hev, hn, decide_true]
    | succ k =>
      simp only [List.getElem?_cons_succ] at hk
      have h1 := hd 0 a (by omega) rfl
      rw [← hn] at h1
      have h2 := ih k l hk hn fun j l' hj hl => hd (j + 1) l' (by omega) (by simpa using hl)
      simp only [List.map_cons, ladderIdx, hev, decide_eq_false (Ne.symm h1), h2, Option.map_some]

/-- The alternative chosen is that of the first label that is the number. -/
theorem ladder_found {env : Env} {src : String} {bytes n : Nat} (hb : bytes = 4 ∨ bytes = 8)
    (he : env src = some (.int (C.bits bytes n))) : ∀ (labels : List (ScalarTy × Int)) (k : Nat),
    ladderIdx env (labels.map (tells R src bytes)) = .ok (some k) →
    ∃ l, labels[k]? = some l ∧ R.to bytes (n * one) = R.to bytes (l.2 * one) ∧
      ∀ j l', j < k → labels[j]? = some l' → R.to bytes (l'.2 * one) ≠ R.to bytes (n * one) := by
  have hr := C.is bytes n hb
  have hev : ∀ l, (tells R src bytes l).eval env = .ok (decide (R.to bytes (n * one) = R.to bytes (l.2 * one))) := by
    intro l
    have hi : (tells R src bytes l).ids = [src] := rfl
    simp only [Pred.eval, hi, Env.getAll, he, tells, hr]
  intro labels
  induction labels with
  | nil => intro k h; simp [ladderIdx] at h
  | cons a ls ih =>
    intro k h
    simp only [List.map_cons, ladderIdx, hev] at h
    by_cases hd : R.to bytes (n * one) = R.to bytes (a.2 * one)
    · simp only [hd, decide_true, Except.ok.injEq, Option.some.injEq] at h
      subst h
      exact ⟨a, rfl, hd, fun j l' hj => by omega⟩
    · simp only [hd, decide_false] at h
      cases hl : ladderIdx env (ls.map (tells R src bytes)) with
      | error e => rw [hl] at h; cases h
      | ok o =>
        cases o with
        | none => rw [hl] at h; simp at h
        | some m =>
          rw [hl] at h
          simp only [Option.map_some, Except.ok.injEq, Option.some.injEq] at h
          subst h
          obtain ⟨l, h1, h2, h3⟩ := ih m hl
          refine ⟨l, by simpa using h1, h2, ?_⟩
          intro j l' hj hl'
          cases j with
          | zero => simp only [List.getElem?_cons_zero, Option.some.injEq] at hl'; subst hl'; exact Ne.symm hd
          | succ j => exact h3 j l' (by omega) (by simpa using hl')

theorem minus_one (bytes : Nat) : ∃ y, real bytes y = .fin (-1 * one) := by
  rw [real_fin_iff]
  have h := (hasNumber_iff (n := bytes)).1 (powers (bytes := bytes) 0 (by omega))
  refine ⟨_, h, ?_⟩
  rw [Int.natAbs_mul, one_units bytes]
  simp

theorem held_zip {hs : List TField} {vs' us' : List Val} (hf : TagFilledAll cfg C gs vs hs vs' us') {g : TField}
    {k : Nat} {x : Val} : (g, .var k x) ∈ hs.zip us' → (∃ i src bytes labels alts c, g = .switched i src bytes labels alts c) →
    (g, .var k x) ∈ hs.zip vs' := by
  induction hf with
  | nil => intro h; simp at h
  | @cons g' v u hs vs' us' h1 _ ih =>
    intro h hsw
    simp only [List.zip_cons_cons, List.mem_cons, Prod.mk.injEq] at h ⊢
    rcases h with ⟨rfl, rfl⟩ | h
    · obtain ⟨i, src, bytes, labels, alts, c, rfl⟩ := hsw
      cases h1
      exact .inl ⟨rfl, rfl⟩
    · exact .inr (ih h hsw)
end

end S2S.Props.FloatTag

namespace S2S.Props
open Spec Demo Compare

/-- C163, reading: the cast is that of the list whose unions are chosen by predicates that compare
the number with the labels. -/
theorem C163_read (R : Rounding) (cfg : Cfg) (gs : List TField) :
    structCastTags R cfg gs = structCast cfg (gs.map (asLadder R)) := by
  have main : ∀ (gs : List TField) env, readTags R cfg env gs = readFields cfg env (gs.map (asLadder R)) := by
    intro gs
    induction gs with
    | nil => intro env; simp only [readTags, List.map_nil, readFields]
    | cons g gs ih =>
      intro env
      cases g with
      | switched id src bytes labels alts c =>
        simp only [readTags, List.map_cons, readFields, asLadder, choosing, byLabels, readField, readTagged,
          FloatTag.tagIn_ladder, Deducer.eval, ih, Field.constraint, Field.id]
        rfl
      | std f => simp only [readTags, List.map_cons, readFields, asLadder, choosing, ih, TField.usual]
      | slot id bytes w c => simp only [readTags, List.map_cons, readFields, asLadder, choosing, ih, TField.usual]
  simp only [structCastTags, structCast, FloatTag.dflt_same (byLabels R), main, asLadder]

section
variable {cfg : Cfg} {R : Rounding} {C : FloatOf R} {gs : List TField} {vs : List Val}

/-- C163, the bytes: if the discriminants can be written, the program is that of the list with any
predicates that choose the alternatives held, for the struct with the discriminants filled in. -/
theorem C163_bytes (ha : TagsApart gs) {us : List Val} (hf : TagFilled cfg C gs vs us) {ch : TField → List Pred}
    (ht : ChosenBy ch gs us) : streamCastTags C cfg gs vs = streamCast cfg (gs.map (choosing ch)) us := by
  have hl := FloatTag.filled_length hf
  have henv := FloatTag.env_filled (ch := ch) hf
  have hdeps : ∀ f, .std f ∈ gs →
      Agree (fieldDeps f) (envOf (gs.map TField.usual) vs) (envOf (gs.map (choosing ch)) us) := by
    intro f hfm i hi
    refine henv i fun id bytes w c hm => ?_
    rintro rfl
    exact ha.2.1 f _ _ _ _ hfm hm hi
  have same : ∀ f : Field, FloatTag.NoTag gs f.id →
      Agree (fieldDeps f) (envOf (gs.map TField.usual) vs) (envOf (gs.map (choosing ch)) us) →
      SameTo cfg [f] ⟨gs.map TField.usual, vs⟩ ⟨gs.map (choosing ch), us⟩ := by
    intro f hns hag
    refine ⟨?_, ?_, ?_, ?_, ?_⟩ <;> simp only [List.mem_singleton, forall_eq]
    · exact hag
    · exact FloatTag.derived_filled ha hns
    · intro t w
      simp only [deriveValue, FloatTag.scan_filled (ch := ch) ha hns hf (fun _ h => h)]
    · exact FloatTag.cond_filled ch gs _
    · exact fun n => FloatTag.verify_filled hf hdeps
  have main : ∀ hs vs' us', TagFilledAll cfg C gs vs hs vs' us' → (∀ g ∈ hs, g ∈ gs) →
      (∀ g v, (g, v) ∈ hs.zip vs' → (g, v) ∈ gs.zip vs) → (∀ g u, (g, u) ∈ hs.zip us' → (g, u) ∈ gs.zip us) →
      writeTags C cfg ⟨gs.map TField.usual, vs⟩ hs vs' =
        writeFields cfg ⟨gs.map (choosing ch), us⟩ (hs.map (choosing ch)) us' := by
    intro hs vs' us' hf'
    induction hf' with
    | nil => intro _ _ _; simp only [List.map_nil, writeTags, writeFields]
    | @cons g v u hs vs' us' h1 _ ih =>
      intro hsub hz hzu
      have ih := ih (fun g hg => hsub g (by simp [hg])) (fun g v hm => hz g v (by simp [hm]))
        (fun g u hm => hzu g u (by simp [hm]))
      have hg := hsub g (by simp)
      rw [List.map_cons, writeTags, writeFields, ih]
      congr 1
      cases g with
      | std f =>
        cases h1
        have hns : FloatTag.NoTag gs f.id := FloatTag.noTag_of ha.1 hg fun _ _ _ _ h => by cases h
        have hsame := same f hns (hdeps f hg)
        have e1 := hsame.derived f (List.mem_singleton_self f)
        simp only at e1
        simp only [choosing, TField.usual, writeTags1, hsame.field (List.mem_singleton_self f), e1]
        rfl
      | slot id bytes w c =>
        obtain ⟨e1, e2⟩ := FloatTag.ladder_free ch ha hg
        have e3 := FloatTag.not_frozen ha hg
        have e4 := FloatTag.slot_cond ha hg
        have hv : ∀ x, verifyThenWriteFloat cfg ⟨gs.map TField.usual, vs⟩ id bytes w x =
            writeNum cfg (.int bytes false) w x := by
          intro x; simp [verifyThenWriteFloat, e4]
        have hw : ∀ v, writeField cfg ⟨gs.map (choosing ch), us⟩ (.plain id (.num (.int bytes false) w) c) v =
            emitFixed cfg (.num (.int bytes false) w) v := by
          intro v
          simp [writeField, writeKind, writeFixed, e1, e2, e3, verifyThenWrite]
        simp only [choosing, TField.usual, Field.id, Field.isFrozen, Field.constraint, e1, e3, hw, writeTags1,
          Option.isSome_none, Bool.or_false, Bool.false_eq_true, if_false]
        cases h1 with
        | free _ _ _ _ _ hno =>
          have e5 : isDerived (gs.map TField.usual) id = false := by
            rw [Bool.eq_false_iff]
            exact fun h => by
              obtain ⟨g, hg', h⟩ := (FloatTag.slot_derived ha hg).1 h
              exact hno g hg' h
          simp only [e5, Bool.false_eq_true, if_false, writeSlot, e3, Option.getD_none]
          congr 2
          cases v <;> simp only [emitFixed, hv]
        | slot _ _ _ _ _ n hex hd hfit hck =>
          have e5 := (FloatTag.slot_derived ha hg).2 hex
          simp only [e5, if_true, writeSlot, FloatTag.derive_filled ha hl hg hex hd hfit, hv, WrE.checked, emitFixed]
          show WrE.tag id ((WrE.lift (c.check (.int (C.bits bytes n)))).andThen _) = _
          rw [hck]
      | switched id src bytes labels alts c =>
        cases h1
        have hns : FloatTag.NoTag gs id := FloatTag.noTag_of ha.1 hg fun _ _ _ _ h => by cases h
        obtain ⟨⟨w, c', hsl⟩, halt⟩ := ha.2.2.1 _ _ _ _ _ _ hg
        have e1 := FloatTag.derived_filled (ch := ch) ha hns
        obtain ⟨n, h4, h5, h6⟩ := FloatTag.slot_env (ch := ch) hf ha.1 hsl ⟨_, hg, _, _, _, _, _, rfl⟩
        have hzz := hz (.switched id src bytes labels alts c) v (by simp)
        obtain ⟨_, _, _, _, _, _, k, x, l, he, rfl, hk, hn⟩ := h6 _ v hzz ⟨_, _, _, _, _, rfl⟩
        cases he
        have h8 := ht _ _ _ _ _ _ _ _ (hzu (.switched id src bytes labels alts c) (.var k x) (by simp))
        have hsame := same (.union id (.ladder []) alts c) hns (by
          intro i hi
          simp only [fieldDeps, deducerDeps, List.flatMap_nil, List.nil_append, List.mem_flatMap] at hi
          obtain ⟨a, ham, hi⟩ := hi
          refine henv i fun id' bytes' w' c'' hm => ?_
          rintro rfl
          exact halt _ _ _ _ hm a ham hi)
        have h9 := hsame.alts (List.mem_singleton_self _) alts (by simp [fieldDeps, deducerDeps]) k x
        simp only [Field.id] at h9
        have h10 : writeField cfg ⟨gs.map (choosing ch), us⟩ 
            (.union id (.ladder (ch (.switched id src bytes labels alts c))) alts c)
            (.var k x) = writeAlts cfg ⟨gs.map (choosing ch), us⟩ id alts k x := by
          simp only [writeField, WCtx.env, h8]
          simp [WrE.lift, WrE.ok, WrE.andThen, Wr.bind]
        simp only [choosing, TField.usual, Field.id, e1, Field.isFrozen, Field.constraint, writeTags1, h10, ← h9, writeField]
  exact main gs vs us hf (fun _ h => h) (fun _ _ h => h) fun _ _ h => h

/-- C163, there are such predicates for every struct. -/
theorem C163_chosen (ha : TagsApart gs) (us : List Val) : ∃ ch, ChosenBy ch gs us := by
  refine ⟨fun g => match (gs.zip us).find? (fun p => p.1.usual.id == g.usual.id) with
    | some (_, .var k _) => List.replicate k ⟨[], fun _ => false⟩ ++ [⟨[], fun _ => true⟩]
    | _ => [], ?_⟩
  intro id src bytes labels alts c k w h
  have hfind : ∀ (gs : List TField) (us : List Val) (g : TField) (u : Val), (gs.map fun g => g.usual.id).Nodup →
      (g, u) ∈ gs.zip us → (gs.zip us).find? (fun p => p.1.usual.id == g.usual.id) = some (g, u) := by
    intro gs
    induction gs with
    | nil => intro us g u _ h; simp at h
    | cons a gs ih =>
      intro us g u hn h
      cases us with
      | nil => simp at h
      | cons v us =>
        simp only [List.map_cons, List.nodup_cons] at hn
        simp only [List.zip_cons_cons, List.mem_cons, Prod.mk.injEq] at h
        rcases h with ⟨rfl, rfl⟩ | h
        · simp
        · have hne : (a.usual.id == g.usual.id) = false := by
            rw [beq_eq_false_iff_ne]
            exact fun he => hn.1 (List.mem_map.2 ⟨g, (List.of_mem_zip h).1, he.symm⟩)
          simp only [List.zip_cons_cons, List.find?_cons, hne]
          exact ih us g u hn.2 h
  simp only [hfind gs us _ _ ha.1 h, Deducer.eval]
  generalize envOf _ us = env
  clear h
  induction k with
  | zero => rfl
  | succ k ih => simp only [List.replicate_succ, List.cons_append, ladderIdx, Pred.eval, Env.getAll, ih, Option.map_some]

/-- C163, writing: if the discriminants can be written and tell the alternatives, the predicates
are those that read them. -/
theorem C163_write (ha : TagsApart gs) {us : List Val} (hf : TagFilled cfg C gs vs us) (ht : Told cfg R gs vs) :
    streamCastTags C cfg gs vs = streamCast cfg (gs.map (asLadder R)) us := by
  refine C163_bytes ha hf ?_
  intro id src bytes labels alts c k x hz
  have hzz := FloatTag.held_zip hf hz ⟨_, _, _, _, _, _, rfl⟩
  have hg := (List.of_mem_zip hz).1
  obtain ⟨⟨w, c', hsl⟩, -⟩ := ha.2.2.1 _ _ _ _ _ _ hg
  obtain ⟨n, h4, h5, h6⟩ := FloatTag.slot_env (ch := byLabels R) hf ha.1 hsl ⟨_, hg, _, _, _, _, _, rfl⟩
  obtain ⟨_, _, _, _, _, _, _, _, l, he, he', hk, hn⟩ := h6 _ _ hzz ⟨_, _, _, _, _, rfl⟩
  cases he; cases he'
  obtain ⟨l', hk', hsz, hd⟩ := ht _ _ _ _ _ _ _ _ hzz
  rw [hk] at hk'
  cases hk'
  exact FloatTag.ladder_at (ha.2.2.2 _ _ _ _ hsl).1 h4 labels k l hk (by rw [← hn]; exact hsz) hd

/-- C163, refusing: if they cannot be written, the struct is not. -/
theorem C163_refused (S : OutStream) (ha : TagsApart gs) (s s' : S.State)
    (h : (streamCastTags C cfg gs vs).runOn S s = (.done (.ok ()), s')) : ∃ us, TagFilled cfg C gs vs us := by
  have main : ∀ hs vs' s, (∀ g ∈ hs, g ∈ gs) →
      (writeTags C cfg ⟨gs.map TField.usual, vs⟩ hs vs').runOn S s = (.done (.ok ()), s') →
      ∃ us', TagFilledAll cfg C gs vs hs vs' us' := by
    intro hs
    induction hs with
    | nil =>
      intro vs' s _ h
      cases vs' with
      | nil => exact ⟨[], .nil⟩
      | cons v vs' => simp only [writeTags, Wr.runOn] at h; cases h
    | cons g hs ih =>
      intro vs' s hsub h
      cases vs' with
      | nil => simp only [writeTags, Wr.runOn] at h; cases h
      | cons v vs' =>
        rw [writeTags, andThen_ok] at h
        obtain ⟨s1, h1, h2⟩ := h
        obtain ⟨us', h3⟩ := ih vs' s1 (fun g hg => hsub g (by simp [hg])) h2
        have hg := hsub g (by simp)
        rw [tag_ok] at h1
        suffices h4 : ∃ u, TagFilled1 cfg C gs vs g v u from ⟨h4.choose :: us', .cons h4.choose_spec h3⟩
        cases g with
        | std f => exact ⟨v, .std f v⟩
        | switched => exact ⟨v, .switched ..⟩
        | slot id bytes w c =>
          by_cases hex : ∃ g ∈ gs, SwitchedBy id g
          · have e5 := (FloatTag.slot_derived ha hg).2 hex
            simp only [TField.usual, Field.id, e5, Bool.true_or, if_true, writeTags1, writeSlot, deriveFloat] at h1
            cases hd : deriveScan cfg id (gs.map TField.usual) vs {} with
            | error e => rw [hd] at h1; cases h1
            | ok d =>
              simp only [hd] at h1
              cases hag : d.agreed with
              | false => simp only [hag] at h1; cases h1
              | true =>
                simp only [hag] at h1
                cases hff : floatFits C cfg bytes w d.derived with
                | error e => simp only [hff] at h1; cases h1
                | ok b =>
                  cases b with
                  | false => simp only [hff] at h1; cases h1
                  | true =>
                    simp only [hff] at h1
                    have h4 := (FloatTag.agreed_scan (cfg := cfg) ha hg gs vs (fun _ h => h) _ _ hd hag).2.2
                    cases hck : c.check (.int (C.bits bytes d.derived)) with
                    | error e =>
                      simp only [Bool.not_true, Bool.false_eq_true, if_false, WrE.lift, WrE.ok, WrE.andThen, Wr.bind, hck] at h1
                      cases h1
                    | ok b =>
                      cases b with
                      | false =>
                        simp only [Bool.not_true, Bool.false_eq_true, if_false, WrE.lift, WrE.ok, WrE.andThen, Wr.bind, hck] at h1
                        cases h1
                      | true =>
                        exact ⟨_, .slot id bytes w c v d.derived hex h4
                          ((fits_iff (ha.2.2.2 _ _ _ _ hg).1).1 hff) hck⟩
          · exact ⟨v, .free id bytes w c v fun g hg h => hex ⟨g, hg, h⟩⟩
  exact main gs vs s (fun _ h => h) h

/-- C163, there and back: what was written is read back with the discriminants filled in. -/
theorem C163_round (ha : TagsApart gs) (hsc : SelfConsistent cfg (gs.map (asLadder R))) {us : List Val}
    (hf : TagFilled cfg C gs vs us) (ht : Told cfg R gs vs) (hst : Storable cfg (gs.map (asLadder R)) us) (p : List Byte)
    (h : (streamCastTags C cfg gs vs).run = (.done (.ok ()), p)) (rest : List Byte) :
    (structCastTags R cfg gs).run (p ++ rest) = (.done (.ok (settle (gs.map (asLadder R)) us)), rest) := by
  rw [C163_write ha hf ht] at h
  rw [C163_read]
  exact C45_round_trip cfg _ hsc us hst p h rest

/-- C163, labels: different ones that `std::size_t` and the floating-point type have tell every
alternative. -/
theorem C163_labels {bytes : Nat} {labels : List (ScalarTy × Int)} (hd : (labels.map (·.2)).Nodup)
    (hn : ∀ l ∈ labels, ∃ n : Nat, l.2 = n ∧ HasNumber bytes n ∧ n < 256 ^ cfg.szBytes) {k : Nat} (hk : k < labels.length) :
    TellsAt cfg R bytes labels k := by
  have hto : ∀ l ∈ labels, R.to bytes (l.2 * one) = .fin (l.2 * one) := by
    intro l hl
    obtain ⟨n, h1, ⟨x, hx⟩, _⟩ := hn l hl
    rw [h1]
    exact to_number R hx
  refine ⟨labels[k], by simp, ?_, ?_⟩
  · obtain ⟨n, h1, _, h3⟩ := hn _ (List.getElem_mem hk)
    rw [h1]
    have := toSz_small (cfg := cfg) (x := (n : Int)) (by omega) (by simp only [Cfg.szMod]; omega)
    rw [this]; omega
  · intro j l' hj hl' he
    have hjl : j < labels.length := by omega
    rw [List.getElem?_eq_getElem hjl, Option.some.injEq] at hl'
    subst hl'
    rw [hto _ (List.getElem_mem hjl), hto _ (List.getElem_mem hk)] at he
    have ho := one_pos
    have h2 : labels[j].2 = labels[k].2 := Int.eq_of_mul_eq_mul_right (by omega) (Real.fin.inj he)
    have h3 := List.pairwise_iff_getElem.1 hd j k (by simpa using hjl) (by simpa using hk) hj
    simp only [List.getElem_map] at h3
    exact h3 h2

/-- C163, exactly these labels: with the label that is written for the alternative at place `k`,
that alternative is chosen when it is read if and only if the label tells it. -/
theorem C163_tells (hz : cfg.szBytes ≤ 8) {env : Env} {src : String} {bytes w n k : Nat} (hb : bytes = 4 ∨ bytes = 8)
    {labels : List (ScalarTy × Int)} {l : ScalarTy × Int} (hk : labels[k]? = some l) (hn : cfg.toSz l.2 = n)
    (hf : Fits cfg bytes w n) (he : env src = some (.int (C.bits bytes n))) :
    tagIn R env src bytes labels = .ok (some k) ↔ TellsAt cfg R bytes labels k := by
  rw [FloatTag.tagIn_ladder]
  constructor
  · intro h
    obtain ⟨l', hl', h1, h2⟩ := FloatTag.ladder_found hb he labels k h
    rw [hk] at hl'
    cases hl'
    refine ⟨l, hk, ?_, fun j l' hj hl => h1 ▸ h2 j l' hj hl⟩
    obtain ⟨x, hx⟩ := hf.2.1
    rw [to_number R hx] at h1
    have ho := one_pos
    have hlo : 0 ≤ l.2 := by
      false_or_by_contra
      rename_i hneg
      obtain ⟨y, hy⟩ := FloatTag.minus_one bytes
      have h3 := R.notAbove bytes (l.2 * one) y _ hy (by
        have := Int.mul_le_mul_of_nonneg_right (show l.2 ≤ -1 by omega) (show 0 ≤ one by omega)
        omega)
      rw [← h1] at h3
      simp only [Real.cmp, ne_eq, Option.some.injEq, compare_gt] at h3
      have : (0 : Int) ≤ n * one := Int.mul_nonneg (by omega) (by omega)
      omega
    have hhi : l.2 < 256 ^ cfg.szBytes := by
      false_or_by_contra
      rename_i hbig
      obtain ⟨y, hy⟩ := powers (bytes := bytes) (8 * cfg.szBytes) (by omega)
      have hpw : 2 ^ (8 * cfg.szBytes) = 256 ^ cfg.szBytes := by rw [Nat.pow_mul]
      rw [hpw] at hy
      have h3 := R.notBelow bytes (l.2 * one) y _ hy
        (Int.mul_le_mul_of_nonneg_right (by have := Int.not_lt.1 hbig; simpa using this) (by omega))
      rw [← h1] at h3
      simp only [Real.cmp, ne_eq, Option.some.injEq, compare_lt] at h3
      have h4 := Int.mul_lt_mul_of_pos_right (Int.ofNat_lt.2 hf.2.2) ho
      omega
    have := toSz_small (cfg := cfg) (x := l.2) hlo (by simp only [Cfg.szMod]; simpa using hhi)
    rw [this]; omega
  · rintro ⟨l', hl', h1, h2⟩
    rw [hk] at hl'
    cases hl'
    exact FloatTag.ladder_at hb he labels k l hk (by rw [← hn]; exact h1) h2

/-- C163, lost: no read, whatever the bytes, returns an alternative next to the number that is
written for it, unless the label tells the alternative. -/
theorem C163_lost (hz : cfg.szBytes ≤ 8) (hwf : WellFormed (gs.map (asLadder R))) (S : InStream) (s s' : S.State)
    (ws : List Val) (h : (structCastTags R cfg gs).runOn S s = (.done (.ok ws), s')) {id src : String}
    {bytes w n k : Nat} (hb : bytes = 4 ∨ bytes = 8) {labels : List (ScalarTy × Int)} {alts : List Alt}
    {c c' : Constraint} {x : Val} {l : ScalarTy × Int}
    (hs : (.slot src bytes w c', .int (C.bits bytes n)) ∈ gs.zip ws)
    (hu : (.switched id src bytes labels alts c, .var k x) ∈ gs.zip ws)
    (hk : labels[k]? = some l) (hn : cfg.toSz l.2 = n) (hf : Fits cfg bytes w n) : TellsAt cfg R bytes labels k := by
  rw [C163_read] at h
  have hv := (success_on_any_stream cfg _ hwf S s s' ws h).1
  have hm : ∀ g u, (g, u) ∈ gs.zip ws → (asLadder R g, u) ∈ (gs.map (asLadder R)).zip ws := by
    intro g u hgu
    rw [List.zip_map_left]
    exact List.mem_map.2 ⟨_, hgu, rfl⟩
  have h1 := shaped_zip hv.2.2 (hm _ _ hu)
  have h2 := env_zip hwf.2.1 (hm _ _ hs)
  simp only [asLadder, choosing, byLabels, ShapedField, Deducer.eval] at h1
  refine (C163_tells (env := envOf (gs.map (asLadder R)) ws) hz hb hk hn hf h2).1 ?_
  rw [FloatTag.tagIn_ladder]
  exact h1.1
end

/-! ### A list with such a discriminant -/

/-- A floating-point number of `n` bytes that tells a number of two bytes from one of four, by two
labels. -/
def floatTagged (n : Nat) (a b : Int) : List TField :=
  [.slot "t" n n .none,
   .switched "u" "t" n [(.int 8 true, a), (.int 8 true, b)]
     [.mk (.num (.int 2 false) 2) .none, .mk (.num (.int 4 false) 4) .none] .none]

theorem floatTagged_apart {n : Nat} (hn : n = 4 ∨ n = 8) (a b : Int) : TagsApart (floatTagged n a b) := by
  refine ⟨by simp [floatTagged, TField.usual, Field.id], ?_, ?_, ?_⟩
  · intro f id bytes w c h
    simp [floatTagged] at h
  · intro id src bytes labels alts c h
    simp only [floatTagged, List.mem_cons, List.not_mem_nil, or_false, reduceCtorEq, false_or] at h
    cases h
    refine ⟨⟨n, .none, by simp [floatTagged]⟩, ?_⟩
    intro _ _ _ _ _ x hx
    simp only [List.mem_cons, List.not_mem_nil, or_false] at hx
    rcases hx with rfl | rfl <;> simp [kindDeps]
  · intro id bytes w c h
    simp only [floatTagged, List.mem_cons, List.not_mem_nil, or_false, reduceCtorEq] at h
    cases h
    exact ⟨hn, rfl⟩

/-- The second alternative and its label. -/
theorem floatTagged_filled {R : Rounding} (C : FloatOf R) (a b : Int) (v w : Val) {m n x : Nat} (hb : le64.toSz b = n)
    (hf : Fits le64 m m n) (hx : C.bits m n = x) :
    TagFilled le64 C (floatTagged m a b) [v, .var 1 w] [.int x, .var 1 w] := by
  rw [← hx]
  refine .cons (.slot _ _ _ _ _ n ⟨_, List.mem_cons_of_mem _ (List.mem_singleton_self _), _, _, _, _, _, rfl⟩ ?_ hf rfl)
    (.cons (.switched ..) .nil)
  intro g u hg h
  simp only [floatTagged, List.zip_cons_cons, List.zip_nil_left, List.mem_cons, Prod.mk.injEq, List.not_mem_nil,
    or_false] at hg
  rcases hg with ⟨rfl, rfl⟩ | ⟨rfl, rfl⟩
  · obtain ⟨_, _, _, _, _, h⟩ := h; cases h
  · exact ⟨_, _, _, _, _, _, _, _, _, rfl, rfl, rfl, hb⟩

theorem floatTagged_told {R : Rounding} (v w : Val) : Told le64 R (floatTagged 4 1 2) [v, .var 1 w] := by
  intro id src bytes labels alts c k x h
  simp only [floatTagged, List.zip_cons_cons, List.zip_nil_left, List.mem_cons, Prod.mk.injEq, List.not_mem_nil,
    or_false, reduceCtorEq, false_and, false_or] at h
  obtain ⟨h1, h2⟩ := h
  cases h1; cases h2
  refine C163_labels (by decide) ?_ (by decide)
  intro l hl
  simp only [List.mem_cons, List.not_mem_nil, or_false] at hl
  rcases hl with rfl | rfl
  · exact ⟨1, rfl, (small_sizes 1).1 (by decide), by decide⟩
  · exact ⟨2, rfl, (small_sizes 2).1 (by decide), by decide⟩

theorem float_two {R : Rounding} (C : FloatOf R) : C.bits 4 2 = (0x40000000 : Nat) :=
  size_bits C (.inl rfl) (by decide) (by decide +kernel) (by decide)

theorem floatTagged_chosen (n : Nat) (a b : Int) (v w : Val) :
    ChosenBy (fun _ => [⟨[], fun _ => false⟩, ⟨[], fun _ => true⟩]) (floatTagged n a b) [v, .var 1 w] := by
  intro id src bytes labels alts c k x h
  simp only [floatTagged, List.zip_cons_cons, List.zip_nil_left, List.mem_cons, Prod.mk.injEq, List.not_mem_nil,
    or_false, reduceCtorEq, false_and, false_or] at h
  cases h.2
  rfl

set_option exponentiation.threshold 2000

theorem floatTagged_two {R : Rounding} (C : FloatOf R) (v w : Val) :
    TagFilled le64 C (floatTagged 4 1 2) [v, .var 1 w] [.int 0x40000000, .var 1 w] :=
  floatTagged_filled C 1 2 v w (by decide) ((C162_sizes 2 (by decide)).1 (by decide)) (float_two C)

/-- The second alternative is written after `2.0f`, whatever the discriminant was before, and
read back. -/
example {R : Rounding} (C : FloatOf R) (v : Val) :
    (streamCastTags C le64 (floatTagged 4 1 2) [v, .var 1 (.int 7)]).run =
      (.done (.ok ()), [0, 0, 0, 0x40, 7, 0, 0, 0]) := by
  rw [C163_bytes (ch := fun _ => [⟨[], fun _ => false⟩, ⟨[], fun _ => true⟩]) (floatTagged_apart (.inl rfl) 1 2) (floatTagged_two C v _)
    (floatTagged_chosen _ _ _ _ _)]
  rfl

example (rest : List Byte) : (structCastTags ieee le64 (floatTagged 4 1 2)).run ([0, 0, 0, 0x40, 7, 0, 0, 0] ++ rest) =
    (.done (.ok [.int 0x40000000, .var 1 (.int 7)]), rest) := by
  obtain ⟨C⟩ := C162_converts ieee
  refine C163_round (floatTagged_apart (.inl rfl) 1 2) ?_ (floatTagged_two C (.int 0) _) (floatTagged_told _ _) ?_ _ ?_ rest
  · decide +kernel
  · decide +kernel
  · rw [C163_write (floatTagged_apart (.inl rfl) 1 2) (floatTagged_two C _ _) (floatTagged_told _ _)]
    decide +kernel

/-- `1.5f` is no label, nor is a NaN. -/
example : (structCastTags ieee le64 (floatTagged 4 1 2)).run [0, 0, 0xc0, 0x3f, 7, 0] =
    (.done (.error ⟨.typeDeductionFailure, "u"⟩), [7, 0]) := by
  rw [C163_read]
  decide +kernel

example : (structCastTags ieee le64 (floatTagged 4 1 2)).run [0, 0, 0xc0, 0x7f, 7, 0] =
    (.done (.error ⟨.typeDeductionFailure, "u"⟩), [7, 0]) := by
  rw [C163_read]
  decide +kernel

/-- The label that is written for the second alternative chooses it, if it is 2 beside 1. -/
example {R : Rounding} (C : FloatOf R) (env : Env) (he : env "t" = some (.int (C.bits 4 2))) :
    tagIn R env "t" 4 [(.int 8 true, 1), (.int 8 true, 2)] = .ok (some 1) :=
  (C163_tells (cfg := le64) (by decide) (.inl rfl) rfl (by decide) ((C162_sizes 2 (by decide)).1 (by decide)) he).2
    (floatTagged_told (.int 0) (.int 0) _ _ _ _ _ _ _ _ (List.mem_cons_of_mem _ (List.mem_singleton_self _)))

/-- What was written could be. -/
example {R : Rounding} (C : FloatOf R) (v : Val) : ∃ us, TagFilled le64 C (floatTagged 4 1 2) [v, .var 1 (.int 7)] us := by
  refine C163_refused listOut (floatTagged_apart (.inl rfl) 1 2) [] [0, 0, 0, 0x40, 7, 0, 0, 0] ?_
  rw [C163_bytes (ch := fun _ => [⟨[], fun _ => false⟩, ⟨[], fun _ => true⟩]) (floatTagged_apart (.inl rfl) 1 2)
    (floatTagged_two C v _) (floatTagged_chosen _ _ _ _ _)]
  rfl

/-- Two labels that are different integers and the same `float`: the second alternative is
written, and the first read back. -/
theorem C163_fails_rounded (C : FloatOf ieee) (v : Val) :
    (streamCastTags C le64 (floatTagged 4 (2 ^ 24 + 1) (2 ^ 24)) [v, .var 1 (.int 7)]).run =
        (.done (.ok ()), [0, 0, 0x80, 0x4b, 7, 0, 0, 0]) ∧
      (structCastTags ieee le64 (floatTagged 4 (2 ^ 24 + 1) (2 ^ 24))).run [0, 0, 0x80, 0x4b, 7, 0, 0, 0] =
        (.done (.ok [.int 0x4b800000, .var 0 (.int 7)]), [0, 0]) := by
  constructor
  · rw [C163_bytes (ch := fun _ => [⟨[], fun _ => false⟩, ⟨[], fun _ => true⟩]) (floatTagged_apart (.inl rfl) _ _)
      (floatTagged_filled C _ _ v _ (n := 2 ^ 24) (x := 0x4b800000) (by decide)
        ((C162_sizes (2 ^ 24) (by decide)).1 (by decide))
        (size_bits C (.inl rfl) (by decide) (by decide +kernel) (by decide))) (floatTagged_chosen _ _ _ _ _)]
    rfl
  · rw [C163_read]
    decide +kernel

/-- No bytes are read as the second alternative. -/
example (S : InStream) (s s' : S.State) (x : Val) :
    (structCastTags ieee le64 (floatTagged 4 (2 ^ 24 + 1) (2 ^ 24))).runOn S s ≠
      (.done (.ok [.int 0x4b800000, .var 1 x]), s') := by
  obtain ⟨C⟩ := C162_converts ieee
  intro h
  have hx : (0x4b800000 : Int) = C.bits 4 (2 ^ 24) :=
    (size_bits C (x := 0x4b800000) (.inl rfl) (by decide) (by decide +kernel) (by decide)).symm
  rw [hx] at h
  obtain ⟨l, h1, -, h2⟩ := C163_lost (C := C) (w := 4) (n := 2 ^ 24) (k := 1) (l := (.int 8 true, 2 ^ 24)) (by decide)
    (by decide +kernel) S s s' _ h (.inl rfl) (List.mem_cons_self ..)
    (List.mem_cons_of_mem _ (List.mem_singleton_self _)) rfl (by decide) ((C162_sizes (2 ^ 24) (by decide)).1 (by decide))
  cases h1
  exact h2 0 _ (by decide) rfl (by decide +kernel)

/-- A negative label: the least 64-bit number is written as 2^63, and not read back. -/
theorem C163_fails_sign (C : FloatOf ieee) (v : Val) :
    (streamCastTags C le64 (floatTagged 8 1 (-2 ^ 63)) [v, .var 1 (.int 7)]).run =
        (.done (.ok ()), [0, 0, 0, 0, 0, 0, 0xe0, 0x43, 7, 0, 0, 0]) ∧
      (structCastTags ieee le64 (floatTagged 8 1 (-2 ^ 63))).run [0, 0, 0, 0, 0, 0, 0xe0, 0x43, 7, 0, 0, 0] =
        (.done (.error ⟨.typeDeductionFailure, "u"⟩), [7, 0, 0, 0]) := by
  constructor
  · rw [C163_bytes (ch := fun _ => [⟨[], fun _ => false⟩, ⟨[], fun _ => true⟩]) (floatTagged_apart (.inr rfl) _ _)
      (floatTagged_filled C _ _ v _ (n := 2 ^ 63) (x := 0x43e0000000000000) (by decide)
        ⟨fun _ => by decide, powers 63 (by decide), by decide⟩
        (size_bits C (.inr rfl) (by decide) (by decide +kernel) (by decide))) (floatTagged_chosen _ _ _ _ _)]
    rfl
  · rw [C163_read]
    decide +kernel

/-- Another one: writing the alternative labelled -1 is undefined. -/
theorem C163_fails_negative (C : FloatOf ieee) (v : Val) :
    (streamCastTags C le64 (floatTagged 8 1 (-1)) [v, .var 1 (.int 7)]).run = (.stuck .badConversion, []) := by
  have hl : asLength le64 8 (C.bits 8 (2 ^ 64 - 1)) = .error .badConversion := by
    unfold asLength
    rw [C.is 8 _ (.inr rfl), show ieee.to 8 (((2 ^ 64 - 1 : Nat) : Int) * one) = .fin (2 ^ 64 * one) by decide +kernel]
    rfl
  have hd : deriveFloat C le64 ((floatTagged 8 1 (-1)).map TField.usual) [v, .var 1 (.int 7)] "t" 8 8 =
      .error .badConversion := by
    have h1 : deriveScan le64 "t" ((floatTagged 8 1 (-1)).map TField.usual) [v, .var 1 (.int 7)] {} =
        .ok ⟨2 ^ 64 - 1, true, true⟩ := by rfl
    simp only [deriveFloat, h1, floatFits, hl]
    rfl
  have hd' := hd
  unfold floatTagged at hd'
  simp only [streamCastTags]
  unfold floatTagged
  rw [writeTags, if_pos (by rfl)]
  simp only [writeTags1, writeSlot]
  rw [if_pos (by rfl)]
  simp only [hd']
  rfl

end S2S.Props
