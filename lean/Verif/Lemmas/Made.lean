import Verif.Spec.Made
import Verif.Lemmas.Subscript
import Verif.Lemmas.SettleIdem
import Verif.Lemmas.Place
import Verif.Lemmas.Wellformed
import Verif.Lemmas.Shape
import Verif.Lemmas.RunOn
import Verif.Lemmas.ReadTree
/-
The structs a program can hold: their types, their parts, and that every struct is
within reach.
-/
namespace S2S
open Spec

/-! ### Lists inside well-formed lists -/

mutual
theorem wf_kind : (k : Kind) → saneKind k = true → uniqueKind k = true → earlierKind k = true →
    EveryKind WellFormed k
  | .record fs, h1, h2, h3 => by
      rw [saneKind] at h1; rw [uniqueKind] at h2; rw [earlierKind] at h3
      exact ⟨⟨h1, h2, h3⟩, wf_fields fs [] [] h1 h2 h3⟩
  | .arrRec fs _, h1, h2, h3 => by
      rw [saneKind] at h1; rw [uniqueKind] at h2; rw [earlierKind] at h3
      exact ⟨⟨h1, h2, h3⟩, wf_fields fs [] [] h1 h2 h3⟩
  | .vecRec fs _ _ _, h1, h2, h3 => by
      rw [saneKind, Bool.and_eq_true] at h1; rw [uniqueKind] at h2; rw [earlierKind] at h3
      exact ⟨⟨h1.2, h2, h3⟩, wf_fields fs [] [] h1.2 h2 h3⟩
  | .num _ _, _, _, _ => True.intro
  | .fbuf _ _, _, _, _ => True.intro
  | .fstr _, _, _, _ => True.intro
  | .vec _ _ _, _, _, _ => True.intro
theorem wf_field : (f : Field) → saneField f = true → uniqueField f = true → earlierField f = true →
    EveryField WellFormed f
  | .plain _ k _, h1, h2, h3 => by
      rw [saneField] at h1; rw [uniqueField] at h2; rw [earlierField] at h3
      exact wf_kind k h1 h2 h3
  | .maybe _ k _, h1, h2, h3 => by
      rw [saneField] at h1; rw [uniqueField] at h2; rw [earlierField] at h3
      exact wf_kind k h1 h2 h3
  | .union _ _ alts _, h1, h2, h3 => by
      rw [saneField, Bool.and_eq_true] at h1; rw [uniqueField] at h2; rw [earlierField] at h3
      exact wf_alts alts h1.2 h2 h3
theorem wf_alts : (alts : List Alt) → saneAlts alts = true → uniqueAlts alts = true →
    earlierAlts alts = true → EveryAlts WellFormed alts
  | [], _, _, _ => True.intro
  | .mk k _ :: alts, h1, h2, h3 => by
      rw [saneAlts, Bool.and_eq_true] at h1; rw [uniqueAlts, Bool.and_eq_true] at h2
      rw [earlierAlts, Bool.and_eq_true] at h3
      exact ⟨wf_kind k h1.1 h2.1 h3.1, wf_alts alts h1.2 h2.2 h3.2⟩
theorem wf_fields : (fs : List Field) → ∀ seen seen', saneFields fs = true → uniqueFields seen fs = true →
    earlierFields seen' fs = true → EveryFields WellFormed fs
  | [], _, _, _, _, _ => True.intro
  | f :: fs, seen, seen', h1, h2, h3 => by
      rw [saneFields, Bool.and_eq_true] at h1
      rw [uniqueFields, Bool.and_eq_true, Bool.and_eq_true] at h2
      rw [earlierFields, Bool.and_eq_true, Bool.and_eq_true] at h3
      exact ⟨wf_field f h1.1 h2.1.2 h3.1.2, wf_fields fs _ _ h1.2 h2.2 h3.2⟩
end

theorem wellFormed_everywhere {fs : List Field} (h : WellFormed fs) : Everywhere WellFormed fs :=
  ⟨h, wf_fields fs [] [] h.1 h.2.1 h.2.2⟩

/-! ### Types -/

theorem typedAlts_at {cfg : Cfg} {alts : List Alt} {j : Nat} {a : Alt} {v : Val} (ha : alts[j]? = some a) :
    TypedAlts cfg alts j v ↔ TypedKind cfg a.kind v := by
  induction alts generalizing j with
  | nil => simp at ha
  | cons b alts ih =>
    cases b with
    | mk k c =>
      cases j with
      | zero =>
        simp only [List.getElem?_cons_zero, Option.some.injEq] at ha
        subst ha; rw [TypedAlts]
      | succ j => rw [TypedAlts]; exact ih (by simpa using ha)

theorem typed_set {cfg : Cfg} {fs : List Field} {vs : List Val} (h : TypedFields cfg fs vs) {i : Nat}
    {f : Field} (hf : fs[i]? = some f) {v : Val} (hv : TypedField cfg f v) :
    TypedFields cfg fs (vs.set i v) := by
  induction fs generalizing vs i with
  | nil => simp at hf
  | cons g fs ih =>
    cases vs with
    | nil => simp [TypedFields] at h
    | cons w vs =>
      rw [TypedFields] at h
      cases i with
      | zero =>
        simp only [List.getElem?_cons_zero, Option.some.injEq] at hf
        subst hf
        rw [List.set_cons_zero, TypedFields]; exact ⟨hv, h.2⟩
      | succ i =>
        rw [List.set_cons_succ, TypedFields]
        exact ⟨h.1, ih h.2 (by simpa using hf)⟩

theorem inRange_zero (t : ScalarTy) : t.InRange 0 := by
  cases t with
  | int b s =>
    have : 0 < 256 ^ b := Nat.pow_pos (by omega)
    cases s <;> simp only [ScalarTy.InRange] <;> omega
  | bool => exact .inl rfl

theorem elemFits_dflt : (e : ElemTy) → ElemFits e e.dflt
  | .scalar t => by rw [ElemTy.dflt, ElemFits]; exact inRange_zero t
  | .arr e n => by
      rw [ElemTy.dflt, ElemFits]
      refine ⟨List.length_replicate, fun v hv => ?_⟩
      rw [(List.mem_replicate.1 hv).2]
      exact elemFits_dflt e

section
variable {acc : Lookup} {src : List Field → List Val → Prop} {cfg : Cfg}

theorem made_dfltKind : (k : Kind) → MadeKind acc src cfg k k.dflt
  | .num t w => by rw [Kind.dflt]; exact .num (inRange_zero t)
  | .fbuf e n => by
      rw [Kind.dflt]
      refine .fbuf List.length_replicate fun v hv => ?_
      rw [(List.mem_replicate.1 hv).2]; exact elemFits_dflt e
  | .fstr n => by
      rw [Kind.dflt]
      refine .fstr List.length_replicate fun v hv => ?_
      rw [(List.mem_replicate.1 hv).2]; exact elemFits_dflt (.scalar u8)
  | .vec e len b => by rw [Kind.dflt]; exact .vec (by simp) (by simp)
  | .record fs => by rw [Kind.dflt]; exact .record .fresh
  | .arrRec fs n => by
      rw [Kind.dflt, ← List.map_replicate (f := Val.seq)]
      refine .arrRec List.length_replicate fun v hv => ?_
      rw [(List.mem_replicate.1 hv).2]; exact .fresh
  | .vecRec fs len b sz => by
      rw [Kind.dflt]; exact MadeKind.vecRec (vs := []) (by simp) (by simp)

theorem made_dfltField {fs : List Field} {f : Field} (hf : f ∈ fs) (h : SomeAlternative fs) :
    MadeField acc src cfg f f.dflt := by
  cases f with
  | plain id k c => rw [Field.dflt]; exact .plain (made_dfltKind k)
  | maybe id k p => rw [Field.dflt]; exact .absent
  | union id d alts c =>
    have := h _ hf
    cases alts with
    | nil => exact absurd rfl this
    | cons a alts =>
      cases a with
      | mk k cc =>
        rw [Field.dflt, Alt.dfltFirst]
        exact .alternative (j := 0) rfl (made_dfltKind k)

theorem dflts_length (fs : List Field) : (Field.dflts fs).length = fs.length := by
  induction fs with
  | nil => rfl
  | cons f fs ih => rw [Field.dflts, List.length_cons, List.length_cons, ih]

theorem dflts_get {fs : List Field} {i : Nat} {f : Field} (h : fs[i]? = some f) :
    (Field.dflts fs)[i]? = some f.dflt := by
  induction fs generalizing i with
  | nil => simp at h
  | cons g fs ih =>
    rw [Field.dflts]
    cases i with
    | zero =>
      simp only [List.getElem?_cons_zero, Option.some.injEq] at h ⊢
      rw [h]
    | succ i => simpa using ih (by simpa using h)
end

mutual
theorem typed_dfltKind (cfg : Cfg) : (k : Kind) → EveryKind SomeAlternative k → TypedKind cfg k k.dflt
  | .num t w, _ => by rw [Kind.dflt, TypedKind]; exact inRange_zero t
  | .fbuf e n, _ => by
      rw [Kind.dflt, TypedKind]
      refine ⟨List.length_replicate, fun v hv => ?_⟩
      rw [(List.mem_replicate.1 hv).2]; exact elemFits_dflt e
  | .fstr n, _ => by
      rw [Kind.dflt, TypedKind]
      refine ⟨List.length_replicate, fun v hv => ?_⟩
      rw [(List.mem_replicate.1 hv).2]; exact elemFits_dflt (.scalar u8)
  | .vec e len b, _ => by rw [Kind.dflt, TypedKind]; exact ⟨by simp, by simp⟩
  | .record fs, h => by rw [Kind.dflt, TypedKind]; exact typed_dflts cfg fs h.1 h.2
  | .arrRec fs n, h => by
      rw [Kind.dflt, TypedKind]
      refine ⟨List.length_replicate, fun v hv => ⟨Field.dflts fs, (List.mem_replicate.1 hv).2, ?_⟩⟩
      exact typed_dflts cfg fs h.1 h.2
  | .vecRec fs len b sz, _ => by rw [Kind.dflt, TypedKind]; exact ⟨by simp, by simp⟩
  termination_by structural k => k
theorem typed_dfltField (cfg : Cfg) : (f : Field) → EveryField SomeAlternative f →
    (match f with | .union _ _ alts _ => alts ≠ [] | _ => True) → TypedField cfg f f.dflt
  | .plain _ k _, h, _ => by rw [Field.dflt, TypedField]; exact typed_dfltKind cfg k h
  | .maybe _ _ _, _, _ => by rw [Field.dflt, TypedField]; trivial
  | .union _ _ alts _, h, hn => by
      rw [Field.dflt, TypedField]; exact typed_dfltAlts cfg alts h hn
  termination_by structural f => f
theorem typed_dfltAlts (cfg : Cfg) : (alts : List Alt) → EveryAlts SomeAlternative alts → alts ≠ [] →
    TypedAlts cfg alts 0 (Alt.dfltFirst alts)
  | [], _, hn => absurd rfl hn
  | .mk k _ :: alts, h, _ => by rw [Alt.dfltFirst, TypedAlts]; exact typed_dfltKind cfg k h.1
  termination_by structural alts => alts
theorem typed_dflts (cfg : Cfg) : (fs : List Field) → SomeAlternative fs → EveryFields SomeAlternative fs →
    TypedFields cfg fs (Field.dflts fs)
  | [], _, _ => by rw [Field.dflts, TypedFields]; trivial
  | f :: fs, h, he => by
      rw [Field.dflts, TypedFields]
      exact ⟨typed_dfltField cfg f he.1 (h f (by simp)),
        typed_dflts cfg fs (fun g hg => h g (by simp [hg])) he.2⟩
  termination_by structural fs => fs
end

mutual
theorem typedKind_of_fits (cfg : Cfg) : (k : Kind) → ∀ v, FitsKind cfg k v → TypedKind cfg k v
  | .num _ _, v, h => by
      cases v <;> simp only [FitsKind] at h
      rw [TypedKind]; exact h.1
  | .fbuf _ _, v, h => by
      cases v <;> simp only [FitsKind] at h
      rw [TypedKind]; exact h
  | .fstr _, v, h => by
      cases v <;> simp only [FitsKind] at h
      rw [TypedKind]; exact h
  | .vec _ _ _, v, h => by
      cases v <;> simp only [FitsKind] at h
      rw [TypedKind]; exact ⟨h.1.2, h.2⟩
  | .record fs, v, h => by
      cases v <;> simp only [FitsKind] at h
      rw [TypedKind]; exact typedFields_of_fits cfg fs _ h
  | .arrRec fs n, v, h => by
      cases v <;> simp only [FitsKind] at h
      rw [TypedKind]
      refine ⟨h.1, fun v hv => ?_⟩
      obtain ⟨ws, he, hw⟩ := h.2 v hv
      exact ⟨ws, he, typedFields_of_fits cfg fs _ hw⟩
  | .vecRec fs len b sz, v, h => by
      cases v <;> simp only [FitsKind] at h
      rw [TypedKind]
      refine ⟨h.1.2, fun v hv => ?_⟩
      obtain ⟨ws, he, hw⟩ := h.2 v hv
      exact ⟨ws, he, typedFields_of_fits cfg fs _ hw⟩
  termination_by structural k => k
theorem typedField_of_fits (cfg : Cfg) : (f : Field) → ∀ v, FitsField cfg f v → TypedField cfg f v
  | .plain _ k _, v, h => by
      rw [FitsField] at h
      rw [TypedField]; exact typedKind_of_fits cfg k v h
  | .maybe _ k _, v, h => by
      cases v <;> simp only [FitsField] at h
      · rw [TypedField]; trivial
      · rw [TypedField]; exact typedKind_of_fits cfg k _ h
  | .union _ _ alts _, v, h => by
      cases v <;> simp only [FitsField] at h
      rw [TypedField]; exact typedAlts_of_fits cfg alts _ _ h
  termination_by structural f => f
theorem typedAlts_of_fits (cfg : Cfg) : (alts : List Alt) → ∀ i v, FitsAlts cfg alts i v →
    TypedAlts cfg alts i v
  | [], i, v, h => by simp [FitsAlts] at h
  | .mk k c :: alts, 0, v, h => by
      rw [FitsAlts] at h; rw [TypedAlts]; exact typedKind_of_fits cfg k v h
  | .mk k c :: alts, i + 1, v, h => by
      rw [FitsAlts] at h; rw [TypedAlts]; exact typedAlts_of_fits cfg alts i v h
  termination_by structural alts => alts
theorem typedFields_of_fits (cfg : Cfg) : (fs : List Field) → ∀ vs, FitsFields cfg fs vs →
    TypedFields cfg fs vs
  | [], [], _ => by rw [TypedFields]; trivial
  | [], _ :: _, h => by simp [FitsFields] at h
  | _ :: _, [], h => by simp [FitsFields] at h
  | f :: fs, v :: vs, h => by
      rw [FitsFields] at h; rw [TypedFields]
      exact ⟨typedField_of_fits cfg f v h.1, typedFields_of_fits cfg fs vs h.2⟩
  termination_by structural fs => fs
end

theorem parsed_valid {cfg : Cfg} {fs : List Field} (hwf : WellFormed fs) {vs : List Val}
    (h : Parsed cfg fs vs) : Valid cfg fs vs := by
  obtain ⟨S, s, s', h⟩ := h
  rcases Rd.runOn_cases S (short_structCast cfg fs) s with ⟨p, o, s2, hp, -, he⟩ | ⟨a, p, s1, n, s2, hP, -, -, he⟩
  · rw [h] at he
    simp only [Prod.mk.injEq] at he
    rw [← he.1] at hp
    exact ((structCast_gives_iff cfg fs hwf p vs).1 hp).1
  · rw [h] at he
    simp only [Prod.mk.injEq, Outcome.done.injEq] at he
    rw [← he.1] at hP
    obtain ⟨e, he, -⟩ := hP

section
variable {acc : Lookup} {src : List Field → List Val → Prop} {cfg : Cfg} {Q : List Field → Prop}

mutual
/-- Every struct a program can hold is typed. -/
theorem made_typed (hQ : ∀ gs, Q gs → SomeAlternative gs) (hsrc : ∀ gs ws, Q gs → src gs ws → TypedFields cfg gs ws) :
    ∀ {fs vs}, Made acc src cfg fs vs → Everywhere Q fs → TypedFields cfg fs vs
  | _, _, .fresh, h => typed_dflts cfg _ (hQ _ h.1) (EveryFields.mono hQ _ h.2)
  | _, _, .given hs, h => hsrc _ _ h.1 hs
  | _, _, .assign hm _ hi hf, h =>
      typed_set (made_typed hQ hsrc hm h) hi (madeField_typed hQ hsrc hf (everyFields_get h.2 hi))
theorem madeField_typed (hQ : ∀ gs, Q gs → SomeAlternative gs)
    (hsrc : ∀ gs ws, Q gs → src gs ws → TypedFields cfg gs ws) :
    ∀ {f v}, MadeField acc src cfg f v → EveryField Q f → TypedField cfg f v
  | _, _, .plain hk, h => by rw [TypedField]; exact madeKind_typed hQ hsrc hk h
  | _, _, .absent, h => by rw [TypedField]; trivial
  | _, _, .present hk, h => by rw [TypedField]; exact madeKind_typed hQ hsrc hk h
  | _, _, .alternative ha hk, h => by
      rw [TypedField, typedAlts_at ha]; exact madeKind_typed hQ hsrc hk (everyAlts_get h ha)
theorem madeKind_typed (hQ : ∀ gs, Q gs → SomeAlternative gs)
    (hsrc : ∀ gs ws, Q gs → src gs ws → TypedFields cfg gs ws) :
    ∀ {k v}, MadeKind acc src cfg k v → EveryKind Q k → TypedKind cfg k v
  | _, _, .num hx, h => by rw [TypedKind]; exact hx
  | _, _, .fbuf h1 h2, h => by rw [TypedKind]; exact ⟨h1, h2⟩
  | _, _, .fstr h1 h2, h => by rw [TypedKind]; exact ⟨h1, h2⟩
  | _, _, .vec h1 h2, h => by rw [TypedKind]; exact ⟨h1, h2⟩
  | _, _, .record hm, h => by rw [TypedKind]; exact made_typed hQ hsrc hm h
  | _, _, .arrRec h1 h2, h => by
      rw [TypedKind]
      refine ⟨by rw [List.length_map]; exact h1, fun v hv => ?_⟩
      obtain ⟨ws, hw, rfl⟩ := List.mem_map.1 hv
      exact ⟨ws, rfl, made_typed hQ hsrc (h2 ws hw) h⟩
  | _, _, .vecRec h1 h2, h => by
      rw [TypedKind]
      refine ⟨by rw [List.length_map]; exact h1, fun v hv => ?_⟩
      obtain ⟨ws, hw, rfl⟩ := List.mem_map.1 hv
      exact ⟨ws, rfl, made_typed hQ hsrc (h2 ws hw) h⟩
end

theorem made_length (hsrc : ∀ gs ws, src gs ws → ws.length = gs.length) :
    ∀ {fs vs}, Made acc src cfg fs vs → vs.length = fs.length
  | _, _, .fresh => dflts_length _
  | _, _, .given h => hsrc _ _ h
  | _, _, .assign hm _ _ _ => by rw [List.length_set]; exact made_length hsrc hm

/-- The parts of a struct a program can hold are such structs. -/
theorem made_inside (hQ : ∀ gs, Q gs → SomeAlternative gs)
    (hsrc : ∀ gs ws, Everywhere Q gs → src gs ws →
      ∀ (i : Nat) (f : Field) (v : Val), gs[i]? = some f → ws[i]? = some v → MadeField acc src cfg f v) :
    ∀ {fs vs}, Made acc src cfg fs vs → Everywhere Q fs →
      ∀ (i : Nat) (f : Field) (v : Val), fs[i]? = some f → vs[i]? = some v → MadeField acc src cfg f v
  | _, _, .fresh, h, i, f, v, hf, hv => by
      rw [dflts_get hf] at hv
      rw [← Option.some.inj hv]
      exact made_dfltField (List.mem_of_getElem? hf) (hQ _ h.1)
  | _, _, .given hs, h, i, f, v, hf, hv => hsrc _ _ h hs i f v hf hv
  | _, _, .assign (i := j) hm _ hj hF, h, i, f, v, hf, hv => by
      by_cases hij : j = i
      · subst hij
        rw [List.getElem?_set] at hv
        simp only [if_true] at hv
        split at hv
        · have h2 : _ = some f := hf
          rw [show _ = some _ from hj] at h2
          rw [← Option.some.inj hv, ← Option.some.inj h2]
          exact hF
        · cases hv
      · rw [List.getElem?_set_ne hij] at hv
        exact made_inside hQ hsrc hm h i f v hf hv

/-- Assignments leave alone what `operator[]` does not let through. -/
theorem made_kept {fs : List Field} {i : Nat} {f : Field} (hf : fs[i]? = some f)
    (hna : ∀ g id, acc fs id = some (g, .mutable) → fs[i]? ≠ some g) :
    ∀ {vs}, Made acc src cfg fs vs → vs[i]? = some f.dflt ∨ ∃ ws, src fs ws ∧ vs[i]? = ws[i]?
  | _, .fresh => .inl (dflts_get hf)
  | _, .given h => .inr ⟨_, h, rfl⟩
  | _, .assign (i := j) hm ha hj _ => by
      have hij : j ≠ i := fun h => hna _ _ ha (h ▸ hj)
      rw [List.getElem?_set_ne hij]
      exact made_kept hf hna hm

/-- A list of values each of which is the default or assignable is within reach. -/
theorem made_assemble {fs : List Field} {us : List Val} (hl : us.length = fs.length)
    (h : ∀ (i : Nat) (f : Field) (u : Val), fs[i]? = some f → us[i]? = some u →
      u = f.dflt ∨ ((∃ id, acc fs id = some (f, .mutable)) ∧ MadeField acc src cfg f u)) :
    Made acc src cfg fs us := by
  have key : ∀ n, n ≤ fs.length → Made acc src cfg fs (us.take n ++ (Field.dflts fs).drop n) := by
    intro n
    induction n with
    | zero => intro _; simpa using Made.fresh
    | succ n ih =>
      intro hn
      have hm := ih (by omega)
      have hf : fs[n]? = some fs[n] := List.getElem?_eq_getElem (by omega)
      have hu : us[n]? = some us[n] := List.getElem?_eq_getElem (by omega)
      have hd := dflts_get hf
      have e1 : us.take (n + 1) = us.take n ++ [us[n]] := by
        rw [List.take_add_one, hu]; rfl
      have e2 : (Field.dflts fs).drop n = fs[n].dflt :: (Field.dflts fs).drop (n + 1) := by
        have hlt : n < (Field.dflts fs).length := by rw [dflts_length]; omega
        rw [List.drop_eq_getElem_cons hlt]
        rw [List.getElem?_eq_getElem hlt, Option.some.injEq] at hd
        rw [hd]
      have e3 : us.take (n + 1) ++ (Field.dflts fs).drop (n + 1) =
          (us.take n ++ (Field.dflts fs).drop n).set n us[n] := by
        rw [e1, e2, List.set_append_right _ _ (by simp; omega), List.length_take, Nat.min_eq_left (by omega),
          Nat.sub_self, List.set_cons_zero, List.append_assoc]
        rfl
      rcases h n _ _ hf hu with he | ⟨⟨id, ha⟩, hmf⟩
      · rw [e1, List.append_assoc]
        rw [e2] at hm
        rw [he]
        exact hm
      · rw [e3]
        exact .assign hm ha hf hmf
  have := key fs.length (Nat.le_refl _)
  rwa [List.take_of_length_le (by omega), List.drop_of_length_le (by rw [dflts_length]; omega),
    List.append_nil] at this
end

/-! ### Every struct is within reach -/

/-- A list `operator[]` works on, with its slots resolved. -/
def Reachable (tid : Field → Nat) (fs : List Field) : Prop :=
  Addressable tid fs ∧ Resolves fs ∧ uniqueFields [] fs = true

section
variable (lt : String → String → Bool) (tid : Field → Nat) (cfg : Cfg)

theorem mutable_iff {fs : List Field} (h : Reachable tid fs) {f : Field} (hf : f ∈ fs) :
    named lt tid fs f.id = some (f, .mutable) ↔ isSlot fs f.id = false ∧ ¬ Frozen f := by
  obtain ⟨⟨h1, h2, h3, h4, h5⟩, -, hu⟩ := h
  rw [named, if_neg (h5 f hf)]
  have hd : Distinct fs := ((uniqueFields_iff [] fs).1 hu).1
  rw [Meta.subscript_eq lt tid h1 hd h2 h3 h4 (h5 f hf), ← Bool.not_eq_true, Meta.isSlot_iff]
  simp only [reduceCtorEq, false_iff, not_or, hf, true_and, and_assoc]

theorem constOf_isSome (k : Kind) (c : Constraint) : (constOf k c).isSome = (typedConst k c).isSome := by
  unfold constOf typedConst
  split <;> simp_all

/-- A field `operator[]` does not let through is of fixed size. -/
theorem not_mutable_fixed {fs : List Field} (h : Reachable tid fs) {f : Field} (hf : f ∈ fs)
    (hn : ¬ (isSlot fs f.id = false ∧ ¬ Frozen f)) :
    ∃ id k c, f = .plain id k c ∧ k.isFixed = true ∧ (isSlot fs id = true ∨ (constOf k c).isSome = true) := by
  by_cases hs : isSlot fs f.id = true
  · obtain ⟨t, w, c, he⟩ := slot_plain h.2.2 h.2.1 (f := f) hf hs
    exact ⟨_, _, _, he, rfl, .inl hs⟩
  · have hF : Frozen f := by
      false_or_by_contra
      rename_i hc
      exact hn ⟨by simpa using hs, hc⟩
    cases f with
    | plain id k c =>
      simp only [Frozen] at hF
      refine ⟨id, k, c, rfl, ?_, .inr ?_⟩
      · cases k <;> cases c <;> simp_all [typedConst, Kind.isFixed]
      · rw [constOf_isSome]; exact hF
    | maybe id k p => exact absurd hF (by simp [Frozen])
    | union id d alts c => exact absurd hF (by simp [Frozen])

/-- The values agree once slots are filled. -/
def SameField (f : Field) (w v : Val) : Prop :=
  ∀ all vals, settleField all vals f w = settleField all vals f v

/-- The part of `ws` that can be assigned, the rest default. -/
def pick (all : List Field) : List Field → List Val → List Val
  | f :: fs, w :: ws =>
      (if isSlot all f.id = false ∧ f.isFrozen = false then w else f.dflt) :: pick all fs ws
  | _, _ => []

theorem pick_length (all : List Field) {fs : List Field} {ws : List Val} (h : ws.length = fs.length) :
    (pick all fs ws).length = fs.length := by
  induction fs generalizing ws with
  | nil => rfl
  | cons f fs ih =>
    cases ws with
    | nil => simp at h
    | cons w ws => rw [pick, List.length_cons, List.length_cons, ih (by simpa using h)]

theorem pick_get (all : List Field) {fs : List Field} {ws : List Val} {i : Nat} {f : Field} {w : Val}
    (hf : fs[i]? = some f) (hw : ws[i]? = some w) :
    (pick all fs ws)[i]? = some (if isSlot all f.id = false ∧ f.isFrozen = false then w else f.dflt) := by
  induction fs generalizing ws i with
  | nil => simp at hf
  | cons g fs ih =>
    cases ws with
    | nil => simp at hw
    | cons u ws =>
      rw [pick]
      cases i with
      | zero =>
        simp only [List.getElem?_cons_zero, Option.some.injEq] at hf hw ⊢
        subst hf hw
        rfl
      | succ i => simpa using ih (by simpa using hf) (by simpa using hw)

theorem not_frozen_iff (f : Field) : f.isFrozen = false ↔ ¬ Frozen f := by
  rw [← Meta.isFrozen_iff, Bool.not_eq_true]

theorem produced_fixed {id : String} {k : Kind} {c : Constraint} (hk : k.isFixed = true) (target : String)
    (v : Val) : produced target (.plain id k c) v = none := by
  have hl := lenTarget_of_fixed hk
  cases v <;> simp [produced, hl]

theorem pick_settle {all : List Field} (h : Reachable tid all) :
    ∀ (fs : List Field) (ws vs : List Val), (∀ f ∈ fs, f ∈ all) → ws.length = fs.length → vs.length = fs.length →
    (∀ (i : Nat) f w v, fs[i]? = some f → ws[i]? = some w → vs[i]? = some v → SameField f w v) →
    (∀ target, producers target fs (pick all fs ws) = producers target fs vs) ∧
    ∀ vals vals', (∀ target, slotValue all vals target = slotValue all vals' target) →
      settleFields all vals fs (pick all fs ws) = settleFields all vals' fs vs
  | [], _, vs, _, _, hv, _ => by
      cases vs with
      | nil => exact ⟨fun _ => rfl, fun _ _ _ => by simp [pick, settleFields]⟩
      | cons => simp at hv
  | _ :: _, [], _, _, hw, _, _ => by simp at hw
  | _ :: _, _ :: _, [], _, _, hv, _ => by simp at hv
  | f :: fs, w :: ws, v :: vs, hsub, hw, hv, hs => by
      obtain ⟨ih1, ih2⟩ := pick_settle h fs ws vs (fun g hg => hsub g (by simp [hg])) (by simpa using hw)
        (by simpa using hv) fun i g w v h1 h2 h3 => hs (i + 1) g w v (by simpa using h1) (by simpa using h2)
          (by simpa using h3)
      have hf := hsub f (by simp)
      have hsame : SameField f w v := hs 0 f w v rfl rfl rfl
      rw [pick]
      have hcong : ∀ vals vals', (∀ target, slotValue all vals target = slotValue all vals' target) → ∀ u,
          settleField all vals f u = settleField all vals' f u := by
        intro vals vals' hvals u
        cases f with
        | plain id k c => rw [settleField, settleField, hvals]
        | maybe id k p => cases u <;> simp only [settleField]
        | union id d alts c => cases u <;> simp only [settleField]
      by_cases hm : isSlot all f.id = false ∧ f.isFrozen = false
      · rw [if_pos hm]
        constructor
        · intro target
          rw [producers, producers, ih1, ← produced_settle h.2.2 h.2.1 [] target hf w, hsame all [],
            produced_settle h.2.2 h.2.1 [] target hf v]
        · intro vals vals' hvals
          rw [settleFields, settleFields, ih2 vals vals' hvals, hsame all vals, hcong vals vals' hvals]
      · rw [if_neg hm]
        rw [not_frozen_iff] at hm
        obtain ⟨id, k, c, rfl, hk, hsc⟩ := not_mutable_fixed tid h hf hm
        constructor
        · intro target
          rw [producers, producers, ih1, produced_fixed hk, produced_fixed hk]
        · intro vals vals' hvals
          rw [settleFields, settleFields, ih2 vals vals' hvals]
          congr 1
          rw [settleField, settleField, hvals]
          by_cases hi : isSlot all id = true
          · rw [if_pos hi, if_pos hi]
          · rw [if_neg hi, if_neg hi]
            obtain ⟨u, hu⟩ := Option.isSome_iff_exists.1 (hsc.resolve_left hi)
            rw [hu]

theorem assemble_settle {src : List Field → List Val → Prop} {fs : List Field} (h : Reachable tid fs)
    {ws vs : List Val} (hw : ws.length = fs.length) (hv : vs.length = fs.length)
    (hs : ∀ (i : Nat) f w v, fs[i]? = some f → ws[i]? = some w → vs[i]? = some v →
      MadeField (named lt tid) src cfg f w ∧ SameField f w v) :
    ∃ us, Made (named lt tid) src cfg fs us ∧ settle fs us = settle fs vs := by
  refine ⟨pick fs fs ws, made_assemble (pick_length fs hw) ?_, ?_⟩
  · intro i f u hf hu
    have hlt : i < fs.length := (List.getElem?_eq_some_iff.1 hf).1
    have h1 : ws[i]? = some ws[i] := List.getElem?_eq_getElem (by omega)
    have h2 : vs[i]? = some vs[i] := List.getElem?_eq_getElem (by omega)
    rw [pick_get fs hf h1, Option.some.injEq] at hu
    subst hu
    by_cases hm : isSlot fs f.id = false ∧ f.isFrozen = false
    · rw [if_pos hm]
      refine .inr ⟨⟨f.id, (mutable_iff lt tid h (List.mem_of_getElem? hf)).2 ?_⟩, (hs i f _ _ hf h1 h2).1⟩
      rw [← not_frozen_iff]; exact hm
    · rw [if_neg hm]; exact .inl rfl
  · obtain ⟨h1, h2⟩ := pick_settle tid h fs ws vs (fun _ h => h) hw hv
      fun i f w v a b c => (hs i f w v a b c).2
    rw [settle, settle]
    refine h2 _ _ fun target => ?_
    rw [slotValue, slotValue, h1]

theorem typedFields_length : {fs : List Field} → {vs : List Val} → TypedFields cfg fs vs → vs.length = fs.length
  | [], [], _ => rfl
  | [], _ :: _, h => by simp [TypedFields] at h
  | _ :: _, [], h => by simp [TypedFields] at h
  | f :: fs, v :: vs, h => by
      rw [TypedFields] at h
      rw [List.length_cons, List.length_cons, typedFields_length h.2]

theorem choose_list {α β : Type} {R : α → β → Prop} : (l : List α) → (∀ a ∈ l, ∃ b, R a b) →
    ∃ m : List β, m.length = l.length ∧ ∀ (i : Nat) a b, l[i]? = some a → m[i]? = some b → R a b
  | [], _ => ⟨[], rfl, fun i a b h => by simp at h⟩
  | a :: l, h => by
      obtain ⟨b, hb⟩ := h a (by simp)
      obtain ⟨m, hm, hr⟩ := choose_list l fun a ha => h a (by simp [ha])
      refine ⟨b :: m, by rw [List.length_cons, List.length_cons, hm], fun i a' b' h1 h2 => ?_⟩
      cases i with
      | zero =>
        simp only [List.getElem?_cons_zero, Option.some.injEq] at h1 h2
        subst h1 h2; exact hb
      | succ i => exact hr i a' b' (by simpa using h1) (by simpa using h2)

/-- Records each within reach are so together. -/
theorem reach_records {src : List Field → List Val → Prop} {fs : List Field} {vs : List Val}
    (h : ∀ v ∈ vs, ∃ ws, v = .seq ws ∧
      ∃ us, Made (named lt tid) src cfg fs us ∧ settle fs us = settle fs ws) :
    ∃ uss : List (List Val), uss.length = vs.length ∧
      (∀ us ∈ uss, Made (named lt tid) src cfg fs us) ∧
      (uss.map Val.seq).map (mapRecord fun ws => settleFields fs ws fs ws) =
        vs.map (mapRecord fun ws => settleFields fs ws fs ws) := by
  obtain ⟨uss, hl, hr⟩ := choose_list (R := fun v us => ∃ ws, v = .seq ws ∧
    Made (named lt tid) src cfg fs us ∧ settle fs us = settle fs ws) vs fun v hv => by
      obtain ⟨ws, he, us, h1, h2⟩ := h v hv
      exact ⟨us, ws, he, h1, h2⟩
  refine ⟨uss, hl, fun us hu => ?_, ?_⟩
  · obtain ⟨i, hi⟩ := List.getElem?_of_mem hu
    have hlt : i < vs.length := by have := (List.getElem?_eq_some_iff.1 hi).1; omega
    obtain ⟨ws, -, h2, -⟩ := hr i _ us (List.getElem?_eq_getElem hlt) hi
    exact h2
  · apply List.ext_getElem?
    intro i
    simp only [List.getElem?_map]
    cases hv : vs[i]? with
    | none =>
      rw [List.getElem?_eq_none_iff] at hv
      rw [List.getElem?_eq_none_iff.2 (by omega)]
      rfl
    | some v =>
      have hlt : i < uss.length := by have := (List.getElem?_eq_some_iff.1 hv).1; omega
      obtain ⟨ws, he, -, h3⟩ := hr i v _ hv (List.getElem?_eq_getElem hlt)
      rw [List.getElem?_eq_getElem hlt, he]
      simp only [Option.map_some, mapRecord]
      rw [settle, settle] at h3
      rw [h3]

section
variable {src : List Field → List Val → Prop}

mutual
theorem reach_kind : (k : Kind) → EveryKind (Reachable tid) k → ∀ v, TypedKind cfg k v →
    ∃ w, MadeKind (named lt tid) src cfg k w ∧ settleKind k w = settleKind k v
  | .num t w, _, v, h => by
      cases v <;> simp only [TypedKind] at h
      exact ⟨_, .num h, rfl⟩
  | .fbuf e n, _, v, h => by
      cases v <;> simp only [TypedKind] at h
      exact ⟨_, .fbuf h.1 h.2, rfl⟩
  | .fstr n, _, v, h => by
      cases v <;> simp only [TypedKind] at h
      exact ⟨_, .fstr h.1 h.2, rfl⟩
  | .vec e len b, _, v, h => by
      cases v <;> simp only [TypedKind] at h
      exact ⟨_, .vec h.1 h.2, rfl⟩
  | .record fs, hr, v, h => by
      cases v <;> simp only [TypedKind] at h
      obtain ⟨ws, hl, hs⟩ := reach_fields fs hr.2 _ h
      obtain ⟨us, h1, h2⟩ := assemble_settle lt tid cfg hr.1 hl (typedFields_length cfg h) hs
      refine ⟨_, .record h1, ?_⟩
      rw [settleKind, settleKind]
      rw [settle, settle] at h2
      rw [h2]
  | .arrRec fs n, hr, v, h => by
      cases v <;> simp only [TypedKind] at h
      obtain ⟨uss, h1, h2, h3⟩ := reach_records lt tid cfg (src := src) fun v hv => by
        obtain ⟨ws, he, hw⟩ := h.2 v hv
        obtain ⟨ws', hl, hs⟩ := reach_fields fs hr.2 _ hw
        exact ⟨ws, he, assemble_settle lt tid cfg hr.1 hl (typedFields_length cfg hw) hs⟩
      refine ⟨_, .arrRec (h1.trans h.1) h2, ?_⟩
      rw [settleKind, settleKind, h3]
  | .vecRec fs len b sz, hr, v, h => by
      cases v <;> simp only [TypedKind] at h
      obtain ⟨uss, h1, h2, h3⟩ := reach_records lt tid cfg (src := src) fun v hv => by
        obtain ⟨ws, he, hw⟩ := h.2 v hv
        obtain ⟨ws', hl, hs⟩ := reach_fields fs hr.2 _ hw
        exact ⟨ws, he, assemble_settle lt tid cfg hr.1 hl (typedFields_length cfg hw) hs⟩
      refine ⟨_, .vecRec (by rw [h1]; exact h.1) h2, ?_⟩
      rw [settleKind, settleKind, h3]
  termination_by structural k => k
theorem reach_field : (f : Field) → EveryField (Reachable tid) f → ∀ v, TypedField cfg f v →
    ∃ w, MadeField (named lt tid) src cfg f w ∧ SameField f w v
  | .plain id k c, hr, v, h => by
      rw [TypedField] at h
      obtain ⟨w, h1, h2⟩ := reach_kind k hr v h
      refine ⟨w, .plain h1, fun all vals => ?_⟩
      rw [settleField, settleField, h2]
  | .maybe id k p, hr, v, h => by
      cases v <;> simp only [TypedField] at h
      · exact ⟨_, .absent, fun _ _ => rfl⟩
      · obtain ⟨w, h1, h2⟩ := reach_kind k hr _ h
        refine ⟨_, .present h1, fun all vals => ?_⟩
        rw [settleField, settleField, h2]
  | .union id d alts c, hr, v, h => by
      cases v <;> simp only [TypedField] at h
      obtain ⟨a, w, ha, h1, h2⟩ := reach_alts alts hr _ _ h
      refine ⟨_, .alternative ha h1, fun all vals => ?_⟩
      rw [settleField, settleField, h2]
  termination_by structural f => f
theorem reach_alts : (alts : List Alt) → EveryAlts (Reachable tid) alts → ∀ i v, TypedAlts cfg alts i v →
    ∃ a w, alts[i]? = some a ∧ MadeKind (named lt tid) src cfg a.kind w ∧
      settleAlts alts i w = settleAlts alts i v
  | [], _, i, v, h => by simp [TypedAlts] at h
  | .mk k c :: alts, hr, 0, v, h => by
      rw [TypedAlts] at h
      obtain ⟨w, h1, h2⟩ := reach_kind k hr.1 v h
      exact ⟨_, w, rfl, h1, by rw [settleAlts, settleAlts, h2]⟩
  | .mk k c :: alts, hr, i + 1, v, h => by
      rw [TypedAlts] at h
      obtain ⟨a, w, h0, h1, h2⟩ := reach_alts alts hr.2 i v h
      exact ⟨a, w, by simpa using h0, h1, by rw [settleAlts, settleAlts, h2]⟩
  termination_by structural alts => alts
theorem reach_fields : (fs : List Field) → EveryFields (Reachable tid) fs → ∀ vs, TypedFields cfg fs vs →
    ∃ ws : List Val, ws.length = fs.length ∧ ∀ (i : Nat) f w v, fs[i]? = some f → ws[i]? = some w → vs[i]? = some v →
      MadeField (named lt tid) src cfg f w ∧ SameField f w v
  | [], _, _, _ => ⟨[], rfl, fun i f w v h => by simp at h⟩
  | _ :: _, _, [], h => by simp [TypedFields] at h
  | f :: fs, hr, v :: vs, h => by
      rw [TypedFields] at h
      obtain ⟨w, h1, h2⟩ := reach_field f hr.1 v h.1
      obtain ⟨ws, hl, hs⟩ := reach_fields fs hr.2 vs h.2
      refine ⟨w :: ws, by rw [List.length_cons, List.length_cons, hl], fun i g w' v' a b c => ?_⟩
      cases i with
      | zero =>
        simp only [List.getElem?_cons_zero, Option.some.injEq] at a b c
        subst a b c; exact ⟨h1, h2⟩
      | succ i => exact hs i g w' v' (by simpa using a) (by simpa using b) (by simpa using c)
  termination_by structural fs => fs
end

/-- Every typed struct agrees, slots filled, with one made by assignments. -/
theorem reach {fs : List Field} (hr : Everywhere (Reachable tid) fs) {vs : List Val} (h : TypedFields cfg fs vs) :
    ∃ us, Made (named lt tid) src cfg fs us ∧ settle fs us = settle fs vs := by
  obtain ⟨ws, hl, hs⟩ := reach_fields lt tid cfg (src := src) fs hr.2 vs h
  exact assemble_settle lt tid cfg hr.1 hl (typedFields_length cfg h) hs
end
end

end S2S
