import Verif.Lemmas.WriteComplete
import Verif.Spec.Typed
import Verif.Spec.Own
/-
The write of a list, taken apart at one of its fields, and what the steps of slots,
constants, optionals and unions do.
-/
namespace S2S
open Spec

/-! ### taking a list apart -/

theorem WrE.andThen_assoc (r : WrE ε α) (f : α → WrE ε β) (g : β → WrE ε γ) :
    (r.andThen f).andThen g = r.andThen fun a => (f a).andThen g := by
  unfold WrE.andThen
  rw [Wr.bind_assoc]
  congr 1
  funext a
  cases a <;> rfl

theorem writeFields_append (cfg : Cfg) (ctx : WCtx) (pre fs : List Field) (vpre vs : List Val)
    (hl : vpre.length = pre.length) : writeFields cfg ctx (pre ++ fs) (vpre ++ vs) =
      (writeFields cfg ctx pre vpre).andThen fun _ => writeFields cfg ctx fs vs := by
  induction pre generalizing vpre with
  | nil =>
    obtain rfl : vpre = [] := by simpa using hl
    simp only [List.nil_append, writeFields]
    rfl
  | cons f pre ih =>
    cases vpre with
    | nil => simp at hl
    | cons v vpre =>
      rw [List.cons_append, List.cons_append, writeFields_cons, writeFields_cons,
        ih vpre (by simpa using hl), WrE.andThen_assoc]

theorem writeFields_single (cfg : Cfg) (ctx : WCtx) (f : Field) (v : Val) :
    Wr.out (writeFields cfg ctx [f] [v]) = Wr.out (writeStep cfg ctx f v) := by
  rw [writeFields_cons, WrE.out_andThen]
  have hnil : Wr.out (writeFields cfg ctx [] []) = (.done (.ok ()), []) := by
    simp only [writeFields]; rfl
  rw [hnil]
  split <;> rename_i h <;> simp [h]

/-- Outcome of a list in terms of the fields before one of its fields, that field,
and the fields after it. -/
theorem out_split (cfg : Cfg) (ctx : WCtx) (pre post : List Field) (f : Field)
    (vpre vpost : List Val) (v : Val) (hl : vpre.length = pre.length) :
    Wr.out (writeFields cfg ctx (pre ++ f :: post) (vpre ++ v :: vpost)) =
      match Wr.out (writeFields cfg ctx pre vpre) with
      | (.done (.ok _), q) =>
          match Wr.out (writeStep cfg ctx f v) with
          | (.done (.ok _), r) =>
              ((Wr.out (writeFields cfg ctx post vpost)).1,
                q ++ (r ++ (Wr.out (writeFields cfg ctx post vpost)).2))
          | (.done (.error e), r) => (.done (.error e), q ++ r)
          | (.stuck w, r) => (.stuck w, q ++ r)
      | (.done (.error e), q) => (.done (.error e), q)
      | (.stuck w, q) => (.stuck w, q) := by
  rw [writeFields_append _ _ _ _ _ _ hl, WrE.out_andThen, writeFields_cons, WrE.out_andThen]
  cases Wr.out (writeFields cfg ctx pre vpre) with
  | mk o q =>
    cases o with
    | stuck w => rfl
    | done a =>
      cases a with
      | error e => rfl
      | ok a =>
        cases Wr.out (writeStep cfg ctx f v) with
        | mk o r =>
          cases o with
          | stuck w => rfl
          | done b => cases b <;> rfl

/-- A successful write, taken apart. -/
theorem emits_split {cfg : Cfg} {ctx : WCtx} {pre post : List Field} {f : Field}
    {vpre vpost : List Val} {v : Val} {p : List Byte} (hl : vpre.length = pre.length) :
    (writeFields cfg ctx (pre ++ f :: post) (vpre ++ v :: vpost)).Emits p () ↔
      ∃ q r t, p = q ++ (r ++ t) ∧ (writeFields cfg ctx pre vpre).Emits q () ∧
        (writeStep cfg ctx f v).Emits r () ∧ (writeFields cfg ctx post vpost).Emits t () := by
  rw [writeFields_append _ _ _ _ _ _ hl, WrE.emits_andThen]
  constructor
  · rintro ⟨_, q, s, rfl, h1, h2⟩
    rw [emits_writeFields_cons] at h2
    obtain ⟨r, t, rfl, h2, h3⟩ := h2
    exact ⟨q, r, t, rfl, h1, h2, h3⟩
  · rintro ⟨q, r, t, rfl, h1, h2, h3⟩
    exact ⟨(), q, _, rfl, h1, emits_writeFields_cons.2 ⟨r, t, rfl, h2, h3⟩⟩

/-- An error, taken apart: the fields before the failing one are written, the failing
one may have left something. -/
theorem error_split {cfg : Cfg} {ctx : WCtx} {fs : List Field} {vs : List Val} {e : CastError}
    {p : List Byte} (h : Wr.out (writeFields cfg ctx fs vs) = (.done (.error e), p)) :
    ∃ pre f post vpre v vpost q r, fs = pre ++ f :: post ∧ vs = vpre ++ v :: vpost ∧
      vpre.length = pre.length ∧ p = q ++ r ∧ (writeFields cfg ctx pre vpre).Emits q () ∧
      Wr.out (writeStep cfg ctx f v) = (.done (.error e), r) ∧ e.failedAt = f.id := by
  induction fs generalizing vs p with
  | nil =>
    cases vs with
    | nil => simp only [writeFields] at h; cases h
    | cons v vs => simp only [writeFields] at h; cases h
  | cons f fs ih =>
    cases vs with
    | nil => simp only [writeFields] at h; cases h
    | cons v vs =>
      rw [writeFields_cons, WrE.out_andThen] at h
      split at h
      · rename_i a q hs
        simp only [Prod.mk.injEq] at h
        obtain ⟨h1, rfl⟩ := h
        obtain ⟨pre, g, post, vpre, u, vpost, q', r, rfl, rfl, hl, h2, h3, h4, h5⟩ :=
          ih (vs := vs) (Prod.ext h1 rfl)
        refine ⟨f :: pre, g, post, v :: vpre, u, vpost, q ++ q', r, rfl, rfl, by simp [hl], ?_,
          emits_writeFields_cons.2 ⟨q, q', rfl, hs, h3⟩, h4, h5⟩
        exact (congrArg (q ++ ·) h2).trans (List.append_assoc _ _ _).symm
      · rename_i e' q hs
        cases h
        refine ⟨[], f, fs, [], v, vs, [], p, rfl, rfl, rfl, rfl, ?_, hs, ?_⟩
        · simp only [writeFields]; rfl
        · unfold writeStep WrE.tag at hs
          rw [WrE.out_mapErr] at hs
          split at hs
          · cases hs
          · cases hs; rfl
          · cases hs
      · cases h

/-- A list that is written without error and without leaving defined behaviour before
a field that fails, fails there. -/
theorem split_fails {cfg : Cfg} {ctx : WCtx} {pre post : List Field} {f : Field}
    {vpre vpost : List Val} {v : Val} {q r : List Byte} {e : CastError}
    (hl : vpre.length = pre.length) (h1 : (writeFields cfg ctx pre vpre).Emits q ())
    (h2 : Wr.out (writeStep cfg ctx f v) = (.done (.error e), r)) :
    Wr.out (writeFields cfg ctx (pre ++ f :: post) (vpre ++ v :: vpost)) =
      (.done (.error e), q ++ r) := by
  rw [out_split _ _ _ _ _ _ _ _ hl, h1, h2]

theorem split_stops {cfg : Cfg} {ctx : WCtx} {pre post : List Field} {f : Field}
    {vpre vpost : List Val} {v : Val} (hl : vpre.length = pre.length)
    (h : ∀ q, ¬ (writeFields cfg ctx pre vpre).Emits q ()) :
    Wr.out (writeFields cfg ctx (pre ++ f :: post) (vpre ++ v :: vpost)) =
      Wr.out (writeFields cfg ctx pre vpre) := by
  rw [out_split _ _ _ _ _ _ _ _ hl]
  cases hp : Wr.out (writeFields cfg ctx pre vpre) with
  | mk o q =>
    cases o with
    | stuck w => rfl
    | done a =>
      cases a with
      | error e => rfl
      | ok a => exact absurd hp (h q)

theorem zip_split {pre post : List Field} {f : Field} {vpre vpost : List Val} {v : Val}
    (hl : vpre.length = pre.length) :
    (f, v) ∈ (pre ++ f :: post).zip (vpre ++ v :: vpost) := by
  rw [List.zip_append hl.symm]
  simp

theorem split_of_zip {fs : List Field} {vs : List Val} {f : Field} {v : Val}
    (h : (f, v) ∈ fs.zip vs) : ∃ pre post vpre vpost, fs = pre ++ f :: post ∧
      vs = vpre ++ v :: vpost ∧ vpre.length = pre.length := by
  induction fs generalizing vs with
  | nil => simp at h
  | cons a fs ih =>
    cases vs with
    | nil => simp at h
    | cons b vs =>
      rw [List.zip_cons_cons] at h
      rcases List.mem_cons.1 h with h | h
      · cases h; exact ⟨[], fs, [], vs, rfl, rfl, rfl⟩
      · obtain ⟨pre, post, vpre, vpost, rfl, rfl, hl⟩ := ih h
        exact ⟨a :: pre, post, b :: vpre, vpost, rfl, rfl, by simp [hl]⟩

/-! ### typed structs -/

theorem typed_length {cfg : Cfg} {fs : List Field} {vs : List Val} (h : TypedFields cfg fs vs) :
    fs.length = vs.length := by
  induction fs generalizing vs with
  | nil => cases vs <;> simp_all [TypedFields]
  | cons f fs ih =>
    cases vs with
    | nil => simp [TypedFields] at h
    | cons v vs => rw [TypedFields] at h; simp [ih h.2]

theorem typed_zip {cfg : Cfg} {fs : List Field} {vs : List Val} (h : TypedFields cfg fs vs)
    {f : Field} {v : Val} (hm : (f, v) ∈ fs.zip vs) : TypedField cfg f v := by
  induction fs generalizing vs with
  | nil => simp at hm
  | cons a fs ih =>
    cases vs with
    | nil => simp at hm
    | cons b vs =>
      rw [TypedFields] at h
      rw [List.zip_cons_cons] at hm
      rcases List.mem_cons.1 hm with hm | hm
      · cases hm; exact h.1
      · exact ih h.2 hm

theorem typedAlts_get {cfg : Cfg} {alts : List Alt} {i : Nat} {v : Val}
    (h : TypedAlts cfg alts i v) : ∃ a, alts[i]? = some a ∧ TypedKind cfg a.kind v := by
  induction alts generalizing i with
  | nil => simp [TypedAlts] at h
  | cons a alts ih =>
    cases a
    cases i with
    | zero => rw [TypedAlts] at h; exact ⟨_, rfl, h⟩
    | succ i => rw [TypedAlts] at h; simpa using ih h

theorem typed_container {cfg : Cfg} {k : Kind} {v : Val} {id : String} (hs : saneKind k = true)
    (h : TypedKind cfg k v) (ht : k.lenTarget? = some id) :
    ∃ us, v = .seq us ∧ us.length ≤ cfg.ptrdiffMax := by
  cases k <;> simp [Kind.lenTarget?, Kind.lenSpec?] at ht <;>
    cases v <;> simp [TypedKind] at h
  · simp only [saneKind, decide_eq_true_eq] at hs
    exact ⟨_, rfl, Nat.le_trans (Nat.le_mul_of_pos_right _ hs) h.1⟩
  · simp only [saneKind, Bool.and_eq_true, decide_eq_true_eq] at hs
    exact ⟨_, rfl, Nat.le_trans (Nat.le_mul_of_pos_right _ hs.1) h.1⟩

theorem saneAlts_mem {alts : List Alt} (h : saneAlts alts = true) {i : Nat} {a : Alt}
    (hi : alts[i]? = some a) : saneKind a.kind = true := by
  induction alts generalizing i with
  | nil => simp at hi
  | cons b alts ih =>
    cases b
    simp only [saneAlts, Bool.and_eq_true] at h
    cases i with
    | zero => simp only [List.getElem?_cons_zero, Option.some.injEq] at hi; subst hi; exact h.1
    | succ i => exact ih h.2 (by simpa using hi)

theorem counted_of_typed {cfg : Cfg} {fs : List Field} {vs : List Val} (hs : saneFields fs = true)
    (h : TypedFields cfg fs vs) : Counted cfg fs vs := by
  refine ⟨typed_length h, fun f v hz => ?_⟩
  have h1 := typed_zip h hz
  have h2 := sane_mem hs (mem_of_zip hz)
  cases f with
  | plain id k c =>
    rw [TypedField] at h1
    rw [saneField] at h2
    intro tgt ht
    exact typed_container h2 h1 ht
  | maybe id k p => trivial
  | union id d alts c =>
    cases v <;> simp only [TypedField] at h1
    simp only [saneField, Bool.and_eq_true, decide_eq_true_eq] at h2
    obtain ⟨a, ha, -⟩ := typedAlts_get h1
    obtain ⟨hi, -⟩ := List.getElem?_eq_some_iff.1 ha
    exact ⟨_, _, rfl, by omega⟩

/-! ### names resolve -/

theorem earlier_mem {seen : List String} {fs : List Field} (h : earlierFields seen fs = true)
    {f : Field} (hf : f ∈ fs) {i : String} (hi : i ∈ fieldDeps f) :
    i ∈ seen ∨ i ∈ fs.map Field.id := by
  induction fs generalizing seen with
  | nil => cases hf
  | cons a fs ih =>
    simp only [earlierFields, Bool.and_eq_true, List.all_eq_true, List.contains_eq_mem,
      decide_eq_true_eq] at h
    rcases List.mem_cons.1 hf with rfl | hf
    · exact .inl (h.1.1 i hi)
    · rcases ih h.2 hf with h3 | h3
      · rcases List.mem_append.1 h3 with h3 | h3
        · exact .inl h3
        · simp only [List.mem_singleton] at h3
          subst h3
          exact .inr (by simp)
      · exact .inr (by simp [h3])

theorem upToSelf_mem {seen : List String} {fs : List Field} (h : upToSelf seen fs = true)
    {f : Field} (hf : f ∈ fs) {i : String} (hi : i ∈ fieldDeps f) :
    i ∈ seen ∨ i ∈ fs.map Field.id := by
  induction fs generalizing seen with
  | nil => cases hf
  | cons a fs ih =>
    simp only [upToSelf, Bool.and_eq_true, List.all_eq_true, List.contains_eq_mem, Bool.or_eq_true,
      decide_eq_true_eq, beq_iff_eq] at h
    rcases List.mem_cons.1 hf with rfl | hf
    · exact (h.1.1.1 i hi).imp id fun e => by simp [e]
    · rcases ih h.2 hf with h3 | h3
      · rcases List.mem_append.1 h3 with h3 | h3
        · exact .inl h3
        · simp only [List.mem_singleton] at h3
          subst h3
          exact .inr (by simp)
      · exact .inr (by simp [h3])

theorem kindSources_deps {k : Kind} {i : String} (h : i ∈ kindSources k) : i ∈ kindDeps k := by
  cases k with
  | vec e len b => cases len <;> simp_all [kindSources, kindDeps, lenSources, lenDeps]
  | vecRec fs len b sz => cases len <;> simp_all [kindSources, kindDeps, lenSources, lenDeps]
  | _ => cases h

theorem fieldSources_deps {f : Field} {i : String} (h : i ∈ fieldSources f) : i ∈ fieldDeps f := by
  cases f with
  | plain id k c => exact kindSources_deps h
  | maybe id k p => exact List.mem_append_left _ (kindSources_deps h)
  | union id d alts c =>
    rw [fieldSources, List.mem_append] at h
    rw [fieldDeps, List.mem_append]
    rcases h with h | h
    · cases d <;> simp_all [guideSources, deducerDeps]
    · obtain ⟨a, ha, h⟩ := List.mem_flatMap.1 h
      exact .inr (List.mem_flatMap.2 ⟨a, ha, kindSources_deps h⟩)

mutual
theorem earlier_upToSelfKind : (k : Kind) → uniqueKind k = true → earlierKind k = true → upToSelfKind k = true
  | .num _ _, _, _ => by simp only [upToSelfKind]
  | .fbuf _ _, _, _ => by simp only [upToSelfKind]
  | .fstr _, _, _ => by simp only [upToSelfKind]
  | .vec _ _ _, _, _ => by simp only [upToSelfKind]
  | .record fs, hu, h => by
      rw [uniqueKind] at hu; rw [earlierKind] at h; rw [upToSelfKind]
      exact earlier_upToSelf fs [] hu h
  | .arrRec fs _, hu, h => by
      rw [uniqueKind] at hu; rw [earlierKind] at h; rw [upToSelfKind]
      exact earlier_upToSelf fs [] hu h
  | .vecRec fs _ _ _, hu, h => by
      rw [uniqueKind] at hu; rw [earlierKind] at h; rw [upToSelfKind]
      exact earlier_upToSelf fs [] hu h
theorem earlier_upToSelfField : (f : Field) → uniqueField f = true → earlierField f = true →
    upToSelfField f = true
  | .plain _ k _, hu, h => by
      rw [uniqueField] at hu; rw [earlierField] at h; rw [upToSelfField]
      exact earlier_upToSelfKind k hu h
  | .maybe _ k _, hu, h => by
      rw [uniqueField] at hu; rw [earlierField] at h; rw [upToSelfField]
      exact earlier_upToSelfKind k hu h
  | .union _ _ alts _, hu, h => by
      rw [uniqueField] at hu; rw [earlierField] at h; rw [upToSelfField]
      exact earlier_upToSelfAlts alts hu h
theorem earlier_upToSelfAlts : (alts : List Alt) → uniqueAlts alts = true → earlierAlts alts = true →
    upToSelfAlts alts = true
  | [], _, _ => by rw [upToSelfAlts]
  | .mk k _ :: alts, hu, h => by
      simp only [uniqueAlts, earlierAlts, Bool.and_eq_true] at hu h
      rw [upToSelfAlts, earlier_upToSelfKind k hu.1 h.1, earlier_upToSelfAlts alts hu.2 h.2]; rfl
theorem earlier_upToSelf : (fs : List Field) → ∀ seen, uniqueFields seen fs = true →
    earlierFields seen fs = true → upToSelf seen fs = true
  | [], _, _, _ => by rw [upToSelf]
  | f :: fs, seen, hu, h => by
      simp only [uniqueFields, earlierFields, Bool.and_eq_true, List.all_eq_true, List.contains_eq_mem,
        decide_eq_true_eq, Bool.not_eq_true', decide_eq_false_iff_not] at hu h
      simp only [upToSelf, Bool.and_eq_true, List.all_eq_true, List.contains_eq_mem, Bool.or_eq_true,
        decide_eq_true_eq, beq_iff_eq, Bool.not_eq_true', decide_eq_false_iff_not]
      exact ⟨⟨⟨fun i hi => .inl (h.1.1 i hi), fun hs => hu.1.1 (h.1.1 _ (fieldSources_deps hs))⟩,
        earlier_upToSelfField f hu.1.2 h.1.2⟩, earlier_upToSelf fs _ hu.2 h.2⟩
end

/-- A well-formed schema is one where no callable is told of its own field. -/
theorem Spec.WellFormed.acceptable {fs : List Field} (h : WellFormed fs) : Acceptable fs :=
  ⟨h.1, h.2.1, earlier_upToSelf fs [] h.2.1 h.2.2⟩

theorem envOf_some {fs : List Field} {vs : List Val} (hl : fs.length = vs.length) {i : String}
    (hi : i ∈ fs.map Field.id) : ∃ v, envOf fs vs i = some v := by
  induction fs generalizing vs with
  | nil => simp at hi
  | cons f fs ih =>
    cases vs with
    | nil => simp at hl
    | cons v vs =>
      rw [envOf]
      by_cases hid : i = f.id
      · exact ⟨v, by simp [Env.set, hid]⟩
      · simp only [List.map_cons, List.mem_cons] at hi
        obtain ⟨u, hu⟩ := ih (vs := vs) (by simpa using hl) (hi.resolve_left hid)
        exact ⟨u, by simp [Env.set, hid, hu]⟩

theorem getAll_some {env : Env} {ids : List String} (h : ∀ i ∈ ids, ∃ v, env i = some v) :
    ∃ vs, env.getAll ids = some vs := by
  induction ids with
  | nil => exact ⟨[], rfl⟩
  | cons i ids ih =>
    obtain ⟨v, hv⟩ := h i (by simp)
    obtain ⟨vs, hvs⟩ := ih fun j hj => h j (by simp [hj])
    exact ⟨v :: vs, by simp [Env.getAll, hv, hvs]⟩

theorem Pred.eval_ok {env : Env} {p : Pred} (h : ∀ i ∈ p.ids, ∃ v, env i = some v) :
    ∃ b, p.eval env = .ok b := by
  obtain ⟨vs, hvs⟩ := getAll_some h
  exact ⟨p.fn vs, by simp only [Pred.eval, hvs]⟩

theorem Calc.eval_ok {env : Env} {c : Calc} (h : ∀ i ∈ c.ids, ∃ v, env i = some v) :
    ∃ x, c.eval env = .ok x := by
  obtain ⟨vs, hvs⟩ := getAll_some h
  exact ⟨c.fn vs, by simp only [Calc.eval, hvs]⟩

theorem ladderIdx_ok {env : Env} {ps : List Pred}
    (h : ∀ p ∈ ps, ∀ i ∈ p.ids, ∃ v, env i = some v) : ∃ o, ladderIdx env ps = .ok o := by
  induction ps with
  | nil => exact ⟨_, rfl⟩
  | cons p ps ih =>
    obtain ⟨b, hb⟩ := Pred.eval_ok (h p (by simp))
    obtain ⟨o, ho⟩ := ih fun q hq => h q (by simp [hq])
    cases b
    · exact ⟨_, by simp only [ladderIdx, hb, ho]; rfl⟩
    · exact ⟨some 0, by simp only [ladderIdx, hb]⟩

theorem deps_some {fs : List Field} {vs : List Val} (hwf : Acceptable fs)
    (hl : fs.length = vs.length) {f : Field} (hf : f ∈ fs) :
    ∀ i ∈ fieldDeps f, ∃ v, envOf fs vs i = some v := by
  intro i hi
  rcases upToSelf_mem hwf.2.2 hf hi with h | h
  · cases h
  · exact envOf_some hl h

/-! ### the scans of derived_value.hpp -/

theorem deriveValue_eq {cfg : Cfg} {fs : List Field} {vs : List Val} {id : String}
    {t : ScalarTy} {w : Nat} (h : Counted cfg fs vs) (hslot : isSlot fs id = true) :
    ((∃ y ∈ producers id fs vs, ∃ z ∈ producers id fs vs, cfg.toSz y ≠ cfg.toSz z) ∧
      deriveValue cfg fs vs id t w = .ok (.error .foundContradictingLength)) ∨
    ((∀ y ∈ producers id fs vs, cfg.toSz y = cfg.toSz (slotValue fs vs id)) ∧
      ((fitsDeclaredWidth cfg t w (cfg.toSz (slotValue fs vs id)) = true ∧
        deriveValue cfg fs vs id t w = .ok (.ok (t.conv (cfg.toSz (slotValue fs vs id))))) ∨
       (fitsDeclaredWidth cfg t w (cfg.toSz (slotValue fs vs id)) = false ∧
        deriveValue cfg fs vs id t w = .ok (.error .validationFailure)))) := by
  have hne := producers_ne h hslot
  have hmem := slotValue_mem hne
  by_cases hall : ∀ y ∈ producers id fs vs, cfg.toSz y = cfg.toSz (slotValue fs vs id)
  · refine .inr ⟨hall, ?_⟩
    have hsame := record_same ((producers id fs vs).map cfg.toSz) (cfg.toSz (slotValue fs vs id))
      (by simpa using hall) (by simpa using hne) {} rfl (by intro hc; cases hc)
    unfold deriveValue
    rw [deriveScan_eq cfg id fs vs h]
    cases hw : fitsDeclaredWidth cfg t w (cfg.toSz (slotValue fs vs id))
    · refine .inr ⟨rfl, ?_⟩
      simp only [hsame.1, hsame.2, hw, Bool.not_true, Bool.false_eq_true, if_false, Bool.not_false,
        if_true]
    · refine .inl ⟨rfl, ?_⟩
      simp only [hsame.1, hsame.2, hw, Bool.not_true, Bool.false_eq_true, if_false]
  · refine .inl ⟨?_, ?_⟩
    · simp only [Classical.not_forall] at hall
      obtain ⟨y, hy, hne⟩ := hall
      exact ⟨y, hy, _, hmem, hne⟩
    · unfold deriveValue
      rw [deriveScan_eq cfg id fs vs h]
      have : (((producers id fs vs).map cfg.toSz).foldl Derivation.record {}).agreed = false := by
        rw [← Bool.not_eq_true]
        intro ha
        apply hall
        have hr := (record_agreed _ _ ha).2.1
        intro y hy
        rw [hr _ (List.mem_map_of_mem hy), ← hr _ (List.mem_map_of_mem hmem)]
      simp only [this, Bool.not_false, if_true]

/-- What one field says about a conditional length. -/
theorem condAgrees_active {cfg : Cfg} {env : Env} {target : String} {n : Nat} {f : Field} {v : Val}
    (hs : saneField f = true) (ht : TypedField cfg f v)
    (hp : ∀ id k p, f = .maybe id k p → ∃ b, p.eval env = .ok b) :
    (f.condAgrees env target n v = .ok true ∧ ∀ m, ActiveLen env target f v m → m = n) ∨
    (f.condAgrees env target n v = .ok false ∧ ∃ m, ActiveLen env target f v m ∧ m ≠ n) := by
  cases f with
  | plain id k c =>
    refine .inl ⟨rfl, fun m hm => by cases hm⟩
  | maybe id k p =>
    obtain ⟨b, hb⟩ := hp id k p rfl
    rw [saneField] at hs
    by_cases hk : k.lenTarget? = some target
    · cases v <;> simp only [TypedField] at ht
      · refine .inl ⟨by simp [Field.condAgrees, hk], fun m hm => by cases hm⟩
      · obtain ⟨us, rfl, -⟩ := typed_container hs ht hk
        cases b with
        | false =>
          refine .inl ⟨by simp [Field.condAgrees, hk, hb], fun m hm => ?_⟩
          cases hm with
          | optional _ h => rw [hb] at h; cases h
        | true =>
          by_cases hn : us.length = n
          · refine .inl ⟨by simp [Field.condAgrees, hk, hb, Val.size?, hn], fun m hm => ?_⟩
            cases hm
            exact hn
          · exact .inr ⟨by simp [Field.condAgrees, hk, hb, Val.size?, hn], _, .optional hk hb, hn⟩
    · refine .inl ⟨by simp [Field.condAgrees, hk], fun m hm => ?_⟩
      cases hm with
      | optional h _ => exact absurd h hk
  | union id d alts c =>
    cases v <;> simp only [TypedField] at ht
    rename_i i w
    obtain ⟨a, ha, hw⟩ := typedAlts_get ht
    simp only [saneField, Bool.and_eq_true] at hs
    have hsa := saneAlts_mem hs.2 ha
    by_cases hk : a.kind.lenTarget? = some target
    · obtain ⟨us, rfl, -⟩ := typed_container hsa hw hk
      have hany : anyAltTargets target alts = true := by
        unfold anyAltTargets
        rw [List.any_eq_true]
        exact ⟨a, List.mem_of_getElem? ha, by simpa using hk⟩
      by_cases hn : us.length = n
      · refine .inl ⟨by simp [Field.condAgrees, hany, ha, hk, Val.size?, hn], fun m hm => ?_⟩
        cases hm
        exact hn
      · exact .inr ⟨by simp [Field.condAgrees, hany, ha, hk, Val.size?, hn], _,
          .alternative ha hk, hn⟩
    · refine .inl ⟨?_, fun m hm => ?_⟩
      · simp only [Field.condAgrees, ha]
        split
        · first | rfl | rw [if_neg hk]
        · rfl
      · cases hm with
        | alternative h1 h2 =>
          rw [ha] at h1
          cases h1
          exact absurd h2 hk

theorem verifyScan_active {cfg : Cfg} {env : Env} {target : String} {n : Nat} {fs : List Field}
    {vs : List Val} (hs : saneFields fs = true) (ht : TypedFields cfg fs vs)
    (hp : ∀ id k p, Field.maybe id k p ∈ fs → ∃ b, p.eval env = .ok b) :
    (verifyScan env target n fs vs = .ok true ∧
      ∀ f v m, (f, v) ∈ fs.zip vs → ActiveLen env target f v m → m = n) ∨
    (verifyScan env target n fs vs = .ok false ∧
      ∃ f v m, (f, v) ∈ fs.zip vs ∧ ActiveLen env target f v m ∧ m ≠ n) := by
  induction fs generalizing vs with
  | nil => exact .inl ⟨by simp [verifyScan], by simp⟩
  | cons f fs ih =>
    cases vs with
    | nil => simp [TypedFields] at ht
    | cons v vs =>
      rw [TypedFields] at ht
      simp only [saneFields, Bool.and_eq_true] at hs
      have h1 := condAgrees_active (env := env) (target := target) (n := n) hs.1 ht.1
        fun id k p he => hp id k p (by simp [he])
      have h2 := ih hs.2 ht.2 fun id k p hm => hp id k p (by simp [hm])
      rcases h1 with ⟨h1, h3⟩ | ⟨h1, m, h3, h4⟩
      · rcases h2 with ⟨h2, h5⟩ | ⟨h2, g, u, m, h5, h6⟩
        · refine .inl ⟨by simp [verifyScan, h1, h2], fun g u m hz hm => ?_⟩
          rw [List.zip_cons_cons] at hz
          rcases List.mem_cons.1 hz with hz | hz
          · cases hz; exact h3 m hm
          · exact h5 g u m hz hm
        · exact .inr ⟨by simp [verifyScan, h1, h2], g, u, m,
            by rw [List.zip_cons_cons]; exact List.mem_cons_of_mem _ h5, h6⟩
      · have hz : (f, v) ∈ (f :: fs).zip (v :: vs) := by simp
        rcases h2 with ⟨h2, -⟩ | ⟨h2, -⟩
        · exact .inr ⟨by simp [verifyScan, h1, h2], f, v, m, hz, h3, h4⟩
        · exact .inr ⟨by simp [verifyScan, h1, h2], f, v, m, hz, h3, h4⟩

theorem hasConditional_active {env : Env} {target : String} {fs : List Field} {f : Field} {v : Val}
    {m : Nat} (hf : f ∈ fs) (h : ActiveLen env target f v m) : hasConditional fs target = true := by
  unfold hasConditional
  rw [List.any_eq_true]
  refine ⟨f, hf, ?_⟩
  cases h with
  | optional h _ => simpa [Field.condTargets] using h
  | alternative h1 h2 =>
    simp only [Field.condTargets, anyAltTargets, List.any_eq_true]
    exact ⟨_, List.mem_of_getElem? h1, by simpa using h2⟩

/-- `verify_then_write` of a number in a typed struct. -/
theorem out_verifyThenWrite {cfg : Cfg} {fs : List Field} {vs : List Val} (hwf : Acceptable fs)
    (ht : TypedFields cfg fs vs) (id : String) (t : ScalarTy) (w : Nat) (x : Int) :
    ((∀ f v m, (f, v) ∈ fs.zip vs → ActiveLen (envOf fs vs) id f v m → m = cfg.toSz x) ∧
      verifyThenWrite cfg ⟨fs, vs⟩ id (.num t w) (.int x) = writeNum cfg t w x) ∨
    ((∃ f v m, (f, v) ∈ fs.zip vs ∧ ActiveLen (envOf fs vs) id f v m ∧ m ≠ cfg.toSz x) ∧
      verifyThenWrite cfg ⟨fs, vs⟩ id (.num t w) (.int x) = WrE.err .foundContradictingLength) := by
  have hp : ∀ i k p, Field.maybe i k p ∈ fs → ∃ b, p.eval (envOf fs vs) = .ok b := by
    intro i k p hm
    refine Pred.eval_ok fun j hj => deps_some hwf (typed_length ht) hm j ?_
    simp [fieldDeps, hj]
  rcases verifyScan_active (target := id) (n := cfg.toSz x) hwf.1 ht hp with
    ⟨h1, h2⟩ | ⟨h1, f, v, m, hz, ha, hne⟩
  · refine .inl ⟨h2, ?_⟩
    unfold verifyThenWrite
    split
    · show ((WrE.lift (verifyScan (envOf fs vs) id (cfg.toSz x) fs vs)).andThen _) = _
      rw [h1]
      rfl
    · rfl
  · refine .inr ⟨⟨f, v, m, hz, ha, hne⟩, ?_⟩
    unfold verifyThenWrite
    rw [if_pos (hasConditional_active (mem_of_zip hz) ha)]
    show ((WrE.lift (verifyScan (envOf fs vs) id (cfg.toSz x) fs vs)).andThen _) = _
    rw [h1]
    rfl

end S2S
