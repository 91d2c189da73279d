import Verif.Spec.Sent
import Verif.Lemmas.Slots
import Verif.Props.Numbers
/-
The writer against `Spec/Sent.lean`.
-/
namespace S2S
open Spec Props

/-! ### slots -/

theorem toSz_cast (cfg : Cfg) (x : Int) : (cfg.toSz x : Int) = x % (cfg.szMod : Nat) := by
  unfold Cfg.toSz Cfg.szMod
  rw [residue_cast]

theorem declaredWidth_iff (cfg : Cfg) (t : ScalarTy) (w n : Nat) :
    fitsDeclaredWidth cfg t w n = true ↔
      (w < cfg.szBytes → (n : Int) < (256 ^ w : Nat)) ∧ t.conv n % (cfg.szMod : Nat) = n := by
  unfold fitsDeclaredWidth
  rw [Bool.and_eq_true, ← toSz_cast, beq_iff_eq]
  refine and_congr ?_ (by omega)
  split
  · rename_i h
    rw [beq_iff_eq, shift_zero_iff]
    simp only [h, true_imp_iff]
    omega
  · rename_i h
    simp [h]

theorem slotGets_iff {cfg : Cfg} {fs : List Field} {vs : List Val} {id : String}
    {t : ScalarTy} {w : Nat} {x : Int} (h : Counted cfg fs vs) (hslot : isSlot fs id = true) :
    deriveValue cfg fs vs id t w = .ok (.ok x) ↔ SlotGets cfg t w fs vs id x := by
  rw [deriveValue_ok_iff h hslot]
  have hne := producers_ne h hslot
  have hmem := slotValue_mem hne
  unfold SlotGets
  rw [declaredWidth_iff]
  constructor
  · rintro ⟨h1, ⟨h2, h3⟩, rfl⟩
    refine ⟨cfg.toSz (slotValue fs vs id), fun p hp => ?_, h2, passedAs_conv _ _, h3⟩
    rw [← toSz_cast, h1 p hp]
  · rintro ⟨n, h1, h2, h3, h4⟩
    have hn := h1 _ hmem
    rw [← toSz_cast] at hn
    subst hn
    cases passedAs_unique h3 (passedAs_conv _ _)
    refine ⟨fun p hp => ?_, ⟨h2, h4⟩, rfl⟩
    have := h1 p hp
    rw [← toSz_cast] at this
    omega

theorem slotGets_inRange {cfg : Cfg} {fs : List Field} {vs : List Val} {id : String}
    {t : ScalarTy} {w : Nat} {x : Int} (h : SlotGets cfg t w fs vs id x) : t.InRange x := by
  obtain ⟨n, -, -, h, -⟩ := h
  exact h.1

/-- What is sent in a slot is determined. -/
theorem slotGets_unique {cfg : Cfg} {fs : List Field} {vs : List Val} {id : String}
    {t : ScalarTy} {w : Nat} {x y : Int} (hc : Counted cfg fs vs) (hslot : isSlot fs id = true)
    (hx : SlotGets cfg t w fs vs id x) (hy : SlotGets cfg t w fs vs id y) : x = y := by
  rw [← slotGets_iff hc hslot] at hx hy
  rw [hx] at hy
  cases hy
  rfl

theorem conditional_iff {fs : List Field} {id : String} : hasConditional fs id = true ∨
    isSlot fs id = true ↔ (∃ f ∈ fs, id ∈ lengthTargets f) ∨ isSlot fs id = true := by
  constructor
  · rintro (h | h)
    · left
      unfold hasConditional at h
      rw [List.any_eq_true] at h
      obtain ⟨f, hf, h⟩ := h
      refine ⟨f, hf, ?_⟩
      cases f with
      | plain i k c => cases h
      | maybe i k p => simpa [Field.condTargets, lengthTargets, Option.mem_toList] using h
      | union i d alts c =>
        simp only [Field.condTargets, anyAltTargets, List.any_eq_true, decide_eq_true_eq] at h
        obtain ⟨a, ha, h⟩ := h
        simp only [lengthTargets, List.mem_flatMap]
        exact ⟨a, ha, by simp [h]⟩
    · exact .inr h
  · rintro (⟨f, hf, h⟩ | h)
    · cases f with
      | plain i k c =>
        right
        unfold isSlot
        rw [List.any_eq_true]
        refine ⟨_, hf, ?_⟩
        simpa [lengthTargets, Option.mem_toList] using h
      | maybe i k p =>
        left
        unfold hasConditional
        rw [List.any_eq_true]
        exact ⟨_, hf, by simpa [Field.condTargets, lengthTargets, Option.mem_toList] using h⟩
      | union i d alts c =>
        left
        unfold hasConditional
        rw [List.any_eq_true]
        refine ⟨_, hf, ?_⟩
        simp only [lengthTargets, List.mem_flatMap] at h
        obtain ⟨a, ha, h⟩ := h
        simp only [Field.condTargets, anyAltTargets, List.any_eq_true, decide_eq_true_eq]
        exact ⟨a, ha, by simpa using h⟩
    · exact .inr h

/-! ### fixed-size fields -/

/-- A number is written when the conditional lengths agree. -/
theorem emits_verify_num {cfg : Cfg} {fs : List Field} {vs : List Val} (hwf : Acceptable fs)
    (ht : TypedFields cfg fs vs) {id : String} {t : ScalarTy} {w : Nat} {x : Int} {p : List Byte} :
    (verifyThenWrite cfg ⟨fs, vs⟩ id (.num t w) (.int x)).Emits p () ↔
      ActiveAgree cfg fs vs id x ∧ w ≤ t.size ∧ p = wireScalar cfg.wire t.size w x := by
  unfold ActiveAgree
  rcases out_verifyThenWrite hwf ht id t w x with ⟨h1, h2⟩ | ⟨⟨f, v, m, hz, ha, hne⟩, h2⟩
  · rw [h2, emits_writeNum]
    refine (and_iff_right fun f v m hz ha => ?_).symm
    rw [h1 f v m hz ha, toSz_cast]
  · rw [h2, WrE.emits_err]
    refine ⟨False.elim, fun h => hne ?_⟩
    have := h.1 f v m hz ha
    rw [← toSz_cast] at this
    omega

/-- What `emitFixed` puts out for a typed value. -/
theorem emits_fixed_typed {cfg : Cfg} {k : Kind} {v : Val} (hk : k.isFixed = true)
    (h : TypedKind cfg k v) (hn : ∀ t w, k ≠ .num t w) {p : List Byte} :
    (emitFixed cfg k v).Emits p () ↔ p = wireKind cfg.wire k v := by
  have h1 : (emitFixed cfg k v).Emits (wireKind cfg.wire k v) () := by
    cases k <;> simp only [Kind.isFixed, Bool.false_eq_true] at hk
    · exact (hn _ _ rfl).elim
    · cases v <;> simp only [TypedKind] at h
      rw [emitFixed, wireKind]
      exact emits_writeFixedBuf cfg _ _ _ h.1 h.2
    · cases v <;> simp only [TypedKind] at h
      rw [emitFixed, wireKind]
      exact emits_writeFixedStr _ _ _ h.1 h.2
  constructor
  · intro h2; exact (WrE.emits_inj h2 h1).1
  · rintro rfl; exact h1

theorem sent_fixed {cfg : Cfg} {fs : List Field} {vs : List Val} (hwf : Acceptable fs)
    (ht : TypedFields cfg fs vs) {m : Bool} {id : String} {c : Constraint} {k : Kind} {v : Val}
    (hk : k.isFixed = true)
    (hv : TypedKind cfg k ((if m then frozenVal k c else none).getD v)) {p : List Byte} :
    (writeFixed cfg ⟨fs, vs⟩ m id k c v).Emits p () ↔
      ∃ u, SentKind cfg fs vs id c k ((if m then frozenVal k c else none).getD v) u ∧
        p = wireKind cfg.wire k u := by
  rw [emits_writeFixed]
  generalize (if m then frozenVal k c else none).getD v = v' at hv ⊢
  have hcnt := counted_of_typed hwf.1 ht
  have hother : (∀ t w, k ≠ .num t w) → (isSlot fs id = false ∧
      (verifyThenWrite cfg ⟨fs, vs⟩ id k v').Emits p () ↔
      (isSlot fs id = false ∧ ∀ f ∈ fs, id ∉ lengthTargets f) ∧ p = wireKind cfg.wire k v') := by
    intro hn
    rw [emits_verifyThenWrite, emits_fixed_typed hk hv hn, and_assoc]
    refine and_congr_right fun hs => ?_
    rw [and_comm]
    refine and_congr_left fun _ => ?_
    have hci := conditional_iff (fs := fs) (id := id)
    simp only [hs, Bool.false_eq_true, or_false] at hci
    constructor
    · intro h1 f hf hm
      obtain ⟨x, hx, -⟩ := h1 (hci.2 ⟨f, hf, hm⟩)
      subst hx
      cases k <;> first | exact (hn _ _ rfl) | simp [TypedKind] at hv
    · intro h1 hc
      obtain ⟨f, hf, hm⟩ := hci.1 hc
      exact (h1 f hf hm).elim
  cases k <;> simp only [Kind.isFixed, Bool.false_eq_true] at hk
  · rename_i t w
    cases v' <;> simp only [TypedKind] at hv
    rename_i x
    cases hs : isSlot fs id with
    | true =>
      simp only [true_and, reduceCtorEq, false_and, or_false, SentKind, hs, if_true]
      constructor
      · rintro ⟨t', w', y, hk, hd, hc, he⟩
        cases hk
        rw [slotGets_iff hcnt hs] at hd
        rw [emits_verify_num hwf ht] at he
        exact ⟨_, ⟨he.2.1, y, rfl, he.1, hd, hc⟩, by rw [wireKind]; exact he.2.2⟩
      · rintro ⟨_, ⟨hw, y, rfl, ha, hd, hc⟩, rfl⟩
        exact ⟨t, w, y, rfl, (slotGets_iff hcnt hs).2 hd, hc,
          (emits_verify_num hwf ht).2 ⟨ha, hw, by rw [wireKind]⟩⟩
    | false =>
      simp only [Bool.false_eq_true, false_and, false_or, true_and, SentKind, hs, if_false]
      rw [emits_verify_num hwf ht]
      constructor
      · rintro ⟨h1, h2, rfl⟩
        exact ⟨_, ⟨h2, x, rfl, h1, rfl⟩, by rw [wireKind]⟩
      · rintro ⟨_, ⟨h2, y, rfl, h1, hy⟩, rfl⟩
        cases hy
        exact ⟨h1, h2, by rw [wireKind]⟩
  · simp only [reduceCtorEq, false_and, exists_false, and_false, false_or, SentKind]
    rw [hother (by simp)]
    constructor
    · rintro ⟨h1, rfl⟩; exact ⟨_, ⟨rfl, h1⟩, rfl⟩
    · rintro ⟨_, ⟨rfl, h1⟩, rfl⟩; exact ⟨h1, rfl⟩
  · simp only [reduceCtorEq, false_and, exists_false, and_false, false_or, SentKind]
    rw [hother (by simp)]
    constructor
    · rintro ⟨h1, rfl⟩; exact ⟨_, ⟨rfl, h1⟩, rfl⟩
    · rintro ⟨_, ⟨rfl, h1⟩, rfl⟩; exact ⟨h1, rfl⟩

theorem emits_computed {cfg : Cfg} {env : Env} {len : LenSpec} {n : Nat} {k : WrE Reason Unit}
    {p : List Byte} : (verifyComputed cfg env len n k).Emits p () ↔
      (∀ g, len = .computed g → len.eval cfg env = .ok n) ∧ k.Emits p () := by
  cases len with
  | fromField id => simp [verifyComputed]
  | computed c =>
    simp only [verifyComputed, WrE.emits_andThen, WrE.emits_lift]
    constructor
    · rintro ⟨m, q, r, rfl, ⟨rfl, h1⟩, h2⟩
      split at h2
      · simp [WrE.emits_err] at h2
      · rename_i hne
        rw [Decidable.not_not] at hne
        subst hne
        exact ⟨fun _ _ => h1, by simpa using h2⟩
    · rintro ⟨h1, h2⟩
      exact ⟨n, [], p, rfl, ⟨rfl, h1 c rfl⟩, by simpa using h2⟩

theorem emits_recs {R : List Val → List Val → Prop} {W : List Val → List Byte}
    {one : List Val → WrE CastError Unit} {vs : List Val} {p : List Byte}
    (hone : ∀ ws, .seq ws ∈ vs → ∀ p, (one ws).Emits p () ↔ ∃ xs, R ws xs ∧ p = W xs) :
    (writeRecs one vs).Emits p () ↔
      ∃ us, OneByOne R vs us ∧ p = us.flatMap (recordBytes W) := by
  induction vs generalizing p with
  | nil =>
    simp only [writeRecs, WrE.emits_ok, OneByOne]
    constructor
    · rintro ⟨rfl, -⟩; exact ⟨[], rfl, rfl⟩
    · rintro ⟨_, rfl, rfl⟩; exact ⟨rfl, trivial⟩
  | cons v vs ih =>
    have ih := fun p => ih (p := p) fun ws hw => hone ws (by simp [hw])
    cases v with
    | seq ws =>
      simp only [writeRecs, WrE.emits_andThen, WrE.untag, WrE.emits_mapErr, OneByOne]
      constructor
      · rintro ⟨_, q, r, rfl, h1, h2⟩
        obtain ⟨xs, hr, rfl⟩ := (hone ws (by simp) q).1 h1
        obtain ⟨us, hus, rfl⟩ := (ih r).1 h2
        exact ⟨_, ⟨ws, xs, us, rfl, rfl, hr, hus⟩, by simp [recordBytes]⟩
      · rintro ⟨_, ⟨_, xs, us, h0, rfl, hr, hus⟩, rfl⟩
        cases h0
        exact ⟨(), W xs, _, by simp [recordBytes], (hone ws (by simp) _).2 ⟨xs, hr, rfl⟩,
          (ih _).2 ⟨us, hus, rfl⟩⟩
    | _ => simp [writeRecs, OneByOne]

/-! ### the writer -/

/-- A list with all its values, as the writer gets it. -/
structure Given (cfg : Cfg) (fs : List Field) (vs : List Val) : Prop where
  wf : Acceptable fs
  consts : TypedConsts cfg fs
  typed : TypedFields cfg fs vs

mutual
theorem sent_kind (cfg : Cfg) : (k : Kind) → saneKind k = true → uniqueKind k = true →
    upToSelfKind k = true → EveryKind (TypedConsts cfg) k → ∀ ctx m id c v p,
    Given cfg ctx.fs ctx.vs → TypedKind cfg k ((if m then frozenVal k c else none).getD v) →
    ((writeKind cfg ctx m id c k v).Emits p () ↔
      ∃ u, SentKind cfg ctx.fs ctx.vs id c k ((if m then frozenVal k c else none).getD v) u ∧
        p = wireKind cfg.wire k u)
  | .num t w, hs, hu, hr, he, ctx, m, id, c, v, p, hin, hv => by
      simp only [writeKind]
      exact sent_fixed hin.wf hin.typed rfl hv
  | .fbuf e n, hs, hu, hr, he, ctx, m, id, c, v, p, hin, hv => by
      simp only [writeKind]
      exact sent_fixed hin.wf hin.typed rfl hv
  | .fstr n, hs, hu, hr, he, ctx, m, id, c, v, p, hin, hv => by
      simp only [writeKind]
      exact sent_fixed hin.wf hin.typed rfl hv
  | .vec e len b, hs, hu, hr, he, ctx, m, id, c, v, p, hin, hv => by
      have hf : (if m then frozenVal (.vec e len b) c else none).getD v = v := by
        cases m <;> simp [frozenVal]
      rw [hf] at hv ⊢
      cases v <;> simp only [TypedKind] at hv
      rename_i us
      rw [writeKind, emits_computed]
      have hw := emits_writeVec cfg e us (ptrdiff_lt _ _ hv.1) hv.2
      simp only [SentKind]
      constructor
      · rintro ⟨h1, h2⟩
        exact ⟨_, ⟨rfl, us, rfl, h1⟩, by rw [wireKind]; exact (WrE.emits_inj h2 hw).1⟩
      · rintro ⟨_, ⟨rfl, us', h0, h1⟩, rfl⟩
        cases h0
        exact ⟨h1, by rw [wireKind]; exact hw⟩
  | .record fs, hs, hu, hr, he, ctx, m, id, c, v, p, hin, hv => by
      have hf : (if m then frozenVal (.record fs) c else none).getD v = v := by
        cases m <;> simp [frozenVal]
      rw [hf] at hv ⊢
      cases v <;> simp only [TypedKind] at hv
      rename_i us
      rw [saneKind] at hs
      rw [uniqueKind] at hu
      rw [upToSelfKind] at hr
      rw [EveryKind] at he
      rw [writeKind, WrE.untag, WrE.emits_mapErr,
        sent_fields cfg fs hs [] hu [] hr he.2 ⟨fs, us⟩ us p ⟨⟨hs, hu, hr⟩, he.1, hv⟩
          (fun _ h => h) hv]
      simp only [SentKind]
      constructor
      · rintro ⟨xs, h1, rfl⟩
        exact ⟨_, ⟨us, xs, rfl, rfl, h1⟩, by rw [wireKind]⟩
      · rintro ⟨_, ⟨us', xs, h0, rfl, h1⟩, rfl⟩
        cases h0
        exact ⟨xs, h1, by rw [wireKind]⟩
  | .arrRec fs n, hs, hu, hr, he, ctx, m, id, c, v, p, hin, hv => by
      have hf : (if m then frozenVal (.arrRec fs n) c else none).getD v = v := by
        cases m <;> simp [frozenVal]
      rw [hf] at hv ⊢
      cases v <;> simp only [TypedKind] at hv
      rename_i us
      rw [saneKind] at hs
      rw [uniqueKind] at hu
      rw [upToSelfKind] at hr
      rw [EveryKind] at he
      rw [writeKind, if_neg (by simp [hv.1]),
        emits_recs (R := fun ws xs => SentFields cfg fs ws fs ws xs)
          (W := fun ws => wireFields cfg.wire fs ws) (fun ws hw p => by
            obtain ⟨ws', h0, hw⟩ := hv.2 _ hw
            cases h0
            exact sent_fields cfg fs hs [] hu [] hr he.2 ⟨fs, ws⟩ ws p ⟨⟨hs, hu, hr⟩, he.1, hw⟩
              (fun _ h => h) hw)]
      simp only [SentKind]
      constructor
      · rintro ⟨xs, h1, rfl⟩
        exact ⟨_, ⟨us, xs, rfl, rfl, hv.1, h1⟩, by rw [wireKind]⟩
      · rintro ⟨_, ⟨us', xs, h0, rfl, -, h1⟩, rfl⟩
        cases h0
        exact ⟨xs, h1, by rw [wireKind]⟩
  | .vecRec fs len b sz, hs, hu, hr, he, ctx, m, id, c, v, p, hin, hv => by
      have hf : (if m then frozenVal (.vecRec fs len b sz) c else none).getD v = v := by
        cases m <;> simp [frozenVal]
      rw [hf] at hv ⊢
      cases v <;> simp only [TypedKind] at hv
      rename_i us
      simp only [saneKind, Bool.and_eq_true] at hs
      rw [uniqueKind] at hu
      rw [upToSelfKind] at hr
      rw [EveryKind] at he
      rw [writeKind, emits_computed,
        emits_recs (R := fun ws xs => SentFields cfg fs ws fs ws xs)
          (W := fun ws => wireFields cfg.wire fs ws) (fun ws hw p => by
            obtain ⟨ws', h0, hw⟩ := hv.2 _ hw
            cases h0
            exact sent_fields cfg fs hs.2 [] hu [] hr he.2 ⟨fs, ws⟩ ws p
              ⟨⟨hs.2, hu, hr⟩, he.1, hw⟩ (fun _ h => h) hw)]
      simp only [SentKind]
      constructor
      · rintro ⟨h2, xs, h1, rfl⟩
        exact ⟨_, ⟨us, xs, rfl, rfl, h2, h1⟩, by rw [wireKind]⟩
      · rintro ⟨_, ⟨us', xs, h0, rfl, h2, h1⟩, rfl⟩
        cases h0
        exact ⟨h2, xs, h1, by rw [wireKind]⟩
theorem sent_field (cfg : Cfg) : (f : Field) → saneField f = true → uniqueField f = true →
    upToSelfField f = true → EveryField (TypedConsts cfg) f → ∀ ctx v p,
    Given cfg ctx.fs ctx.vs → f ∈ ctx.fs → TypedField cfg f v →
    ((writeStep cfg ctx f v).Emits p () ↔
      ∃ u, SentField cfg ctx.fs ctx.vs f v u ∧ p = wireField cfg.wire f u)
  | .plain id k c, hs, hu, hr, he, ctx, v, p, hin, hm, hv => by
      rw [saneField] at hs
      rw [uniqueField] at hu
      rw [upToSelfField] at hr
      rw [EveryField] at he
      rw [TypedField] at hv
      have hcon := hin.consts _ hm
      simp only at hcon
      rw [emits_writeStep, writeField]
      have hv' : TypedKind cfg k ((if true then frozenVal k c else none).getD v) := by
        simp only [if_true]
        rw [typedConst_eq] at hcon
        cases hfv : frozenVal k c with
        | none => exact hv
        | some u => exact hcon u (by simp [hfv])
      rw [sent_kind cfg k hs hu hr he ctx true id c v p hin hv']
      simp only [SentField, Field.id, Field.isFrozen, Field.constraint, if_true, typedConst_eq,
        wireField]
      cases hslot : isSlot ctx.fs id with
      | true =>
        simp only [if_true, reduceCtorEq, false_imp_iff, and_true]
        cases hfv : frozenVal k c with
        | none => rfl
        | some u =>
          have hnum : SentKind cfg ctx.fs ctx.vs id c k u = SentKind cfg ctx.fs ctx.vs id c k v := by
            funext x
            cases k <;> simp only [frozenVal, reduceCtorEq] at hfv <;>
              simp [SentKind, hslot]
          simp only [Option.getD_some, hnum]
      | false =>
        simp only [Bool.false_eq_true, if_false, true_imp_iff]
        cases hfv : frozenVal k c with
        | none =>
          simp only [Option.isSome_none, true_imp_iff, Option.getD_none]
          constructor
          · rintro ⟨⟨u, h1, rfl⟩, h2⟩; exact ⟨u, ⟨h2, h1⟩, rfl⟩
          · rintro ⟨u, ⟨h2, h1⟩, rfl⟩; exact ⟨⟨u, h1, rfl⟩, h2⟩
        | some u =>
          simp only [Option.isSome_some, reduceCtorEq, false_imp_iff, and_true, Option.getD_some]
  | .maybe id k pr, hs, hu, hr, he, ctx, v, p, hin, hm, hv => by
      rw [saneField] at hs
      rw [uniqueField] at hu
      rw [upToSelfField] at hr
      rw [EveryField] at he
      rw [emits_writeStep, writeField, WrE.emits_andThen]
      simp only [Field.constraint, SentField, WrE.emits_lift]
      have hnone : ∀ v, Holds .none v := fun _ => rfl
      simp only [hnone, implies_true, and_true]
      show (∃ b q r, p = q ++ r ∧ (q = [] ∧ pr.eval (envOf ctx.fs ctx.vs) = .ok b) ∧ _) ↔ _
      cases v <;> simp only [TypedField] at hv
      · constructor
        · rintro ⟨b, q, r, rfl, ⟨rfl, h1⟩, h2⟩
          cases b
          · rw [if_neg (by simp), WrE.emits_ok] at h2
            exact ⟨.absent, .inl ⟨rfl, rfl, h1⟩, by simp [wireField, h2.1]⟩
          · rw [if_pos rfl, WrE.emits_err] at h2
            exact h2.elim
        · rintro ⟨u, ⟨-, rfl, h1⟩ | ⟨w, x, h0, -⟩, rfl⟩
          · exact ⟨false, [], _, rfl, ⟨rfl, h1⟩, by
              rw [if_neg (by simp), WrE.emits_ok]; exact ⟨by simp, rfl⟩⟩
          · cases h0
      · rename_i w
        have hk := fun p => sent_kind cfg k hs hu hr he ctx false id .none w p hin
          (by simpa using hv)
        simp only [Bool.false_eq_true, if_false, Option.getD_none] at hk
        constructor
        · rintro ⟨b, q, r, rfl, ⟨rfl, h1⟩, h2⟩
          cases b
          · simp only [Bool.false_eq_true, if_false, WrE.emits_err] at h2
          · simp only [if_true, hk] at h2
            obtain ⟨x, h2, rfl⟩ := h2
            exact ⟨.present x, .inr ⟨w, x, rfl, rfl, h1, h2⟩, by simp [wireField]⟩
        · rintro ⟨u, ⟨h0, -⟩ | ⟨w', x, h0, rfl, h1, h2⟩, rfl⟩
          · cases h0
          · cases h0
            exact ⟨true, [], _, rfl, ⟨rfl, h1⟩, by
              simp only [if_true, hk]; exact ⟨x, h2, by simp⟩⟩
  | .union id d alts c, hs, hu, hr, he, ctx, v, p, hin, hm, hv => by
      simp only [saneField, Bool.and_eq_true] at hs
      rw [uniqueField] at hu
      rw [upToSelfField] at hr
      rw [EveryField] at he
      cases v <;> simp only [TypedField] at hv
      rename_i i w
      have ha := fun p => sent_alts cfg alts hs.2 hu hr he ctx id i w p hin hv
      rw [emits_writeStep]
      simp only [Field.constraint, SentField, Field.isFrozen, Field.id, true_imp_iff]
      have hd : (writeField cfg ctx (.union id d alts c) (.var i w)).Emits p () ↔
          Chosen (envOf ctx.fs ctx.vs) i d ∧
          (writeAlts cfg ctx id alts i w).Emits p () := by
        have key : ∀ (o : Except Stuck (Option Nat)),
            ((WrE.lift o : WrE Reason _).andThen fun
              | none => WrE.err .typeDeductionFailure
              | some j => if j ≠ i then WrE.err .validationFailure
                  else writeAlts cfg ctx id alts i w).Emits p () ↔
            o = .ok (some i) ∧ (writeAlts cfg ctx id alts i w).Emits p () := by
          intro o
          rw [WrE.emits_andThen]
          constructor
          · rintro ⟨x, q, r, rfl, h1, h2⟩
            rw [WrE.emits_lift] at h1
            obtain ⟨rfl, rfl⟩ := h1
            cases x with
            | none => exact ((WrE.emits_err _ _ _).1 h2).elim
            | some j =>
              by_cases hj : j = i
              · subst hj
                refine ⟨rfl, ?_⟩
                simpa using h2
              · simp only [ne_eq, hj, not_false_eq_true, if_true] at h2
                exact ((WrE.emits_err _ _ _).1 h2).elim
          · rintro ⟨rfl, h2⟩
            exact ⟨some i, [], p, rfl, (WrE.emits_lift _ _ _).2 ⟨rfl, rfl⟩, by simpa using h2⟩
        cases d with
        | matchField tgt t ls => simp only [writeField, Chosen, true_and]
        | matchCompute comp t ls => simp only [writeField, Chosen]; exact key _
        | ladder ps => simp only [writeField, Chosen]; exact key _
      rw [hd, ha]
      constructor
      · rintro ⟨⟨h1, x, h2, rfl⟩, h3⟩
        exact ⟨_, ⟨i, w, x, rfl, rfl, h3, h1, h2⟩, by rw [wireField]⟩
      · rintro ⟨_, ⟨i', w', x, h0, rfl, h3, h1, h2⟩, rfl⟩
        cases h0
        exact ⟨⟨h1, x, h2, by rw [wireField]⟩, h3⟩
theorem sent_alts (cfg : Cfg) : (alts : List Alt) → saneAlts alts = true →
    uniqueAlts alts = true → upToSelfAlts alts = true → EveryAlts (TypedConsts cfg) alts →
    ∀ ctx id i v p, Given cfg ctx.fs ctx.vs → TypedAlts cfg alts i v →
    ((writeAlts cfg ctx id alts i v).Emits p () ↔
      ∃ u, SentAlts cfg ctx.fs ctx.vs id alts i v u ∧ p = wireAlts cfg.wire alts i u)
  | [], hs, hu, hr, he, ctx, id, i, v, p, hin, hv => by simp [TypedAlts] at hv
  | .mk k c :: alts, hs, hu, hr, he, ctx, id, 0, v, p, hin, hv => by
      simp only [saneAlts, Bool.and_eq_true] at hs
      simp only [uniqueAlts, Bool.and_eq_true] at hu
      simp only [upToSelfAlts, Bool.and_eq_true] at hr
      rw [EveryAlts] at he
      rw [TypedAlts] at hv
      have hk := sent_kind cfg k hs.1 hu.1 hr.1 he.1 ctx false id c v p hin (by simpa using hv)
      simp only [Bool.false_eq_true, if_false, Option.getD_none] at hk
      rw [writeAlts, emits_checked, hk]
      simp only [SentAlts, wireAlts]
      constructor
      · rintro ⟨h1, u, h2, h3⟩; exact ⟨u, ⟨h1, h2⟩, h3⟩
      · rintro ⟨u, ⟨h1, h2⟩, h3⟩; exact ⟨h1, u, h2, h3⟩
  | .mk k c :: alts, hs, hu, hr, he, ctx, id, i + 1, v, p, hin, hv => by
      simp only [saneAlts, Bool.and_eq_true] at hs
      simp only [uniqueAlts, Bool.and_eq_true] at hu
      simp only [upToSelfAlts, Bool.and_eq_true] at hr
      rw [EveryAlts] at he
      rw [TypedAlts] at hv
      rw [writeAlts]
      simp only [SentAlts, wireAlts]
      exact sent_alts cfg alts hs.2 hu.2 hr.2 he.2 ctx id i v p hin hv
theorem sent_fields (cfg : Cfg) : (fs : List Field) → saneFields fs = true →
    ∀ seen, uniqueFields seen fs = true → ∀ seen', upToSelf seen' fs = true →
    EveryFields (TypedConsts cfg) fs → ∀ ctx vs p, Given cfg ctx.fs ctx.vs →
    (∀ f ∈ fs, f ∈ ctx.fs) → TypedFields cfg fs vs →
    ((writeFields cfg ctx fs vs).Emits p () ↔
      ∃ us, SentFields cfg ctx.fs ctx.vs fs vs us ∧ p = wireFields cfg.wire fs us)
  | [], hs, seen, hu, seen', hr, he, ctx, vs, p, hin, hm, hv => by
      cases vs with
      | cons v vs => simp [TypedFields] at hv
      | nil =>
        simp only [writeFields, WrE.emits_ok, SentFields]
        constructor
        · rintro ⟨rfl, -⟩; exact ⟨[], ⟨trivial, rfl⟩, by rw [wireFields]; simp⟩
        · rintro ⟨_, ⟨-, rfl⟩, rfl⟩; exact ⟨by rw [wireFields]; simp, trivial⟩
  | f :: fs, hs, seen, hu, seen', hr, he, ctx, [], p, hin, hm, hv => by simp [TypedFields] at hv
  | f :: fs, hs, seen, hu, seen', hr, he, ctx, v :: vs, p, hin, hm, hv => by
      simp only [saneFields, Bool.and_eq_true] at hs
      simp only [uniqueFields, Bool.and_eq_true] at hu
      simp only [upToSelf, Bool.and_eq_true] at hr
      rw [EveryFields] at he
      rw [TypedFields] at hv
      have h1 := fun p => sent_field cfg f hs.1 hu.1.2 hr.1.2 he.1 ctx v p hin (hm f (by simp)) hv.1
      have h2 := fun p => sent_fields cfg fs hs.2 _ hu.2 _ hr.2 he.2 ctx vs p hin
        (fun g hg => hm g (by simp [hg])) hv.2
      rw [emits_writeFields_cons]
      simp only [SentFields]
      constructor
      · rintro ⟨q, r, rfl, ha, hb⟩
        obtain ⟨u, hc, rfl⟩ := (h1 q).1 ha
        obtain ⟨us, hd, rfl⟩ := (h2 r).1 hb
        exact ⟨_, ⟨v, vs, u, us, rfl, rfl, hc, hd⟩, by rw [wireFields]⟩
      · rintro ⟨_, ⟨v', vs', u, us, h0, rfl, ha, hb⟩, rfl⟩
        cases h0
        exact ⟨_, _, by rw [wireFields], (h1 _).2 ⟨u, ha, rfl⟩, (h2 _).2 ⟨us, hb, rfl⟩⟩
end

/-- Writing sends what `Sent` says. -/
theorem sent_streamCast {cfg : Cfg} {fs : List Field} {vs : List Val} (hwf : Acceptable fs)
    (he : Everywhere (TypedConsts cfg) fs) (hv : Typed cfg fs vs) (p : List Byte) :
    (streamCast cfg fs vs).run = (.done (.ok ()), p) ↔ ∃ us, Sent cfg fs vs us ∧ p = wire cfg fs us := by
  rw [Wr.run_eq]
  exact sent_fields cfg fs hwf.1 [] hwf.2.1 [] hwf.2.2 he.2 ⟨fs, vs⟩ vs p ⟨hwf, he.1, hv⟩
    (fun _ h => h) hv

/-! ### the sent struct -/

theorem oneByOne_unique {R : List Val → List Val → Prop} {vs us us' : List Val}
    (hR : ∀ ws, .seq ws ∈ vs → ∀ xs xs', R ws xs → R ws xs' → xs = xs')
    (h : OneByOne R vs us) (h' : OneByOne R vs us') : us = us' := by
  induction vs generalizing us us' with
  | nil => rw [OneByOne] at h h'; rw [h, h']
  | cons v vs ih =>
    simp only [OneByOne] at h h'
    obtain ⟨ws, xs, ys, rfl, rfl, h1, h2⟩ := h
    obtain ⟨ws', xs', ys', h0, rfl, h1', h2'⟩ := h'
    cases h0
    rw [hR ws (by simp) _ _ h1 h1', ih (fun w hw => hR w (by simp [hw])) h2 h2']

mutual
theorem sentKind_unique (cfg : Cfg) : (k : Kind) → saneKind k = true → ∀ all vals id c v u u',
    Counted cfg all vals → TypedKind cfg k v → SentKind cfg all vals id c k v u →
    SentKind cfg all vals id c k v u' → u = u'
  | .num t w, hs, all, vals, id, c, v, u, u', hc, hv, h, h' => by
      simp only [SentKind] at h h'
      obtain ⟨-, y, rfl, -, h⟩ := h
      obtain ⟨-, y', rfl, -, h'⟩ := h'
      split at h
      · rename_i hslot
        rw [if_pos hslot] at h'
        rw [slotGets_unique hc hslot h.1 h'.1]
      · rename_i hslot
        rw [if_neg hslot] at h'
        rw [h, h']
  | .fbuf e n, hs, all, vals, id, c, v, u, u', hc, hv, h, h' => by
      simp only [SentKind] at h h'
      rw [h.1, h'.1]
  | .fstr n, hs, all, vals, id, c, v, u, u', hc, hv, h, h' => by
      simp only [SentKind] at h h'
      rw [h.1, h'.1]
  | .vec e len b, hs, all, vals, id, c, v, u, u', hc, hv, h, h' => by
      simp only [SentKind] at h h'
      rw [h.1, h'.1]
  | .record fs, hs, all, vals, id, c, v, u, u', hc, hv, h, h' => by
      simp only [SentKind] at h h'
      obtain ⟨vs, us, rfl, rfl, h⟩ := h
      obtain ⟨vs', us', h0, rfl, h'⟩ := h'
      cases h0
      rw [saneKind] at hs
      rw [TypedKind] at hv
      rw [sentFields_unique cfg fs hs fs vs vs us us' (counted_of_typed hs hv) hv h h']
  | .arrRec fs n, hs, all, vals, id, c, v, u, u', hc, hv, h, h' => by
      simp only [SentKind] at h h'
      obtain ⟨vs, us, rfl, rfl, -, h⟩ := h
      obtain ⟨vs', us', h0, rfl, -, h'⟩ := h'
      cases h0
      rw [saneKind] at hs
      rw [TypedKind] at hv
      refine congrArg Val.seq (oneByOne_unique (fun ws hw xs xs' h1 h2 => ?_) h h')
      obtain ⟨ws', h0, hw⟩ := hv.2 _ hw
      cases h0
      exact sentFields_unique cfg fs hs fs ws ws xs xs' (counted_of_typed hs hw) hw h1 h2
  | .vecRec fs len b sz, hs, all, vals, id, c, v, u, u', hc, hv, h, h' => by
      simp only [SentKind] at h h'
      obtain ⟨vs, us, rfl, rfl, -, h⟩ := h
      obtain ⟨vs', us', h0, rfl, -, h'⟩ := h'
      cases h0
      simp only [saneKind, Bool.and_eq_true] at hs
      rw [TypedKind] at hv
      refine congrArg Val.seq (oneByOne_unique (fun ws hw xs xs' h1 h2 => ?_) h h')
      obtain ⟨ws', h0, hw⟩ := hv.2 _ hw
      cases h0
      exact sentFields_unique cfg fs hs.2 fs ws ws xs xs' (counted_of_typed hs.2 hw) hw h1 h2
theorem sentField_unique (cfg : Cfg) : (f : Field) → saneField f = true → ∀ all vals v u u',
    Counted cfg all vals → TypedField cfg f v → SentField cfg all vals f v u →
    SentField cfg all vals f v u' → u = u'
  | .plain id k c, hs, all, vals, v, u, u', hc, hv, h, h' => by
      rw [saneField] at hs
      rw [TypedField] at hv
      simp only [SentField] at h h'
      split at h
      · rename_i hslot
        rw [if_pos hslot] at h'
        exact sentKind_unique cfg k hs all vals id c v u u' hc hv h h'
      · rename_i hslot
        rw [if_neg hslot] at h'
        cases ht : typedConst k c with
        | none =>
          simp only [ht] at h h'
          exact sentKind_unique cfg k hs all vals id c v u u' hc hv h.2 h'.2
        | some x =>
          simp only [ht] at h h'
          cases k <;> simp only [typedConst, reduceCtorEq] at ht <;> simp only [SentKind] at h h'
          · obtain ⟨-, y, -, -, h⟩ := h
            obtain ⟨-, y', -, -, h'⟩ := h'
            rw [if_neg hslot] at h h'
            rw [h, h']
          · rw [h.1, h'.1]
          · rw [h.1, h'.1]
  | .maybe id k p, hs, all, vals, v, u, u', hc, hv, h, h' => by
      rw [saneField] at hs
      simp only [SentField] at h h'
      rcases h with ⟨rfl, rfl, -⟩ | ⟨w, x, rfl, rfl, -, h⟩
      · rcases h' with ⟨-, rfl, -⟩ | ⟨w', x', h0, -⟩
        · rfl
        · cases h0
      · rcases h' with ⟨h0, -⟩ | ⟨w', x', h0, rfl, -, h'⟩
        · cases h0
        · cases h0
          rw [TypedField] at hv
          rw [sentKind_unique cfg k hs all vals id .none w x x' hc hv h h']
  | .union id d alts c, hs, all, vals, v, u, u', hc, hv, h, h' => by
      simp only [saneField, Bool.and_eq_true] at hs
      simp only [SentField] at h h'
      obtain ⟨i, w, x, rfl, rfl, -, -, h⟩ := h
      obtain ⟨i', w', x', h0, rfl, -, -, h'⟩ := h'
      cases h0
      rw [TypedField] at hv
      rw [sentAlts_unique cfg alts hs.2 all vals id i w x x' hc hv h h']
theorem sentAlts_unique (cfg : Cfg) : (alts : List Alt) → saneAlts alts = true →
    ∀ all vals id i v u u', Counted cfg all vals → TypedAlts cfg alts i v →
    SentAlts cfg all vals id alts i v u → SentAlts cfg all vals id alts i v u' → u = u'
  | [], hs, all, vals, id, i, v, u, u', hc, hv, h, h' => by simp [TypedAlts] at hv
  | .mk k c :: alts, hs, all, vals, id, 0, v, u, u', hc, hv, h, h' => by
      simp only [saneAlts, Bool.and_eq_true] at hs
      rw [TypedAlts] at hv
      simp only [SentAlts] at h h'
      exact sentKind_unique cfg k hs.1 all vals id c v u u' hc hv h.2 h'.2
  | .mk k c :: alts, hs, all, vals, id, i + 1, v, u, u', hc, hv, h, h' => by
      simp only [saneAlts, Bool.and_eq_true] at hs
      rw [TypedAlts] at hv
      simp only [SentAlts] at h h'
      exact sentAlts_unique cfg alts hs.2 all vals id i v u u' hc hv h h'
theorem sentFields_unique (cfg : Cfg) : (fs : List Field) → saneFields fs = true →
    ∀ all vals vs us us', Counted cfg all vals → TypedFields cfg fs vs →
    SentFields cfg all vals fs vs us → SentFields cfg all vals fs vs us' → us = us'
  | [], hs, all, vals, vs, us, us', hc, hv, h, h' => by
      simp only [SentFields] at h h'
      rw [h.2, h'.2]
  | f :: fs, hs, all, vals, vs, us, us', hc, hv, h, h' => by
      simp only [saneFields, Bool.and_eq_true] at hs
      simp only [SentFields] at h h'
      obtain ⟨v, vs', u, ws, rfl, rfl, h1, h2⟩ := h
      obtain ⟨v', vs'', u', ws', h0, rfl, h1', h2'⟩ := h'
      cases h0
      rw [TypedFields] at hv
      rw [sentField_unique cfg f hs.1 all vals v u u' hc hv.1 h1 h1',
        sentFields_unique cfg fs hs.2 all vals vs' ws ws' hc hv.2 h2 h2']
end

/-- A write sends one struct. -/
theorem sent_unique {cfg : Cfg} {fs : List Field} {vs us us' : List Val} (hwf : Acceptable fs)
    (hv : Typed cfg fs vs) (h : Sent cfg fs vs us) (h' : Sent cfg fs vs us') : us = us' :=
  sentFields_unique cfg fs hwf.1 fs vs vs us us' (counted_of_typed hwf.1 hv) hv h h'

theorem oneByOne_typed {R : List Val → List Val → Prop} {P : List Val → Prop} {vs us : List Val}
    (hR : ∀ ws, .seq ws ∈ vs → ∀ xs, R ws xs → P xs) (h : OneByOne R vs us) :
    vs.length = us.length ∧ ∀ u ∈ us, ∃ xs, u = .seq xs ∧ P xs := by
  induction vs generalizing us with
  | nil => rw [OneByOne] at h; simp [h]
  | cons v vs ih =>
    simp only [OneByOne] at h
    obtain ⟨ws, xs, ys, rfl, rfl, h1, h2⟩ := h
    obtain ⟨h3, h4⟩ := ih (fun w hw => hR w (by simp [hw])) h2
    refine ⟨by simp [h3], fun u hu => ?_⟩
    rcases List.mem_cons.1 hu with rfl | hu
    · exact ⟨xs, rfl, hR ws (by simp) xs h1⟩
    · exact h4 u hu

mutual
theorem sentKind_typed (cfg : Cfg) : (k : Kind) → EveryKind (TypedConsts cfg) k →
    ∀ all vals id c v u, TypedKind cfg k v → SentKind cfg all vals id c k v u → TypedKind cfg k u
  | .num t w, he, all, vals, id, c, v, u, hv, h => by
      simp only [SentKind] at h
      obtain ⟨-, y, rfl, -, h⟩ := h
      split at h
      · rw [TypedKind]; exact slotGets_inRange h.1
      · rw [h]; exact hv
  | .fbuf e n, he, all, vals, id, c, v, u, hv, h => by
      simp only [SentKind] at h
      rw [h.1]; exact hv
  | .fstr n, he, all, vals, id, c, v, u, hv, h => by
      simp only [SentKind] at h
      rw [h.1]; exact hv
  | .vec e len b, he, all, vals, id, c, v, u, hv, h => by
      simp only [SentKind] at h
      rw [h.1]; exact hv
  | .record fs, he, all, vals, id, c, v, u, hv, h => by
      simp only [SentKind] at h
      obtain ⟨vs, us, rfl, rfl, h⟩ := h
      rw [EveryKind] at he
      rw [TypedKind] at hv ⊢
      exact sentFields_typed cfg fs fs vs vs us he.1 (fun _ h => h) he.2 hv h
  | .arrRec fs n, he, all, vals, id, c, v, u, hv, h => by
      simp only [SentKind] at h
      obtain ⟨vs, us, rfl, rfl, hl, h⟩ := h
      rw [EveryKind] at he
      rw [TypedKind] at hv ⊢
      obtain ⟨h1, h2⟩ := oneByOne_typed (P := TypedFields cfg fs) (fun ws hw xs h1 => by
        obtain ⟨ws', h0, hw⟩ := hv.2 _ hw
        cases h0
        exact sentFields_typed cfg fs fs ws ws xs he.1 (fun _ h => h) he.2 hw h1) h
      exact ⟨by omega, h2⟩
  | .vecRec fs len b sz, he, all, vals, id, c, v, u, hv, h => by
      simp only [SentKind] at h
      obtain ⟨vs, us, rfl, rfl, hl, h⟩ := h
      rw [EveryKind] at he
      rw [TypedKind] at hv ⊢
      obtain ⟨h1, h2⟩ := oneByOne_typed (P := TypedFields cfg fs) (fun ws hw xs h1 => by
        obtain ⟨ws', h0, hw⟩ := hv.2 _ hw
        cases h0
        exact sentFields_typed cfg fs fs ws ws xs he.1 (fun _ h => h) he.2 hw h1) h
      exact ⟨by rw [← h1]; exact hv.1, h2⟩
theorem sentField_typed (cfg : Cfg) : (f : Field) → ∀ all vals v u, TypedConsts cfg all →
    f ∈ all → EveryField (TypedConsts cfg) f → TypedField cfg f v →
    SentField cfg all vals f v u → TypedField cfg f u
  | .plain id k c, all, vals, v, u, hc, hm, he, hv, h => by
      rw [EveryField] at he
      rw [TypedField] at hv ⊢
      simp only [SentField] at h
      split at h
      · exact sentKind_typed cfg k he all vals id c v u hv h
      · have h1 := hc _ hm
        simp only at h1
        cases ht : typedConst k c with
        | none =>
          simp only [ht] at h
          exact sentKind_typed cfg k he all vals id c v u hv h.2
        | some x =>
          simp only [ht] at h
          exact sentKind_typed cfg k he all vals id c x u (h1 x (by simp [ht])) h
  | .maybe id k p, all, vals, v, u, hc, hm, he, hv, h => by
      rw [EveryField] at he
      simp only [SentField] at h
      rcases h with ⟨rfl, rfl, -⟩ | ⟨w, x, rfl, rfl, -, h⟩
      · exact hv
      · rw [TypedField] at hv ⊢
        exact sentKind_typed cfg k he all vals id .none w x hv h
  | .union id d alts c, all, vals, v, u, hc, hm, he, hv, h => by
      rw [EveryField] at he
      simp only [SentField] at h
      obtain ⟨i, w, x, rfl, rfl, -, -, h⟩ := h
      rw [TypedField] at hv ⊢
      exact sentAlts_typed cfg alts he all vals id i w x hv h
theorem sentAlts_typed (cfg : Cfg) : (alts : List Alt) → EveryAlts (TypedConsts cfg) alts →
    ∀ all vals id i v u, TypedAlts cfg alts i v → SentAlts cfg all vals id alts i v u →
    TypedAlts cfg alts i u
  | [], he, all, vals, id, i, v, u, hv, h => by simp [TypedAlts] at hv
  | .mk k c :: alts, he, all, vals, id, 0, v, u, hv, h => by
      rw [EveryAlts] at he
      rw [TypedAlts] at hv ⊢
      simp only [SentAlts] at h
      exact sentKind_typed cfg k he.1 all vals id c v u hv h.2
  | .mk k c :: alts, he, all, vals, id, i + 1, v, u, hv, h => by
      rw [EveryAlts] at he
      rw [TypedAlts] at hv ⊢
      simp only [SentAlts] at h
      exact sentAlts_typed cfg alts he.2 all vals id i v u hv h
theorem sentFields_typed (cfg : Cfg) : (fs : List Field) → ∀ all vals vs us,
    TypedConsts cfg all → (∀ f ∈ fs, f ∈ all) → EveryFields (TypedConsts cfg) fs →
    TypedFields cfg fs vs → SentFields cfg all vals fs vs us → TypedFields cfg fs us
  | [], all, vals, vs, us, hc, hm, he, hv, h => by
      simp only [SentFields] at h
      rw [h.2, TypedFields]; trivial
  | f :: fs, all, vals, vs, us, hc, hm, he, hv, h => by
      simp only [SentFields] at h
      obtain ⟨v, vs', u, ws, rfl, rfl, h1, h2⟩ := h
      rw [EveryFields] at he
      rw [TypedFields] at hv ⊢
      exact ⟨sentField_typed cfg f all vals v u hc (hm f (by simp)) he.1 hv.1 h1,
        sentFields_typed cfg fs all vals vs' ws hc (fun g hg => hm g (by simp [hg])) he.2 hv.2 h2⟩
end

theorem sent_typed {cfg : Cfg} {fs : List Field} {vs us : List Val}
    (he : Everywhere (TypedConsts cfg) fs) (hv : Typed cfg fs vs) (h : Sent cfg fs vs us) :
    Typed cfg fs us :=
  sentFields_typed cfg fs fs vs vs us he.1 (fun _ h => h) he.2 hv h

end S2S
