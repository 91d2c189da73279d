import Verif.Spec.Unsent
import Verif.Lemmas.Sent
/-
The writer against `Spec/Unsent.lean`.
-/
namespace S2S
open Spec Props

namespace WrE
variable {ε ε' α β : Type}

/-- Every write accepted, the computation ends with an error having written `p`. -/
abbrev Breaks (w : WrE ε α) (p : List Byte) (e : ε) : Prop := Wr.out w = (.done (.error e), p)

theorem breaks_ok (a : α) (e : ε) (p : List Byte) : Breaks (WrE.ok a : WrE ε α) p e ↔ False := by
  simp [Breaks]

theorem breaks_stuck (w : Stuck) (e : ε) (p : List Byte) :
    Breaks (Wr.stuck w : WrE ε α) p e ↔ False := by simp [Breaks]

@[simp] theorem breaks_err (e' e : ε) (p : List Byte) :
    Breaks (WrE.err e' : WrE ε α) p e ↔ p = [] ∧ e = e' := by
  simp only [Breaks, out_err, Prod.mk.injEq, Outcome.done.injEq, Except.error.injEq]
  exact ⟨fun h => ⟨h.2.symm, h.1.symm⟩, fun h => ⟨h.2.symm, h.1.symm⟩⟩

theorem breaks_andThen (r : WrE ε α) (f : α → WrE ε β) (p : List Byte) (e : ε) :
    Breaks (r.andThen f) p e ↔
      Breaks r p e ∨ ∃ a q s, p = q ++ s ∧ Emits r q a ∧ Breaks (f a) s e := by
  simp only [Breaks, Emits, out_andThen]
  constructor
  · intro h
    split at h
    · rename_i a q hr
      simp only [Prod.mk.injEq] at h
      exact .inr ⟨a, q, (Wr.out (f a)).2, h.2.symm, hr, Prod.ext h.1 rfl⟩
    · rename_i e' q hr
      cases h
      exact .inl hr
    · cases h
  · rintro (h | ⟨a, q, s, rfl, h1, h2⟩)
    · rw [h]
    · rw [h1]
      simp [h2]

theorem breaks_mapErr (g : ε → ε') (r : WrE ε α) (p : List Byte) (e : ε') :
    Breaks (r.mapErr g) p e ↔ ∃ e', Breaks r p e' ∧ e = g e' := by
  simp only [Breaks, out_mapErr]
  constructor
  · intro h
    split at h
    · cases h
    · rename_i e' q hr; cases h; exact ⟨e', hr, rfl⟩
    · cases h
  · rintro ⟨e', h, rfl⟩; rw [h]

theorem breaks_lift (o : Except Stuck α) (f : α → WrE ε β) (p : List Byte) (e : ε) :
    Breaks ((WrE.lift o).andThen f) p e ↔ ∃ a, o = .ok a ∧ Breaks (f a) p e := by
  rw [breaks_andThen]
  constructor
  · rintro (h | ⟨a, q, s, rfl, h1, h2⟩)
    · cases o <;> simp [WrE.lift, Breaks] at h
    · rw [emits_lift] at h1
      obtain ⟨rfl, h1⟩ := h1
      exact ⟨a, h1, h2⟩
  · rintro ⟨a, h1, h2⟩
    exact .inr ⟨a, [], p, rfl, (emits_lift _ _ _).2 ⟨rfl, h1⟩, h2⟩

/-- What succeeds does not fail. -/
theorem not_breaks {r : WrE ε α} {p q : List Byte} {a : α} {e : ε} (h : r.Emits p a) :
    ¬ r.Breaks q e := by
  intro h'
  rw [Breaks, h] at h'
  cases h'

theorem breaks_inj {r : WrE ε α} {p q : List Byte} {e e' : ε} (h : r.Breaks p e)
    (h' : r.Breaks q e') : p = q ∧ e = e' := by
  rw [Breaks, h] at h'
  cases h'
  exact ⟨rfl, rfl⟩

end WrE

/-! ### slots -/

theorem slotRefused_iff {cfg : Cfg} {fs : List Field} {vs : List Val} {id : String}
    {t : ScalarTy} {w : Nat} {r : Reason} (h : Counted cfg fs vs) (hslot : isSlot fs id = true) :
    deriveValue cfg fs vs id t w = .ok (.error r) ↔ SlotRefused cfg t w fs vs id r := by
  have hne := producers_ne h hslot
  have hmem := slotValue_mem hne
  have hsame : (∀ p ∈ producers id fs vs, cfg.toSz p = cfg.toSz (slotValue fs vs id)) ∨
      ∃ a ∈ producers id fs vs, ∃ b ∈ producers id fs vs,
        a % (cfg.szMod : Nat) ≠ b % (cfg.szMod : Nat) := by
    by_cases hall : ∀ p ∈ producers id fs vs, cfg.toSz p = cfg.toSz (slotValue fs vs id)
    · exact .inl hall
    · simp only [Classical.not_forall] at hall
      obtain ⟨p, hp, hn⟩ := hall
      refine .inr ⟨p, hp, _, hmem, fun he => hn ?_⟩
      rw [← toSz_cast, ← toSz_cast] at he
      omega
  have hscan := deriveScan_eq cfg id fs vs h {}
  rcases hsame with hall | hdiff
  · have hrec := record_same ((producers id fs vs).map cfg.toSz) (cfg.toSz (slotValue fs vs id))
      (by simpa using hall) (by simpa using hne) {} rfl (by intro hc; cases hc)
    unfold deriveValue SlotRefused
    rw [hscan]
    simp only [hrec.1, hrec.2, Bool.not_true, Bool.false_eq_true, if_false]
    have hfit := declaredWidth_iff cfg t w (cfg.toSz (slotValue fs vs id))
    have hno : ¬ ∃ a ∈ producers id fs vs, ∃ b ∈ producers id fs vs,
        a % (cfg.szMod : Nat) ≠ b % (cfg.szMod : Nat) := by
      rintro ⟨a, ha, b, hb, hn⟩
      rw [← toSz_cast, ← toSz_cast, hall a ha, hall b hb] at hn
      exact hn rfl
    constructor
    · intro hd
      split at hd
      · rename_i hf
        simp only [Bool.not_eq_true', ← Bool.not_eq_true] at hf
        cases hd
        refine .inr ⟨rfl, cfg.toSz (slotValue fs vs id), fun p hp => ?_, ?_⟩
        · rw [← toSz_cast, hall p hp]
        · rw [hfit] at hf
          by_cases hb : w < cfg.szBytes ∧ ((256 ^ w : Nat) : Int) ≤ cfg.toSz (slotValue fs vs id)
          · exact .inl hb
          · refine .inr ⟨_, passedAs_conv _ _, fun he => hf ⟨fun hw => ?_, he⟩⟩
            false_or_by_contra
            rename_i hc
            exact hb ⟨hw, by omega⟩
      · cases hd
    · rintro (⟨-, hd⟩ | ⟨rfl, n, h1, h2⟩)
      · exact (hno hd).elim
      · have hn := h1 _ hmem
        rw [← toSz_cast] at hn
        subst hn
        rw [if_pos]
        simp only [Bool.not_eq_true', ← Bool.not_eq_true]
        rw [hfit]
        rintro ⟨h3, h4⟩
        rcases h2 with ⟨hw, hb⟩ | ⟨y, hy, hne⟩
        · have := h3 hw
          omega
        · cases passedAs_unique hy (passedAs_conv _ _)
          exact hne h4
  · have hag : (((producers id fs vs).map cfg.toSz).foldl Derivation.record {}).agreed = false := by
      rw [← Bool.not_eq_true]
      intro ha
      obtain ⟨a, ha', b, hb, hn⟩ := hdiff
      have hr := (record_agreed _ _ ha).2.1
      rw [← toSz_cast, ← toSz_cast, hr _ (List.mem_map_of_mem ha'),
        hr _ (List.mem_map_of_mem hb)] at hn
      exact hn rfl
    unfold deriveValue SlotRefused
    rw [hscan]
    simp only [hag, Bool.not_false, if_true]
    constructor
    · intro hd; cases hd; exact .inl ⟨rfl, hdiff⟩
    · rintro (⟨rfl, -⟩ | ⟨-, n, h1, -⟩)
      · rfl
      · obtain ⟨a, ha', b, hb, hn⟩ := hdiff
        exact (hn (by rw [h1 a ha', h1 b hb])).elim

/-! ### fixed-size fields -/

theorem breaks_writeNum {cfg : Cfg} {t : ScalarTy} {w : Nat} {x : Int} {p : List Byte}
    {r : Reason} : ¬ (writeNum cfg t w x).Breaks p r := by
  unfold writeNum writeNativeImpl
  generalize ScalarTy.toMem _ _ _ = mem
  split <;> simp [WrE.Breaks, Wr.out, WrE.ok]

theorem breaks_verify_num {cfg : Cfg} {fs : List Field} {vs : List Val} (hwf : Acceptable fs)
    (ht : TypedFields cfg fs vs) {id : String} {t : ScalarTy} {w : Nat} {x : Int} {p : List Byte}
    {r : Reason} : (verifyThenWrite cfg ⟨fs, vs⟩ id (.num t w) (.int x)).Breaks p r ↔
      p = [] ∧ r = .foundContradictingLength ∧ ¬ ActiveAgree cfg fs vs id x := by
  unfold ActiveAgree
  rcases out_verifyThenWrite hwf ht id t w x with ⟨h1, h2⟩ | ⟨⟨f, v, m, hz, ha, hne⟩, h2⟩
  · rw [h2]
    refine iff_of_false breaks_writeNum fun h => h.2.2 fun f v m hz ha => ?_
    rw [h1 f v m hz ha, toSz_cast]
  · rw [h2, WrE.breaks_err]
    refine and_congr_right fun _ => (and_iff_left fun h => hne ?_).symm
    have := h f v m hz ha
    rw [← toSz_cast] at this
    omega

theorem unsent_fixed {cfg : Cfg} {fs : List Field} {vs : List Val} (hwf : Acceptable fs)
    (ht : TypedFields cfg fs vs) {m : Bool} {id : String} {c : Constraint} {k : Kind} {v : Val}
    (hk : k.isFixed = true)
    (hv : TypedKind cfg k ((if m then frozenVal k c else none).getD v)) {p : List Byte}
    {r : Reason} :
    (writeFixed cfg ⟨fs, vs⟩ m id k c v).Breaks p r ↔
      KindUnsent cfg fs vs id c r k ((if m then frozenVal k c else none).getD v) p := by
  have hcnt := counted_of_typed hwf.1 ht
  have hm : writeFixed cfg ⟨fs, vs⟩ m id k c v = writeFixed cfg ⟨fs, vs⟩ false id k c
      ((if m then frozenVal k c else none).getD v) := by
    unfold writeFixed
    cases (if m then frozenVal k c else none) <;> rfl
  rw [hm]
  generalize (if m then frozenVal k c else none).getD v = v' at hv ⊢
  unfold writeFixed
  rw [isDerived_eq]
  simp only [Bool.false_eq_true, if_false]
  have hother : (∀ t w, k ≠ .num t w) → ¬ (verifyThenWrite cfg ⟨fs, vs⟩ id k v').Breaks p r := by
    intro hn
    have he := (emits_fixed_typed hk hv hn).2 rfl
    unfold verifyThenWrite
    split
    · split
      · cases k <;> first | exact (hn _ _ rfl).elim | simp [TypedKind] at hv
      · simp [WrE.Breaks]
    · exact WrE.not_breaks he
  cases k <;> simp only [Kind.isFixed, Bool.false_eq_true] at hk
  · rename_i t w
    cases v' <;> simp only [TypedKind] at hv
    rename_i x
    simp only [KindUnsent]
    cases hs : isSlot fs id with
    | false =>
      simp only [Bool.false_eq_true, if_false]
      rw [breaks_verify_num hwf ht]
      simp
    | true =>
      simp only [if_true]
      rw [WrE.breaks_lift]
      constructor
      · rintro ⟨o, h1, h2⟩
        cases o with
        | error e =>
          simp only [WrE.breaks_err] at h2
          obtain ⟨rfl, rfl⟩ := h2
          exact ⟨rfl, .inl ((slotRefused_iff hcnt hs).1 h1)⟩
        | ok y =>
          simp only [WrE.breaks_lift] at h2
          obtain ⟨b, h2, h3⟩ := h2
          rw [slotGets_iff hcnt hs] at h1
          cases b with
          | false =>
            simp only [Bool.false_eq_true, if_false, WrE.breaks_err] at h3
            exact ⟨h3.1, .inr ⟨y, h1, .inl ⟨h3.2, h2⟩⟩⟩
          | true =>
            simp only [if_true] at h3
            rw [breaks_verify_num hwf ht] at h3
            exact ⟨h3.1, .inr ⟨y, h1, .inr ⟨h3.2.1, h2, h3.2.2⟩⟩⟩
      · rintro ⟨rfl, h1 | ⟨y, h1, ⟨rfl, h2⟩ | ⟨rfl, h2, h3⟩⟩⟩
        · exact ⟨_, (slotRefused_iff hcnt hs).2 h1, by simp⟩
        · refine ⟨_, (slotGets_iff hcnt hs).2 h1, ?_⟩
          simp only [WrE.breaks_lift]
          exact ⟨false, h2, by simp⟩
        · refine ⟨_, (slotGets_iff hcnt hs).2 h1, ?_⟩
          simp only [WrE.breaks_lift]
          refine ⟨true, h2, ?_⟩
          simp only [if_true]
          exact (breaks_verify_num hwf ht).2 ⟨rfl, rfl, h3⟩
  all_goals
    simp only [KindUnsent, iff_false]
    split
    · simp [WrE.Breaks]
    · exact hother (by simp)

theorem breaks_checked {c : Constraint} {v : Val} {k : WrE Reason Unit} {p : List Byte}
    {r : Reason} : (WrE.checked c v k).Breaks p r ↔
      (p = [] ∧ r = .validationFailure ∧ Violates c v) ∨ (Holds c v ∧ k.Breaks p r) := by
  unfold WrE.checked Holds Violates
  rw [WrE.breaks_lift]
  constructor
  · rintro ⟨b, h1, h2⟩
    cases b with
    | true => exact .inr ⟨h1, by simpa using h2⟩
    | false =>
      simp only [Bool.false_eq_true, if_false, WrE.breaks_err] at h2
      exact .inl ⟨h2.1, h2.2, h1⟩
  · rintro (⟨rfl, rfl, h⟩ | ⟨h1, h2⟩)
    · exact ⟨false, h, by simp⟩
    · exact ⟨true, h1, by simpa using h2⟩

theorem breaks_computed {cfg : Cfg} {env : Env} {len : LenSpec} {n : Nat} {k : WrE Reason Unit}
    {p : List Byte} {r : Reason} : (verifyComputed cfg env len n k).Breaks p r ↔
      (p = [] ∧ r = .foundContradictingLength ∧ ComputedDiffers cfg env len n) ∨
      ((∀ g, len = .computed g → len.eval cfg env = .ok n) ∧ k.Breaks p r) := by
  unfold ComputedDiffers
  cases len with
  | fromField id => simp [verifyComputed]
  | computed c =>
    simp only [verifyComputed, WrE.breaks_lift]
    constructor
    · rintro ⟨m, h1, h2⟩
      split at h2
      · rename_i hne
        rw [WrE.breaks_err] at h2
        exact .inl ⟨h2.1, h2.2, c, m, rfl, h1, hne⟩
      · rename_i hne
        rw [Decidable.not_not] at hne
        subst hne
        exact .inr ⟨fun _ _ => h1, h2⟩
    · rintro (⟨rfl, rfl, g, m, -, h1, hne⟩ | ⟨h1, h2⟩)
      · exact ⟨m, h1, by rw [if_pos hne, WrE.breaks_err]; exact ⟨rfl, rfl⟩⟩
      · exact ⟨n, h1 c rfl, by simpa using h2⟩

theorem breaks_recs {S : List Val → List Val → Prop} {U : List Val → List Byte → Prop}
    {W : List Val → List Byte} {one : List Val → WrE CastError Unit} {vs : List Val}
    {p : List Byte} {r : Reason}
    (hone : ∀ ws, .seq ws ∈ vs → ∀ p, (one ws).Emits p () ↔ ∃ xs, S ws xs ∧ p = W xs)
    (hbad : ∀ ws, .seq ws ∈ vs → ∀ p, (one ws).untag.Breaks p r ↔ U ws p) :
    (writeRecs one vs).Breaks p r ↔ NextUnsent S U W vs p := by
  unfold NextUnsent
  induction vs generalizing p with
  | nil => simp [writeRecs, WrE.breaks_ok]
  | cons v vs ih =>
    have ih := fun p => ih (p := p) (fun ws hw => hone ws (by simp [hw]))
      (fun ws hw => hbad ws (by simp [hw]))
    cases v with
    | seq ws =>
      simp only [writeRecs]
      rw [WrE.breaks_andThen, hbad ws (by simp)]
      simp only [WrE.untag, WrE.emits_mapErr]
      constructor
      · rintro (h | ⟨_, q, s, rfl, h1, h2⟩)
        · exact ⟨[], ws, vs, [], p, rfl, rfl, h, rfl⟩
        · obtain ⟨xs, hr, rfl⟩ := (hone ws (by simp) q).1 h1
          obtain ⟨pre, ws', post, us, q', rfl, h3, h4, rfl⟩ := (ih s).1 h2
          exact ⟨.seq ws :: pre, ws', post, .seq xs :: us, q', rfl,
            ⟨ws, xs, us, rfl, rfl, hr, h3⟩, h4, by simp [recordBytes]⟩
      · rintro ⟨pre, ws', post, us, q', h0, h3, h4, rfl⟩
        cases pre with
        | nil =>
          cases h0
          rw [OneByOne] at h3
          subst h3
          exact .inl (by simpa using h4)
        | cons a pre =>
          simp only [List.cons_append, List.cons.injEq] at h0
          obtain ⟨rfl, rfl⟩ := h0
          simp only [OneByOne] at h3
          obtain ⟨ws'', xs, us', h0, rfl, hr, h3⟩ := h3
          cases h0
          exact .inr ⟨(), W xs, us'.flatMap (recordBytes W) ++ q', by simp [recordBytes],
            (hone ws (by simp) _).2 ⟨xs, hr, rfl⟩,
            (ih _).2 ⟨pre, ws', post, us', q', rfl, h3, h4, rfl⟩⟩
    | _ =>
      simp only [writeRecs, WrE.breaks_stuck, false_iff]
      rintro ⟨pre, ws', post, us, q', h0, h3, -⟩
      cases pre with
      | nil => cases h0
      | cons a pre =>
        simp only [List.cons_append, List.cons.injEq] at h0
        obtain ⟨rfl, rfl⟩ := h0
        simp only [OneByOne] at h3
        obtain ⟨ws'', xs, us', h0, -⟩ := h3
        cases h0

theorem breaks_untag {w : WrE CastError Unit} {p : List Byte} {r : Reason} :
    w.untag.Breaks p r ↔ ∃ id, w.Breaks p ⟨r, id⟩ := by
  unfold WrE.untag
  rw [WrE.breaks_mapErr]
  constructor
  · rintro ⟨⟨r', id⟩, h, rfl⟩; exact ⟨id, h⟩
  · rintro ⟨id, h⟩; exact ⟨_, h, rfl⟩

theorem breaks_tag {w : WrE Reason Unit} {p : List Byte} {r : Reason} {id id' : String} :
    (w.tag id).Breaks p ⟨r, id'⟩ ↔ id = id' ∧ w.Breaks p r := by
  unfold WrE.tag
  rw [WrE.breaks_mapErr]
  constructor
  · rintro ⟨r', h, h0⟩; cases h0; exact ⟨rfl, h⟩
  · rintro ⟨rfl, h⟩; exact ⟨_, h, rfl⟩

theorem breaks_writeStep {cfg : Cfg} {ctx : WCtx} {f : Field} {v : Val} {p : List Byte}
    {r : Reason} {id : String} :
    (writeStep cfg ctx f v).Breaks p ⟨r, id⟩ ↔ f.id = id ∧
      if isSlot ctx.fs f.id = true ∨ f.isFrozen = true then (writeField cfg ctx f v).Breaks p r
      else (p = [] ∧ r = .validationFailure ∧ Violates f.constraint v) ∨
        (Holds f.constraint v ∧ (writeField cfg ctx f v).Breaks p r) := by
  unfold writeStep
  rw [breaks_tag, isDerived_eq]
  refine and_congr_right fun _ => ?_
  cases isSlot ctx.fs f.id <;> cases f.isFrozen <;> simp [breaks_checked]

mutual
theorem unsent_kind (cfg : Cfg) : (k : Kind) → saneKind k = true → uniqueKind k = true →
    upToSelfKind k = true → EveryKind (TypedConsts cfg) k → ∀ ctx m id c v p r,
    Given cfg ctx.fs ctx.vs → TypedKind cfg k ((if m then frozenVal k c else none).getD v) →
    ((writeKind cfg ctx m id c k v).Breaks p r ↔
      KindUnsent cfg ctx.fs ctx.vs id c r k ((if m then frozenVal k c else none).getD v) p)
  | .num t w, hs, hu, hr, he, ctx, m, id, c, v, p, r, hin, hv => by
      simp only [writeKind]
      exact unsent_fixed hin.wf hin.typed rfl hv
  | .fbuf e n, hs, hu, hr, he, ctx, m, id, c, v, p, r, hin, hv => by
      simp only [writeKind]
      exact unsent_fixed hin.wf hin.typed rfl hv
  | .fstr n, hs, hu, hr, he, ctx, m, id, c, v, p, r, hin, hv => by
      simp only [writeKind]
      exact unsent_fixed hin.wf hin.typed rfl hv
  | .vec e len b, hs, hu, hr, he, ctx, m, id, c, v, p, r, hin, hv => by
      have hf : (if m then frozenVal (.vec e len b) c else none).getD v = v := by
        cases m <;> simp [frozenVal]
      rw [hf] at hv ⊢
      cases v <;> simp only [TypedKind] at hv
      rename_i us
      rw [writeKind, breaks_computed]
      have hw := emits_writeVec cfg e us (ptrdiff_lt _ _ hv.1) hv.2
      simp only [KindUnsent, WrE.not_breaks hw, and_false, or_false]
      constructor
      · rintro ⟨h1, h2, h3⟩; exact ⟨h1, h2, us, rfl, h3⟩
      · rintro ⟨h1, h2, _, h0, h3⟩; cases h0; exact ⟨h1, h2, h3⟩
  | .record fs, hs, hu, hr, he, ctx, m, id, c, v, p, r, hin, hv => by
      have hf : (if m then frozenVal (.record fs) c else none).getD v = v := by
        cases m <;> simp [frozenVal]
      rw [hf] at hv ⊢
      cases v <;> simp only [TypedKind] at hv
      rename_i us
      rw [saneKind] at hs
      rw [uniqueKind] at hu
      rw [upToSelfKind] at hr
      rw [EveryKind] at he
      rw [writeKind, breaks_untag]
      have h := fun id' => unsent_fields cfg fs hs [] hu [] hr he.2 ⟨fs, us⟩ us p r id'
        ⟨⟨hs, hu, hr⟩, he.1, hv⟩ (fun _ h => h) hv
      simp only [h, KindUnsent]
      constructor
      · rintro ⟨id', h⟩; exact ⟨us, id', rfl, h⟩
      · rintro ⟨_, id', h0, h⟩; cases h0; exact ⟨id', h⟩
  | .arrRec fs n, hs, hu, hr, he, ctx, m, id, c, v, p, r, hin, hv => by
      have hf : (if m then frozenVal (.arrRec fs n) c else none).getD v = v := by
        cases m <;> simp [frozenVal]
      rw [hf] at hv ⊢
      cases v <;> simp only [TypedKind] at hv
      rename_i us
      rw [saneKind] at hs
      rw [uniqueKind] at hu
      rw [upToSelfKind] at hr
      rw [EveryKind] at he
      rw [writeKind, if_neg (by simp [hv.1]),
        breaks_recs (S := fun ws xs => SentFields cfg fs ws fs ws xs)
          (U := fun ws q => ∃ id', FieldsUnsent cfg fs ws r id' fs ws q)
          (W := fun ws => wireFields cfg.wire fs ws) (fun ws hw p => by
            obtain ⟨ws', h0, hw⟩ := hv.2 _ hw
            cases h0
            exact sent_fields cfg fs hs [] hu [] hr he.2 ⟨fs, ws⟩ ws p ⟨⟨hs, hu, hr⟩, he.1, hw⟩
              (fun _ h => h) hw)
          (fun ws hw p => by
            obtain ⟨ws', h0, hw⟩ := hv.2 _ hw
            cases h0
            rw [breaks_untag]
            exact exists_congr fun id' => unsent_fields cfg fs hs [] hu [] hr he.2 ⟨fs, ws⟩ ws p r
              id' ⟨⟨hs, hu, hr⟩, he.1, hw⟩ (fun _ h => h) hw)]
      simp only [KindUnsent]
      constructor
      · intro h; exact ⟨us, rfl, h⟩
      · rintro ⟨_, h0, h⟩; cases h0; exact h
  | .vecRec fs len b sz, hs, hu, hr, he, ctx, m, id, c, v, p, r, hin, hv => by
      have hf : (if m then frozenVal (.vecRec fs len b sz) c else none).getD v = v := by
        cases m <;> simp [frozenVal]
      rw [hf] at hv ⊢
      cases v <;> simp only [TypedKind] at hv
      rename_i us
      simp only [saneKind, Bool.and_eq_true] at hs
      rw [uniqueKind] at hu
      rw [upToSelfKind] at hr
      rw [EveryKind] at he
      rw [writeKind, breaks_computed,
        breaks_recs (S := fun ws xs => SentFields cfg fs ws fs ws xs)
          (U := fun ws q => ∃ id', FieldsUnsent cfg fs ws r id' fs ws q)
          (W := fun ws => wireFields cfg.wire fs ws) (fun ws hw p => by
            obtain ⟨ws', h0, hw⟩ := hv.2 _ hw
            cases h0
            exact sent_fields cfg fs hs.2 [] hu [] hr he.2 ⟨fs, ws⟩ ws p
              ⟨⟨hs.2, hu, hr⟩, he.1, hw⟩ (fun _ h => h) hw)
          (fun ws hw p => by
            obtain ⟨ws', h0, hw⟩ := hv.2 _ hw
            cases h0
            rw [breaks_untag]
            exact exists_congr fun id' => unsent_fields cfg fs hs.2 [] hu [] hr he.2 ⟨fs, ws⟩ ws p r
              id' ⟨⟨hs.2, hu, hr⟩, he.1, hw⟩ (fun _ h => h) hw)]
      simp only [KindUnsent]
      constructor
      · intro h; exact ⟨us, rfl, h⟩
      · rintro ⟨_, h0, h⟩; cases h0; exact h
theorem unsent_field (cfg : Cfg) : (f : Field) → saneField f = true → uniqueField f = true →
    upToSelfField f = true → EveryField (TypedConsts cfg) f → ∀ ctx v p r id,
    Given cfg ctx.fs ctx.vs → f ∈ ctx.fs → TypedField cfg f v →
    ((writeStep cfg ctx f v).Breaks p ⟨r, id⟩ ↔
      f.id = id ∧ FieldUnsent cfg ctx.fs ctx.vs r f v p)
  | .plain id k c, hs, hu, hr, he, ctx, v, p, r, id', hin, hm, hv => by
      rw [saneField] at hs
      rw [uniqueField] at hu
      rw [upToSelfField] at hr
      rw [EveryField] at he
      rw [TypedField] at hv
      have hcon := hin.consts _ hm
      simp only at hcon
      rw [breaks_writeStep, writeField]
      refine and_congr_right fun _ => ?_
      have hv' : TypedKind cfg k ((if true then frozenVal k c else none).getD v) := by
        simp only [if_true]
        rw [typedConst_eq] at hcon
        cases hfv : frozenVal k c with
        | none => exact hv
        | some u => exact hcon u (by simp [hfv])
      rw [unsent_kind cfg k hs hu hr he ctx true id c v p r hin hv']
      simp only [FieldUnsent, Field.id, Field.isFrozen, Field.constraint, if_true, typedConst_eq]
      cases hslot : isSlot ctx.fs id with
      | true =>
        simp only [true_or, if_true]
        cases hfv : frozenVal k c with
        | none => rfl
        | some u =>
          cases k <;> simp only [frozenVal, reduceCtorEq] at hfv <;>
            simp [KindUnsent, hslot]
      | false =>
        simp only [Bool.false_eq_true, if_false, false_or]
        cases hfv : frozenVal k c with
        | none => simp
        | some u => simp
  | .maybe id k pr, hs, hu, hr, he, ctx, v, p, r, id', hin, hm, hv => by
      rw [saneField] at hs
      rw [uniqueField] at hu
      rw [upToSelfField] at hr
      rw [EveryField] at he
      rw [breaks_writeStep]
      refine and_congr_right fun _ => ?_
      have hnone : Holds .none v := rfl
      have hno : ¬ Violates .none v := fun h => by
        have : (Constraint.none).check v = .ok true := hnone
        rw [Violates, this] at h
        cases h
      simp only [Field.constraint, hnone, hno, and_false, false_or, true_and, ite_self]
      rw [writeField, WrE.breaks_lift]
      simp only [FieldUnsent]
      show (∃ b, pr.eval (envOf ctx.fs ctx.vs) = .ok b ∧ _) ↔ _
      cases v <;> simp only [TypedField] at hv
      · constructor
        · rintro ⟨b, h1, h2⟩
          cases b
          · rw [if_neg (by simp), WrE.breaks_ok] at h2
            exact h2.elim
          · rw [if_pos rfl, WrE.breaks_err] at h2
            exact .inl ⟨h2.1, h2.2, rfl, h1⟩
        · rintro (⟨rfl, rfl, -, h1⟩ | ⟨w, -, -, h0, -⟩ | ⟨w, h0, -⟩)
          · exact ⟨true, h1, by rw [if_pos rfl, WrE.breaks_err]; exact ⟨rfl, rfl⟩⟩
          · cases h0
          · cases h0
      · rename_i w
        have hk := unsent_kind cfg k hs hu hr he ctx false id .none w p r hin (by simpa using hv)
        simp only [Bool.false_eq_true, if_false, Option.getD_none] at hk
        constructor
        · rintro ⟨b, h1, h2⟩
          cases b
          · simp only [Bool.false_eq_true, if_false, WrE.breaks_err] at h2
            exact .inr (.inl ⟨w, h2.1, h2.2, rfl, h1⟩)
          · simp only [if_true, hk] at h2
            exact .inr (.inr ⟨w, rfl, h1, h2⟩)
        · rintro (⟨-, -, h0, -⟩ | ⟨w', rfl, rfl, -, h1⟩ | ⟨w', h0, h1, h2⟩)
          · cases h0
          · exact ⟨false, h1, by simp⟩
          · cases h0
            exact ⟨true, h1, by simp only [if_true, hk]; exact h2⟩
  | .union id d alts c, hs, hu, hr, he, ctx, v, p, r, id', hin, hm, hv => by
      simp only [saneField, Bool.and_eq_true] at hs
      rw [uniqueField] at hu
      rw [upToSelfField] at hr
      rw [EveryField] at he
      cases v <;> simp only [TypedField] at hv
      rename_i i w
      have ha := unsent_alts cfg alts hs.2 hu hr he ctx id i w p r hin hv
      rw [breaks_writeStep]
      refine and_congr_right fun _ => ?_
      have hd : (writeField cfg ctx (.union id d alts c) (.var i w)).Breaks p r ↔
          (p = [] ∧ NotChosen (envOf ctx.fs ctx.vs) i r d) ∨
          (Chosen (envOf ctx.fs ctx.vs) i d ∧ (writeAlts cfg ctx id alts i w).Breaks p r) := by
        have key : ∀ (o : Except Stuck (Option Nat)),
            ((WrE.lift o : WrE Reason _).andThen fun
              | none => WrE.err .typeDeductionFailure
              | some j => if j ≠ i then WrE.err .validationFailure
                  else writeAlts cfg ctx id alts i w).Breaks p r ↔
            (p = [] ∧ ((r = .typeDeductionFailure ∧ o = .ok none) ∨
              (r = .validationFailure ∧ ∃ j, o = .ok (some j) ∧ j ≠ i))) ∨
            (o = .ok (some i) ∧ (writeAlts cfg ctx id alts i w).Breaks p r) := by
          intro o
          rw [WrE.breaks_lift]
          constructor
          · rintro ⟨x, rfl, h2⟩
            cases x with
            | none =>
              simp only [WrE.breaks_err] at h2
              exact .inl ⟨h2.1, .inl ⟨h2.2, rfl⟩⟩
            | some j =>
              by_cases hj : j = i
              · subst hj
                exact .inr ⟨rfl, by simpa using h2⟩
              · simp only [ne_eq, hj, not_false_eq_true, if_true, WrE.breaks_err] at h2
                exact .inl ⟨h2.1, .inr ⟨h2.2, j, rfl, hj⟩⟩
          · rintro (⟨rfl, ⟨rfl, rfl⟩ | ⟨rfl, j, rfl, hj⟩⟩ | ⟨rfl, h2⟩)
            · exact ⟨none, rfl, by simp⟩
            · exact ⟨some j, rfl, by simp [hj]⟩
            · exact ⟨some i, rfl, by simpa using h2⟩
        cases d with
        | matchField tgt t ls => simp only [writeField, Chosen, NotChosen, true_and, and_false, false_or]
        | matchCompute comp t ls => simp only [writeField, Chosen, NotChosen]; exact key _
        | ladder ps => simp only [writeField, Chosen, NotChosen]; exact key _
      rw [hd, ha]
      simp only [Field.constraint, FieldUnsent, Field.isFrozen, Field.id, Bool.false_eq_true, or_false]
      cases hslot : isSlot ctx.fs id with
      | true =>
        simp only [if_true, reduceCtorEq, false_and, and_false, false_or, false_imp_iff, true_and]
        constructor
        · intro h; exact ⟨i, w, rfl, h⟩
        · rintro ⟨_, _, h0, h⟩; cases h0; exact h
      | false =>
        simp only [Bool.false_eq_true, if_false, true_and, true_imp_iff]
        refine or_congr Iff.rfl (and_congr_right fun _ => ?_)
        constructor
        · intro h; exact ⟨i, w, rfl, h⟩
        · rintro ⟨_, _, h0, h⟩; cases h0; exact h
theorem unsent_alts (cfg : Cfg) : (alts : List Alt) → saneAlts alts = true →
    uniqueAlts alts = true → upToSelfAlts alts = true → EveryAlts (TypedConsts cfg) alts →
    ∀ ctx id i v p r, Given cfg ctx.fs ctx.vs → TypedAlts cfg alts i v →
    ((writeAlts cfg ctx id alts i v).Breaks p r ↔ AltsUnsent cfg ctx.fs ctx.vs id r alts i v p)
  | [], hs, hu, hr, he, ctx, id, i, v, p, r, hin, hv => by simp [TypedAlts] at hv
  | .mk k c :: alts, hs, hu, hr, he, ctx, id, 0, v, p, r, hin, hv => by
      simp only [saneAlts, Bool.and_eq_true] at hs
      simp only [uniqueAlts, Bool.and_eq_true] at hu
      simp only [upToSelfAlts, Bool.and_eq_true] at hr
      rw [EveryAlts] at he
      rw [TypedAlts] at hv
      have hk := unsent_kind cfg k hs.1 hu.1 hr.1 he.1 ctx false id c v p r hin (by simpa using hv)
      simp only [Bool.false_eq_true, if_false, Option.getD_none] at hk
      rw [writeAlts, breaks_checked, hk]
      simp only [AltsUnsent]
  | .mk k c :: alts, hs, hu, hr, he, ctx, id, i + 1, v, p, r, hin, hv => by
      simp only [saneAlts, Bool.and_eq_true] at hs
      simp only [uniqueAlts, Bool.and_eq_true] at hu
      simp only [upToSelfAlts, Bool.and_eq_true] at hr
      rw [EveryAlts] at he
      rw [TypedAlts] at hv
      rw [writeAlts]
      simp only [AltsUnsent]
      exact unsent_alts cfg alts hs.2 hu.2 hr.2 he.2 ctx id i v p r hin hv
theorem unsent_fields (cfg : Cfg) : (fs : List Field) → saneFields fs = true →
    ∀ seen, uniqueFields seen fs = true → ∀ seen', upToSelf seen' fs = true →
    EveryFields (TypedConsts cfg) fs → ∀ ctx vs p r id, Given cfg ctx.fs ctx.vs →
    (∀ f ∈ fs, f ∈ ctx.fs) → TypedFields cfg fs vs →
    ((writeFields cfg ctx fs vs).Breaks p ⟨r, id⟩ ↔
      FieldsUnsent cfg ctx.fs ctx.vs r id fs vs p)
  | [], hs, seen, hu, seen', hr, he, ctx, vs, p, r, id, hin, hm, hv => by
      cases vs with
      | cons v vs => simp [TypedFields] at hv
      | nil => simp only [writeFields, WrE.breaks_ok, FieldsUnsent]
  | f :: fs, hs, seen, hu, seen', hr, he, ctx, [], p, r, id, hin, hm, hv => by
      simp [TypedFields] at hv
  | f :: fs, hs, seen, hu, seen', hr, he, ctx, v :: vs, p, r, id, hin, hm, hv => by
      simp only [saneFields, Bool.and_eq_true] at hs
      simp only [uniqueFields, Bool.and_eq_true] at hu
      simp only [upToSelf, Bool.and_eq_true] at hr
      rw [EveryFields] at he
      rw [TypedFields] at hv
      have h1 := fun p => sent_field cfg f hs.1 hu.1.2 hr.1.2 he.1 ctx v p hin (hm f (by simp)) hv.1
      have h2 := unsent_field cfg f hs.1 hu.1.2 hr.1.2 he.1 ctx v p r id hin (hm f (by simp)) hv.1
      have h3 := fun p => unsent_fields cfg fs hs.2 _ hu.2 _ hr.2 he.2 ctx vs p r id hin
        (fun g hg => hm g (by simp [hg])) hv.2
      rw [writeFields_cons, WrE.breaks_andThen, h2]
      simp only [FieldsUnsent]
      constructor
      · rintro (h | ⟨_, q, s, rfl, ha, hb⟩)
        · exact ⟨v, vs, rfl, .inl h⟩
        · obtain ⟨u, hc, rfl⟩ := (h1 q).1 ha
          exact ⟨v, vs, rfl, .inr ⟨u, s, hc, (h3 s).1 hb, rfl⟩⟩
      · rintro ⟨_, _, h0, h | ⟨u, s, hc, hb, rfl⟩⟩
        · cases h0; exact .inl h
        · cases h0
          exact .inr ⟨(), _, _, rfl, (h1 _).2 ⟨u, hc, rfl⟩, (h3 _).2 hb⟩
end

/-- The field that is not sent, with what is before it. -/
theorem fieldsUnsent_split {cfg : Cfg} {all : List Field} {vals : List Val} {r : Reason}
    {id : String} {fs : List Field} {vs : List Val} {p : List Byte} :
    FieldsUnsent cfg all vals r id fs vs p ↔
      ∃ pre f post vpre v vpost us q, fs = pre ++ f :: post ∧ vs = vpre ++ v :: vpost ∧
        f.id = id ∧ SentFields cfg all vals pre vpre us ∧ FieldUnsent cfg all vals r f v q ∧
        p = wireFields cfg.wire pre us ++ q := by
  induction fs generalizing vs p with
  | nil => simp [FieldsUnsent]
  | cons f fs ih =>
    simp only [FieldsUnsent]
    constructor
    · rintro ⟨v, vs', rfl, ⟨rfl, h⟩ | ⟨u, q', h1, h2, rfl⟩⟩
      · exact ⟨[], f, fs, [], v, vs', [], p, rfl, rfl, rfl, by simp [SentFields], h,
          by simp [wireFields]⟩
      · obtain ⟨pre, g, post, vpre, w, vpost, us, q, rfl, rfl, rfl, h3, h4, rfl⟩ := ih.1 h2
        refine ⟨f :: pre, g, post, v :: vpre, w, vpost, u :: us, q, rfl, rfl, rfl, ?_, h4, ?_⟩
        · rw [SentFields]; exact ⟨v, vpre, u, us, rfl, rfl, h1, h3⟩
        · rw [wireFields, List.append_assoc]
    · rintro ⟨pre, g, post, vpre, w, vpost, us, q, h0, rfl, rfl, h3, h4, rfl⟩
      cases pre with
      | nil =>
        cases h0
        simp only [SentFields] at h3
        obtain ⟨rfl, rfl⟩ := h3
        exact ⟨w, vpost, rfl, .inl ⟨rfl, by simpa [wireFields] using h4⟩⟩
      | cons a pre =>
        simp only [List.cons_append, List.cons.injEq] at h0
        obtain ⟨rfl, rfl⟩ := h0
        simp only [SentFields] at h3
        obtain ⟨v, vs', u, us', rfl, rfl, h1, h2⟩ := h3
        exact ⟨v, vs' ++ w :: vpost, rfl, .inr ⟨u, wireFields cfg.wire pre us' ++ q, h1,
          ih.2 ⟨pre, g, post, vs', w, vpost, us', q, rfl, rfl, rfl, h2, h4, rfl⟩,
          by rw [wireFields, List.append_assoc]⟩⟩

/-- Writing fails as `Unsent` says. -/
theorem unsent_streamCast {cfg : Cfg} {fs : List Field} {vs : List Val} (hwf : Acceptable fs)
    (he : Everywhere (TypedConsts cfg) fs) (hv : Typed cfg fs vs) (p : List Byte) (r : Reason)
    (id : String) :
    Wr.out (streamCast cfg fs vs) = (.done (.error ⟨r, id⟩), p) ↔ Unsent cfg fs vs r id p := by
  unfold Unsent
  rw [← fieldsUnsent_split]
  exact unsent_fields cfg fs hwf.1 [] hwf.2.1 [] hwf.2.2 he.2 ⟨fs, vs⟩ vs p r id ⟨hwf, he.1, hv⟩
    (fun _ h => h) hv

end S2S
