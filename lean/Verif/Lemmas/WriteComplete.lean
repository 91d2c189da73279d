import Verif.Spec.Rewrite
import Verif.Lemmas.SettleIdem
/-
A struct of a rewritable schema is written, and what is written is its encoding.
-/
namespace S2S
open Spec

theorem ok_zip {fs : List Field} {vs : List Val} (h : OkFields fs vs)
    {f : Field} {v : Val} (hm : (f, v) ∈ fs.zip vs) : OkField f v := by
  induction fs generalizing vs with
  | nil => simp at hm
  | cons a fs ih =>
    cases vs with
    | nil => simp at hm
    | cons b vs =>
      rw [OkFields] at h
      rw [List.zip_cons_cons] at hm
      rcases List.mem_cons.1 hm with hm | hm
      · cases hm; exact h.1
      · exact ih h.2 hm

theorem shaped_zip {cfg : Cfg} {env : Env} {fs : List Field} {vs : List Val}
    (h : ShapedFields cfg env fs vs)
    {f : Field} {v : Val} (hm : (f, v) ∈ fs.zip vs) : ShapedField cfg env f v := by
  induction fs generalizing vs with
  | nil => simp at hm
  | cons a fs ih =>
    cases vs with
    | nil => simp at hm
    | cons b vs =>
      rw [ShapedFields] at h
      rw [List.zip_cons_cons] at hm
      rcases List.mem_cons.1 hm with hm | hm
      · cases hm; exact h.1
      · exact ih h.2 hm

/-- What is known of a list that was read. -/
structure ValidList (cfg : Cfg) (fs : List Field) (vs : List Val) : Prop extends
    RewritableList cfg fs where
  sane : saneFields fs = true
  unique : uniqueFields [] fs = true
  fits : FitsFields cfg fs vs
  ok : OkFields fs vs
  shaped : ShapedFields cfg (envOf fs vs) fs vs

theorem shaped_len {cfg : Cfg} {env : Env} {k : Kind} {us : List Val} {tgt : String}
    (h : ShapedKind cfg env k (.seq us)) (ht : k.lenTarget? = some tgt) :
    (LenSpec.fromField tgt).eval cfg env = .ok us.length := by
  cases k <;> simp only [Kind.lenTarget?, Kind.lenSpec?, reduceCtorEq] at ht
  · rename_i e len b
    cases len <;> simp only [Option.some.injEq, reduceCtorEq] at ht
    subst ht
    rw [ShapedKind] at h
    exact h
  · rename_i fs len b sz
    cases len <;> simp only [Option.some.injEq, reduceCtorEq] at ht
    subst ht
    rw [ShapedKind] at h
    exact h.1

/-- A length slot no wider than `std::size_t` holds the length. -/
theorem length_exact {cfg : Cfg} {t : ScalarTy} {x : Int} {n : Nat} (hr : t.InRange x)
    (hs : t.size ≤ cfg.szBytes) (hn : n ≤ cfg.ptrdiffMax) (h : cfg.toSz x = n) : x = n := by
  have hb := range_bound hr
  have hp := Nat.pow_le_pow_right (n := 256) (by decide) hs
  have hm : cfg.szMod = 256 ^ cfg.szBytes := rfl
  have hpd : cfg.ptrdiffMax = cfg.szMod / 2 - 1 := rfl
  have hpos := pow256_pos cfg.szBytes
  by_cases h0 : x < 0
  · have := toSz_neg (cfg := cfg) h0 (by omega)
    omega
  · have := toSz_of_range (cfg := cfg) (x := x) (by omega) (by omega)
    omega

/-- Everything that determines a slot determines the value it holds. -/
theorem producers_exact {cfg : Cfg} {fs : List Field} {vs : List Val} (h : ValidList cfg fs vs)
    {id : String} {t : ScalarTy} {w : Nat} {c : Constraint} {x : Int}
    (hm : (Field.plain id (.num t w) c, Val.int x) ∈ fs.zip vs) (hs : isSlot fs id = true)
    {y : Int} (hy : y ∈ producers id fs vs) : y = x ∧ (0 ≤ x ∨ cfg.szBytes ≤ t.size) := by
  obtain ⟨f, v, hz, hp⟩ := producers_mem hy
  have hf := mem_of_zip hz
  have henv : envOf fs vs id = some (.int x) := env_zip h.unique hm
  have hsl := h.slots _ (mem_of_zip hm)
  simp only at hsl
  obtain ⟨hsz, _⟩ := hsl hs
  have hfx := fits_zip h.fits hm
  rw [FitsField, FitsKind] at hfx
  unfold produced at hp
  split at hp
  · rename_i i k c' us
    split at hp
    · rename_i ht
      cases hp
      have hsh := shaped_zip h.shaped hz
      rw [ShapedField] at hsh
      have hl := shaped_len hsh ht
      rw [LenSpec.eval, henv] at hl
      obtain ⟨us', he, hcnt⟩ := (counted_of_fits h.sane h.fits).2 _ _ hz id ht
      cases he
      have := length_exact hfx.1 hsz hcnt (Except.ok.inj hl)
      exact ⟨this.symm, .inl (by omega)⟩
    · cases hp
  · rename_i i m t' ls alts c' j w'
    split at hp
    · rename_i ht
      subst ht
      cases hl : ls[j]? with
      | none => rw [hl] at hp; cases hp
      | some l =>
        rw [hl] at hp
        cases hp
        have h1 := (h.resolves _ hf).2
        simp only at h1
        obtain ⟨g, hg, h1⟩ := h1
        split at h1
        · obtain ⟨h2, h3⟩ := h1
          have := field_inj h.unique hg (mem_of_zip hm) h2
          cases this
          subst h3
          have h4 := h.labels _ hf l (List.mem_of_getElem? hl)
          have hsh := shaped_zip h.shaped hz
          rw [ShapedField] at hsh
          have h5 := hsh.1
          simp only [Deducer.eval, henv] at h5
          obtain ⟨l', hl', hmt⟩ := switchIdx_sound (Except.ok.inj h5)
          rw [hl] at hl'
          cases hl'
          rw [labelMatches_iff hfx.1 h4.1] at hmt
          subst hmt
          exact ⟨rfl, h4.2⟩
        · exact h1.elim
    · cases hp
  · cases hp

theorem fits_exact {cfg : Cfg} {t : ScalarTy} {w : Nat} {x : Int} (hr : t.InRange x)
    (hs : t.size ≤ cfg.szBytes) (hw : w = t.size ∨ 0 ≤ x ∧ x < (256 ^ w : Nat))
    (hx : 0 ≤ x ∨ cfg.szBytes ≤ t.size) : fitsDeclaredWidth cfg t w (cfg.toSz x) = true := by
  unfold fitsDeclaredWidth
  rw [conv_toSz hr (.inl hs), Bool.and_eq_true]
  refine ⟨?_, by simp⟩
  have hb := range_bound hr
  have hp := Nat.pow_le_pow_right (n := 256) (by decide) hs
  have hm : cfg.szMod = 256 ^ cfg.szBytes := rfl
  split
  · rw [beq_iff_eq, shift_zero_iff]
    have h0 : 0 ≤ x := by omega
    have := toSz_of_range (cfg := cfg) (x := x) h0 (by omega)
    rcases hw with rfl | hw
    · omega
    · omega
  · rfl

/-- A slot of a parsed list is derived to be what it is. -/
theorem slot_derives {cfg : Cfg} {fs : List Field} {vs : List Val} (h : ValidList cfg fs vs)
    {id : String} {t : ScalarTy} {w : Nat} {c : Constraint} {x : Int}
    (hm : (Field.plain id (.num t w) c, Val.int x) ∈ fs.zip vs) (hs : isSlot fs id = true) :
    slotValue fs vs id = x ∧ deriveValue cfg fs vs id t w = .ok (.ok x) := by
  have hc := counted_of_fits h.sane h.fits
  have hmem := slotValue_mem (producers_ne hc hs)
  obtain ⟨hsv, hx⟩ := producers_exact h hm hs hmem
  refine ⟨hsv, ?_⟩
  rw [deriveValue_ok_iff hc hs, hsv]
  have hsl := h.slots _ (mem_of_zip hm)
  simp only at hsl
  obtain ⟨hsz, hwd⟩ := hsl hs
  have hfx := fits_zip h.fits hm
  rw [FitsField, FitsKind] at hfx
  refine ⟨fun p hp => by rw [(producers_exact h hm hs hp).1], ?_, ?_⟩
  · refine fits_exact hfx.1 hsz ?_ hx
    rcases hwd with hwd | ⟨hwd, ho⟩
    · exact .inl hwd
    · have := hfx.2
      rw [ho] at this
      rcases this with this | this
      · exact .inl this
      · exact .inr this.2
  · exact (conv_toSz hfx.1 (.inl hsz)).symm

/-- Every conditional container of a parsed list agrees with its length. -/
theorem cond_agrees {cfg : Cfg} {fs : List Field} {vs : List Val} (h : ValidList cfg fs vs)
    {id : String} {x : Int} (henv : envOf fs vs id = some (.int x)) {f : Field} {v : Val}
    (hz : (f, v) ∈ fs.zip vs) : f.condAgrees (envOf fs vs) id (cfg.toSz x) v = .ok true := by
  have hsh := shaped_zip h.shaped hz
  have hfit := fits_zip h.fits hz
  cases f with
  | plain i k c => rfl
  | maybe i k p =>
    cases v <;> simp only [FitsField] at hfit
    · rw [Field.condAgrees]; split <;> rfl
    · rename_i u
      rw [Field.condAgrees]
      split
      · rename_i ht
        rw [ShapedField] at hsh
        obtain ⟨us, rfl⟩ : ∃ us, u = .seq us := fits_container hfit ht
        have := shaped_len hsh.2 ht
        rw [LenSpec.eval, henv] at this
        simp only [hsh.1, Val.size?, Except.ok.inj this, beq_self_eq_true]
      · rfl
  | union i d alts c =>
    cases v <;> simp only [FitsField] at hfit
    rename_i j u
    rw [Field.condAgrees]
    split
    · rw [ShapedField] at hsh
      have hsa := hsh.2
      clear hsh
      cases ha : alts[j]? with
      | none => rfl
      | some a =>
        simp only
        split
        · rename_i ht
          have key : FitsKind cfg a.kind u ∧ ShapedKind cfg (envOf fs vs) a.kind u := by
            clear hz
            induction alts generalizing j with
            | nil => simp at ha
            | cons b alts ih =>
              cases b with
              | mk k c' =>
                cases j with
                | zero =>
                  simp only [List.getElem?_cons_zero, Option.some.injEq] at ha
                  subst ha
                  rw [FitsAlts] at hfit
                  rw [ShapedAlts] at hsa
                  exact ⟨hfit, hsa⟩
                | succ j =>
                  rw [List.getElem?_cons_succ] at ha
                  rw [FitsAlts] at hfit
                  rw [ShapedAlts] at hsa
                  by_cases hany : anyAltTargets id alts = true
                  · exact ih j hfit hany hsa ha
                  · exfalso
                    apply hany
                    unfold anyAltTargets
                    rw [List.any_eq_true]
                    exact ⟨a, List.mem_of_getElem? ha, by simpa using ht⟩
          obtain ⟨us, rfl⟩ : ∃ us, u = .seq us := fits_container key.1 ht
          have := shaped_len key.2 ht
          rw [LenSpec.eval, henv] at this
          simp only [Val.size?, Except.ok.inj this, beq_self_eq_true]
        · rfl
    · rfl

/-- The length of a conditional container is an integer field. -/
theorem conditional_plain {fs : List Field} (hu : uniqueFields [] fs = true) (hres : Resolves fs)
    {f : Field} (hf : f ∈ fs) (hs : hasConditional fs f.id = true) :
    ∃ t w c, f = .plain f.id (.num t w) c := by
  unfold hasConditional at hs
  rw [List.any_eq_true] at hs
  obtain ⟨g, hg, hc⟩ := hs
  have hr : HasScalar fs f.id fun _ _ => True := by
    apply (hres g hg).1
    cases g with
    | plain i k c => cases hc
    | maybe i k p =>
      simp only [Field.condTargets, decide_eq_true_eq] at hc
      simp [lengthTargets, hc]
    | union i d alts c =>
      simp only [Field.condTargets, anyAltTargets, List.any_eq_true, decide_eq_true_eq] at hc
      obtain ⟨a, ha, hc⟩ := hc
      simp only [lengthTargets, List.mem_flatMap]
      exact ⟨a, ha, by simp [hc]⟩
  obtain ⟨g', hg', h⟩ := hr
  split at h
  · have := field_inj hu hf hg' (by simp [Field.id, h.1])
    subst this
    exact ⟨_, _, _, rfl⟩
  · exact h.elim

theorem typedConst_eq (k : Kind) (c : Constraint) : typedConst k c = frozenVal k c := by
  unfold typedConst frozenVal; rfl

/-- A fixed field of a parsed list is written as it is. -/
theorem fixed_complete {cfg : Cfg} {fs : List Field} {vs : List Val} (h : ValidList cfg fs vs)
    {id : String} {k : Kind} {c : Constraint} {v : Val}
    (hm : (Field.plain id k c, v) ∈ fs.zip vs) (hk : k.isFixed = true) :
    (writeFixed cfg ⟨fs, vs⟩ true id k c v).Emits (wireKind cfg.wire k v) () := by
  have hfit := fits_zip h.fits hm
  rw [FitsField] at hfit
  have hok := ok_zip h.ok hm
  rw [OkField] at hok
  have hv : (verifyThenWrite cfg ⟨fs, vs⟩ id k v).Emits (wireKind cfg.wire k v) () := by
    rw [emits_verifyThenWrite]
    refine ⟨emits_emitFixed cfg k v hk hfit, fun hc => ?_⟩
    obtain ⟨t, w, c', he⟩ := conditional_plain h.unique h.resolves (mem_of_zip hm) hc
    cases he
    cases v <;> simp only [FitsKind] at hfit
    rename_i x
    refine ⟨x, rfl, ?_⟩
    rw [verifyScan_iff]
    exact fun f u hz => cond_agrees h (env_zip h.unique hm) hz
  rw [emits_writeFixed]
  cases hs : isSlot fs id with
  | true =>
    left
    obtain ⟨t, w, c', he⟩ := slot_plain h.unique h.resolves (mem_of_zip hm) hs
    cases he
    cases v <;> simp only [FitsKind] at hfit
    rename_i x
    exact ⟨rfl, t, w, x, rfl, (slot_derives h hm hs).2, hok.2, hv⟩
  | false =>
    right
    refine ⟨rfl, ?_⟩
    simp only [if_true]
    cases hcst : frozenVal k c with
    | none => exact hv
    | some u =>
      have := h.consts _ (mem_of_zip hm) u ((typedConst_eq k c).trans hcst) v hfit hok.2
      subst this
      exact hv

theorem conditional_fixed {cfg : Cfg} {ctx : WCtx} {id : String} {k : Kind} {c : Constraint}
    {v : Val} (h1 : isSlot ctx.fs id = false) (h2 : hasConditional ctx.fs id = false)
    (hk : k.isFixed = true) (hf : FitsKind cfg k v) :
    (writeFixed cfg ctx false id k c v).Emits (wireKind cfg.wire k v) () := by
  rw [emits_writeFixed]
  right
  refine ⟨h1, ?_⟩
  rw [emits_verifyThenWrite]
  refine ⟨by simpa using emits_emitFixed cfg k v hk hf, ?_⟩
  rw [h2]; intro hc; cases hc

theorem complete_recs {cfg : Cfg} {fs : List Field}
    (one : ∀ ws, FitsFields cfg fs ws → OkFields fs ws → ShapedFields cfg (envOf fs ws) fs ws →
      (writeFields cfg ⟨fs, ws⟩ fs ws).Emits (wireFields cfg.wire fs ws) ())
    {vs : List Val} (h1 : ∀ v ∈ vs, ∃ ws, v = .seq ws ∧ FitsFields cfg fs ws)
    (h2 : ∀ v ∈ vs, ∃ ws, v = .seq ws ∧ OkFields fs ws)
    (h3 : ∀ v ∈ vs, ∃ ws, v = .seq ws ∧ ShapedFields cfg (envOf fs ws) fs ws) :
    (writeRecs (fun ws => writeFields cfg ⟨fs, ws⟩ fs ws) vs).Emits
      (vs.flatMap (recordBytes fun ws => wireFields cfg.wire fs ws)) () := by
  rw [emits_writeRecs]
  refine ⟨vs.map (recordBytes fun ws => wireFields cfg.wire fs ws), List.flatMap_def .., ?_⟩
  induction vs with
  | nil => exact .nil
  | cons v vs ih =>
    obtain ⟨ws, rfl, hf⟩ := h1 v (by simp)
    obtain ⟨ws', he, ho⟩ := h2 (.seq ws) (by simp); cases he
    obtain ⟨ws', he, hs⟩ := h3 (.seq ws) (by simp); cases he
    refine .cons ⟨ws, rfl, one ws hf ho hs⟩ (ih ?_ ?_ ?_)
    · exact fun v hv => h1 v (by simp [hv])
    · exact fun v hv => h2 v (by simp [hv])
    · exact fun v hv => h3 v (by simp [hv])

mutual
theorem complete_kind (cfg : Cfg) : (k : Kind) → saneKind k = true → uniqueKind k = true →
    EveryKind (RewritableList cfg) k → ∀ ctx m id c v, FitsKind cfg k v → OkKind k v →
    ShapedKind cfg ctx.env k v →
    (k.isFixed = true → (writeFixed cfg ctx m id k c v).Emits (wireKind cfg.wire k v) ()) →
    (writeKind cfg ctx m id c k v).Emits (wireKind cfg.wire k v) ()
  | .num t w, hs, hu, he, ctx, m, id, c, v, hf, ho, hsh, hfix => by
      simpa only [writeKind] using hfix rfl
  | .fbuf e n, hs, hu, he, ctx, m, id, c, v, hf, ho, hsh, hfix => by
      simpa only [writeKind] using hfix rfl
  | .fstr n, hs, hu, he, ctx, m, id, c, v, hf, ho, hsh, hfix => by
      simpa only [writeKind] using hfix rfl
  | .vec e len b, hs, hu, he, ctx, m, id, c, v, hf, ho, hsh, hfix => by
      cases v <;> simp only [FitsKind] at hf
      rename_i us
      rw [ShapedKind] at hsh
      rw [writeKind, emits_verifyComputed (fun _ _ => hsh), wireKind]
      exact ⟨hsh, emits_writeVec cfg e us (ptrdiff_lt _ _ hf.1.2) hf.2⟩
  | .record fs, hs, hu, he, ctx, m, id, c, v, hf, ho, hsh, hfix => by
      cases v <;> simp only [FitsKind] at hf
      rename_i us
      rw [OkKind] at ho
      rw [ShapedKind] at hsh
      rw [saneKind] at hs
      rw [uniqueKind] at hu
      rw [EveryKind] at he
      rw [writeKind, emits_untag, wireKind]
      exact complete_fields cfg fs hs [] hu he.2 ⟨fs, us⟩ us ⟨he.1, hs, hu, hf, ho, hsh⟩
        (fun _ _ hm => hm) hf ho hsh
  | .arrRec fs n, hs, hu, he, ctx, m, id, c, v, hf, ho, hsh, hfix => by
      cases v <;> simp only [FitsKind] at hf
      rename_i us
      rw [OkKind] at ho
      rw [ShapedKind] at hsh
      rw [saneKind] at hs
      rw [uniqueKind] at hu
      rw [EveryKind] at he
      rw [writeKind, if_neg (by simp [hf.1]), wireKind]
      exact complete_recs (fun ws hf ho hsh => complete_fields cfg fs hs [] hu he.2 ⟨fs, ws⟩ ws
        ⟨he.1, hs, hu, hf, ho, hsh⟩ (fun _ _ hm => hm) hf ho hsh) hf.2 ho hsh
  | .vecRec fs len b sz, hs, hu, he, ctx, m, id, c, v, hf, ho, hsh, hfix => by
      cases v <;> simp only [FitsKind] at hf
      rename_i us
      rw [OkKind] at ho
      rw [ShapedKind] at hsh
      simp only [saneKind, Bool.and_eq_true] at hs
      rw [uniqueKind] at hu
      rw [EveryKind] at he
      rw [writeKind, emits_verifyComputed (fun _ _ => hsh.1), wireKind]
      exact ⟨hsh.1, complete_recs (fun ws hf ho hsh => complete_fields cfg fs hs.2 [] hu he.2
        ⟨fs, ws⟩ ws ⟨he.1, hs.2, hu, hf, ho, hsh⟩ (fun _ _ hm => hm) hf ho hsh) hf.2 ho hsh.2⟩
theorem complete_field (cfg : Cfg) : (f : Field) → saneField f = true → uniqueField f = true →
    EveryField (RewritableList cfg) f → ∀ ctx v, ValidList cfg ctx.fs ctx.vs →
    (f, v) ∈ ctx.fs.zip ctx.vs → FitsField cfg f v → OkField f v → ShapedField cfg ctx.env f v →
    (writeStep cfg ctx f v).Emits (wireField cfg.wire f v) ()
  | .plain id k c, hs, hu, he, ctx, v, hin, hm, hf, ho, hsh => by
      rw [saneField] at hs
      rw [uniqueField] at hu
      rw [EveryField] at he
      rw [FitsField] at hf
      rw [OkField] at ho
      rw [ShapedField] at hsh
      rw [emits_writeStep, writeField, wireField]
      exact ⟨complete_kind cfg k hs hu he ctx true id c v hf ho.1 hsh
        (fun hk => fixed_complete hin hm hk), fun _ _ => ho.2⟩
  | .maybe id k pr, hs, hu, he, ctx, v, hin, hm, hf, ho, hsh => by
      rw [saneField] at hs
      rw [uniqueField] at hu
      rw [EveryField] at he
      have hns : isSlot ctx.fs id = false := by
        rw [← Bool.not_eq_true]
        intro hc
        obtain ⟨t, w, c', hf⟩ := slot_plain hin.unique hin.resolves (mem_of_zip hm) hc
        cases hf
      have hnc : hasConditional ctx.fs id = false := by
        rw [← Bool.not_eq_true]
        intro hc
        obtain ⟨t, w, c', hf⟩ := conditional_plain hin.unique hin.resolves (mem_of_zip hm) hc
        cases hf
      rw [emits_writeStep]
      refine ⟨?_, fun _ _ => by rfl⟩
      rw [writeField, WrE.emits_andThen]
      cases v <;> simp only [FitsField] at hf
      · simp only [ShapedField] at hsh
        exact ⟨false, [], [], rfl, (WrE.emits_lift _ _ _).2 ⟨rfl, hsh⟩, (WrE.emits_ok _ _ _).2 ⟨rfl, rfl⟩⟩
      · rename_i w
        simp only [ShapedField] at hsh
        simp only [OkField] at ho
        refine ⟨true, [], wireKind cfg.wire k w, by simp [wireField],
          (WrE.emits_lift _ _ _).2 ⟨rfl, hsh.1⟩, ?_⟩
        simp only [if_true]
        exact complete_kind cfg k hs hu he ctx false id .none w hf ho hsh.2
          (fun hk => conditional_fixed hns hnc hk hf)
  | .union id d alts c, hs, hu, he, ctx, v, hin, hm, hf, ho, hsh => by
      simp only [saneField, Bool.and_eq_true] at hs
      rw [uniqueField] at hu
      rw [EveryField] at he
      have hns : isSlot ctx.fs id = false := by
        rw [← Bool.not_eq_true]
        intro hc
        obtain ⟨t, w, c', hf⟩ := slot_plain hin.unique hin.resolves (mem_of_zip hm) hc
        cases hf
      have hnc : hasConditional ctx.fs id = false := by
        rw [← Bool.not_eq_true]
        intro hc
        obtain ⟨t, w, c', hf⟩ := conditional_plain hin.unique hin.resolves (mem_of_zip hm) hc
        cases hf
      rw [emits_writeStep]
      cases v <;> simp only [FitsField] at hf
      rename_i i w
      rw [ShapedField] at hsh
      rw [OkField] at ho
      refine ⟨?_, fun _ _ => ho.2⟩
      have ha := complete_alts cfg alts hs.2 hu he ctx id i w hns hnc hf ho.1 hsh.2
      rw [wireField]
      cases d with
      | matchField tgt t ls => simpa only [writeField] using ha
      | matchCompute comp t ls =>
        simp only [writeField, WrE.emits_andThen, WrE.emits_lift]
        exact ⟨some i, [], _, rfl, ⟨rfl, hsh.1⟩, by simpa using ha⟩
      | ladder ps =>
        simp only [writeField, WrE.emits_andThen, WrE.emits_lift]
        exact ⟨some i, [], _, rfl, ⟨rfl, hsh.1⟩, by simpa using ha⟩
theorem complete_alts (cfg : Cfg) : (alts : List Alt) → saneAlts alts = true →
    uniqueAlts alts = true → EveryAlts (RewritableList cfg) alts →
    ∀ ctx id i v, isSlot ctx.fs id = false → hasConditional ctx.fs id = false →
    FitsAlts cfg alts i v → OkAlts alts i v → ShapedAlts cfg ctx.env alts i v →
    (writeAlts cfg ctx id alts i v).Emits (wireAlts cfg.wire alts i v) ()
  | [], hs, hu, he, ctx, id, i, v, hns, hnc, hf, ho, hsh => by simp [FitsAlts] at hf
  | .mk k c :: alts, hs, hu, he, ctx, id, 0, v, hns, hnc, hf, ho, hsh => by
      simp only [saneAlts, Bool.and_eq_true] at hs
      simp only [uniqueAlts, Bool.and_eq_true] at hu
      rw [EveryAlts] at he
      rw [FitsAlts] at hf
      rw [OkAlts] at ho
      rw [ShapedAlts] at hsh
      rw [writeAlts, emits_checked, wireAlts]
      exact ⟨ho.2, complete_kind cfg k hs.1 hu.1 he.1 ctx false id c v hf ho.1 hsh
        (fun hk => conditional_fixed hns hnc hk hf)⟩
  | .mk k c :: alts, hs, hu, he, ctx, id, i + 1, v, hns, hnc, hf, ho, hsh => by
      simp only [saneAlts, Bool.and_eq_true] at hs
      simp only [uniqueAlts, Bool.and_eq_true] at hu
      rw [EveryAlts] at he
      rw [FitsAlts] at hf
      rw [OkAlts] at ho
      rw [ShapedAlts] at hsh
      rw [writeAlts, wireAlts]
      exact complete_alts cfg alts hs.2 hu.2 he.2 ctx id i v hns hnc hf ho hsh
theorem complete_fields (cfg : Cfg) : (fs : List Field) → saneFields fs = true →
    ∀ seen, uniqueFields seen fs = true → EveryFields (RewritableList cfg) fs →
    ∀ ctx vs, ValidList cfg ctx.fs ctx.vs →
    (∀ f v, (f, v) ∈ fs.zip vs → (f, v) ∈ ctx.fs.zip ctx.vs) →
    FitsFields cfg fs vs → OkFields fs vs → ShapedFields cfg ctx.env fs vs →
    (writeFields cfg ctx fs vs).Emits (wireFields cfg.wire fs vs) ()
  | [], hs, seen, hu, he, ctx, vs, hin, hm, hf, ho, hsh => by
      cases vs with
      | nil => rw [writeFields, WrE.emits_ok, wireFields]; exact ⟨rfl, rfl⟩; all_goals simp
      | cons v vs => simp [FitsFields] at hf
  | f :: fs, hs, seen, hu, he, ctx, [], hin, hm, hf, ho, hsh => by simp [FitsFields] at hf
  | f :: fs, hs, seen, hu, he, ctx, v :: vs, hin, hm, hf, ho, hsh => by
      simp only [saneFields, Bool.and_eq_true] at hs
      simp only [uniqueFields, Bool.and_eq_true] at hu
      rw [EveryFields] at he
      rw [FitsFields] at hf
      rw [OkFields] at ho
      rw [ShapedFields] at hsh
      rw [emits_writeFields_cons, wireFields]
      exact ⟨_, _, rfl,
        complete_field cfg f hs.1 hu.1.2 he.1 ctx v hin (hm f v (by simp)) hf.1 ho.1 hsh.1,
        complete_fields cfg fs hs.2 _ hu.2 he.2 ctx vs hin
          (fun g u hg => hm g u (by rw [List.zip_cons_cons]; exact List.mem_cons_of_mem _ hg))
          hf.2 ho.2 hsh.2⟩
end

theorem conv_conv {b c : Nat} {s u : Bool} (h : b ≤ c) (x : Int) :
    (ScalarTy.int b s).conv ((ScalarTy.int c u).conv x) = (ScalarTy.int b s).conv x := by
  rw [← conv_residue b s, ← conv_residue b s x]
  congr 1
  rw [← residue_residue h ((ScalarTy.int c u).conv x), ← residue_residue h x]
  congr 3
  have := pow256_pos c
  cases u with
  | false => simp only [ScalarTy.conv]; exact residue_residue (Nat.le_refl c) x
  | true =>
    simp only [ScalarTy.conv]
    split
    · exact residue_residue (Nat.le_refl c) x
    · have e : residue c ((residue c x : Int) - (256 ^ c : Nat)) = residue c (residue c x : Int) := by
        unfold residue
        rw [Int.sub_emod_right]
      rw [e]; exact residue_residue (Nat.le_refl c) x

theorem cstr_exact {s : List Int} {cs : List Int} (hl : cs.length = s.length)
    (hz : s.getLast? = some 0) (hn : 0 ∉ s.dropLast) (h : cstr? cs = cstr? s) (hs : (cstr? s).isSome) :
    cs = s := by
  induction s generalizing cs with
  | nil => simp at hz
  | cons a s ih =>
    cases cs with
    | nil => simp at hl
    | cons c cs =>
      cases s with
      | nil =>
        simp only [List.getLast?_singleton, Option.some.injEq] at hz
        subst hz
        cases cs with
        | nil =>
          simp only [cstr?, if_true] at h
          split at h
          · rename_i h0; rw [h0]
          · simp at h
        | cons d cs => simp at hl
      | cons a' s =>
        simp only [List.dropLast_cons_cons, List.mem_cons, not_or] at hn
        have ha : ¬ a = 0 := fun h => hn.1 h.symm
        rw [cstr?, cstr?, if_neg ha] at h
        rw [cstr?, if_neg ha, Option.isSome_map] at hs
        obtain ⟨t, ht⟩ := Option.isSome_iff_exists.1 hs
        rw [ht] at h
        split at h
        · simp at h
        · cases hc : cstr? cs with
          | none => rw [hc] at h; simp at h
          | some t' =>
            rw [hc] at h
            simp only [Option.map_some, Option.some.injEq, List.cons.injEq] at h
            obtain ⟨rfl, rfl⟩ := h
            have := ih (cs := cs) (by simpa using hl) (by simpa using hz) (by simpa using hn.2)
              (by rw [hc, ht]) hs
            rw [this]

theorem chars_map {vs : List Val} {cs : List Int} (h : Val.chars? vs = some cs) :
    vs = cs.map .int := by
  induction vs generalizing cs with
  | nil => simp [Val.chars?] at h; simp [h]
  | cons v vs ih =>
    cases v <;> simp only [Val.chars?, reduceCtorEq] at h
    rw [Option.map_eq_some_iff] at h
    obtain ⟨t, ht, rfl⟩ := h
    rw [ih ht]; rfl

/-- Checked constants are exact. -/
theorem exactConsts_of_checked {cfg : Cfg} {fs : List Field} (h : ExactConstsChecked fs) :
    ExactConsts cfg fs := by
  intro f hf
  have hc := h f hf
  cases f with
  | plain id k c =>
    simp only at hc ⊢
    intro u hu v hfit hh
    cases k with
    | num t w =>
      cases c <;> simp only [typedConst, Option.mem_def, reduceCtorEq] at hu
      rename_i op ot y
      cases op <;> simp only [Option.some.injEq, reduceCtorEq] at hu
      subst hu
      cases v <;> simp only [FitsKind] at hfit
      rename_i x
      simp only [Holds, Constraint.check, CmpOp.holds, Except.ok.injEq, beq_iff_eq] at hh
      subst hh
      congr 1
      have hr := hfit.1
      cases ot with
      | int b s =>
        simp only [exactConst, decide_eq_true_eq] at hc
        cases t with
        | int b' s' =>
          rw [conv_conv (b := b') hc, ScalarTy.conv_of_inRange _ _ hr]
        | bool =>
          have hb : 0 < b := hc
          have e : (ScalarTy.int b s).conv x = x := by
            apply ScalarTy.conv_of_inRange
            have : 256 ^ 1 ≤ 256 ^ b := Nat.pow_le_pow_right (by decide) hb
            rcases hr with rfl | rfl <;> cases s <;> simp only [ScalarTy.InRange] <;> omega
          rw [e, ScalarTy.conv_of_inRange _ _ hr]
      | bool =>
        cases t with
        | int b' s' => simp [exactConst] at hc
        | bool => rw [ScalarTy.conv_of_inRange _ _ hr, ScalarTy.conv_of_inRange _ _ hr]
      subst hu
      cases hc
    | fbuf e n =>
      cases c <;> simp only [typedConst, Option.mem_def, reduceCtorEq] at hu
      rename_i b w
      cases b <;> simp only [Option.some.injEq, reduceCtorEq] at hu
      subst hu
      simp only [Holds, Constraint.check, Except.ok.injEq, beq_true] at hh
      exact (Val.eqb_iff _ _).1 hh
      subst hu
      cases hc
    | fstr n =>
      cases c <;> simp only [typedConst, Option.mem_def, reduceCtorEq] at hu
      rename_i b s
      cases b <;> simp only [Option.some.injEq, reduceCtorEq] at hu
      subst hu
      simp only [exactConst, Bool.and_eq_true, beq_iff_eq, Bool.not_eq_true', ← Bool.not_eq_true,
        List.contains_iff_mem] at hc
      cases v <;> simp only [FitsKind] at hfit
      rename_i us
      simp only [Holds, Constraint.check] at hh
      split at hh
      · cases hh
      · rename_i cs hcs
        rw [chars_map hcs] at hfit ⊢
        split at hh
        · rename_i a b ha hb
          simp only [Except.ok.injEq, beq_true, beq_iff_eq] at hh
          subst hh
          rw [cstr_exact (s := s) (cs := cs) (by simpa [hc.1.1] using hfit.1) hc.1.2 hc.2
            (by rw [ha, hb]) (by rw [hb]; rfl)]
        · cases hh
    | _ => cases c <;> simp [typedConst] at hu
  | _ => trivial

theorem rewritable_of_checked {cfg : Cfg} {fs : List Field} (h : RewritableChecked cfg fs) :
    Rewritable cfg fs :=
  ⟨h.1, everywhere_mono (fun _ h => ⟨h.1, h.2.1, h.2.2.1, exactConsts_of_checked h.2.2.2⟩) h.2⟩

/-- A valid struct of a rewritable schema is written, as its encoding. -/
theorem streamCast_complete {cfg : Cfg} {fs : List Field} {vs : List Val}
    (h : Rewritable cfg fs) (hv : Valid cfg fs vs) :
    (streamCast cfg fs vs).Emits (wire cfg fs vs) () := by
  obtain ⟨⟨hs, hu, _⟩, h1, h2⟩ := h
  obtain ⟨hf, ho, hsh⟩ := hv
  exact complete_fields cfg fs hs [] hu h2 ⟨fs, vs⟩ vs ⟨h1, hs, hu, hf, ho, hsh⟩
    (fun _ _ hm => hm) hf ho hsh

end S2S
