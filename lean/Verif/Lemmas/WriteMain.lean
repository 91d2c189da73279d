import Verif.Lemmas.Derive
/-
A successful write of a settled struct emits its encoding, and the struct is
valid.
-/
namespace S2S
open Spec

/-! ### numbers -/

theorem residue_residue {a b : Nat} (h : a ≤ b) (x : Int) : residue a (residue b x : Int) = residue a x := by
  have h1 : (residue a (residue b x : Int) : Int) = residue a x := by
    rw [residue_cast, residue_cast, residue_cast]
    apply Int.emod_emod_of_dvd
    exact Int.natCast_dvd_natCast.2 (Nat.pow_dvd_pow _ h)
  exact Int.ofNat_inj.1 h1

theorem conv_toSz {cfg : Cfg} {t : ScalarTy} {x : Int} (hr : t.InRange x)
    (h : t.size ≤ cfg.szBytes ∨ 0 ≤ x ∧ x < (cfg.szMod : Nat)) : t.conv (cfg.toSz x) = x := by
  by_cases h0 : 0 ≤ x ∧ x < (cfg.szMod : Nat)
  · unfold Cfg.toSz
    rw [residue_of_range _ _ h0.1 h0.2, ScalarTy.conv_of_inRange _ _ hr]
  · have hs : t.size ≤ cfg.szBytes := h.resolve_right h0
    cases t with
    | int b s =>
      simp only [ScalarTy.size] at hs
      conv => rhs; rw [← ScalarTy.conv_of_inRange _ _ hr]
      unfold Cfg.toSz
      rw [← conv_residue, residue_residue hs, conv_residue]
    | bool =>
      exfalso; apply h0
      simp only [ScalarTy.size] at hs
      have hp : 256 ^ 1 ≤ 256 ^ cfg.szBytes := Nat.pow_le_pow_right (by decide) hs
      simp only [ScalarTy.InRange] at hr
      unfold Cfg.szMod
      omega

theorem promote_size (t : ScalarTy) : t.size ≤ t.promote.size := by
  cases t with
  | bool => decide
  | int b s => simp only [ScalarTy.promote]; split <;> simp only [ScalarTy.size] <;> omega

theorem common_int (a b : ScalarTy) : ∃ n s, a.common b = .int n s ∧ a.size ≤ n := by
  have ha := promote_size a
  have hb : ∃ n s, b.promote = .int n s := by
    cases b with
    | bool => exact ⟨_, _, rfl⟩
    | int b s => simp only [ScalarTy.promote]; split <;> exact ⟨_, _, rfl⟩
  have ha' : ∃ n s, a.promote = .int n s := by
    cases a with
    | bool => exact ⟨_, _, rfl⟩
    | int b s => simp only [ScalarTy.promote]; split <;> exact ⟨_, _, rfl⟩
  obtain ⟨n, sn, hn⟩ := hb
  obtain ⟨m, sm, hm⟩ := ha'
  rw [hm] at ha
  replace ha : a.size ≤ m := ha
  simp only [ScalarTy.common, hm, hn]
  by_cases h1 : sm = sn
  · rw [if_pos h1]; exact ⟨_, _, rfl, Nat.le_trans ha (Nat.le_max_left _ _)⟩
  · rw [if_neg h1]
    split <;> split <;> exact ⟨_, _, rfl, by omega⟩

/-- Values of a type of at most `n` bytes are distinguished by `n` bytes. -/
theorem inRange_residue_inj {t : ScalarTy} {x y : Int} {n : Nat} (hx : t.InRange x)
    (hy : t.InRange y) (hn : t.size ≤ n) (h : residue n x = residue n y) : x = y := by
  apply ScalarTy.residue_inj t x y hx hy
  rw [← residue_residue hn x, ← residue_residue hn y, h]

/-- A label that is a value of the switched type is matched by itself only. -/
theorem labelMatches_iff {t : ScalarTy} {x : Int} {l : ScalarTy × Int} (hx : t.InRange x)
    (hl : t.InRange l.2) : labelMatches t x l = true ↔ x = l.2 := by
  unfold labelMatches
  obtain ⟨n, s, hc, hs⟩ := common_int t l.1
  rw [hc, beq_iff_eq]
  constructor
  · intro h
    apply inRange_residue_inj hx hl hs
    rw [← residue_conv n s x, ← residue_conv n s l.2, h]
  · intro h; rw [h]

theorem switchIdx_self {t : ScalarTy} {ls : List (ScalarTy × Int)}
    (hr : ∀ l ∈ ls, t.InRange l.2) (hn : (ls.map Prod.snd).Nodup) {i : Nat} {l : ScalarTy × Int}
    (hi : ls[i]? = some l) : switchIdx t l.2 ls = some i := by
  induction ls generalizing i with
  | nil => simp at hi
  | cons a ls ih =>
    rw [List.map_cons, List.nodup_cons] at hn
    have ha := hr a (by simp)
    cases i with
    | zero =>
      simp only [List.getElem?_cons_zero, Option.some.injEq] at hi
      subst hi
      rw [switchIdx, if_pos ((labelMatches_iff ha ha).2 rfl)]
    | succ i =>
      simp only [List.getElem?_cons_succ] at hi
      have hmem := List.mem_of_getElem? hi
      have hl := hr l (by simp [hmem])
      rw [switchIdx, if_neg, ih (fun l' h' => hr l' (by simp [h'])) hn.2 hi]
      · rfl
      · rw [labelMatches_iff hl ha]
        intro he
        exact hn.1 (he ▸ List.mem_map_of_mem hmem)

theorem switchIdx_sound {t : ScalarTy} {x : Int} {ls : List (ScalarTy × Int)} {i : Nat}
    (h : switchIdx t x ls = some i) : ∃ l, ls[i]? = some l ∧ labelMatches t x l = true := by
  induction ls generalizing i with
  | nil => simp [switchIdx] at h
  | cons a ls ih =>
    rw [switchIdx] at h
    split at h
    · rename_i hm
      cases h
      exact ⟨a, rfl, hm⟩
    · cases hs : switchIdx t x ls with
      | none => rw [hs] at h; cases h
      | some j =>
        rw [hs] at h
        cases h
        exact ih hs

/-! ### the scans -/

theorem deriveValue_ok_iff {cfg : Cfg} {fs : List Field} {vs : List Val} {id : String}
    {t : ScalarTy} {w : Nat} {x : Int} (h : Counted cfg fs vs)
    (hslot : isSlot fs id = true) :
    deriveValue cfg fs vs id t w = .ok (.ok x) ↔
      (∀ p ∈ producers id fs vs, cfg.toSz p = cfg.toSz (slotValue fs vs id)) ∧
      fitsDeclaredWidth cfg t w (cfg.toSz (slotValue fs vs id)) = true ∧
      x = t.conv (cfg.toSz (slotValue fs vs id)) := by
  have hne := producers_ne h hslot
  have hmem := slotValue_mem hne
  unfold deriveValue
  rw [deriveScan_eq cfg id fs vs h]
  constructor
  · intro hd
    simp only at hd
    split at hd
    · cases hd
    · rename_i ha
      simp only [Bool.not_eq_true, Bool.not_eq_false'] at ha
      have hr := (record_agreed _ _ ha).2.1
      have hv := hr _ (List.mem_map_of_mem hmem)
      rw [← hv] at hd
      split at hd
      · cases hd
      · rename_i hw
        cases hd
        refine ⟨fun p hp => ?_, by simpa using hw, rfl⟩
        rw [hr _ (List.mem_map_of_mem hp), ← hv]
  · rintro ⟨hall, hw, rfl⟩
    have hsame := record_same ((producers id fs vs).map cfg.toSz) (cfg.toSz (slotValue fs vs id))
      (by simpa using hall) (by simpa using hne) {} rfl (by intro hc; cases hc)
    simp only [hsame.1, hsame.2, hw, Bool.not_true, Bool.false_eq_true, if_false]

theorem verifyScan_iff (env : Env) (target : String) (n : Nat) (fs : List Field) (vs : List Val) :
    verifyScan env target n fs vs = .ok true ↔
      ∀ f v, (f, v) ∈ fs.zip vs → f.condAgrees env target n v = .ok true := by
  induction fs generalizing vs with
  | nil => cases vs <;> simp [verifyScan]
  | cons f fs ih =>
    cases vs with
    | nil => simp [verifyScan]
    | cons v vs =>
      rw [verifyScan, List.zip_cons_cons]
      have : (∀ g u, (g, u) ∈ (f, v) :: fs.zip vs → g.condAgrees env target n u = .ok true) ↔
          f.condAgrees env target n v = .ok true ∧ verifyScan env target n fs vs = .ok true := by
        rw [ih]
        constructor
        · intro h
          exact ⟨h f v (by simp), fun g u hg => h g u (by simp [hg])⟩
        · rintro ⟨h1, h2⟩ g u hg
          rcases List.mem_cons.1 hg with hg | hg
          · cases hg; exact h1
          · exact h2 g u hg
      rw [this]
      cases f.condAgrees env target n v with
      | error w => cases verifyScan env target n fs vs <;> simp
      | ok a => cases verifyScan env target n fs vs <;> simp

/-! ### steps -/

/-- The write of one field with its check (stream_cast_impl.hpp 31-47). -/
abbrev writeStep (cfg : Cfg) (ctx : WCtx) (f : Field) (v : Val) : WrE CastError Unit :=
  (if isDerived ctx.fs f.id || f.isFrozen then writeField cfg ctx f v
    else WrE.checked f.constraint v (writeField cfg ctx f v)).tag f.id

theorem writeFields_cons (cfg : Cfg) (ctx : WCtx) (f : Field) (fs : List Field) (v : Val)
    (vs : List Val) : writeFields cfg ctx (f :: fs) (v :: vs) =
      (writeStep cfg ctx f v).andThen fun _ => writeFields cfg ctx fs vs := by
  rw [writeFields]

theorem emits_writeFields_cons {cfg : Cfg} {ctx : WCtx} {f : Field} {fs : List Field} {v : Val}
    {vs : List Val} {p : List Byte} : (writeFields cfg ctx (f :: fs) (v :: vs)).Emits p () ↔
      ∃ q r, p = q ++ r ∧ (writeStep cfg ctx f v).Emits q () ∧
        (writeFields cfg ctx fs vs).Emits r () := by
  rw [writeFields_cons, WrE.emits_andThen]
  constructor
  · rintro ⟨_, q, r, h⟩; exact ⟨q, r, h⟩
  · rintro ⟨q, r, h⟩; exact ⟨(), q, r, h⟩

theorem emits_steps {cfg : Cfg} {ctx : WCtx} {fs : List Field} {vs : List Val} {p : List Byte}
    (h : (writeFields cfg ctx fs vs).Emits p ()) : fs.length = vs.length ∧
      ∀ f v, (f, v) ∈ fs.zip vs → ∃ q, (writeStep cfg ctx f v).Emits q () := by
  induction fs generalizing vs p with
  | nil =>
    cases vs with
    | nil => simp
    | cons v vs => simp only [writeFields] at h; exact ((WrE.emits_stuck _ _ _).1 h).elim
  | cons f fs ih =>
    cases vs with
    | nil => simp only [writeFields] at h; exact ((WrE.emits_stuck _ _ _).1 h).elim
    | cons v vs =>
      rw [emits_writeFields_cons] at h
      obtain ⟨q, r, rfl, h1, h2⟩ := h
      obtain ⟨h3, h4⟩ := ih h2
      refine ⟨by simp [h3], fun g u hg => ?_⟩
      rw [List.zip_cons_cons] at hg
      rcases List.mem_cons.1 hg with hg | hg
      · cases hg; exact ⟨q, h1⟩
      · exact h4 g u hg

theorem emits_checked {c : Constraint} {v : Val} {k : WrE Reason Unit} {p : List Byte} :
    (WrE.checked c v k).Emits p () ↔ Holds c v ∧ k.Emits p () := by
  unfold WrE.checked Holds
  rw [WrE.emits_andThen]
  constructor
  · rintro ⟨b, q, r, rfl, h1, h2⟩
    rw [WrE.emits_lift] at h1
    obtain ⟨rfl, h1⟩ := h1
    cases b with
    | true => exact ⟨h1, by simpa using h2⟩
    | false => simp [WrE.emits_err] at h2
  · rintro ⟨h1, h2⟩
    exact ⟨true, [], p, rfl, (WrE.emits_lift _ _ _).2 ⟨rfl, h1⟩, by simpa using h2⟩

theorem emits_writeStep {cfg : Cfg} {ctx : WCtx} {f : Field} {v : Val} {p : List Byte} :
    (writeStep cfg ctx f v).Emits p () ↔
      (writeField cfg ctx f v).Emits p () ∧
      (isSlot ctx.fs f.id = false → f.isFrozen = false → Holds f.constraint v) := by
  unfold writeStep WrE.tag
  rw [WrE.emits_mapErr, isDerived_eq]
  cases h1 : isSlot ctx.fs f.id <;> cases h2 : f.isFrozen <;> simp [emits_checked, and_comm]

theorem emits_verifyThenWrite {cfg : Cfg} {ctx : WCtx} {id : String} {k : Kind} {v : Val}
    {p : List Byte} : (verifyThenWrite cfg ctx id k v).Emits p () ↔
      (emitFixed cfg k v).Emits p () ∧
      (hasConditional ctx.fs id = true →
        ∃ x, v = .int x ∧ verifyScan ctx.env id (cfg.toSz x) ctx.fs ctx.vs = .ok true) := by
  unfold verifyThenWrite
  split
  · rename_i hc
    cases v with
    | int x =>
      rw [WrE.emits_andThen]
      constructor
      · rintro ⟨b, q, r, rfl, h1, h2⟩
        rw [WrE.emits_lift] at h1
        obtain ⟨rfl, h1⟩ := h1
        cases b with
        | true => exact ⟨by simpa using h2, fun _ => ⟨x, rfl, h1⟩⟩
        | false => simp [WrE.emits_err] at h2
      · rintro ⟨h1, h2⟩
        obtain ⟨y, hy, h2⟩ := h2 hc
        cases hy
        exact ⟨true, [], p, rfl, (WrE.emits_lift _ _ _).2 ⟨rfl, h2⟩, by simpa using h1⟩
    | _ => simp [hc]
  · rename_i hc
    simp [hc]

theorem emits_writeFixed {cfg : Cfg} {ctx : WCtx} {m : Bool} {id : String} {k : Kind}
    {c : Constraint} {v : Val} {p : List Byte} : (writeFixed cfg ctx m id k c v).Emits p () ↔
      (isSlot ctx.fs id = true ∧ ∃ t w x, k = .num t w ∧
        deriveValue cfg ctx.fs ctx.vs id t w = .ok (.ok x) ∧ Holds c (.int x) ∧
        (verifyThenWrite cfg ctx id k (.int x)).Emits p ()) ∨
      (isSlot ctx.fs id = false ∧
        (verifyThenWrite cfg ctx id k ((if m then frozenVal k c else none).getD v)).Emits p ()) := by
  unfold writeFixed
  rw [isDerived_eq]
  cases hs : isSlot ctx.fs id with
  | false =>
    simp only [Bool.false_eq_true, if_false, false_and, true_and, false_or]
    cases (if m then frozenVal k c else none) <;> rfl
  | true =>
    simp only [if_true, true_and, reduceCtorEq, false_and, or_false]
    cases k with
    | num t w =>
      simp only [WrE.emits_andThen, WrE.emits_lift]
      constructor
      · rintro ⟨o, q, r, rfl, ⟨rfl, h1⟩, h2⟩
        cases o with
        | error e => simp [WrE.emits_err] at h2
        | ok x =>
          simp only [WrE.emits_andThen, WrE.emits_lift] at h2
          obtain ⟨b, q, r', rfl, ⟨rfl, h3⟩, h4⟩ := h2
          cases b with
          | false => simp [WrE.emits_err] at h4
          | true => exact ⟨t, w, x, rfl, h1, h3, by simpa using h4⟩
      · rintro ⟨t', w', x, hk, h1, h3, h4⟩
        cases hk
        refine ⟨.ok x, [], p, rfl, ⟨rfl, h1⟩, ?_⟩
        simp only [WrE.emits_andThen, WrE.emits_lift]
        exact ⟨true, [], p, rfl, ⟨rfl, h3⟩, by simpa using h4⟩
    | _ => simp [WrE.emits_stuck]

/-! ### what the success of all steps says about a list -/

theorem settle_zip {all : List Field} {vals : List Val} {fs : List Field} {vs : List Val}
    (h : settleFields all vals fs vs = vs) {f : Field} {v : Val} (hm : (f, v) ∈ fs.zip vs) :
    settleField all vals f v = v := by
  induction fs generalizing vs with
  | nil => simp at hm
  | cons a fs ih =>
    cases vs with
    | nil => simp at hm
    | cons b vs =>
      rw [settleFields, List.cons.injEq] at h
      rw [List.zip_cons_cons] at hm
      rcases List.mem_cons.1 hm with hm | hm
      · cases hm; exact h.1
      · exact ih h.2 hm

/-- A scalar field of the list, with its value. -/
theorem scalar_zip {fs : List Field} {vs : List Val} {id : String} {P : ScalarTy → Nat → Prop}
    (hl : fs.length = vs.length) (h : HasScalar fs id P) :
    ∃ t w c v, P t w ∧ (Field.plain id (.num t w) c, v) ∈ fs.zip vs := by
  obtain ⟨f, hf, h⟩ := h
  obtain ⟨v, hv⟩ := zip_of_mem hl hf
  split at h
  · rename_i i t w c
    obtain ⟨rfl, hp⟩ := h
    exact ⟨t, w, c, v, hp, hv⟩
  · exact h.elim

theorem storable_length {cfg : Cfg} {all fs : List Field} {vs : List Val}
    (h : StorableFields cfg all fs vs) : fs.length = vs.length := by
  induction fs generalizing vs with
  | nil => cases vs <;> simp_all [StorableFields]
  | cons f fs ih =>
    cases vs with
    | nil => simp [StorableFields] at h
    | cons v vs => rw [StorableFields] at h; simp [ih h.2]

theorem storable_zip {cfg : Cfg} {all fs : List Field} {vs : List Val}
    (h : StorableFields cfg all fs vs)
    {f : Field} {v : Val} (hm : (f, v) ∈ fs.zip vs) : StorableField cfg all f v := by
  induction fs generalizing vs with
  | nil => simp at hm
  | cons a fs ih =>
    cases vs with
    | nil => simp at hm
    | cons b vs =>
      rw [StorableFields] at h
      rw [List.zip_cons_cons] at hm
      rcases List.mem_cons.1 hm with hm | hm
      · cases hm; exact h.1
      · exact ih h.2 hm

theorem storableAlts_lt {cfg : Cfg} {alts : List Alt} {i : Nat} {v : Val}
    (h : StorableAlts cfg alts i v) : i < alts.length := by
  induction alts generalizing i with
  | nil => simp [StorableAlts] at h
  | cons a alts ih =>
    cases i with
    | zero => simp
    | succ i =>
      cases a
      rw [StorableAlts] at h
      simpa using ih h

theorem storable_count {cfg : Cfg} {k : Kind} {v : Val} {id : String} (hs : saneKind k = true)
    (h : StorableKind cfg k v) (ht : k.lenTarget? = some id) :
    ∃ us, v = .seq us ∧ us.length ≤ cfg.ptrdiffMax := by
  cases k <;> simp [Kind.lenTarget?, Kind.lenSpec?] at ht
  · simp only [saneKind, decide_eq_true_eq] at hs
    cases v <;> simp only [StorableKind, FitsKind, StorageFits] at h
    exact ⟨_, rfl, Nat.le_trans (Nat.le_mul_of_pos_right _ hs) h.1.2⟩
  · simp only [saneKind, Bool.and_eq_true, decide_eq_true_eq] at hs
    cases v <;> simp only [StorableKind, StorageFits] at h
    exact ⟨_, rfl, Nat.le_trans (Nat.le_mul_of_pos_right _ hs.1) h.1.2⟩

/-- A field that is no fixed-size field is the user's. -/
theorem storable_plain {cfg : Cfg} {fs : List Field} (hu : uniqueFields [] fs = true)
    (hres : Resolves fs) {id : String} {k : Kind} {c : Constraint} {v : Val}
    (hm : Field.plain id k c ∈ fs) (hk : k.isFixed = false)
    (h : StorableField cfg fs (.plain id k c) v) : StorableKind cfg k v := by
  rw [StorableField] at h
  rcases h with h | h | h
  · obtain ⟨t, w, c', hf⟩ := slot_plain hu hres hm h
    cases hf; cases hk
  · cases k <;> simp_all [Kind.isFixed, constOf]
  · exact h

theorem counted_of_storable {cfg : Cfg} {fs : List Field} {vs : List Val}
    (hs : saneFields fs = true) (hu : uniqueFields [] fs = true) (hres : Resolves fs)
    (h : StorableFields cfg fs fs vs) : Counted cfg fs vs := by
  refine ⟨storable_length h, fun f v hz => ?_⟩
  have h1 := storable_zip h hz
  have h2 := sane_mem hs (mem_of_zip hz)
  cases f with
  | plain id k c =>
    intro tgt ht
    rw [saneField] at h2
    have hk : k.isFixed = false := by
      rw [← Bool.not_eq_true]
      intro hc
      rw [lenTarget_of_fixed hc] at ht
      cases ht
    exact storable_count h2 (storable_plain hu hres (mem_of_zip hz) hk h1) ht
  | maybe id k p => trivial
  | union id d alts c =>
    cases v <;> simp only [StorableField] at h1
    simp only [saneField, Bool.and_eq_true, decide_eq_true_eq] at h2
    have := storableAlts_lt h1
    exact ⟨_, _, rfl, by omega⟩

/-- Conditions on every list of the schema used below. -/
structure Writable (cfg : Cfg) (fs : List Field) : Prop where
  resolves : Resolves fs
  labels : GoodLabels cfg fs
  consts : GoodConsts cfg fs
  wide : WideSlots cfg fs

/-- Hypotheses on one list of a schema and its values. -/
structure Settled (cfg : Cfg) (fs : List Field) (vs : List Val) : Prop extends Writable cfg fs where
  sane : saneFields fs = true
  unique : uniqueFields [] fs = true
  storable : StorableFields cfg fs fs vs
  settled : settleFields fs vs fs vs = vs

theorem Settled.counted {cfg : Cfg} {fs : List Field} {vs : List Val} (h : Settled cfg fs vs) :
    Counted cfg fs vs := counted_of_storable h.sane h.unique h.resolves h.storable

/-- Whatever is produced for a slot survives `std::size_t`. -/
theorem produced_good {cfg : Cfg} {fs : List Field} {vs : List Val}
    (hu : uniqueFields [] fs = true) (hres : Resolves fs) (hlab : GoodLabels cfg fs)
    (hcnt : Counted cfg fs vs) {id : String} {t : ScalarTy} {w : Nat} {c : Constraint}
    (hm : Field.plain id (.num t w) c ∈ fs) {x : Int} (hx : x ∈ producers id fs vs) :
    (t.size ≤ cfg.szBytes ∨ 0 ≤ x ∧ x < (cfg.szMod : Nat)) ∧
      ((∃ n : Nat, x = n ∧ n ≤ cfg.ptrdiffMax) ∨ t.InRange x) := by
  obtain ⟨f, v, hz, hp⟩ := producers_mem hx
  have hf := mem_of_zip hz
  have hfv := hcnt.2 _ _ hz
  unfold produced at hp
  split at hp
  · rename_i i k c' us
    split at hp
    · rename_i ht
      cases hp
      obtain ⟨us', he, h1⟩ := hfv id ht
      cases he
      have h2 := ptrdiff_lt _ _ h1
      exact ⟨.inr (by omega), .inl ⟨_, rfl, h1⟩⟩
    · cases hp
  · rename_i i m t' ls alts c' j w'
    split at hp
    · rename_i ht
      subst ht
      cases hl : ls[j]? with
      | none => rw [hl] at hp; cases hp
      | some l =>
        rw [hl] at hp
        cases hp
        have h1 := (hres _ hf).2
        simp only at h1
        obtain ⟨g, hg, h1⟩ := h1
        split at h1
        · obtain ⟨h2, h3⟩ := h1
          have := field_inj hu hg hm h2
          cases this
          subst h3
          have h4 := (hlab _ hf).1 l (List.mem_of_getElem? hl)
          exact ⟨h4.2, .inr h4.1⟩
        · exact h1.elim
    · cases hp
  · cases hp

theorem shift_zero_iff (n w : Nat) : n >>> (w * 8) = 0 ↔ n < 256 ^ w := by
  have h : 2 ^ (w * 8) = 256 ^ w := by rw [Nat.mul_comm, Nat.pow_mul]
  rw [Nat.shiftRight_eq_div_pow, h, Nat.div_eq_zero_iff]
  have := pow256_pos w
  omega

theorem toSz_of_range {cfg : Cfg} {x : Int} (h0 : 0 ≤ x) (h1 : x < (cfg.szMod : Nat)) :
    (cfg.toSz x : Int) = x := residue_of_range _ _ h0 h1

/-- Negative numbers that are not too low are at least half of the range of `std::size_t`. -/
theorem toSz_neg {cfg : Cfg} {x : Int} (h0 : x < 0) (h1 : -((cfg.szMod : Nat) : Int) ≤ 2 * x) :
    (cfg.toSz x : Int) = x + (cfg.szMod : Nat) := by
  unfold Cfg.toSz
  rw [residue_cast]
  show x % (cfg.szMod : Nat) = _
  rw [Int.emod_eq_add_self_emod]
  exact Int.emod_eq_of_lt (by omega) (by omega)

theorem range_bound {t : ScalarTy} {x : Int} (h : t.InRange x) :
    -((256 ^ t.size : Nat) : Int) ≤ 2 * x ∧ x < (256 ^ t.size : Nat) := by
  cases t with
  | int b s =>
    have := pow256_pos b
    cases s <;> simp only [ScalarTy.InRange, ScalarTy.size] at * <;> omega
  | bool => simp only [ScalarTy.InRange, ScalarTy.size] at *; omega

/-- A slot value the writer accepts is written exactly, and what is written can be
read back. -/
theorem derived_exact {cfg : Cfg} {t : ScalarTy} {w : Nat} {x : Int}
    (hgood : (t.size ≤ cfg.szBytes ∨ 0 ≤ x ∧ x < (cfg.szMod : Nat)) ∧
      ((∃ n : Nat, x = n ∧ n ≤ cfg.ptrdiffMax) ∨ t.InRange x))
    (hw : fitsDeclaredWidth cfg t w (cfg.toSz x) = true) :
    t.InRange x ∧ t.conv (cfg.toSz x) = x ∧ (w < t.size → 0 ≤ x ∧ x < (256 ^ w : Nat)) := by
  unfold fitsDeclaredWidth at hw
  rw [Bool.and_eq_true] at hw
  obtain ⟨hw1, hw2⟩ := hw
  rw [beq_iff_eq] at hw2
  have hrange : t.InRange x := by
    rcases hgood.2 with ⟨n, rfl, hn⟩ | h
    · rw [toSz_count hn] at hw2
      have hlt := ptrdiff_lt _ _ hn
      have hr := t.conv_inRange n
      by_cases hle : t.size < cfg.szBytes
      · have hpow : 256 * 256 ^ t.size ≤ 256 ^ cfg.szBytes := by
          rw [Nat.mul_comm, ← Nat.pow_succ]; exact Nat.pow_le_pow_right (by decide) hle
        have hb := range_bound hr
        have hm : cfg.szMod = 256 ^ cfg.szBytes := rfl
        have hpd : cfg.ptrdiffMax = cfg.szMod / 2 - 1 := rfl
        have hp := pow256_pos t.size
        by_cases hneg : t.conv n < 0
        · have h1 := toSz_neg (cfg := cfg) hneg (by omega)
          omega
        · have h1 := toSz_of_range (cfg := cfg) (x := t.conv n) (by omega) (by omega)
          rw [hw2] at h1
          rw [h1]
          exact hr
      · have hpow : 256 ^ cfg.szBytes ≤ 256 ^ t.size :=
          Nat.pow_le_pow_right (by decide) (by omega)
        have hm : cfg.szMod = 256 ^ cfg.szBytes := rfl
        have hpd : cfg.ptrdiffMax = cfg.szMod / 2 - 1 := rfl
        cases t with
        | int b s =>
          simp only [ScalarTy.size] at hpow
          cases s <;> simp only [ScalarTy.InRange] <;> omega
        | bool =>
          simp only [ScalarTy.size] at hpow hle
          simp only [ScalarTy.InRange]
          simp only [ScalarTy.InRange] at hr
          by_cases h1 : cfg.szBytes = 1
          · rw [h1] at hm
            rcases hr with hr | hr
            · have h2 := toSz_of_range (cfg := cfg) (x := ScalarTy.bool.conv n) (by omega) (by omega)
              omega
            · have h2 := toSz_of_range (cfg := cfg) (x := ScalarTy.bool.conv n) (by omega) (by omega)
              omega
          · have h0 : cfg.szBytes = 0 := by omega
            rw [h0] at hm
            omega
    · exact h
  refine ⟨hrange, conv_toSz hrange hgood.1, fun hlt => ?_⟩
  have hb := range_bound hrange
  have hm : cfg.szMod = 256 ^ cfg.szBytes := rfl
  have hnn : 0 ≤ x ∧ x < (cfg.szMod : Nat) ∨ x < 0 ∧ t.size ≤ cfg.szBytes := by
    rcases hgood.1 with h | h
    · have := Nat.pow_le_pow_right (n := 256) (by decide) h
      by_cases hx : 0 ≤ x
      · exact .inl ⟨hx, by omega⟩
      · exact .inr ⟨by omega, h⟩
    · exact .inl h
  rcases hnn with ⟨h0, h1⟩ | ⟨h0, h1⟩
  · refine ⟨h0, ?_⟩
    have h2 := toSz_of_range (cfg := cfg) h0 h1
    split at hw1
    · rw [beq_iff_eq, shift_zero_iff] at hw1
      omega
    · have := Nat.pow_le_pow_right (n := 256) (by decide) (show cfg.szBytes ≤ w by omega)
      omega
  · exfalso
    have h2 := Nat.pow_le_pow_right (n := 256) (by decide) h1
    have h3 := toSz_neg (cfg := cfg) h0 (by omega)
    rw [if_pos (by omega), beq_iff_eq, shift_zero_iff] at hw1
    have h4 : 256 * 256 ^ w ≤ 256 ^ t.size := by
      rw [Nat.mul_comm, ← Nat.pow_succ]; exact Nat.pow_le_pow_right (by decide) hlt
    have := pow256_pos w
    omega

theorem derived_fits {cfg : Cfg} {t : ScalarTy} {w : Nat} {x : Int}
    (hgood : (t.size ≤ cfg.szBytes ∨ 0 ≤ x ∧ x < (cfg.szMod : Nat)) ∧
      ((∃ n : Nat, x = n ∧ n ≤ cfg.ptrdiffMax) ∨ t.InRange x))
    (hw : fitsDeclaredWidth cfg t w (cfg.toSz x) = true)
    (hwide : w = t.size ∨ w < t.size ∧ cfg.wire = .little) : ScalarFits cfg.wire t w x := by
  obtain ⟨h1, h2, h3⟩ := derived_exact hgood hw
  refine ⟨h1, ?_⟩
  rcases hwide with h | ⟨h, ho⟩
  · exact .inl h
  · refine .inr ⟨h, ?_⟩
    rw [ho]
    exact h3 h

/-- The constant of a field, if it fits, is what the writer freezes it to. -/
theorem frozenVal_of_const {cfg : Cfg} {k : Kind} {c : Constraint} {u : Val}
    (hu : constOf k c = some u) (hf : FitsKind cfg k u) : frozenVal k c = some u := by
  unfold constOf at hu
  split at hu
  · cases hu
    rw [FitsKind] at hf
    simp only [frozenVal, ScalarTy.conv_of_inRange _ _ hf.1]
  · cases hu; rfl
  · cases hu; rfl
  · exact hu
  · exact hu
  · cases hu

theorem frozenVal_none {k : Kind} {c : Constraint} (h : constOf k c = none) : frozenVal k c = none := by
  have := frozen_of_const (k := k) (c := c)
  rw [h] at this
  simpa using this

/-- The step of a fixed-size field of a settled list writes the value it holds,
which fits, satisfies its constraint and agrees with everything that depends on it. -/
theorem fixed_step {cfg : Cfg} {fs : List Field} {vs : List Val} (h : Settled cfg fs vs)
    {id : String} {k : Kind} {c : Constraint} {v : Val} {q : List Byte}
    (hm : (Field.plain id k c, v) ∈ fs.zip vs) (hk : k.isFixed = true)
    (hstep : (writeStep cfg ⟨fs, vs⟩ (.plain id k c) v).Emits q ()) :
    (verifyThenWrite cfg ⟨fs, vs⟩ id k v).Emits q () ∧ Holds c v ∧ FitsKind cfg k v ∧
    (isSlot fs id = true → v = .int (slotValue fs vs id) ∧
      ∀ p ∈ producers id fs vs, cfg.toSz p = cfg.toSz (slotValue fs vs id)) := by
  rw [emits_writeStep] at hstep
  obtain ⟨hw, hc⟩ := hstep
  have hw' : (writeFixed cfg ⟨fs, vs⟩ true id k c v).Emits q () := by
    rw [writeField] at hw
    cases k <;> simp only [Kind.isFixed, Bool.false_eq_true] at hk <;>
      simpa only [writeKind] using hw
  have hset := settle_zip h.settled hm
  rw [settleField] at hset
  rw [emits_writeFixed] at hw'
  rcases hw' with ⟨hs, t, w, x, rfl, hd, hcx, hv⟩ | ⟨hs, hv⟩
  · replace hs : isSlot fs id = true := hs
    rw [deriveValue_ok_iff h.counted hs] at hd
    obtain ⟨h1, h2, h3⟩ := hd
    rw [if_pos hs] at hset
    have hmem := slotValue_mem (producers_ne h.counted hs)
    have hgood := produced_good h.unique h.resolves h.labels h.counted (mem_of_zip hm) hmem
    have hwide := h.wide _ (mem_of_zip hm)
    simp only at hwide
    have hfit := derived_fits hgood h2 (hwide hs)
    rw [(derived_exact hgood h2).2.1] at h3
    subst h3
    rw [hset] at hv hcx
    refine ⟨hv, hcx, ?_, fun _ => ⟨hset.symm, h1⟩⟩
    rw [← hset, FitsKind]
    exact hfit
  · replace hs : isSlot fs id = false := hs
    simp only [if_true] at hv
    rw [hs] at hset
    simp only [Bool.false_eq_true, if_false] at hset
    cases hcst : constOf k c with
    | none =>
      rw [frozenVal_none hcst] at hv
      refine ⟨hv, hc hs (by simp [Field.isFrozen, frozenVal_none hcst]), ?_,
        fun hs' => by rw [hs] at hs'; cases hs'⟩
      have h2 := storable_zip h.storable hm
      rw [StorableField, hs, hcst] at h2
      simp only [Bool.false_eq_true, Option.isSome_none, false_or] at h2
      cases k <;> simp only [Kind.isFixed, Bool.false_eq_true] at hk <;>
        simpa only [StorableKind] using h2
    | some u =>
      rw [hcst] at hset
      simp only at hset
      subst hset
      have h2 := h.consts _ (mem_of_zip hm) _ hcst
      rw [frozenVal_of_const hcst h2.1] at hv
      exact ⟨hv, h2.2, h2.1, fun hs' => by rw [hs] at hs'; cases hs'⟩

/-- The lengths and selections of a list follow from its own values. -/
structure Facts (cfg : Cfg) (fs : List Field) (vs : List Val) : Prop where
  len : ∀ i k c us tgt, (Field.plain i k c, Val.seq us) ∈ fs.zip vs → k.lenTarget? = some tgt →
    (LenSpec.fromField tgt).eval cfg (envOf fs vs) = .ok us.length
  sw : ∀ i tgt t ls alts c j w, (Field.union i (.matchField tgt t ls) alts c, Val.var j w) ∈ fs.zip vs →
    Deducer.eval (envOf fs vs) (.matchField tgt t ls) = .ok (some j)
  opt : ∀ i k p us tgt, (Field.maybe i k p, Val.present (.seq us)) ∈ fs.zip vs →
    p.eval (envOf fs vs) = .ok true → k.lenTarget? = some tgt →
    (LenSpec.fromField tgt).eval cfg (envOf fs vs) = .ok us.length
  alt : ∀ i d alts c j us a tgt, (Field.union i d alts c, Val.var j (.seq us)) ∈ fs.zip vs →
    alts[j]? = some a → a.kind.lenTarget? = some tgt →
    (LenSpec.fromField tgt).eval cfg (envOf fs vs) = .ok us.length

theorem facts_of_steps {cfg : Cfg} {fs : List Field} {vs : List Val} (h : Settled cfg fs vs)
    (hsteps : ∀ f v, (f, v) ∈ fs.zip vs → ∃ q, (writeStep cfg ⟨fs, vs⟩ f v).Emits q ()) :
    Facts cfg fs vs := by
  have hl := storable_length h.storable
  -- a slot holds what its producers say
  have hslot : ∀ f v tgt, (f, v) ∈ fs.zip vs → isSlot fs tgt = true →
      ∀ P, HasScalar fs tgt P → ∀ y, produced tgt f v = some y →
      ∃ x, envOf fs vs tgt = some (.int x) ∧ cfg.toSz y = cfg.toSz x ∧ x = slotValue fs vs tgt ∧
        ∃ t w c, P t w ∧ Field.plain tgt (.num t w) c ∈ fs ∧ t.InRange x := by
    intro f v tgt hz hs P hP y hy
    obtain ⟨t, w, c, u, hPt, hzt⟩ := scalar_zip hl hP
    obtain ⟨q, hq⟩ := hsteps _ _ hzt
    obtain ⟨_, _, hfit, hx0⟩ := fixed_step h hzt rfl hq
    obtain ⟨hu, hx⟩ := hx0 hs
    have henv : envOf fs vs tgt = some u := env_zip h.unique hzt
    subst hu
    rw [FitsKind] at hfit
    exact ⟨_, henv, hx _ (mem_producers hz hy), rfl, t, w, c, hPt, mem_of_zip hzt, hfit.1⟩
  -- a conditional container agrees with the field it names
  have hcond : ∀ f v tgt, (f, v) ∈ fs.zip vs → f.condTargets tgt = true →
      HasScalar fs tgt (fun _ _ => True) →
      ∃ x, envOf fs vs tgt = some (.int x) ∧
        f.condAgrees (envOf fs vs) tgt (cfg.toSz x) v = .ok true := by
    intro f v tgt hz hc hP
    obtain ⟨t, w, c, u, _, hzt⟩ := scalar_zip hl hP
    obtain ⟨q, hq⟩ := hsteps _ _ hzt
    obtain ⟨hv, _⟩ := fixed_step h hzt rfl hq
    rw [emits_verifyThenWrite] at hv
    have hh : hasConditional fs tgt = true := by
      unfold hasConditional
      rw [List.any_eq_true]
      exact ⟨f, mem_of_zip hz, hc⟩
    obtain ⟨x, rfl, hx⟩ := hv.2 hh
    rw [verifyScan_iff] at hx
    exact ⟨x, env_zip h.unique hzt, hx f v hz⟩
  refine ⟨?_, ?_, ?_, ?_⟩
  · intro i k c us tgt hz ht
    have hf := mem_of_zip hz
    have hs : isSlot fs tgt = true := by
      unfold isSlot; rw [List.any_eq_true]; exact ⟨_, hf, by simp [ht]⟩
    have hP := (h.resolves _ hf).1 tgt (by simp [lengthTargets, ht])
    obtain ⟨x, hx, hy, _⟩ := hslot _ _ tgt hz hs _ hP us.length (by simp [produced, ht])
    obtain ⟨us', he, hcnt⟩ := h.counted.2 _ _ hz tgt ht
    cases he
    simp only [LenSpec.eval, hx, ← hy, toSz_count hcnt]
  · intro i tgt t ls alts c j w hz
    have hf := mem_of_zip hz
    have hs : isSlot fs tgt = true := by
      unfold isSlot; rw [List.any_eq_true]; exact ⟨_, hf, by simp⟩
    have hP := (h.resolves _ hf).2
    simp only at hP
    obtain ⟨j', w', he, hj'⟩ := h.counted.2 _ _ hz
    cases he
    simp only [arity] at hj'
    have hlj : ls[j]? = some ls[j] := List.getElem?_eq_getElem hj'
    obtain ⟨x, hx, hy, hxs, t', w', c', ht', hin, hfu⟩ :=
      hslot _ _ tgt hz hs _ hP ls[j].2 (by simp [produced, hlj])
    subst ht'
    have hlab := h.labels _ hf
    simp only at hlab
    have hmem := slotValue_mem (producers_ne h.counted hs)
    rw [← hxs] at hmem
    have hgood := (produced_good h.unique h.resolves h.labels h.counted hin hmem).1
    have hl1 := hlab.1 ls[j] (List.getElem_mem hj')
    have hxl : x = ls[j].2 := by
      rw [← conv_toSz hfu hgood, ← hy, conv_toSz hl1.1 hl1.2]
    simp only [Deducer.eval, hx]
    rw [hxl, switchIdx_self (fun l hl => (hlab.1 l hl).1) hlab.2 hlj]
  · intro i k p us tgt hz hp ht
    have hf := mem_of_zip hz
    have hP := (h.resolves _ hf).1 tgt (by simp [lengthTargets, ht])
    obtain ⟨x, hx, ha⟩ := hcond _ _ tgt hz (by simp [Field.condTargets, ht]) hP
    simp only [Field.condAgrees, ht, if_true, hp, Val.size?] at ha
    simp only [Except.ok.injEq, beq_iff_eq] at ha
    simp only [LenSpec.eval, hx, ha]
  · intro i d alts c j us a tgt hz ha ht
    have hf := mem_of_zip hz
    have ham := List.mem_of_getElem? ha
    have hP := (h.resolves _ hf).1 tgt (by
      simp only [lengthTargets, List.mem_flatMap]; exact ⟨a, ham, by simp [ht]⟩)
    have hany : anyAltTargets tgt alts = true := by
      unfold anyAltTargets; rw [List.any_eq_true]; exact ⟨a, ham, by simp [ht]⟩
    obtain ⟨x, hx, hag⟩ := hcond _ _ tgt hz (by simpa [Field.condTargets] using hany) hP
    simp only [Field.condAgrees, hany, if_true, ha, ht, Val.size?] at hag
    simp only [Except.ok.injEq, beq_iff_eq] at hag
    simp only [LenSpec.eval, hx, hag]

end S2S
