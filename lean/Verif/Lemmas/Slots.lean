import Verif.Lemmas.WriteTyped
import Verif.Spec.Numeral
/-
The slots the library fills, one at a time; nested lists.
-/
namespace S2S
open Spec

/-! ### numerals -/

theorem numeral_little (bs : List Byte) : numeral .little bs = leNat bs := by
  induction bs with
  | nil => rfl
  | cons b bs ih =>
    simp only [numeral, List.foldr_cons, leNat] at ih ⊢
    rw [ih]

theorem numeral_big (bs : List Byte) : numeral .big bs = leNat bs.reverse := by
  rw [← numeral_little]
  simp only [numeral, List.foldr_reverse]
  congr 1
  funext n b
  omega

theorem numeral_order (o : Endian) (bs : List Byte) : numeral o (o.order bs) = leNat bs := by
  cases o
  · exact numeral_little bs
  · rw [numeral_big, Endian.order, List.reverse_reverse]

/-- What the bytes of a number on the wire say: its residue. -/
theorem numeral_wire {o : Endian} {b w : Nat} {x : Int} (hw : w = b ∨ w < b ∧ o = .little) :
    (numeral o (wireScalar o b w x) : Int) = x % (256 ^ w : Nat) := by
  rcases hw with rfl | ⟨hw, rfl⟩
  · rw [wireScalar_eq _ _ _ _ (Nat.le_refl _), List.take_of_length_le (by simp), numeral_order,
      leNat_leBytes, Nat.mod_eq_of_lt (residue_lt _ _), residue_cast]
  · rw [wireScalar_little _ _ _ (Nat.le_of_lt hw), numeral_little, leNat_leBytes,
      Int.natCast_emod, residue_cast]
    exact Int.emod_emod_of_dvd _ (Int.natCast_dvd_natCast.2 (Nat.pow_dvd_pow _ (Nat.le_of_lt hw)))

/-! ### the stored value of a slot -/

section same
variable {cfg : Cfg} {ctx ctx' : WCtx} (h : SameCtx cfg ctx ctx')
include h

theorem writeKind_same {k : Kind} (m : Bool) (id : String) (c : Constraint) (v : Val)
    (hr : ∀ i ∈ callableReads.computedIds k, ctx.env i = ctx'.env i) :
    writeKind cfg ctx m id c k v = writeKind cfg ctx' m id c k v := by
  cases k with
  | num t w => simp only [writeKind, writeFixed_same h]
  | fbuf e n => simp only [writeKind, writeFixed_same h]
  | fstr n => simp only [writeKind, writeFixed_same h]
  | vec e len b =>
    cases v <;> simp only [writeKind]
    refine verifyComputed_same fun c hc i hi => hr i ?_
    subst hc
    exact hi
  | record fs => cases v <;> simp only [writeKind]
  | arrRec fs n => cases v <;> simp only [writeKind]
  | vecRec fs len b sz =>
    cases v <;> simp only [writeKind]
    refine verifyComputed_same fun c hc i hi => hr i ?_
    subst hc
    exact hi

theorem writeAlts_same {alts : List Alt} (id : String) (i : Nat) (v : Val)
    (hr : ∀ a ∈ alts, ∀ i ∈ callableReads.computedIds a.kind, ctx.env i = ctx'.env i) :
    writeAlts cfg ctx id alts i v = writeAlts cfg ctx' id alts i v := by
  induction alts generalizing i with
  | nil => simp only [writeAlts]
  | cons a alts ih =>
    cases a with
    | mk k c =>
      cases i with
      | zero => simp only [writeAlts, writeKind_same h false id c v (hr (.mk k c) (by simp))]
      | succ i =>
        simp only [writeAlts]
        exact ih i fun a ha => hr a (by simp [ha])

theorem writeField_same {f : Field} (v : Val) (hr : ∀ i ∈ callableReads f, ctx.env i = ctx'.env i) :
    writeField cfg ctx f v = writeField cfg ctx' f v := by
  cases f with
  | plain id k c =>
    simp only [writeField]
    exact writeKind_same h _ _ _ _ hr
  | maybe id k p =>
    have h1 : p.eval ctx.env = p.eval ctx'.env :=
      Pred.eval_congr fun i hi => hr i (by simp [callableReads, hi])
    simp only [writeField, h1]
    cases v <;> simp only
    rename_i w
    rw [writeKind_same h false id .none w fun i hi => hr i (by simp [callableReads, hi])]
  | union id d alts c =>
    cases v <;> simp only [writeField]
    rename_i i w
    have h1 := writeAlts_same h (alts := alts) id i w fun a ha i hi => hr i (by
      simp only [callableReads, List.mem_append, List.mem_flatMap]
      exact .inr ⟨a, ha, hi⟩)
    cases d with
    | matchField tgt t ls => simp only [h1]
    | matchCompute comp t ls =>
      have h2 : (Deducer.matchCompute comp t ls).eval ctx.env =
          (Deducer.matchCompute comp t ls).eval ctx'.env :=
        Deducer.eval_congr fun i hi => hr i (by
          simp only [deducerDeps] at hi; simp [callableReads, hi])
      simp only [h1, h2]
    | ladder ps =>
      have h2 : (Deducer.ladder ps).eval ctx.env = (Deducer.ladder ps).eval ctx'.env :=
        Deducer.eval_congr fun i hi => hr i (by
          simp only [deducerDeps] at hi
          simp only [callableReads, List.mem_append]
          exact .inl hi)
      simp only [h1, h2]

theorem writeStep_same {f : Field} (hf : f ∈ ctx.fs) (v : Val) :
    writeStep cfg ctx f v = writeStep cfg ctx' f v := by
  unfold writeStep
  rw [h.fs, writeField_same h v (h.env f hf)]

theorem writeFields_same {fs : List Field} (hf : ∀ f ∈ fs, f ∈ ctx.fs) (vs : List Val) :
    writeFields cfg ctx fs vs = writeFields cfg ctx' fs vs := by
  induction fs generalizing vs with
  | nil => cases vs <;> simp only [writeFields]
  | cons f fs ih =>
    cases vs with
    | nil => simp only [writeFields]
    | cons v vs =>
      rw [writeFields_cons, writeFields_cons, writeStep_same h (hf f (by simp)),
        ih (fun g hg => hf g (by simp [hg]))]

end same

theorem deriveScan_skip {cfg : Cfg} {target : String} {pre post : List Field} {f : Field}
    {vpre vpost : List Val} {v v' : Val} (hl : vpre.length = pre.length)
    (hf : ∀ u, f.implies cfg target u = .ok none) (d : Derivation) :
    deriveScan cfg target (pre ++ f :: post) (vpre ++ v :: vpost) d =
      deriveScan cfg target (pre ++ f :: post) (vpre ++ v' :: vpost) d := by
  induction pre generalizing vpre d with
  | nil =>
    obtain rfl : vpre = [] := by simpa using hl
    simp only [List.nil_append, deriveScan, hf]
  | cons g pre ih =>
    cases vpre with
    | nil => simp at hl
    | cons u vpre =>
      simp only [List.cons_append, deriveScan]
      split
      · rfl
      · exact ih (by simpa using hl) _
      · exact ih (by simpa using hl) _

theorem envOf_skip {pre post : List Field} {f : Field} {vpre vpost : List Val} {v v' : Val}
    (hl : vpre.length = pre.length) {i : String} (hi : i ≠ f.id) :
    envOf (pre ++ f :: post) (vpre ++ v :: vpost) i =
      envOf (pre ++ f :: post) (vpre ++ v' :: vpost) i := by
  induction pre generalizing vpre with
  | nil =>
    obtain rfl : vpre = [] := by simpa using hl
    simp [envOf, Env.set, hi]
  | cons g pre ih =>
    cases vpre with
    | nil => simp at hl
    | cons u vpre =>
      simp only [List.cons_append, envOf, Env.set]
      rw [ih (by simpa using hl)]

theorem condAgrees_congr {env env' : Env} {target : String} {n : Nat} {f : Field} {v : Val}
    (h : ∀ i ∈ callableReads f, env i = env' i) :
    f.condAgrees env target n v = f.condAgrees env' target n v := by
  cases f with
  | plain id k c => rfl
  | maybe id k p =>
    have h1 : p.eval env = p.eval env' :=
      Pred.eval_congr fun i hi => h i (by simp [callableReads, hi])
    simp only [Field.condAgrees, h1]
  | union id d alts c => rfl

theorem verifyScan_skip {env env' : Env} {target : String} {n : Nat} {pre post : List Field}
    {id : String} {k : Kind} {c : Constraint} {vpre vpost : List Val} {v v' : Val}
    (hl : vpre.length = pre.length)
    (h : ∀ f ∈ pre ++ Field.plain id k c :: post, ∀ i ∈ callableReads f, env i = env' i) :
    verifyScan env target n (pre ++ .plain id k c :: post) (vpre ++ v :: vpost) =
      verifyScan env' target n (pre ++ .plain id k c :: post) (vpre ++ v' :: vpost) := by
  have htail : ∀ (fs : List Field) (vs : List Val),
      (∀ f ∈ fs, ∀ i ∈ callableReads f, env i = env' i) →
      verifyScan env target n fs vs = verifyScan env' target n fs vs := by
    intro fs
    induction fs with
    | nil => intro vs _; cases vs <;> simp only [verifyScan]
    | cons f fs ih =>
      intro vs hh
      cases vs with
      | nil => simp only [verifyScan]
      | cons u us =>
        simp only [verifyScan, ih us fun g hg => hh g (by simp [hg]),
          condAgrees_congr (hh f (by simp))]
  induction pre generalizing vpre with
  | nil =>
    obtain rfl : vpre = [] := by simpa using hl
    simp only [List.nil_append, verifyScan]
    rw [htail post vpost fun g hg => h g (by simp [hg])]
    rfl
  | cons g pre ih =>
    cases vpre with
    | nil => simp at hl
    | cons u vpre =>
      simp only [List.cons_append, verifyScan]
      rw [ih (by simpa using hl) (fun f hf => h f (by simp at hf ⊢; exact .inr hf)),
        condAgrees_congr (h g (by simp))]

/-- Changing the stored value of a fixed-size field that no callable reads leaves the
rest of the write as it was. -/
theorem sameCtx_skip {cfg : Cfg} {pre post : List Field} {id : String} {k : Kind}
    {c : Constraint} {vpre vpost : List Val} {v v' : Val} (hl : vpre.length = pre.length)
    (hk : k.lenTarget? = none)
    (h : ∀ f ∈ pre ++ Field.plain id k c :: post, id ∉ callableReads f) :
    SameCtx cfg ⟨pre ++ .plain id k c :: post, vpre ++ v :: vpost⟩
      ⟨pre ++ .plain id k c :: post, vpre ++ v' :: vpost⟩ := by
  have henv : ∀ f ∈ pre ++ Field.plain id k c :: post, ∀ i ∈ callableReads f,
      envOf (pre ++ .plain id k c :: post) (vpre ++ v :: vpost) i =
      envOf (pre ++ .plain id k c :: post) (vpre ++ v' :: vpost) i := by
    intro f hf i hi
    exact envOf_skip hl fun hid => h f hf (show id ∈ _ from (show i = id from hid) ▸ hi)
  refine ⟨rfl, fun t d => deriveScan_skip hl (fun u => ?_) d, fun t n => verifyScan_skip hl henv,
    henv⟩
  simp [Field.implies, hk]

/-- The writer does not look at the stored value of a slot or a constant. -/
theorem writeStep_ignores {cfg : Cfg} {ctx : WCtx} {id : String} {k : Kind} {c : Constraint}
    (hk : k.isFixed = true) (h : isSlot ctx.fs id = true ∨ (frozenVal k c).isSome = true)
    (v v' : Val) : writeStep cfg ctx (.plain id k c) v = writeStep cfg ctx (.plain id k c) v' := by
  have hi : (isDerived ctx.fs id || (frozenVal k c).isSome) = true := by
    rw [isDerived_eq]; simpa using h
  unfold writeStep
  simp only [Field.id, Field.isFrozen, hi, if_true]
  have := writeFixed_ignores (cfg := cfg) (id := id) h v v'
  cases k <;> simp only [Kind.isFixed, Bool.false_eq_true] at hk <;>
    simp only [writeField, writeKind, this]

theorem streamCast_ignores {cfg : Cfg} {pre post : List Field} {id : String} {k : Kind}
    {c : Constraint} {vpre vpost : List Val} (v v' : Val) (hl : vpre.length = pre.length)
    (hk : k.isFixed = true)
    (h : isSlot (pre ++ .plain id k c :: post) id = true ∨ (frozenVal k c).isSome = true)
    (hr : ∀ f ∈ pre ++ Field.plain id k c :: post, id ∉ callableReads f) :
    streamCast cfg (pre ++ .plain id k c :: post) (vpre ++ v :: vpost) =
      streamCast cfg (pre ++ .plain id k c :: post) (vpre ++ v' :: vpost) := by
  have hlt : k.lenTarget? = none := by
    cases k <;> simp only [Kind.isFixed, Bool.false_eq_true] at hk <;> rfl
  have hsame := sameCtx_skip (cfg := cfg) (vpost := vpost) (v := v) (v' := v') hl hlt hr
  unfold streamCast
  rw [writeFields_same hsame (fun _ h => h), writeFields_append _ _ _ _ _ _ hl,
    writeFields_append _ _ _ _ _ _ hl, writeFields_cons, writeFields_cons,
    writeStep_ignores hk h v v']

/-! ### the step of a slot -/

theorem tag_out (id : String) (r : WrE Reason α) :
    Wr.out (r.tag id) = match Wr.out r with
      | (.done (.ok a), b) => (.done (.ok a), b)
      | (.done (.error e), b) => (.done (.error ⟨e, id⟩), b)
      | (.stuck w, b) => (.stuck w, b) := by
  unfold WrE.tag
  rw [WrE.out_mapErr]
  cases Wr.out r with
  | mk o b =>
    cases o with
    | stuck w => rfl
    | done a => cases a <;> rfl

theorem lift_ok_andThen (a : α) (f : α → WrE ε β) :
    (WrE.lift (.ok a)).andThen f = f a := rfl
theorem lift_error_andThen (w : Stuck) (f : α → WrE ε β) :
    (WrE.lift (.error w)).andThen f = Wr.stuck w := rfl

theorem slotStep {cfg : Cfg} {fs : List Field} {vs : List Val} {id : String}
    {t : ScalarTy} {w : Nat} {c : Constraint} {v : Val} (hs : isSlot fs id = true) :
    writeStep cfg ⟨fs, vs⟩ (.plain id (.num t w) c) v =
      ((WrE.lift (deriveValue cfg fs vs id t w)).andThen fun
        | .error r => WrE.err r
        | .ok x =>
            (WrE.lift (c.check (.int x))).andThen fun b =>
            if b then verifyThenWrite cfg ⟨fs, vs⟩ id (.num t w) (.int x)
            else WrE.err .validationFailure).tag id := by
  unfold writeStep
  simp only [Field.id, isDerived_eq, hs, Bool.true_or, if_true, writeField, writeKind, writeFixed]
  rfl

theorem slotStep_contra {cfg : Cfg} {fs : List Field} {vs : List Val} {id : String}
    {t : ScalarTy} {w : Nat} {c : Constraint} {v : Val} (hcnt : Counted cfg fs vs)
    (hs : isSlot fs id = true)
    (h : ∃ y ∈ producers id fs vs, ∃ z ∈ producers id fs vs, cfg.toSz y ≠ cfg.toSz z) :
    Wr.out (writeStep cfg ⟨fs, vs⟩ (.plain id (.num t w) c) v) =
      (.done (.error ⟨.foundContradictingLength, id⟩), []) := by
  rw [slotStep hs]
  rcases deriveValue_eq (t := t) (w := w) hcnt hs with ⟨-, h1⟩ | ⟨h1, -⟩
  · rw [h1]; rfl
  · obtain ⟨y, hy, z, hz, hne⟩ := h
    exact absurd ((h1 y hy).trans (h1 z hz).symm) hne

theorem slotStep_unfit {cfg : Cfg} {fs : List Field} {vs : List Val} {id : String}
    {t : ScalarTy} {w : Nat} {c : Constraint} {v : Val} (hcnt : Counted cfg fs vs)
    (hs : isSlot fs id = true) {x : Int}
    (hall : ∀ y ∈ producers id fs vs, cfg.toSz y = cfg.toSz x)
    (h : fitsDeclaredWidth cfg t w (cfg.toSz x) = false) :
    Wr.out (writeStep cfg ⟨fs, vs⟩ (.plain id (.num t w) c) v) =
      (.done (.error ⟨.validationFailure, id⟩), []) := by
  have hx := hall _ (slotValue_mem (producers_ne hcnt hs))
  rw [slotStep hs]
  rcases deriveValue_eq (t := t) (w := w) hcnt hs with
    ⟨⟨y, hy, z, hz, hne⟩, h1⟩ | ⟨-, ⟨h1, -⟩ | ⟨-, h1⟩⟩
  · exact absurd ((hall y hy).trans (hall z hz).symm) hne
  · rw [hx, h] at h1; cases h1
  · rw [h1]; rfl

/-- A slot that is written. -/
theorem slotStep_emits {cfg : Cfg} {fs : List Field} {vs : List Val} {id : String}
    {t : ScalarTy} {w : Nat} {c : Constraint} {v : Val} {p : List Byte}
    (hcnt : Counted cfg fs vs) (hs : isSlot fs id = true)
    (h : (writeStep cfg ⟨fs, vs⟩ (.plain id (.num t w) c) v).Emits p ()) {x : Int}
    (hx : x ∈ producers id fs vs) :
    (∀ y ∈ producers id fs vs, cfg.toSz y = cfg.toSz x) ∧
    fitsDeclaredWidth cfg t w (cfg.toSz x) = true ∧ w ≤ t.size ∧
    p = wireScalar cfg.wire t.size w (t.conv (cfg.toSz x)) ∧
    Holds c (.int (t.conv (cfg.toSz x))) := by
  rw [emits_writeStep] at h
  replace h := h.1
  simp only [writeField, writeKind, emits_writeFixed, hs, true_and, Bool.true_eq_false, false_and,
    or_false] at h
  obtain ⟨t', w', x', hk, hd, hc, hv⟩ := h
  cases hk
  rw [deriveValue_ok_iff hcnt hs] at hd
  obtain ⟨h1, h2, rfl⟩ := hd
  rw [← h1 x hx] at h2 hc hv
  rw [emits_verifyThenWrite, emitFixed, emits_writeNum] at hv
  refine ⟨fun y hy => ?_, h2, hv.1.1, hv.1.2, hc⟩
  rw [h1 y hy, h1 x hx]

/-! ### nested lists -/

theorem emits_insideKind {cfg : Cfg} {ctx : WCtx} {m : Bool} {id : String} {c : Constraint}
    {k : Kind} {v : Val} {p : List Byte} {gs : List Field} {ws : List Val}
    (hw : InsideKind k v gs ws) (h : (writeKind cfg ctx m id c k v).Emits p ()) :
    ∃ a q b, p = a ++ (q ++ b) ∧ (streamCast cfg gs ws).Emits q () := by
  have hrecs : ∀ {one : List Val → WrE CastError Unit} {us : List Val} {p : List Byte},
      (writeRecs one us).Emits p () → .seq ws ∈ us →
      ∃ a q b, p = a ++ (q ++ b) ∧ (one ws).Emits q () := by
    intro one us
    induction us with
    | nil => intro p _ hm; cases hm
    | cons u us ih =>
      intro p h hm
      cases u with
      | seq xs =>
        rw [writeRecs, WrE.emits_andThen] at h
        obtain ⟨_, q, r, rfl, h1, h2⟩ := h
        rcases List.mem_cons.1 hm with hm | hm
        · cases hm
          exact ⟨[], q, r, rfl, emits_untag.1 h1⟩
        · obtain ⟨a, q', b, rfl, h3⟩ := ih h2 hm
          exact ⟨q ++ a, q', b, by simp, h3⟩
      | _ => rw [writeRecs] at h; exact ((WrE.emits_stuck _ _ _).1 h).elim; all_goals simp
  have hvc : ∀ {len : LenSpec} {n : Nat} {r : WrE Reason Unit} {p : List Byte},
      (verifyComputed cfg ctx.env len n r).Emits p () → r.Emits p () := by
    intro len n r p h
    cases len with
    | fromField i => exact h
    | computed c =>
      simp only [verifyComputed, WrE.emits_andThen, WrE.emits_lift] at h
      obtain ⟨x, q, s, rfl, ⟨rfl, -⟩, h⟩ := h
      split at h
      · exact ((WrE.emits_err _ _ _).1 h).elim
      · exact h
  cases hw with
  | record =>
    rw [writeKind, emits_untag] at h
    exact ⟨[], p, [], by simp, h⟩
  | arrRec hm =>
    rw [writeKind] at h
    split at h
    · exact ((WrE.emits_stuck _ _ _).1 h).elim
    · exact hrecs h hm
  | vecRec hm =>
    rw [writeKind] at h
    exact hrecs (hvc h) hm

theorem emits_insideAlts {cfg : Cfg} {ctx : WCtx} {id : String} {alts : List Alt} {i : Nat}
    {a : Alt} {v : Val} {p : List Byte} (hi : alts[i]? = some a)
    (h : (writeAlts cfg ctx id alts i v).Emits p ()) :
    Holds a.constraint v ∧ (writeKind cfg ctx false id a.constraint a.kind v).Emits p () := by
  induction alts generalizing i with
  | nil => simp at hi
  | cons b alts ih =>
    cases b with
    | mk k c =>
      cases i with
      | zero =>
        simp only [List.getElem?_cons_zero, Option.some.injEq] at hi
        subst hi
        rw [writeAlts, emits_checked] at h
        exact h
      | succ i =>
        rw [writeAlts] at h
        exact ih (by simpa using hi) h

theorem emits_union {cfg : Cfg} {ctx : WCtx} {id : String} {d : Deducer} {alts : List Alt}
    {c : Constraint} {i : Nat} {v : Val} {p : List Byte}
    (h : (writeField cfg ctx (.union id d alts c) (.var i v)).Emits p ()) :
    (writeAlts cfg ctx id alts i v).Emits p () ∧
    ((∃ tgt t ls, d = .matchField tgt t ls) ∨ d.eval ctx.env = .ok (some i)) := by
  have hd : ∀ {o : Except Stuck (Option Nat)},
      ((WrE.lift o : WrE Reason (Option Nat)).andThen fun
        | none => WrE.err .typeDeductionFailure
        | some j => if j ≠ i then WrE.err .validationFailure
            else writeAlts cfg ctx id alts i v).Emits p () →
      (writeAlts cfg ctx id alts i v).Emits p () ∧ o = .ok (some i) := by
    intro o h
    rw [WrE.emits_andThen] at h
    obtain ⟨j, q, s, rfl, h1, h2⟩ := h
    rw [WrE.emits_lift] at h1
    obtain ⟨rfl, rfl⟩ := h1
    cases j with
    | none => exact ((WrE.emits_err _ _ _).1 h2).elim
    | some j =>
      simp only at h2
      split at h2
      · exact ((WrE.emits_err _ _ _).1 h2).elim
      · rename_i hj
        simp only [Decidable.not_not] at hj
        subst hj
        exact ⟨h2, rfl⟩
  cases d with
  | matchField tgt t ls =>
    simp only [writeField] at h
    exact ⟨h, .inl ⟨_, _, _, rfl⟩⟩
  | matchCompute comp t ls =>
    simp only [writeField] at h
    exact ⟨(hd h).1, .inr (hd h).2⟩
  | ladder ps =>
    simp only [writeField] at h
    exact ⟨(hd h).1, .inr (hd h).2⟩

/-- Every list of fields inside a struct that is written is written itself, and its
bytes are part of the whole. -/
theorem emits_inside {cfg : Cfg} {fs : List Field} {vs : List Val} {gs : List Field}
    {ws : List Val} (hw : Inside fs vs gs ws) :
    ∀ {p : List Byte}, (streamCast cfg fs vs).Emits p () →
      ∃ a q b, p = a ++ (q ++ b) ∧ (streamCast cfg gs ws).Emits q () := by
  induction hw with
  | here => exact fun {p} h => ⟨[], p, [], by simp, h⟩
  | @deeper fs vs f v gs ws hs us hm hf hrest ih =>
    intro p h
    obtain ⟨pre, post, vpre, vpost, rfl, rfl, hl⟩ := split_of_zip hm
    obtain ⟨q, r, t, rfl, -, h1, -⟩ := (emits_split hl).1 h
    have h2 := (emits_writeStep.1 h1).1
    have h3 : ∃ a q b, r = a ++ (q ++ b) ∧ (streamCast cfg gs ws).Emits q () := by
      cases hf with
      | plain hk =>
        rw [writeField] at h2
        exact emits_insideKind hk h2
      | maybe hk =>
        rw [writeField, WrE.emits_andThen] at h2
        obtain ⟨b, q1, s1, rfl, h4, h5⟩ := h2
        rw [WrE.emits_lift] at h4
        obtain ⟨rfl, -⟩ := h4
        cases b with
        | false => exact ((WrE.emits_err _ _ _).1 h5).elim
        | true => exact emits_insideKind hk h5
      | union hi hk => exact emits_insideKind hk (emits_insideAlts hi (emits_union h2).1).2
    obtain ⟨a, q', b, rfl, h4⟩ := h3
    obtain ⟨a', q'', b', rfl, h5⟩ := ih h4
    exact ⟨q ++ a ++ a', q'', b' ++ b ++ t, by simp, h5⟩

/-! ### what fits a slot -/

/-- A number that is no larger than any container can be fits the slot exactly when it
is a value of the slot's type and of its width. -/
theorem fitsDeclaredWidth_iff {cfg : Cfg} {t : ScalarTy} {w x : Nat} (hx : x ≤ cfg.ptrdiffMax) :
    fitsDeclaredWidth cfg t w x = true ↔ t.InRange x ∧ x < 256 ^ w := by
  have hsz : cfg.toSz (x : Int) = x := toSz_count hx
  constructor
  · intro h
    have h1 := derived_exact (cfg := cfg) (t := t) (w := w) (x := (x : Int))
      ⟨.inr ⟨by omega, by have := ptrdiff_lt cfg x hx; omega⟩, .inl ⟨x, rfl, hx⟩⟩
      (by rw [hsz]; exact h)
    refine ⟨h1.1, ?_⟩
    by_cases hw : w < t.size
    · have := (h1.2.2 hw).2; omega
    · have h2 := range_bound h1.1
      have h3 : 256 ^ t.size ≤ 256 ^ w := Nat.pow_le_pow_right (by decide) (by omega)
      omega
  · rintro ⟨h1, h2⟩
    unfold fitsDeclaredWidth
    rw [ScalarTy.conv_of_inRange _ _ h1, hsz]
    simp only [beq_self_eq_true, Bool.and_true]
    split
    · rw [Nat.mul_comm w 8]
      simp only [beq_iff_eq, Nat.shiftRight_eq_div_pow]
      rw [Nat.pow_mul]
      exact Nat.div_eq_of_lt h2
    · rfl

theorem isSlot_of_produced {id : String} {fs : List Field} {f : Field} {v : Val} {x : Int}
    (hf : f ∈ fs) (h : produced id f v = some x) : isSlot fs id = true := by
  unfold isSlot
  rw [List.any_eq_true]
  refine ⟨f, hf, ?_⟩
  unfold produced at h
  split at h
  · split at h
    · rename_i ht; simp [ht]
    · cases h
  · split at h
    · rename_i ht; simp [ht]
    · cases h
  · cases h

/-- The write of a number comes to an end other than by an error. -/
theorem writeNum_no_error (cfg : Cfg) (t : ScalarTy) (w : Nat) (x : Int) (e : Reason)
    (p : List Byte) : Wr.out (writeNum cfg t w x) ≠ (.done (.error e), p) := by
  unfold writeNum
  generalize t.toMem cfg.host _ = m
  unfold writeNativeImpl
  split <;> simp [Wr.out, WrE.ok]

end S2S
