import Verif.Model.Write
import Verif.Lemmas.Wr
import Verif.Spec.Schema
/-
Facts about the write trees that do not depend on what is written: how they end
when a write is refused, and which reasons they can give otherwise.
-/
namespace S2S
open Spec

/-! ### A refused write ends the cast with `buffer_exhaustion` -/

abbrev WShortR (r : WrE Reason α) : Prop := WrE.ShortE (fun e => e = .bufferExhaustion) r

theorem wshort_lift (o : Except Stuck α) (P : ε → Prop) : WrE.ShortE P (WrE.lift o : WrE ε α) := by
  cases o <;> trivial

theorem wshort_writeNativeImpl (mem : List Byte) (n : Nat) : WShortR (writeNativeImpl mem n) := by
  unfold writeNativeImpl
  split
  · trivial
  · exact ⟨⟨_, rfl, rfl⟩, trivial⟩

theorem wshort_all {P : ε → Prop} (ws : List (WrE ε Unit)) (h : ∀ w ∈ ws, WrE.ShortE P w) :
    WrE.ShortE P (WrE.all ws) := by
  induction ws with
  | nil => trivial
  | cons w ws ih =>
    rw [WrE.all]
    exact WrE.short_andThen (h w (by simp)) fun _ => ih fun w hw => h w (by simp [hw])

theorem wshort_writeForeignElem (cfg : Cfg) (e : ElemTy) (v : Val) :
    WShortR (writeForeignElem cfg e v) := by
  induction e generalizing v with
  | scalar t =>
    cases v <;> first | (rw [writeForeignElem]; exact wshort_writeNativeImpl _ _) | trivial
  | arr e n ih =>
    cases v with
    | seq vs =>
      rw [writeForeignElem]
      split
      · refine wshort_all _ fun w hw => ?_
        obtain ⟨v, _, rfl⟩ := List.mem_map.mp hw
        exact ih v
      · trivial
    | _ => trivial

theorem wshort_writeNative (o : Option (List Byte)) (n : Nat) : WShortR (writeNative o n) := by
  cases o with
  | none => trivial
  | some m => exact wshort_writeNativeImpl _ _

theorem wshort_map {α : Type} {f : α → WrE Reason Unit} (vs : List α) (h : ∀ v, WShortR (f v)) :
    WShortR (WrE.all (vs.map f)) :=
  wshort_all _ fun w hw => by
    obtain ⟨v, _, rfl⟩ := List.mem_map.mp hw
    exact h v

theorem wshort_writeFixedBuf (cfg : Cfg) (e : ElemTy) (n : Nat) (vs : List Val) :
    WShortR (writeFixedBuf cfg e n vs) := by
  unfold writeFixedBuf
  split
  · trivial
  · split
    · exact wshort_map _ fun v => wshort_writeForeignElem _ _ _
    · exact wshort_writeNative _ _

theorem wshort_writeFixedStr (n : Nat) (vs : List Val) : WShortR (writeFixedStr n vs) := by
  unfold writeFixedStr
  split
  · trivial
  · exact wshort_writeNative _ _

theorem wshort_writeVec (cfg : Cfg) (e : ElemTy) (vs : List Val) : WShortR (writeVec cfg e vs) := by
  unfold writeVec
  split
  · exact wshort_map _ fun v => wshort_writeForeignElem _ _ _
  · split
    · exact wshort_map _ fun v => wshort_writeNative _ _
    · exact wshort_writeNative _ _

theorem wshort_emitFixed (cfg : Cfg) (k : Kind) (v : Val) : WShortR (emitFixed cfg k v) := by
  unfold emitFixed
  split
  · exact wshort_writeNativeImpl _ _
  · exact wshort_writeFixedBuf _ _ _ _
  · exact wshort_writeFixedStr _ _
  · trivial

theorem wshort_verifyThenWrite (cfg : Cfg) (ctx : WCtx) (id : String) (k : Kind) (v : Val) :
    WShortR (verifyThenWrite cfg ctx id k v) := by
  unfold verifyThenWrite
  split
  · split
    · refine WrE.short_andThen (wshort_lift _ _) fun b => ?_
      split
      · exact wshort_emitFixed _ _ _
      · trivial
    · trivial
  · exact wshort_emitFixed _ _ _

theorem wshort_writeFixed (cfg : Cfg) (ctx : WCtx) (m : Bool) (id : String) (k : Kind)
    (c : Constraint) (v : Val) : WShortR (writeFixed cfg ctx m id k c v) := by
  unfold writeFixed
  split
  · split
    · refine WrE.short_andThen (wshort_lift _ _) fun r => ?_
      cases r with
      | error r => trivial
      | ok x =>
        refine WrE.short_andThen (wshort_lift _ _) fun b => ?_
        split
        · exact wshort_verifyThenWrite _ _ _ _ _
        · trivial
    · trivial
  · split
    · exact wshort_verifyThenWrite _ _ _ _ _
    · exact wshort_verifyThenWrite _ _ _ _ _

theorem wshort_verifyComputed (cfg : Cfg) (env : Env) (len : LenSpec) (n : Nat)
    {k : WrE Reason Unit} (h : WShortR k) : WShortR (verifyComputed cfg env len n k) := by
  unfold verifyComputed
  split
  · exact h
  · refine WrE.short_andThen (wshort_lift _ _) fun m => ?_
    split
    · trivial
    · exact h

theorem wshort_checked (c : Constraint) (v : Val) {k : WrE Reason Unit} (h : WShortR k) :
    WShortR (WrE.checked c v k) := by
  refine WrE.short_andThen (wshort_lift _ _) fun b => ?_
  split
  · exact h
  · trivial

theorem wshort_writeRecs {one : List Val → WrE CastError Unit}
    (h : ∀ ws, WrE.ShortE (fun e => e.reason = .bufferExhaustion) (one ws)) (vs : List Val) :
    WShortR (writeRecs one vs) := by
  induction vs with
  | nil => trivial
  | cons v vs ih =>
    cases v with
    | seq ws =>
      rw [writeRecs]
      exact WrE.short_andThen (WrE.short_mapErr (h ws) fun _ h => h) fun _ => ih
    | _ => trivial

abbrev WShortC (r : WrE CastError α) : Prop := WrE.ShortE (fun e => e.reason = .bufferExhaustion) r

mutual
theorem wshort_writeKind (cfg : Cfg) : (k : Kind) → ∀ ctx m id c v,
    WShortR (writeKind cfg ctx m id c k v)
  | .num t w, ctx, m, id, c, v => by rw [writeKind]; exact wshort_writeFixed _ _ _ _ _ _ _
  | .fbuf e n, ctx, m, id, c, v => by rw [writeKind]; exact wshort_writeFixed _ _ _ _ _ _ _
  | .fstr n, ctx, m, id, c, v => by rw [writeKind]; exact wshort_writeFixed _ _ _ _ _ _ _
  | .vec e len b, ctx, m, id, c, v => by
      cases v with
      | seq vs => rw [writeKind]; exact wshort_verifyComputed _ _ _ _ (wshort_writeVec _ _ _)
      | _ => simp only [writeKind]; trivial
  | .record fs, ctx, m, id, c, v => by
      cases v with
      | seq vs =>
        rw [writeKind]
        exact WrE.short_mapErr (wshort_writeFields cfg fs _ _) fun _ h => h
      | _ => simp only [writeKind]; trivial
  | .arrRec fs n, ctx, m, id, c, v => by
      cases v with
      | seq vs =>
        rw [writeKind]
        split
        · trivial
        · exact wshort_writeRecs (fun ws => wshort_writeFields cfg fs _ _) _
      | _ => simp only [writeKind]; trivial
  | .vecRec fs len b sz, ctx, m, id, c, v => by
      cases v with
      | seq vs =>
        rw [writeKind]
        exact wshort_verifyComputed _ _ _ _ (wshort_writeRecs (fun ws => wshort_writeFields cfg fs _ _) _)
      | _ => simp only [writeKind]; trivial
theorem wshort_writeField (cfg : Cfg) : (f : Field) → ∀ ctx v, WShortR (writeField cfg ctx f v)
  | .plain id k c, ctx, v => by rw [writeField]; exact wshort_writeKind cfg k _ _ _ _ _
  | .maybe id k p, ctx, v => by
      rw [writeField]
      refine WrE.short_andThen (wshort_lift _ _) fun b => ?_
      split
      · split
        · exact wshort_writeKind cfg k _ _ _ _ _
        · trivial
      · split <;> trivial
      · trivial
  | .union id d alts c, ctx, v => by
      have key : ∀ (o : Except Stuck (Option Nat)) i w, WShortR
          ((WrE.lift o).andThen fun
            | none => WrE.err .typeDeductionFailure
            | some j => if j ≠ i then WrE.err .validationFailure
                else writeAlts cfg ctx id alts i w : WrE Reason Unit) := by
        intro o i w
        refine WrE.short_andThen (wshort_lift _ _) fun o => ?_
        cases o with
        | none => trivial
        | some j =>
          simp only
          split
          · trivial
          · exact wshort_writeAlts cfg alts _ _ _ _
      cases v with
      | var i w =>
        cases d with
        | matchField i' t ls => simp only [writeField]; exact wshort_writeAlts cfg alts _ _ _ _
        | matchCompute c t ls => simp only [writeField]; exact key _ _ _
        | ladder ps => simp only [writeField]; exact key _ _ _
      | _ => simp only [writeField]; trivial
theorem wshort_writeAlts (cfg : Cfg) : (alts : List Alt) → ∀ ctx id i w,
    WShortR (writeAlts cfg ctx id alts i w)
  | [], ctx, id, i, w => by rw [writeAlts]; trivial
  | .mk k c :: alts, ctx, id, 0, w => by
      rw [writeAlts]
      exact wshort_checked _ _ (wshort_writeKind cfg k _ _ _ _ _)
  | .mk k c :: alts, ctx, id, i + 1, w => by
      rw [writeAlts]
      exact wshort_writeAlts cfg alts _ _ _ _
theorem wshort_writeFields (cfg : Cfg) : (fs : List Field) → ∀ ctx vs,
    WShortC (writeFields cfg ctx fs vs)
  | [], ctx, [] => by rw [writeFields]; trivial
  | [], ctx, v :: vs => by simp only [writeFields]; trivial
  | f :: fs, ctx, [] => by simp only [writeFields]; trivial
  | f :: fs, ctx, v :: vs => by
      rw [writeFields]
      refine WrE.short_andThen (WrE.short_mapErr (P := fun e => e = .bufferExhaustion) ?_
        (fun _ h => h)) fun _ => wshort_writeFields cfg fs _ _
      split
      · exact wshort_writeField cfg f _ _
      · exact wshort_checked _ _ (wshort_writeField cfg f _ _)
end

theorem wshort_streamCast (cfg : Cfg) (fs : List Field) (vs : List Val) :
    WShortC (streamCast cfg fs vs) := wshort_writeFields cfg fs _ _

/-! ### Reasons when every write is accepted -/

/-- Errors of the computation when every write is accepted are in `E`. -/
def Healthy (E : ε → Prop) (w : WrE ε α) : Prop :=
  ∀ e b, Wr.out w = (.done (.error e), b) → E e

theorem healthy_andThen {E : ε → Prop} {r : WrE ε α} {f : α → WrE ε β}
    (hr : Healthy E r) (hf : ∀ a, Healthy E (f a)) : Healthy E (r.andThen f) := by
  intro e b h
  rw [WrE.out_andThen] at h
  split at h
  · rename_i a q _
    simp only [Prod.mk.injEq] at h
    exact hf a e (Wr.out (f a)).2 (Prod.ext h.1 rfl)
  · rename_i h'
    cases h
    exact hr _ _ h'
  · cases h

theorem healthy_mapErr {E : ε → Prop} {E' : ε' → Prop} {r : WrE ε α} {g : ε → ε'}
    (hr : Healthy E r) (hg : ∀ e, E e → E' (g e)) : Healthy E' (r.mapErr g) := by
  intro e b h
  rw [WrE.out_mapErr] at h
  split at h
  · cases h
  · rename_i h'
    cases h
    exact hg _ (hr _ _ h')
  · cases h

theorem healthy_ok (E : ε → Prop) (a : α) : Healthy E (WrE.ok a : WrE ε α) := by
  intro e b h; cases h

theorem healthy_stuck (E : ε → Prop) (w : Stuck) : Healthy E (Wr.stuck w : WrE ε α) := by
  intro e b h; cases h

theorem healthy_err {E : ε → Prop} {e : ε} (h : E e) : Healthy E (WrE.err e : WrE ε α) := by
  intro e' b h'; cases h'; exact h

theorem healthy_lift (E : ε → Prop) (o : Except Stuck α) : Healthy E (WrE.lift o : WrE ε α) := by
  cases o
  · exact healthy_stuck _ _
  · exact healthy_ok _ _

/-- The reasons a write can give while the stream accepts everything. -/
def WriteReason (union : Bool) (r : Reason) : Prop :=
  r ≠ .excessiveLength ∧ r ≠ .bufferExhaustion ∧ (r = .typeDeductionFailure → union = true)

theorem WriteReason.mono {u u' : Bool} {r : Reason} (h : WriteReason u r)
    (hu : u = true → u' = true) : WriteReason u' r := ⟨h.1, h.2.1, fun hr => hu (h.2.2 hr)⟩

theorem writeReason_validation (u : Bool) : WriteReason u .validationFailure := by
  simp [WriteReason]
theorem writeReason_contra (u : Bool) : WriteReason u .foundContradictingLength := by
  simp [WriteReason]

theorem never_writeNativeImpl (E : Reason → Prop) (mem : List Byte) (n : Nat) :
    Healthy E (writeNativeImpl mem n) := by
  intro e b h
  unfold writeNativeImpl at h
  split at h <;> cases h

theorem never_all {E : ε → Prop} (ws : List (WrE ε Unit)) (h : ∀ w ∈ ws, Healthy E w) :
    Healthy E (WrE.all ws) := by
  induction ws with
  | nil => exact healthy_ok _ _
  | cons w ws ih =>
    rw [WrE.all]
    exact healthy_andThen (h w (by simp)) fun _ => ih fun w hw => h w (by simp [hw])

theorem never_map {α : Type} {E : ε → Prop} {f : α → WrE ε Unit} (vs : List α)
    (h : ∀ v, Healthy E (f v)) : Healthy E (WrE.all (vs.map f)) :=
  never_all _ fun w hw => by
    obtain ⟨v, _, rfl⟩ := List.mem_map.mp hw
    exact h v

theorem never_writeForeignElem (E : Reason → Prop) (cfg : Cfg) (e : ElemTy) (v : Val) :
    Healthy E (writeForeignElem cfg e v) := by
  induction e generalizing v with
  | scalar t =>
    cases v <;>
      first
      | (rw [writeForeignElem]; exact never_writeNativeImpl _ _ _)
      | (simp only [writeForeignElem]; exact healthy_stuck _ _)
  | arr e n ih =>
    cases v with
    | seq vs =>
      rw [writeForeignElem]
      split
      · exact never_map _ ih
      · exact healthy_stuck _ _
    | _ => simp only [writeForeignElem]; exact healthy_stuck _ _

theorem never_writeNative (E : Reason → Prop) (o : Option (List Byte)) (n : Nat) :
    Healthy E (writeNative o n) := by
  cases o with
  | none => exact healthy_stuck _ _
  | some m => exact never_writeNativeImpl _ _ _

theorem never_emitFixed (E : Reason → Prop) (cfg : Cfg) (k : Kind) (v : Val) :
    Healthy E (emitFixed cfg k v) := by
  unfold emitFixed
  split
  · exact never_writeNativeImpl _ _ _
  · unfold writeFixedBuf
    split
    · exact healthy_stuck _ _
    · split
      · exact never_map _ fun v => never_writeForeignElem _ _ _ _
      · exact never_writeNative _ _ _
  · unfold writeFixedStr
    split
    · exact healthy_stuck _ _
    · exact never_writeNative _ _ _
  · exact healthy_stuck _ _

theorem never_writeVec (E : Reason → Prop) (cfg : Cfg) (e : ElemTy) (vs : List Val) :
    Healthy E (writeVec cfg e vs) := by
  unfold writeVec
  split
  · exact never_map _ fun v => never_writeForeignElem _ _ _ _
  · split
    · exact never_map _ fun v => never_writeNative _ _ _
    · exact never_writeNative _ _ _

theorem fine_verifyThenWrite (u : Bool) (cfg : Cfg) (ctx : WCtx) (id : String) (k : Kind) (v : Val) :
    Healthy (WriteReason u) (verifyThenWrite cfg ctx id k v) := by
  unfold verifyThenWrite
  split
  · split
    · refine healthy_andThen (healthy_lift _ _) fun b => ?_
      split
      · exact never_emitFixed _ _ _ _
      · exact healthy_err (writeReason_contra u)
    · exact healthy_stuck _ _
  · exact never_emitFixed _ _ _ _

theorem deriveValue_reason (cfg : Cfg) (fs : List Field) (vs : List Val) (id : String)
    (t : ScalarTy) (w : Nat) (r : Reason) (h : deriveValue cfg fs vs id t w = .ok (.error r)) :
    r = .foundContradictingLength ∨ r = .validationFailure := by
  unfold deriveValue at h
  split at h
  · cases h
  · split at h
    · cases h; exact .inl rfl
    · split at h
      · cases h; exact .inr rfl
      · cases h

theorem fine_writeFixed (u : Bool) (cfg : Cfg) (ctx : WCtx) (m : Bool) (id : String) (k : Kind)
    (c : Constraint) (v : Val) : Healthy (WriteReason u) (writeFixed cfg ctx m id k c v) := by
  unfold writeFixed
  split
  · split
    · rename_i t w
      cases hd : deriveValue cfg ctx.fs ctx.vs id t w with
      | error w => exact healthy_stuck _ w
      | ok r =>
        show Healthy (WriteReason u) _
        cases r with
        | error r =>
          intro e b h
          cases h
          rcases deriveValue_reason _ _ _ _ _ _ _ hd with rfl | rfl
          · exact writeReason_contra u
          · exact writeReason_validation u
        | ok x =>
          have : Healthy (WriteReason u) ((WrE.lift (c.check (.int x))).andThen fun b =>
              if b then verifyThenWrite cfg ctx id (.num t w) (.int x)
              else WrE.err .validationFailure) := by
            refine healthy_andThen (healthy_lift _ _) fun b => ?_
            split
            · exact fine_verifyThenWrite _ _ _ _ _ _
            · exact healthy_err (writeReason_validation u)
          exact this
    · exact healthy_stuck _ _
  · split
    · exact fine_verifyThenWrite _ _ _ _ _ _
    · exact fine_verifyThenWrite _ _ _ _ _ _

theorem fine_verifyComputed (u : Bool) (cfg : Cfg) (env : Env) (len : LenSpec) (n : Nat)
    {k : WrE Reason Unit} (h : Healthy (WriteReason u) k) :
    Healthy (WriteReason u) (verifyComputed cfg env len n k) := by
  unfold verifyComputed
  split
  · exact h
  · refine healthy_andThen (healthy_lift _ _) fun m => ?_
    split
    · exact healthy_err (writeReason_contra u)
    · exact h

theorem fine_checked (u : Bool) (c : Constraint) (v : Val) {k : WrE Reason Unit}
    (h : Healthy (WriteReason u) k) : Healthy (WriteReason u) (WrE.checked c v k) := by
  refine healthy_andThen (healthy_lift _ _) fun b => ?_
  split
  · exact h
  · exact healthy_err (writeReason_validation u)

/-- Errors of a list: the named field is one of the list and can give that reason. -/
def WListError (fs : List Field) (e : CastError) : Prop :=
  ∃ f ∈ fs, f.id = e.failedAt ∧ WriteReason (unionInField f) e.reason

theorem unionInFields_of_mem' {f : Field} {fs : List Field} (h : f ∈ fs)
    (hu : unionInField f = true) : unionInFields fs = true := by
  induction fs with
  | nil => cases h
  | cons g fs ih =>
    simp only [unionInFields, Bool.or_eq_true]
    rcases List.mem_cons.mp h with rfl | h
    · exact .inl hu
    · exact .inr (ih h)

theorem fine_untag {fs : List Field} {r : WrE CastError α} (h : Healthy (WListError fs) r) :
    Healthy (WriteReason (unionInFields fs)) r.untag := by
  refine healthy_mapErr h ?_
  rintro e ⟨f, hf, _, hr⟩
  exact hr.mono fun hu => unionInFields_of_mem' hf hu

theorem fine_writeRecs {u : Bool} {one : List Val → WrE CastError Unit}
    (h : ∀ ws, Healthy (WriteReason u) (one ws).untag) (vs : List Val) :
    Healthy (WriteReason u) (writeRecs one vs) := by
  induction vs with
  | nil => exact healthy_ok _ _
  | cons v vs ih =>
    cases v with
    | seq ws => rw [writeRecs]; exact healthy_andThen (h ws) fun _ => ih
    | _ => simp only [writeRecs]; exact healthy_stuck _ _

mutual
theorem fine_writeKind (cfg : Cfg) : (k : Kind) → ∀ ctx m id c v,
    Healthy (WriteReason (unionInKind k)) (writeKind cfg ctx m id c k v)
  | .num t w, ctx, m, id, c, v => by rw [writeKind]; exact fine_writeFixed _ _ _ _ _ _ _ _
  | .fbuf e n, ctx, m, id, c, v => by rw [writeKind]; exact fine_writeFixed _ _ _ _ _ _ _ _
  | .fstr n, ctx, m, id, c, v => by rw [writeKind]; exact fine_writeFixed _ _ _ _ _ _ _ _
  | .vec e len b, ctx, m, id, c, v => by
      cases v with
      | seq vs => rw [writeKind]; exact fine_verifyComputed _ _ _ _ _ (never_writeVec _ _ _ _)
      | _ => simp only [writeKind]; exact healthy_stuck _ _
  | .record fs, ctx, m, id, c, v => by
      cases v with
      | seq vs => rw [writeKind]; exact fine_untag (fine_writeFields cfg fs _ _)
      | _ => simp only [writeKind]; exact healthy_stuck _ _
  | .arrRec fs n, ctx, m, id, c, v => by
      cases v with
      | seq vs =>
        rw [writeKind]
        split
        · exact healthy_stuck _ _
        · exact fine_writeRecs (fun ws => fine_untag (fine_writeFields cfg fs _ _)) _
      | _ => simp only [writeKind]; exact healthy_stuck _ _
  | .vecRec fs len b sz, ctx, m, id, c, v => by
      cases v with
      | seq vs =>
        rw [writeKind]
        exact fine_verifyComputed _ _ _ _ _
          (fine_writeRecs (fun ws => fine_untag (fine_writeFields cfg fs _ _)) _)
      | _ => simp only [writeKind]; exact healthy_stuck _ _
theorem fine_writeField (cfg : Cfg) : (f : Field) → ∀ ctx v,
    Healthy (WriteReason (unionInField f)) (writeField cfg ctx f v)
  | .plain id k c, ctx, v => by rw [writeField]; exact fine_writeKind cfg k _ _ _ _ _
  | .maybe id k p, ctx, v => by
      rw [writeField]
      refine healthy_andThen (healthy_lift _ _) fun b => ?_
      split
      · split
        · exact fine_writeKind cfg k _ _ _ _ _
        · exact healthy_err (writeReason_validation _)
      · split
        · exact healthy_err (writeReason_validation _)
        · exact healthy_ok _ _
      · exact healthy_stuck _ _
  | .union id d alts c, ctx, v => by
      have key : ∀ (o : Except Stuck (Option Nat)) i w, Healthy (WriteReason true)
          ((WrE.lift o).andThen fun
            | none => WrE.err .typeDeductionFailure
            | some j => if j ≠ i then WrE.err .validationFailure
                else writeAlts cfg ctx id alts i w : WrE Reason Unit) := by
        intro o i w
        refine healthy_andThen (healthy_lift _ _) fun o => ?_
        cases o with
        | none => exact healthy_err (by simp [WriteReason])
        | some j =>
          simp only
          split
          · exact healthy_err (writeReason_validation _)
          · exact fine_writeAlts cfg alts _ _ _ _
      cases v with
      | var i w =>
        cases d with
        | matchField i' t ls => simp only [writeField]; exact fine_writeAlts cfg alts _ _ _ _
        | matchCompute c t ls => simp only [writeField]; exact key _ _ _
        | ladder ps => simp only [writeField]; exact key _ _ _
      | _ => simp only [writeField]; exact healthy_stuck _ _
theorem fine_writeAlts (cfg : Cfg) : (alts : List Alt) → ∀ ctx id i w,
    Healthy (WriteReason true) (writeAlts cfg ctx id alts i w)
  | [], ctx, id, i, w => by rw [writeAlts]; exact healthy_stuck _ _
  | .mk k c :: alts, ctx, id, 0, w => by
      rw [writeAlts]
      refine fine_checked _ _ _ ?_
      intro e b h
      exact (fine_writeKind cfg k _ _ _ _ _ e b h).mono fun _ => rfl
  | .mk k c :: alts, ctx, id, i + 1, w => by
      rw [writeAlts]
      exact fine_writeAlts cfg alts _ _ _ _
theorem fine_writeFields (cfg : Cfg) : (fs : List Field) → ∀ ctx vs,
    Healthy (WListError fs) (writeFields cfg ctx fs vs)
  | [], ctx, [] => by rw [writeFields]; exact healthy_ok _ _
  | [], ctx, v :: vs => by simp only [writeFields]; exact healthy_stuck _ _
  | f :: fs, ctx, [] => by simp only [writeFields]; exact healthy_stuck _ _
  | f :: fs, ctx, v :: vs => by
      rw [writeFields]
      refine healthy_andThen (healthy_mapErr (E := WriteReason (unionInField f)) ?_
        (fun e h => ⟨f, by simp, rfl, h⟩)) fun _ => ?_
      · split
        · exact fine_writeField cfg f _ _
        · exact fine_checked _ _ _ (fine_writeField cfg f _ _)
      · intro e b h
        obtain ⟨g, hg, h1, h2⟩ := fine_writeFields cfg fs _ _ e b h
        exact ⟨g, by simp [hg], h1, h2⟩
end

end S2S
