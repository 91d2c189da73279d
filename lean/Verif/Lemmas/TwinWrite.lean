import Verif.Lemmas.HostFree
import Verif.Lemmas.WriteTree
import Verif.Lemmas.WritePrim
import Verif.Lemmas.WriteTyped
import Verif.Spec.Typed
/-
Writing on hosts of either byte order, and the element-wise path of compile-time
streams against the bulk path of run-time streams.
-/
namespace S2S
open Spec

/-- The end of a write on a stream that has room for `n` bytes. -/
def Wr.cap : Wr α → Nat → Outcome α
  | ret a, _ => .done a
  | stuck w, _ => .stuck w
  | write bs k, n => if bs.length ≤ n then (k true).cap (n - bs.length) else (k false).out.1

theorem cap_andThen {P : ε → Prop} {r : WrE ε α} (hs : WrE.ShortE P r) (f : α → WrE ε β) (n : Nat) :
    Wr.cap (r.andThen f) n = match Wr.cap r n with
      | .done (.ok a) => Wr.cap (f a) (n - (Wr.out r).2.length)
      | .done (.error e) => .done (.error e)
      | .stuck w => .stuck w := by
  induction r generalizing n with
  | ret a => cases a <;> rfl
  | stuck w => rfl
  | write bs k ih =>
    obtain ⟨⟨a, h1, h2⟩, h3⟩ := hs
    have ih := ih true h3 (n - bs.length)
    simp only [WrE.andThen, Wr.bind, Wr.cap, Wr.out, List.length_append] at ih ⊢
    by_cases hn : bs.length ≤ n
    · rw [if_pos hn, if_pos hn, ih, Nat.sub_sub]
    · rw [if_neg hn, if_neg hn, h1]
      cases a with
      | error e => rfl
      | ok a => exact h2.elim

theorem cap_mapErr {P : ε → Prop} {r : WrE ε α} (hs : WrE.ShortE P r) (g : ε → ε') (n : Nat) :
    Wr.cap (r.mapErr g) n = match Wr.cap r n with
      | .done (.ok a) => .done (.ok a)
      | .done (.error e) => .done (.error (g e))
      | .stuck w => .stuck w := by
  induction r generalizing n with
  | ret a => cases a <;> rfl
  | stuck w => rfl
  | write bs k ih =>
    obtain ⟨⟨a, h1, h2⟩, h3⟩ := hs
    have ih := ih true h3 (n - bs.length)
    simp only [WrE.mapErr, Wr.map, Wr.bind, Wr.cap] at ih ⊢
    by_cases hn : bs.length ≤ n
    · rw [if_pos hn, if_pos hn, ih]
    · rw [if_neg hn, if_neg hn, h1]
      cases a with
      | error e => rfl
      | ok a => exact h2.elim

theorem cap_emits {e : ε} {w : WrE ε α} {p : List Byte} {a : α} (hs : WrE.ShortE (fun x => x = e) w)
    (h : w.Emits p a) (n : Nat) :
    Wr.cap w n = if p.length ≤ n then .done (.ok a) else .done (.error e) := by
  induction w generalizing p n with
  | ret b => cases h; simp [Wr.cap]
  | stuck w => cases h
  | write bs k ih =>
    obtain ⟨⟨x, h1, h2⟩, h3⟩ := hs
    simp only [WrE.Emits, Wr.out, Prod.mk.injEq] at h
    obtain ⟨h4, rfl⟩ := h
    have := ih true h3 (p := (Wr.out (k true)).2) (Prod.ext h4 rfl) (n - bs.length)
    simp only [Wr.cap, List.length_append]
    by_cases hn : bs.length ≤ n
    · rw [if_pos hn, this]
      by_cases hm : (Wr.out (k true)).2.length ≤ n - bs.length
      · rw [if_pos hm, if_pos (by omega)]
      · rw [if_neg hm, if_neg (by omega)]
    · rw [if_neg hn, if_neg (by omega), h1]
      cases x with
      | ok a => exact h2.elim
      | error x => rw [show x = e from h2]; rfl

/-- Both end alike and emit the same, with all the room there is and with any room. -/
structure AgreeW (w w' : WrE ε α) : Prop where
  short : WrE.ShortE (fun _ => True) w
  short' : WrE.ShortE (fun _ => True) w'
  out : Wr.out w = Wr.out w'
  cap : ∀ n, Wr.cap w n = Wr.cap w' n

theorem short_true {P : ε → Prop} {w : WrE ε α} (h : WrE.ShortE P w) :
    WrE.ShortE (fun _ => True) w := by
  induction w with
  | ret a => trivial
  | stuck w => trivial
  | write bs k ih =>
    obtain ⟨⟨a, h1, h2⟩, h3⟩ := h
    refine ⟨⟨a, h1, ?_⟩, ih true h3⟩
    cases a
    · trivial
    · exact h2.elim

theorem AgreeW.refl {P : ε → Prop} {w : WrE ε α} (h : WrE.ShortE P w) : AgreeW w w :=
  ⟨short_true h, short_true h, rfl, fun _ => rfl⟩

theorem AgreeW.emits {w w' : WrE Reason α} {p : List Byte} {a : α} (hs : WShortR w) (hs' : WShortR w')
    (h : w.Emits p a) (h' : w'.Emits p a) : AgreeW w w' :=
  ⟨short_true hs, short_true hs', h.trans h'.symm, fun n =>
    (cap_emits hs h n).trans (cap_emits hs' h' n).symm⟩

theorem AgreeW.andThen {r r' : WrE ε α} {f f' : α → WrE ε β} (h : AgreeW r r')
    (hf : ∀ a, AgreeW (f a) (f' a)) : AgreeW (r.andThen f) (r'.andThen f') where
  short := WrE.short_andThen h.short fun a => (hf a).short
  short' := WrE.short_andThen h.short' fun a => (hf a).short'
  out := by
    rw [WrE.out_andThen, WrE.out_andThen, h.out]
    split
    · rw [(hf _).out]
    · rfl
    · rfl
  cap n := by
    rw [cap_andThen h.short, cap_andThen h.short', h.cap, h.out]
    split
    · exact (hf _).cap _
    · rfl
    · rfl

theorem AgreeW.mapErr {r r' : WrE ε α} (g : ε → ε') (h : AgreeW r r') :
    AgreeW (r.mapErr g) (r'.mapErr g) where
  short := WrE.short_mapErr h.short fun _ _ => trivial
  short' := WrE.short_mapErr h.short' fun _ _ => trivial
  out := by rw [WrE.out_mapErr, WrE.out_mapErr, h.out]
  cap n := by rw [cap_mapErr h.short, cap_mapErr h.short', h.cap]

theorem agree_lift {f f' : α → WrE Reason β} (o : Except Stuck α) (hf : ∀ a, AgreeW (f a) (f' a)) :
    AgreeW ((WrE.lift o).andThen f) ((WrE.lift o).andThen f') :=
  (AgreeW.refl (P := fun _ => True) (wshort_lift o _)).andThen hf

theorem agree_err (e : ε) : AgreeW (WrE.err e : WrE ε α) (WrE.err e) :=
  .refl (P := fun _ => True) trivial
theorem agree_ok (a : α) : AgreeW (WrE.ok a : WrE ε α) (WrE.ok a) :=
  .refl (P := fun _ => True) trivial
theorem agree_stuck (w : Stuck) : AgreeW (Wr.stuck w : WrE ε α) (Wr.stuck w) :=
  .refl (P := fun _ => True) trivial

theorem agree_checked {k k' : WrE Reason Unit} (c : Constraint) (v : Val) (h : AgreeW k k') :
    AgreeW (WrE.checked c v k) (WrE.checked c v k') := by
  refine agree_lift _ fun b => ?_
  split
  · exact h
  · exact agree_err _

theorem agree_recs {one one' : List Val → WrE CastError Unit} (vs : List Val)
    (h : ∀ v ∈ vs, ∀ ws, v = .seq ws → AgreeW (one ws) (one' ws)) :
    AgreeW (writeRecs one vs) (writeRecs one' vs) := by
  induction vs with
  | nil => exact agree_ok _
  | cons v vs ih =>
    cases v with
    | seq ws =>
      rw [writeRecs, writeRecs]
      exact ((h _ (by simp) ws rfl).mapErr _).andThen fun _ => ih fun u hu => h u (by simp [hu])
    | _ => exact agree_stuck _

/-! ### What does not depend on host and stream -/

theorem implies_at (cfg : Cfg) (h : Endian) (cx : Bool) (target : String) (f : Field) (v : Val) :
    f.implies (cfg.at h cx) target v = f.implies cfg target v := by
  cases f with
  | plain id k c => rfl
  | maybe id k p => cases v <;> rfl
  | union id d alts c => cases d <;> cases v <;> rfl

theorem deriveScan_at (cfg : Cfg) (h : Endian) (cx : Bool) (target : String) (fs : List Field)
    (vs : List Val) (d : Derivation) :
    deriveScan (cfg.at h cx) target fs vs d = deriveScan cfg target fs vs d := by
  induction fs generalizing vs d with
  | nil => cases vs <;> rfl
  | cons f fs ih =>
    cases vs with
    | nil => rfl
    | cons v vs =>
      rw [deriveScan, deriveScan, implies_at]
      split
      · rfl
      · exact ih _ _
      · exact ih _ _

theorem deriveValue_at (cfg : Cfg) (h : Endian) (cx : Bool) (fs : List Field) (vs : List Val)
    (target : String) (t : ScalarTy) (w : Nat) :
    deriveValue (cfg.at h cx) fs vs target t w = deriveValue cfg fs vs target t w := by
  rw [deriveValue, deriveValue, deriveScan_at]
  rfl

theorem agree_emitFixed (cfg : Cfg) (h : Endian) (cx : Bool) (k : Kind) (v : Val)
    (hv : ∀ e n, k = .fbuf e n → TypedKind cfg k v) :
    AgreeW (emitFixed cfg k v) (emitFixed (cfg.at h cx) k v) := by
  cases k with
  | num t w =>
    cases v with
    | int x =>
      rw [emitFixed, emitFixed]
      by_cases hw : w ≤ t.size
      · exact .emits (wshort_writeNativeImpl _ _) (wshort_writeNativeImpl _ _)
          ((emits_writeNum cfg t w x _).2 ⟨hw, rfl⟩)
          ((emits_writeNum (cfg.at h cx) t w x _).2 ⟨hw, rfl⟩)
      · unfold writeNum writeNativeImpl
        rw [if_pos (by rw [ScalarTy.toMem_length]; omega),
          if_pos (by rw [ScalarTy.toMem_length]; omega)]
        exact agree_stuck _
    | _ => exact agree_stuck _
  | fbuf e n =>
    have hv := hv e n rfl
    cases v <;> simp only [TypedKind] at hv
    rw [emitFixed, emitFixed]
    exact .emits (wshort_writeFixedBuf _ _ _ _) (wshort_writeFixedBuf _ _ _ _)
      (emits_writeFixedBuf cfg e n _ hv.1 hv.2) (emits_writeFixedBuf (cfg.at h cx) e n _ hv.1 hv.2)
  | fstr n => cases v <;> exact .refl (wshort_emitFixed cfg _ _)
  | vec e len b => cases v <;> exact agree_stuck _
  | record fs => cases v <;> exact agree_stuck _
  | arrRec fs n => cases v <;> exact agree_stuck _
  | vecRec fs len b sz => cases v <;> exact agree_stuck _

theorem agree_verifyThenWrite (cfg : Cfg) (h : Endian) (cx : Bool) (ctx : WCtx) (id : String)
    (k : Kind) (v : Val) (hv : ∀ e n, k = .fbuf e n → TypedKind cfg k v) :
    AgreeW (verifyThenWrite cfg ctx id k v) (verifyThenWrite (cfg.at h cx) ctx id k v) := by
  unfold verifyThenWrite
  split
  · split
    · refine agree_lift _ fun b => ?_
      split
      · exact agree_emitFixed _ _ _ _ _ hv
      · exact agree_err _
    · exact agree_stuck _
  · exact agree_emitFixed _ _ _ _ _ hv

theorem agree_writeFixed (cfg : Cfg) (h : Endian) (cx : Bool) (ctx : WCtx) (m : Bool) (id : String)
    (k : Kind) (c : Constraint) (v : Val) (hv : TypedKind cfg k v)
    (hc : m = true → ∀ u ∈ typedConst k c, TypedKind cfg k u) :
    AgreeW (writeFixed cfg ctx m id k c v) (writeFixed (cfg.at h cx) ctx m id k c v) := by
  unfold writeFixed
  split
  · split
    · rw [deriveValue_at cfg h cx]
      refine agree_lift _ fun r => ?_
      cases r with
      | error r => exact agree_err _
      | ok x =>
        refine agree_lift _ fun b => ?_
        split
        · exact agree_verifyThenWrite _ _ _ _ _ _ _ fun e n hk => by cases hk
        · exact agree_err _
    · exact agree_stuck _
  · split
    · rename_i fv hfv
      refine agree_verifyThenWrite _ _ _ _ _ _ _ fun e n hk => ?_
      split at hfv
      · exact hc ‹_› fv (by rw [typedConst_eq]; exact hfv)
      · cases hfv
    · exact agree_verifyThenWrite _ _ _ _ _ _ _ fun e n hk => hv

theorem agree_computed (cfg : Cfg) (h : Endian) (cx : Bool) (env : Env) (len : LenSpec) (n : Nat)
    {k k' : WrE Reason Unit} (hk : AgreeW k k') :
    AgreeW (verifyComputed cfg env len n k) (verifyComputed (cfg.at h cx) env len n k') := by
  unfold verifyComputed
  cases len with
  | fromField id => exact hk
  | computed c =>
    simp only
    rw [lenEval_at]
    refine agree_lift _ fun m => ?_
    split
    · exact agree_err _
    · exact hk

mutual
theorem agree_writeKind (cfg : Cfg) (h : Endian) (cx : Bool) : (k : Kind) →
    EveryKind (TypedConsts cfg) k → ∀ ctx m id c v, TypedKind cfg k v →
    (m = true → ∀ u ∈ typedConst k c, TypedKind cfg k u) →
    AgreeW (writeKind cfg ctx m id c k v) (writeKind (cfg.at h cx) ctx m id c k v)
  | .num t w, _, ctx, m, id, c, v, hv, hc => by
      rw [writeKind, writeKind]; exact agree_writeFixed _ _ _ _ _ _ _ _ _ hv hc
  | .fbuf e n, _, ctx, m, id, c, v, hv, hc => by
      rw [writeKind, writeKind]; exact agree_writeFixed _ _ _ _ _ _ _ _ _ hv hc
  | .fstr n, _, ctx, m, id, c, v, hv, hc => by
      rw [writeKind, writeKind]; exact agree_writeFixed _ _ _ _ _ _ _ _ _ hv hc
  | .vec e len b, _, ctx, m, id, c, v, hv, hc => by
      cases v <;> simp only [TypedKind] at hv
      rw [writeKind, writeKind]
      exact agree_computed _ _ _ _ _ _ (.emits (wshort_writeVec _ _ _) (wshort_writeVec _ _ _)
        (emits_writeVec cfg e _ (ptrdiff_lt _ _ hv.1) hv.2)
        (emits_writeVec (cfg.at h cx) e _ (ptrdiff_lt _ _ hv.1) hv.2))
  | .record fs, he, ctx, m, id, c, v, hv, hc => by
      cases v <;> simp only [TypedKind] at hv
      rw [EveryKind] at he
      rw [writeKind, writeKind]
      exact (agree_writeFields cfg h cx fs he.1 he.2 _ _ hv).mapErr _
  | .arrRec fs n, he, ctx, m, id, c, v, hv, hc => by
      cases v <;> simp only [TypedKind] at hv
      rw [EveryKind] at he
      rw [writeKind, writeKind]
      split
      · exact agree_stuck _
      · refine agree_recs _ fun u hu ws hw => ?_
        obtain ⟨ws', rfl, hw'⟩ := hv.2 u hu
        cases hw
        exact agree_writeFields cfg h cx fs he.1 he.2 _ _ hw'
  | .vecRec fs len b sz, he, ctx, m, id, c, v, hv, hc => by
      cases v <;> simp only [TypedKind] at hv
      rw [EveryKind] at he
      rw [writeKind, writeKind]
      refine agree_computed _ _ _ _ _ _ (agree_recs _ fun u hu ws hw => ?_)
      obtain ⟨ws', rfl, hw'⟩ := hv.2 u hu
      cases hw
      exact agree_writeFields cfg h cx fs he.1 he.2 _ _ hw'
theorem agree_writeField (cfg : Cfg) (h : Endian) (cx : Bool) : (f : Field) →
    EveryField (TypedConsts cfg) f → TypedConsts cfg [f] → ∀ ctx v, TypedField cfg f v →
    AgreeW (writeField cfg ctx f v) (writeField (cfg.at h cx) ctx f v)
  | .plain id k c, he, hc, ctx, v, hv => by
      rw [EveryField] at he
      rw [TypedField] at hv
      rw [writeField, writeField]
      exact agree_writeKind cfg h cx k he _ _ _ _ _ hv fun _ => hc (.plain id k c) (by simp)
  | .maybe id k p, he, hc, ctx, v, hv => by
      rw [EveryField] at he
      rw [writeField, writeField]
      refine agree_lift _ fun b => ?_
      cases v <;> simp only [TypedField] at hv
      · simp only
        split
        · exact agree_err _
        · exact agree_ok _
      · simp only
        split
        · exact agree_writeKind cfg h cx k he _ _ _ _ _ hv fun hm => by cases hm
        · exact agree_err _
  | .union id d alts c, he, hc, ctx, v, hv => by
      rw [EveryField] at he
      cases v <;> simp only [TypedField] at hv
      rename_i i w
      have ha := agree_writeAlts cfg h cx alts he ctx id i w hv
      cases d with
      | matchField tgt t ls => simpa only [writeField] using ha
      | matchCompute comp t ls =>
        simp only [writeField]
        refine agree_lift _ fun o => ?_
        cases o with
        | none => exact agree_err _
        | some j =>
          simp only
          split
          · exact agree_err _
          · exact ha
      | ladder ps =>
        simp only [writeField]
        refine agree_lift _ fun o => ?_
        cases o with
        | none => exact agree_err _
        | some j =>
          simp only
          split
          · exact agree_err _
          · exact ha
theorem agree_writeAlts (cfg : Cfg) (h : Endian) (cx : Bool) : (alts : List Alt) →
    EveryAlts (TypedConsts cfg) alts → ∀ ctx id i v, TypedAlts cfg alts i v →
    AgreeW (writeAlts cfg ctx id alts i v) (writeAlts (cfg.at h cx) ctx id alts i v)
  | [], _, ctx, id, i, v, hv => by simp [TypedAlts] at hv
  | .mk k c :: alts, he, ctx, id, 0, v, hv => by
      rw [EveryAlts] at he
      rw [TypedAlts] at hv
      rw [writeAlts, writeAlts]
      exact agree_checked _ _ (agree_writeKind cfg h cx k he.1 _ _ _ _ _ hv fun hm => by cases hm)
  | .mk k c :: alts, he, ctx, id, i + 1, v, hv => by
      rw [EveryAlts] at he
      rw [TypedAlts] at hv
      rw [writeAlts, writeAlts]
      exact agree_writeAlts cfg h cx alts he.2 ctx id i v hv
theorem agree_writeFields (cfg : Cfg) (h : Endian) (cx : Bool) : (fs : List Field) →
    TypedConsts cfg fs → EveryFields (TypedConsts cfg) fs → ∀ ctx vs, TypedFields cfg fs vs →
    AgreeW (writeFields cfg ctx fs vs) (writeFields (cfg.at h cx) ctx fs vs)
  | [], _, _, ctx, vs, hv => by
      cases vs with
      | nil => simp only [writeFields]; exact agree_ok _
      | cons v vs => simp [TypedFields] at hv
  | f :: fs, hc, he, ctx, [], hv => by simp [TypedFields] at hv
  | f :: fs, hc, he, ctx, v :: vs, hv => by
      rw [EveryFields] at he
      rw [TypedFields] at hv
      have hf := agree_writeField cfg h cx f he.1
        (fun g hg => hc g (by rw [List.mem_singleton] at hg; simp [hg])) ctx v hv.1
      rw [writeFields, writeFields]
      refine AgreeW.andThen (AgreeW.mapErr _ ?_) fun _ =>
        agree_writeFields cfg h cx fs (fun g hg => hc g (by simp [hg])) he.2 ctx vs hv.2
      split
      · exact hf
      · exact agree_checked _ _ hf
end

theorem agree_streamCast (cfg : Cfg) (h : Endian) (cx : Bool) (fs : List Field) (vs : List Val)
    (hc : Everywhere (TypedConsts cfg) fs) (hv : Typed cfg fs vs) :
    AgreeW (streamCast cfg fs vs) (streamCast (cfg.at h cx) fs vs) :=
  agree_writeFields cfg h cx fs hc.1 hc.2 _ _ hv

end S2S
