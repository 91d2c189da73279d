import Verif.Lemmas.WriteSel
/-
What a write that fails leaves on the stream.
-/
namespace S2S
open Spec

/-- Whole records of the list `gs`, one after the other. -/
inductive RecordsPut (cfg : Cfg) (gs : List Field) : List Val → List Byte → Prop
  | nil : RecordsPut cfg gs [] []
  | cons {ws us p q} : (streamCast cfg gs ws).run = (.done (.ok ()), p) →
      RecordsPut cfg gs us q → RecordsPut cfg gs (.seq ws :: us) (p ++ q)

mutual
/-- `Cut cfg fs vs id p`: a write of the struct `vs` that stops at the field `id` and
leaves `p`: the fields before it completely, and either nothing of the field or, if
it consists of records, a part of it that is again cut at a field. -/
inductive Cut (cfg : Cfg) : List Field → List Val → String → List Byte → Prop
  | before {pre f post vpre v vpost q} : vpre.length = pre.length →
      (writeFields cfg ⟨pre ++ f :: post, vpre ++ v :: vpost⟩ pre vpre).run = (.done (.ok ()), q) →
      Cut cfg (pre ++ f :: post) (vpre ++ v :: vpost) f.id q
  | inside {pre f post vpre v vpost q k u r} : vpre.length = pre.length →
      (writeFields cfg ⟨pre ++ f :: post, vpre ++ v :: vpost⟩ pre vpre).run = (.done (.ok ()), q) →
      SelectsW (envOf (pre ++ f :: post) (vpre ++ v :: vpost)) f v k u → CutKind cfg k u r →
      Cut cfg (pre ++ f :: post) (vpre ++ v :: vpost) f.id (q ++ r)
/-- The same inside a field: whole records, then a record that is cut. -/
inductive CutKind (cfg : Cfg) : Kind → Val → List Byte → Prop
  | record {gs ws id r} : Cut cfg gs ws id r → CutKind cfg (.record gs) (.seq ws) r
  | array {gs n done ws rest id q r} : RecordsPut cfg gs done q → Cut cfg gs ws id r →
      CutKind cfg (.arrRec gs n) (.seq (done ++ .seq ws :: rest)) (q ++ r)
  | vector {gs len b sz done ws rest id q r} : RecordsPut cfg gs done q → Cut cfg gs ws id r →
      CutKind cfg (.vecRec gs len b sz) (.seq (done ++ .seq ws :: rest)) (q ++ r)
end

/-! ### errors that leave nothing -/

/-- Fails without having written anything. -/
def Quiet (w : WrE ε α) : Prop := ∀ e p, Wr.out w = (.done (.error e), p) → p = []

theorem quiet_ok (a : α) : Quiet (WrE.ok a : WrE ε α) := by
  intro e p h; cases h

theorem quiet_err (e : ε) : Quiet (WrE.err e : WrE ε α) := by
  intro e p h; cases h; rfl

theorem quiet_stuck (w : Stuck) : Quiet (Wr.stuck w : WrE ε α) := by
  intro e p h; cases h

theorem quiet_never {w : WrE ε α} (h : Healthy (fun _ => False) w) : Quiet w := by
  intro e p he
  exact (h e p he).elim

theorem out_lift_andThen (o : Except Stuck α) (f : α → WrE ε β) :
    Wr.out ((WrE.lift o).andThen f) = match o with
      | .ok a => Wr.out (f a)
      | .error w => (.stuck w, []) := by
  cases o with
  | ok a => simp only [lift_ok_andThen]
  | error w => simp only [lift_error_andThen]; rfl

theorem quiet_lift {o : Except Stuck α} {f : α → WrE ε β} (h : ∀ a, Quiet (f a)) :
    Quiet ((WrE.lift o).andThen f) := by
  intro e p he
  rw [out_lift_andThen] at he
  cases o with
  | ok a => exact h a e p he
  | error w => cases he

theorem quiet_verifyThenWrite (cfg : Cfg) (ctx : WCtx) (id : String) (k : Kind) (v : Val) :
    Quiet (verifyThenWrite cfg ctx id k v) := by
  unfold verifyThenWrite
  split
  · split
    · refine quiet_lift fun b => ?_
      split
      · exact quiet_never (never_emitFixed _ _ _ _)
      · exact quiet_err _
    · exact quiet_stuck _
  · exact quiet_never (never_emitFixed _ _ _ _)

theorem quiet_writeFixed (cfg : Cfg) (ctx : WCtx) (m : Bool) (id : String) (k : Kind)
    (c : Constraint) (v : Val) : Quiet (writeFixed cfg ctx m id k c v) := by
  unfold writeFixed
  split
  · split
    · refine quiet_lift fun r => ?_
      cases r with
      | error r => exact quiet_err _
      | ok x =>
        refine quiet_lift fun b => ?_
        split
        · exact quiet_verifyThenWrite _ _ _ _ _
        · exact quiet_err _
    · exact quiet_stuck _
  · split <;> exact quiet_verifyThenWrite _ _ _ _ _

/-! ### errors inside records -/

theorem untag_error {r : WrE CastError α} {e : Reason} {p : List Byte}
    (h : Wr.out r.untag = (.done (.error e), p)) : ∃ e', Wr.out r = (.done (.error e'), p) := by
  unfold WrE.untag at h
  rw [WrE.out_mapErr] at h
  split at h
  · cases h
  · rename_i e' b hr
    cases h
    exact ⟨e', hr⟩
  · cases h

theorem tag_error {id : String} {r : WrE Reason α} {e : CastError} {p : List Byte}
    (h : Wr.out (r.tag id) = (.done (.error e), p)) :
    ∃ e', Wr.out r = (.done (.error e'), p) ∧ e = ⟨e', id⟩ := by
  unfold WrE.tag at h
  rw [WrE.out_mapErr] at h
  split at h
  · cases h
  · rename_i e' b hr
    cases h
    exact ⟨e', hr, rfl⟩
  · cases h

theorem verifyComputed_error {cfg : Cfg} {env : Env} {len : LenSpec} {n : Nat}
    {r : WrE Reason Unit} {e : Reason} {p : List Byte}
    (h : Wr.out (verifyComputed cfg env len n r) = (.done (.error e), p)) :
    p = [] ∨ Wr.out r = (.done (.error e), p) := by
  cases len with
  | fromField id => exact .inr h
  | computed c =>
    simp only [verifyComputed] at h
    rw [out_lift_andThen] at h
    split at h
    · split at h
      · cases h; exact .inl rfl
      · exact .inr h
    · cases h

theorem checked_error {c : Constraint} {v : Val} {r : WrE Reason Unit} {e : Reason} {p : List Byte}
    (h : Wr.out (WrE.checked c v r) = (.done (.error e), p)) :
    p = [] ∨ Holds c v ∧ Wr.out r = (.done (.error e), p) := by
  unfold WrE.checked at h
  rw [out_lift_andThen] at h
  split at h
  · rename_i b hb
    cases b with
    | true => exact .inr ⟨hb, h⟩
    | false => cases h; exact .inl rfl
  · cases h

theorem writeStep_error {cfg : Cfg} {ctx : WCtx} {f : Field} {v : Val} {e : CastError}
    {p : List Byte} (h : Wr.out (writeStep cfg ctx f v) = (.done (.error e), p)) :
    e.failedAt = f.id ∧ (p = [] ∨ ∃ e', Wr.out (writeField cfg ctx f v) = (.done (.error e'), p)) := by
  unfold writeStep at h
  obtain ⟨e', h1, rfl⟩ := tag_error h
  refine ⟨rfl, ?_⟩
  split at h1
  · exact .inr ⟨_, h1⟩
  · rcases checked_error h1 with h1 | ⟨-, h1⟩
    · exact .inl h1
    · exact .inr ⟨_, h1⟩

/-- What a field that fails leaves. -/
def FieldClaim (cfg : Cfg) (f : Field) : Prop :=
  ∀ ctx v e p, Wr.out (writeField cfg ctx f v) = (.done (.error e), p) →
    p = [] ∨ ∃ k u, SelectsW ctx.env f v k u ∧ CutKind cfg k u p

theorem cut_of_fields {cfg : Cfg} {fs : List Field} (h : ∀ f ∈ fs, FieldClaim cfg f) {vs : List Val}
    {e : CastError} {p : List Byte} (he : Wr.out (streamCast cfg fs vs) = (.done (.error e), p)) :
    Cut cfg fs vs e.failedAt p := by
  obtain ⟨pre, f, post, vpre, v, vpost, q, r, rfl, rfl, hl, rfl, h1, h2, h3⟩ := error_split he
  rw [h3]
  have h1' := (Wr.run_eq _).trans h1
  rcases (writeStep_error h2).2 with rfl | ⟨e', h4⟩
  · rw [List.append_nil]
    exact .before hl h1'
  · rcases h f (by simp) _ _ _ _ h4 with rfl | ⟨k, u, h5, h6⟩
    · rw [List.append_nil]
      exact .before hl h1'
    · exact .inside hl h1' h5 h6

theorem cut_of_records {cfg : Cfg} {gs : List Field} (h : ∀ f ∈ gs, FieldClaim cfg f)
    {us : List Val} {e : Reason} {p : List Byte}
    (he : Wr.out (writeRecs (fun ws => writeFields cfg ⟨gs, ws⟩ gs ws) us) = (.done (.error e), p)) :
    ∃ done ws rest id q r, us = done ++ .seq ws :: rest ∧ p = q ++ r ∧
      RecordsPut cfg gs done q ∧ Cut cfg gs ws id r := by
  induction us generalizing p with
  | nil => rw [writeRecs] at he; cases he
  | cons u us ih =>
    cases u with
    | seq ws =>
      rw [writeRecs, WrE.out_andThen] at he
      split at he
      · rename_i a q hq
        simp only [Prod.mk.injEq] at he
        obtain ⟨h1, rfl⟩ := he
        obtain ⟨done, ws', rest, id, q', r, rfl, h2, h3, h4⟩ := ih (Prod.ext h1 rfl)
        refine ⟨.seq ws :: done, ws', rest, id, q ++ q', r, rfl,
          (congrArg (q ++ ·) h2).trans (List.append_assoc _ _ _).symm, .cons ?_ h3, h4⟩
        rw [Wr.run_eq]
        exact (WrE.emits_mapErr _ _ _ _).1 hq
      · rename_i e' q hq
        cases he
        obtain ⟨e'', h1⟩ := untag_error hq
        exact ⟨[], ws, us, _, [], p, rfl, rfl, .nil, cut_of_fields h h1⟩
      · cases he
    | _ => simp only [writeRecs] at he; cases he

mutual
theorem cut_kind (cfg : Cfg) : (k : Kind) → ∀ ctx m id c v e p,
    Wr.out (writeKind cfg ctx m id c k v) = (.done (.error e), p) → p = [] ∨ CutKind cfg k v p
  | .num t w, ctx, m, id, c, v, e, p, h => by
      rw [writeKind] at h; exact .inl (quiet_writeFixed _ _ _ _ _ _ _ _ _ h)
  | .fbuf a n, ctx, m, id, c, v, e, p, h => by
      rw [writeKind] at h; exact .inl (quiet_writeFixed _ _ _ _ _ _ _ _ _ h)
  | .fstr n, ctx, m, id, c, v, e, p, h => by
      rw [writeKind] at h; exact .inl (quiet_writeFixed _ _ _ _ _ _ _ _ _ h)
  | .vec a len b, ctx, m, id, c, v, e, p, h => by
      cases v with
      | seq us =>
        rw [writeKind] at h
        rcases verifyComputed_error h with h | h
        · exact .inl h
        · exact .inl (quiet_never (never_writeVec _ _ _ _) _ _ h)
      | _ => simp only [writeKind] at h; cases h
  | .record gs, ctx, m, id, c, v, e, p, h => by
      cases v with
      | seq ws =>
        rw [writeKind] at h
        obtain ⟨e', h⟩ := untag_error h
        exact .inr (.record (cut_of_fields (cut_fields cfg gs) h))
      | _ => simp only [writeKind] at h; cases h
  | .arrRec gs n, ctx, m, id, c, v, e, p, h => by
      cases v with
      | seq us =>
        rw [writeKind] at h
        split at h
        · cases h
        · obtain ⟨done, ws, rest, j, q, r, rfl, rfl, h1, h2⟩ :=
            cut_of_records (cut_fields cfg gs) h
          exact .inr (.array h1 h2)
      | _ => simp only [writeKind] at h; cases h
  | .vecRec gs len b sz, ctx, m, id, c, v, e, p, h => by
      cases v with
      | seq us =>
        rw [writeKind] at h
        rcases verifyComputed_error h with h | h
        · exact .inl h
        · obtain ⟨done, ws, rest, j, q, r, rfl, rfl, h1, h2⟩ :=
            cut_of_records (cut_fields cfg gs) h
          exact .inr (.vector h1 h2)
      | _ => simp only [writeKind] at h; cases h
theorem cut_field (cfg : Cfg) : (f : Field) → FieldClaim cfg f
  | .plain id k c, ctx, v, e, p, h => by
      rw [writeField] at h
      rcases cut_kind cfg k _ _ _ _ _ _ _ h with h | h
      · exact .inl h
      · exact .inr ⟨k, v, .plain, h⟩
  | .maybe id k pr, ctx, v, e, p, h => by
      rw [writeField, out_lift_andThen] at h
      split at h
      · rename_i b hb
        cases v with
        | present u =>
          cases b with
          | false => cases h; exact .inl rfl
          | true =>
            rcases cut_kind cfg k _ _ _ _ _ _ _ h with h | h
            · exact .inl h
            · exact .inr ⟨k, u, .maybe hb, h⟩
        | absent => cases b <;> cases h; exact .inl rfl
        | _ => cases h
      · cases h
  | .union id d alts c, ctx, v, e, p, h => by
      cases v with
      | var i u =>
        have key : Wr.out (writeAlts cfg ctx id alts i u) = (.done (.error e), p) →
            ((∃ a b c, d = .matchField a b c) ∨
              (∀ a b c, d ≠ .matchField a b c) ∧ d.eval ctx.env = .ok (some i)) →
            p = [] ∨ ∃ k w, SelectsW ctx.env (.union id d alts c) (.var i u) k w ∧
              CutKind cfg k w p := by
          intro h1 h2
          rcases cut_alts cfg alts _ _ _ _ _ _ h1 with h1 | ⟨k, c', h3, h4, h5⟩
          · exact .inl h1
          · refine .inr ⟨k, u, ?_, h5⟩
            rcases h2 with ⟨x, y, z, rfl⟩ | ⟨h2, h6⟩
            · exact .switch h3 h4
            · exact .union h2 h6 h3 h4
        cases d with
        | matchField a b c => simp only [writeField] at h; exact key h (.inl ⟨_, _, _, rfl⟩)
        | matchCompute a b c =>
          simp only [writeField] at h
          rw [out_lift_andThen] at h
          split at h
          · rename_i o ho
            cases o with
            | none => cases h; exact .inl rfl
            | some j =>
              simp only at h
              split at h
              · cases h; exact .inl rfl
              · rename_i hj
                simp only [ne_eq, Decidable.not_not] at hj
                subst hj
                exact key h (.inr ⟨by simp, ho⟩)
          · cases h
        | ladder ps =>
          simp only [writeField] at h
          rw [out_lift_andThen] at h
          split at h
          · rename_i o ho
            cases o with
            | none => cases h; exact .inl rfl
            | some j =>
              simp only at h
              split at h
              · cases h; exact .inl rfl
              · rename_i hj
                simp only [ne_eq, Decidable.not_not] at hj
                subst hj
                exact key h (.inr ⟨by simp, ho⟩)
          · cases h
      | _ => simp only [writeField] at h; cases h
theorem cut_alts (cfg : Cfg) : (alts : List Alt) → ∀ ctx id i v e p,
    Wr.out (writeAlts cfg ctx id alts i v) = (.done (.error e), p) →
    p = [] ∨ ∃ k c, alts[i]? = some (.mk k c) ∧ Holds c v ∧ CutKind cfg k v p
  | [], ctx, id, i, v, e, p, h => by simp only [writeAlts] at h; cases h
  | .mk k c :: alts, ctx, id, i, v, e, p, h => by
      cases i with
      | zero =>
        rw [writeAlts] at h
        rcases checked_error h with h | ⟨hc, h⟩
        · exact .inl h
        · rcases cut_kind cfg k _ _ _ _ _ _ _ h with h | h
          · exact .inl h
          · exact .inr ⟨k, c, rfl, hc, h⟩
      | succ i =>
        rw [writeAlts] at h
        rcases cut_alts cfg alts _ _ _ _ _ _ h with h | ⟨k, c, h1, h2⟩
        · exact .inl h
        · exact .inr ⟨k, c, by simpa using h1, h2⟩
theorem cut_fields (cfg : Cfg) : (fs : List Field) → ∀ f ∈ fs, FieldClaim cfg f
  | [], f, hf => by cases hf
  | g :: fs, f, hf => by
      rcases List.mem_cons.1 hf with h | hf
      · rw [h]; exact cut_field cfg g
      · exact cut_fields cfg fs f hf
end

/-- Every failed write is cut at the field it names. -/
theorem cut_streamCast {cfg : Cfg} {fs : List Field} {vs : List Val} {e : CastError}
    {p : List Byte} (h : Wr.out (streamCast cfg fs vs) = (.done (.error e), p)) :
    Cut cfg fs vs e.failedAt p :=
  cut_of_fields (cut_fields cfg fs) h

end S2S
