import Verif.Lemmas.Cut
/-
What a field contributes to a successful write.
-/
namespace S2S
open Spec

/-- What a value of a kind contributes to the encoding: numbers, buffers, strings and
vectors of those their bytes, records what `stream_cast` of the inner list alone
emits. -/
inductive Contributes (cfg : Cfg) : Kind → Val → List Byte → Prop
  | leaf {k u} : (k.isFixed = true ∨ ∃ e len b, k = .vec e len b) →
      Contributes cfg k u (wireKind cfg.wire k u)
  | record {gs ws r} : (streamCast cfg gs ws).run = (.done (.ok ()), r) →
      Contributes cfg (.record gs) (.seq ws) r
  | array {gs n us r} : RecordsPut cfg gs us r → Contributes cfg (.arrRec gs n) (.seq us) r
  | vector {gs len b sz us r} : RecordsPut cfg gs us r →
      Contributes cfg (.vecRec gs len b sz) (.seq us) r

theorem emits_emitFixed_wire {cfg : Cfg} {k : Kind} {u : Val} {p : List Byte} (h : TypedKind cfg k u)
    (he : (emitFixed cfg k u).Emits p ()) : p = wireKind cfg.wire k u := by
  cases k with
  | num t w =>
    cases u <;> simp only [TypedKind] at h
    rw [emitFixed, emits_writeNum] at he
    rw [wireKind]
    exact he.2
  | fbuf e n =>
    cases u <;> simp only [TypedKind] at h
    have h1 := emits_emitFixed cfg (.fbuf e n) _ rfl (by rw [FitsKind]; exact h)
    rw [WrE.Emits, he] at h1
    cases h1; rfl
  | fstr n =>
    cases u <;> simp only [TypedKind] at h
    have h1 := emits_emitFixed cfg (.fstr n) _ rfl (by rw [FitsKind]; exact h)
    rw [WrE.Emits, he] at h1
    cases h1; rfl
  | _ => exact ((WrE.emits_stuck _ _ _).1 he).elim

theorem emits_writeVec_wire {cfg : Cfg} {e : ElemTy} {len : LenSpec} {b : Option Nat} {us : List Val}
    {p : List Byte} (h : TypedKind cfg (.vec e len b) (.seq us)) (he : (writeVec cfg e us).Emits p ()) :
    p = wireKind cfg.wire (.vec e len b) (.seq us) := by
  rw [TypedKind] at h
  have h1 := emits_writeVec cfg e us (ptrdiff_lt _ _ h.1) h.2
  rw [WrE.Emits, he] at h1
  cases h1
  rw [wireKind]

theorem emits_verifyComputed_any {cfg : Cfg} {env : Env} {len : LenSpec} {n : Nat}
    {k : WrE Reason Unit} {p : List Byte} (h : (verifyComputed cfg env len n k).Emits p ()) :
    k.Emits p () := by
  cases len with
  | fromField id => exact h
  | computed c => exact (verifyComputed_emits h).2

theorem recordsPut_of_emits {cfg : Cfg} {gs : List Field} {us : List Val} {p : List Byte}
    (h : (writeRecs (fun ws => writeFields cfg ⟨gs, ws⟩ gs ws) us).Emits p ()) :
    RecordsPut cfg gs us p := by
  induction us generalizing p with
  | nil =>
    rw [writeRecs, WrE.emits_ok] at h
    rw [h.1]
    exact .nil
  | cons u us ih =>
    cases u with
    | seq ws =>
      rw [writeRecs, WrE.emits_andThen] at h
      obtain ⟨_, q, s, rfl, h1, h2⟩ := h
      refine .cons ?_ (ih h2)
      rw [Wr.run_eq]
      exact (WrE.emits_mapErr _ _ _ _).1 h1
    | _ => simp only [writeRecs] at h; exact ((WrE.emits_stuck _ _ _).1 h).elim

theorem contributes_of_emits {cfg : Cfg} {ctx : WCtx} {m : Bool} {id : String} {c : Constraint}
    {k : Kind} {u : Val} {p : List Byte} (hs : isSlot ctx.fs id = false)
    (hm : m = true → frozenVal k c = none) (ht : TypedKind cfg k u)
    (h : (writeKind cfg ctx m id c k u).Emits p ()) : Contributes cfg k u p := by
  have fixed : k.isFixed = true → writeKind cfg ctx m id c k u = writeFixed cfg ctx m id k c u →
      Contributes cfg k u p := by
    intro hk he
    rw [he, emits_writeFixed] at h
    rcases h with ⟨h1, -⟩ | ⟨-, h1⟩
    · rw [hs] at h1; cases h1
    · have hn : (if m then frozenVal k c else none) = none := by
        cases m with
        | false => rfl
        | true => exact hm rfl
      rw [hn, Option.getD_none] at h1
      rw [emits_emitFixed_wire ht (emits_verifyThenWrite.1 h1).1]
      exact .leaf (.inl hk)
  cases k with
  | num t w => exact fixed rfl (by rw [writeKind])
  | fbuf e n => exact fixed rfl (by rw [writeKind])
  | fstr n => exact fixed rfl (by rw [writeKind])
  | vec e len b =>
    cases u with
    | seq us =>
      rw [writeKind] at h
      rw [emits_writeVec_wire ht (emits_verifyComputed_any h)]
      exact .leaf (.inr ⟨_, _, _, rfl⟩)
    | _ => simp [TypedKind] at ht
  | record gs =>
    cases u with
    | seq us =>
      rw [writeKind] at h
      refine .record ?_
      rw [Wr.run_eq]
      exact (WrE.emits_mapErr _ _ _ _).1 h
    | _ => simp [TypedKind] at ht
  | arrRec gs n =>
    cases u with
    | seq us =>
      rw [writeKind] at h
      split at h
      · exact ((WrE.emits_stuck _ _ _).1 h).elim
      · exact .array (recordsPut_of_emits h)
    | _ => simp [TypedKind] at ht
  | vecRec gs len b sz =>
    cases u with
    | seq us =>
      rw [writeKind] at h
      exact .vector (recordsPut_of_emits (emits_verifyComputed_any h))
    | _ => simp [TypedKind] at ht

/-! ### payloads -/

theorem payload_of_selects {env : Env} {f : Field} {v : Val} {k : Kind} {u : Val}
    (h : SelectsW env f v k u) : Payload f v k u := by
  cases h with
  | plain => exact .plain
  | maybe _ => exact .maybe
  | switch h _ => exact .union h
  | union _ _ h _ => exact .union h

theorem payload_unique {f : Field} {v : Val} {k k' : Kind} {u u' : Val} (h : Payload f v k u)
    (h' : Payload f v k' u') : k = k' ∧ u = u' := by
  cases h with
  | plain => cases h'; exact ⟨rfl, rfl⟩
  | maybe => cases h'; exact ⟨rfl, rfl⟩
  | union h1 =>
    cases h' with
    | union h2 =>
      rw [h1] at h2
      cases h2
      exact ⟨rfl, rfl⟩

/-- On success, the payload is selected. -/
theorem selects_of_payload {cfg : Cfg} {ctx : WCtx} {f : Field} {v : Val} {p : List Byte}
    (h : (writeField cfg ctx f v).Emits p ()) {k : Kind} {u : Val} (hp : Payload f v k u) :
    SelectsW ctx.env f v k u := by
  rcases selects_of_emits h with ⟨id, k', pr, rfl, rfl, -⟩ | ⟨k', u', h1⟩
  · cases hp
  · obtain ⟨rfl, rfl⟩ := payload_unique hp (payload_of_selects h1)
    exact h1

theorem typed_payload {cfg : Cfg} {f : Field} {v : Val} {k : Kind} {u : Val} (h : Payload f v k u)
    (ht : TypedField cfg f v) : TypedKind cfg k u := by
  cases h with
  | plain => rwa [TypedField] at ht
  | maybe => rwa [TypedField] at ht
  | union h1 =>
    rw [TypedField] at ht
    obtain ⟨a, ha, h2⟩ := typedAlts_get ht
    rw [h1] at ha
    cases ha
    exact h2

theorem contributes_of_field {cfg : Cfg} {ctx : WCtx} {f : Field} {v : Val} {k : Kind} {u : Val}
    {p : List Byte} (hs : isSlot ctx.fs f.id = false) (hf : f.isFrozen = false)
    (ht : TypedField cfg f v) (hp : Payload f v k u)
    (h : (writeField cfg ctx f v).Emits p ()) : Contributes cfg k u p := by
  have h1 := selects_of_payload h hp
  have h2 := typed_payload hp ht
  cases h1 with
  | @plain id k c v =>
    rw [writeField] at h
    refine contributes_of_emits hs (fun _ => ?_) h2 h
    simpa [Field.isFrozen] using hf
  | @maybe id k pr v hpr =>
    rw [writeField, hpr, lift_ok_andThen] at h
    exact contributes_of_emits (m := false) hs (by simp) h2 h
  | @switch id d t ls alts c i v k c' ha hc =>
    obtain ⟨h3, -⟩ := emits_union h
    rw [writeAlts_get ha, emits_checked] at h3
    exact contributes_of_emits (m := false) hs (by simp) h2 h3.2
  | @union id d alts c i v k c' hd he ha hc =>
    obtain ⟨h3, -⟩ := emits_union h
    rw [writeAlts_get ha, emits_checked] at h3
    exact contributes_of_emits (m := false) hs (by simp) h2 h3.2

/-! ### presence -/

theorem emits_rec_mem {cfg : Cfg} {gs : List Field} {us : List Val} {p : List Byte}
    (h : (writeRecs (fun ws => writeFields cfg ⟨gs, ws⟩ gs ws) us).Emits p ()) {u : Val}
    (hu : u ∈ us) : ∃ ws q, u = .seq ws ∧ (writeFields cfg ⟨gs, ws⟩ gs ws).Emits q () := by
  induction us generalizing p with
  | nil => cases hu
  | cons a us ih =>
    cases a with
    | seq ws =>
      rw [writeRecs, WrE.emits_andThen] at h
      obtain ⟨_, q, s, rfl, h1, h2⟩ := h
      rcases List.mem_cons.1 hu with rfl | hu
      · exact ⟨ws, q, rfl, (WrE.emits_mapErr _ _ _ _).1 h1⟩
      · exact ih h2 hu
    | _ => simp only [writeRecs] at h; exact ((WrE.emits_stuck _ _ _).1 h).elim

mutual
theorem presence_kind (cfg : Cfg) : (k : Kind) → ∀ ctx m id c v p,
    (writeKind cfg ctx m id c k v).Emits p () → PresenceKind k v
  | .num t w, ctx, m, id, c, v, p, h => by simp [PresenceKind]
  | .fbuf a n, ctx, m, id, c, v, p, h => by simp [PresenceKind]
  | .fstr n, ctx, m, id, c, v, p, h => by simp [PresenceKind]
  | .vec a len b, ctx, m, id, c, v, p, h => by simp [PresenceKind]
  | .record gs, ctx, m, id, c, v, p, h => by
      cases v with
      | seq ws =>
        rw [writeKind] at h
        rw [PresenceKind]
        exact presence_fields cfg gs ⟨gs, ws⟩ ws p ((WrE.emits_mapErr _ _ _ _).1 h)
      | _ => simp only [writeKind] at h; exact ((WrE.emits_stuck _ _ _).1 h).elim
  | .arrRec gs n, ctx, m, id, c, v, p, h => by
      cases v with
      | seq us =>
        rw [writeKind] at h
        rw [PresenceKind]
        split at h
        · exact ((WrE.emits_stuck _ _ _).1 h).elim
        · intro u hu
          obtain ⟨ws, q, rfl, h1⟩ := emits_rec_mem h hu
          exact ⟨ws, rfl, presence_fields cfg gs ⟨gs, ws⟩ ws q h1⟩
      | _ => simp only [writeKind] at h; exact ((WrE.emits_stuck _ _ _).1 h).elim
  | .vecRec gs len b sz, ctx, m, id, c, v, p, h => by
      cases v with
      | seq us =>
        rw [writeKind] at h
        rw [PresenceKind]
        intro u hu
        obtain ⟨ws, q, rfl, h1⟩ := emits_rec_mem (emits_verifyComputed_any h) hu
        exact ⟨ws, rfl, presence_fields cfg gs ⟨gs, ws⟩ ws q h1⟩
      | _ => simp only [writeKind] at h; exact ((WrE.emits_stuck _ _ _).1 h).elim
theorem presence_field (cfg : Cfg) : (f : Field) → ∀ ctx v p,
    (writeField cfg ctx f v).Emits p () → PresenceField ctx.env f v
  | .plain id k c, ctx, v, p, h => by
      rw [writeField] at h
      rw [PresenceField]
      exact presence_kind cfg k _ _ _ _ _ _ h
  | .maybe id k pr, ctx, v, p, h => by
      rcases selects_of_emits h with ⟨id', k', pr', he, rfl, h1, -⟩ | ⟨k', u, h1⟩
      · cases he
        rw [PresenceField]
        exact h1
      · cases h1 with
        | maybe h1 =>
          rw [writeField, h1, lift_ok_andThen] at h
          rw [PresenceField]
          exact ⟨h1, presence_kind cfg k _ _ _ _ _ _ h⟩
  | .union id d alts c, ctx, v, p, h => by
      cases v with
      | var i u =>
        obtain ⟨h1, -⟩ := emits_union h
        rw [PresenceField]
        exact presence_alts cfg alts _ _ _ _ _ h1
      | _ => simp only [writeField] at h; exact ((WrE.emits_stuck _ _ _).1 h).elim
theorem presence_alts (cfg : Cfg) : (alts : List Alt) → ∀ ctx id i v p,
    (writeAlts cfg ctx id alts i v).Emits p () → PresenceAlts alts i v
  | [], ctx, id, i, v, p, h => by
      rw [writeAlts] at h; exact ((WrE.emits_stuck _ _ _).1 h).elim
  | .mk k c :: alts, ctx, id, i, v, p, h => by
      cases i with
      | zero =>
        rw [writeAlts, emits_checked] at h
        rw [PresenceAlts]
        exact presence_kind cfg k _ _ _ _ _ _ h.2
      | succ i =>
        rw [writeAlts] at h
        rw [PresenceAlts]
        exact presence_alts cfg alts _ _ _ _ _ h
theorem presence_fields (cfg : Cfg) : (fs : List Field) → ∀ ctx vs p,
    (writeFields cfg ctx fs vs).Emits p () → PresenceFields ctx.env fs vs
  | [], ctx, vs, p, h => by
      cases vs with
      | nil => simp [PresenceFields]
      | cons v vs => simp only [writeFields] at h; exact ((WrE.emits_stuck _ _ _).1 h).elim
  | f :: fs, ctx, vs, p, h => by
      cases vs with
      | nil => simp only [writeFields] at h; exact ((WrE.emits_stuck _ _ _).1 h).elim
      | cons v vs =>
        rw [emits_writeFields_cons] at h
        obtain ⟨q, s, rfl, h1, h2⟩ := h
        rw [PresenceFields]
        exact ⟨presence_field cfg f _ _ _ (emits_writeStep.1 h1).1, presence_fields cfg fs _ _ _ h2⟩
end

end S2S
