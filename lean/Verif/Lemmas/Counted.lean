import Verif.Spec.Counted
import Verif.Spec.Typed
import Verif.Props.RoundTrip
import Verif.Props.Rewrite
/-
Arrays of records that are given a length: reading does not see the length, writing sees vectors.
-/
namespace S2S
open Spec Props

/-! ### Reading -/

mutual
theorem readCtKind_eq (cfg : Cfg) (env : Env) : (k : CtKind) →
    readCtKind cfg env k = readKind cfg env (k.seen plainArr)
  | .leaf k => by simp only [readCtKind, CtKind.seen]
  | .record fs => by simp only [readCtKind, CtKind.seen, readKind, readCtFields_eq cfg _ fs]
  | .arrRec fs n len => by
      simp only [readCtKind, CtKind.seen, plainArr, readKind, readCtFields_eq cfg _ fs]
  | .vecRec fs len bound sz => by
      simp only [readCtKind, CtKind.seen, readKind, readCtFields_eq cfg _ fs]; rfl
termination_by structural k => k
theorem readCtField_eq (cfg : Cfg) (env : Env) : (f : CtField) →
    readCtField cfg env f = readField cfg env (f.seen plainArr)
  | .plain id k c => by simp only [readCtField, CtField.seen, readField, readCtKind_eq cfg env k]
  | .maybe id k p => by simp only [readCtField, CtField.seen, readField, readCtKind_eq cfg env k]
  | .union id d alts c => by
      simp only [readCtField, CtField.seen, readField, readCtAlts_eq cfg env alts]; rfl
termination_by structural f => f
theorem readCtAlts_eq (cfg : Cfg) (env : Env) : (alts : List CtAlt) → ∀ i,
    readCtAlts cfg env alts i = readAlts cfg env (seenAlts plainArr alts) i
  | [], i => by simp only [readCtAlts, seenAlts, readAlts]
  | .mk k c :: alts, 0 => by simp only [readCtAlts, seenAlts, readAlts, readCtKind_eq cfg env k]
  | .mk k c :: alts, i + 1 => by
      simp only [readCtAlts, seenAlts, readAlts, readCtAlts_eq cfg env alts i]
termination_by structural alts => alts
theorem readCtFields_eq (cfg : Cfg) (env : Env) : (fs : List CtField) →
    readCtFields cfg env fs = readFields cfg env (asArrays fs)
  | [] => by simp only [readCtFields, asArrays, seenFields, readFields]
  | f :: fs => by
      simp only [readCtFields, asArrays, seenFields, readFields, readCtField_eq cfg env f]
      simp only [readCtFields_eq cfg _ fs]
termination_by structural fs => fs
end

/-! ### Writing -/

theorem writeRecs_congr {one one' : List Val → WrE CastError Unit} : ∀ vs : List Val,
    (∀ ws, Val.seq ws ∈ vs → one ws = one' ws) → writeRecs one vs = writeRecs one' vs
  | [], _ => rfl
  | v :: vs, h => by
      have ih := writeRecs_congr vs fun ws hw => h ws (List.mem_cons_of_mem _ hw)
      cases v with
      | seq ws => simp only [writeRecs, ih, h ws (List.mem_cons_self ..)]
      | int _ => simp only [writeRecs]
      | absent => simp only [writeRecs]
      | present _ => simp only [writeRecs]
      | var _ _ => simp only [writeRecs]

mutual
theorem writeCtKind_eq (cfg : Cfg) (ctx : WCtx) (member : Bool) (id : String) (c : Constraint) :
    (k : CtKind) → ∀ v, FullKind k v →
    writeCtKind cfg ctx member id c k v = writeKind cfg ctx member id c (k.seen countedArr) v
  | .leaf k, v, _ => by simp only [writeCtKind, CtKind.seen]
  | .record fs, v, h => by
      rw [FullKind] at h
      cases v with
      | seq vs => simp only [writeCtKind, CtKind.seen, writeKind, writeCtFields_eq cfg _ fs vs (h vs rfl)]
      | _ => simp only [writeCtKind, CtKind.seen, writeKind]
  | .arrRec fs n len, v, h => by
      rw [FullKind] at h
      obtain ⟨vs, rfl, hn, h⟩ := h
      have := writeRecs_congr (one := fun ws => writeCtFields cfg ⟨asVectors fs, ws⟩ fs ws) vs
        fun ws hw => writeCtFields_eq cfg ⟨asVectors fs, ws⟩ fs ws (h ws hw)
      rcases len with _ | (s | g)
      · simp only [writeCtKind, CtKind.seen, countedArr, writeKind, this]
      · simp only [writeCtKind, CtKind.seen, countedArr, writeKind, verifyComputed, hn, ne_eq,
          not_true_eq_false, if_false, this]
      · simp only [writeCtKind, CtKind.seen, countedArr, writeKind, this]
  | .vecRec fs len bound sz, v, h => by
      rw [FullKind] at h
      cases v with
      | seq vs =>
        simp only [writeCtKind, CtKind.seen, writeKind,
          writeRecs_congr (one := fun ws => writeCtFields cfg ⟨asVectors fs, ws⟩ fs ws) vs
            fun ws hw => writeCtFields_eq cfg ⟨asVectors fs, ws⟩ fs ws (h vs rfl ws hw)]
      | _ => simp only [writeCtKind, CtKind.seen, writeKind]
termination_by structural k => k
theorem writeCtField_eq (cfg : Cfg) (ctx : WCtx) : (f : CtField) → ∀ v, FullField f v →
    writeCtField cfg ctx f v = writeField cfg ctx (f.seen countedArr) v
  | .plain id k c, v, h => by
      rw [FullField] at h
      simp only [writeCtField, CtField.seen, writeField, writeCtKind_eq cfg ctx true id c k v h]
  | .maybe id k p, v, h => by
      rw [FullField] at h
      cases v with
      | present w =>
        simp only [writeCtField, CtField.seen, writeField,
          writeCtKind_eq cfg ctx false id .none k w (h w rfl)]
      | _ => simp only [writeCtField, CtField.seen, writeField]
  | .union id d alts c, v, h => by
      rw [FullField] at h
      cases v with
      | var i w =>
        simp only [writeCtField, CtField.seen, writeField,
          writeCtAlts_eq cfg ctx id alts i w (h i w rfl)]
        cases d <;> rfl
      | _ => simp only [writeCtField, CtField.seen, writeField]
termination_by structural f => f
theorem writeCtAlts_eq (cfg : Cfg) (ctx : WCtx) (id : String) : (alts : List CtAlt) → ∀ i w,
    FullAlts alts i w → writeCtAlts cfg ctx id alts i w = writeAlts cfg ctx id (seenAlts countedArr alts) i w
  | [], i, w, _ => by simp only [writeCtAlts, seenAlts, writeAlts]
  | .mk k c :: alts, 0, w, h => by
      rw [FullAlts] at h
      simp only [writeCtAlts, seenAlts, writeAlts, writeCtKind_eq cfg ctx false id c k w h]
  | .mk k c :: alts, i + 1, w, h => by
      rw [FullAlts] at h
      simp only [writeCtAlts, seenAlts, writeAlts, writeCtAlts_eq cfg ctx id alts i w h]
termination_by structural alts => alts
theorem writeCtFields_eq (cfg : Cfg) (ctx : WCtx) : (fs : List CtField) → ∀ vs, FullFields fs vs →
    writeCtFields cfg ctx fs vs = writeFields cfg ctx (asVectors fs) vs
  | [], [], _ => by simp only [writeCtFields, asVectors, seenFields, writeFields]
  | [], _ :: _, _ => by simp only [writeCtFields, asVectors, seenFields, writeFields]
  | _ :: _, [], _ => by simp only [writeCtFields, asVectors, seenFields, writeFields]
  | f :: fs, v :: vs, h => by
      rw [FullFields] at h
      simp only [writeCtFields, asVectors, seenFields, writeFields, writeCtField_eq cfg ctx f v h.1]
      simp only [writeCtFields_eq cfg ctx fs vs h.2]
termination_by structural fs => fs
end

/-! ### Structs -/

mutual
theorem fullKind_of_typed (cfg : Cfg) : (k : CtKind) → ∀ v, TypedKind cfg (k.seen plainArr) v → FullKind k v
  | .leaf k, v, _ => by simp only [FullKind]
  | .record fs, v, h => by
      rw [FullKind]
      rintro vs rfl
      simp only [CtKind.seen, TypedKind] at h
      exact full_of_typed cfg fs vs h
  | .arrRec fs n len, v, h => by
      rw [FullKind]
      cases v with
      | seq vs =>
        simp only [CtKind.seen, plainArr, TypedKind] at h
        refine ⟨vs, rfl, h.1, fun ws hw => ?_⟩
        obtain ⟨ws', h1, h2⟩ := h.2 _ hw
        cases h1
        exact full_of_typed cfg fs ws h2
      | _ => simp [CtKind.seen, plainArr, TypedKind] at h
  | .vecRec fs len bound sz, v, h => by
      rw [FullKind]
      rintro vs rfl ws hw
      simp only [CtKind.seen, TypedKind] at h
      obtain ⟨ws', h1, h2⟩ := h.2 _ hw
      cases h1
      exact full_of_typed cfg fs ws h2
termination_by structural k => k
theorem fullField_of_typed (cfg : Cfg) : (f : CtField) → ∀ v, TypedField cfg (f.seen plainArr) v → FullField f v
  | .plain id k c, v, h => by
      rw [FullField]
      simp only [CtField.seen, TypedField] at h
      exact fullKind_of_typed cfg k v h
  | .maybe id k p, v, h => by
      rw [FullField]
      rintro w rfl
      simp only [CtField.seen, TypedField] at h
      exact fullKind_of_typed cfg k w h
  | .union id d alts c, v, h => by
      rw [FullField]
      rintro i w rfl
      simp only [CtField.seen, TypedField] at h
      exact fullAlts_of_typed cfg alts i w h
termination_by structural f => f
theorem fullAlts_of_typed (cfg : Cfg) : (alts : List CtAlt) → ∀ i w,
    TypedAlts cfg (seenAlts plainArr alts) i w → FullAlts alts i w
  | [], i, w, _ => by simp only [FullAlts]
  | .mk k c :: alts, 0, w, h => by
      rw [FullAlts]
      simp only [seenAlts, TypedAlts] at h
      exact fullKind_of_typed cfg k w h
  | .mk k c :: alts, i + 1, w, h => by
      rw [FullAlts]
      simp only [seenAlts, TypedAlts] at h
      exact fullAlts_of_typed cfg alts i w h
termination_by structural alts => alts
theorem full_of_typed (cfg : Cfg) : (fs : List CtField) → ∀ vs, TypedFields cfg (asArrays fs) vs → FullFields fs vs
  | [], vs, _ => by simp only [FullFields]
  | _ :: _, [], _ => by simp only [FullFields]
  | f :: fs, v :: vs, h => by
      simp only [asArrays, seenFields, TypedFields] at h
      rw [FullFields]
      exact ⟨fullField_of_typed cfg f v h.1, full_of_typed cfg fs vs h.2⟩
termination_by structural fs => fs
end

mutual
theorem wireKind_counted (o : Endian) : (k : CtKind) → ∀ v,
    wireKind o (k.seen countedArr) v = wireKind o (k.seen plainArr) v
  | .leaf k, v => by simp only [CtKind.seen]
  | .record fs, v => by
      cases v with
      | seq vs => simp only [CtKind.seen, wireKind, wireFields_counted o fs]
      | _ => simp only [CtKind.seen, wireKind]
  | .arrRec fs n len, v => by
      rcases len with _ | (s | g) <;> cases v <;>
        simp only [CtKind.seen, countedArr, plainArr, wireKind, wireFields_counted o fs]
  | .vecRec fs len bound sz, v => by
      cases v with
      | seq vs => simp only [CtKind.seen, wireKind, wireFields_counted o fs]
      | _ => simp only [CtKind.seen, wireKind]
termination_by structural k => k
theorem wireField_counted (o : Endian) : (f : CtField) → ∀ v,
    wireField o (f.seen countedArr) v = wireField o (f.seen plainArr) v
  | .plain id k c, v => by simp only [CtField.seen, wireField, wireKind_counted o k]
  | .maybe id k p, v => by cases v <;> simp only [CtField.seen, wireField, wireKind_counted o k]
  | .union id d alts c, v => by
      cases v <;> simp only [CtField.seen, wireField, wireAlts_counted o alts]
termination_by structural f => f
theorem wireAlts_counted (o : Endian) : (alts : List CtAlt) → ∀ i v,
    wireAlts o (seenAlts countedArr alts) i v = wireAlts o (seenAlts plainArr alts) i v
  | [], i, v => by simp only [seenAlts]
  | .mk k c :: alts, 0, v => by simp only [seenAlts, wireAlts, wireKind_counted o k]
  | .mk k c :: alts, i + 1, v => by simp only [seenAlts, wireAlts, wireAlts_counted o alts]
termination_by structural alts => alts
theorem wireFields_counted (o : Endian) : (fs : List CtField) → ∀ vs,
    wireFields o (seenFields countedArr fs) vs = wireFields o (seenFields plainArr fs) vs
  | [], vs => by simp only [seenFields]
  | f :: fs, [] => by simp only [seenFields, wireFields]
  | f :: fs, v :: vs => by
      simp only [seenFields, wireFields, wireField_counted o f, wireFields_counted o fs]
termination_by structural fs => fs
end

theorem id_seen (a b : List Field → Nat → Option LenSpec → Kind) (f : CtField) :
    (f.seen a).id = (f.seen b).id := by cases f <;> rfl

theorem envOf_seen (a b : List Field → Nat → Option LenSpec → Kind) : ∀ (fs : List CtField) (vs : List Val),
    envOf (seenFields a fs) vs = envOf (seenFields b fs) vs
  | [], vs => by simp only [seenFields]
  | f :: fs, [] => by simp only [seenFields, envOf]
  | f :: fs, v :: vs => by simp only [seenFields, envOf, envOf_seen a b fs vs, id_seen a b f]

mutual
theorem okKind_counted : (k : CtKind) → ∀ v, OkKind (k.seen countedArr) v ↔ OkKind (k.seen plainArr) v
  | .leaf k, v => by simp only [CtKind.seen]
  | .record fs, v => by
      cases v with
      | seq vs => simp only [CtKind.seen, OkKind, okFields_counted fs]
      | _ => simp only [CtKind.seen, OkKind]
  | .arrRec fs n len, v => by
      rcases len with _ | (s | g) <;> cases v <;>
        simp only [CtKind.seen, countedArr, plainArr, OkKind, okFields_counted fs]
  | .vecRec fs len bound sz, v => by
      cases v with
      | seq vs => simp only [CtKind.seen, OkKind, okFields_counted fs]
      | _ => simp only [CtKind.seen, OkKind]
termination_by structural k => k
theorem okField_counted : (f : CtField) → ∀ v, OkField (f.seen countedArr) v ↔ OkField (f.seen plainArr) v
  | .plain id k c, v => by simp only [CtField.seen, OkField, okKind_counted k]
  | .maybe id k p, v => by cases v <;> simp only [CtField.seen, OkField, okKind_counted k]
  | .union id d alts c, v => by
      cases v <;> simp only [CtField.seen, OkField, okAlts_counted alts]
termination_by structural f => f
theorem okAlts_counted : (alts : List CtAlt) → ∀ i v,
    OkAlts (seenAlts countedArr alts) i v ↔ OkAlts (seenAlts plainArr alts) i v
  | [], i, v => by simp only [seenAlts]
  | .mk k c :: alts, 0, v => by simp only [seenAlts, OkAlts, okKind_counted k]
  | .mk k c :: alts, i + 1, v => by simp only [seenAlts, OkAlts, okAlts_counted alts]
termination_by structural alts => alts
theorem okFields_counted : (fs : List CtField) → ∀ vs,
    OkFields (seenFields countedArr fs) vs ↔ OkFields (seenFields plainArr fs) vs
  | [], vs => by simp only [seenFields]
  | f :: fs, [] => by simp only [seenFields, OkFields]
  | f :: fs, v :: vs => by
      simp only [seenFields, OkFields, okField_counted f, okFields_counted fs]
termination_by structural fs => fs
end

mutual
theorem shapedKind_counted (cfg : Cfg) (env : Env) : (k : CtKind) → ∀ v,
    ShapedKind cfg env (k.seen countedArr) v → ShapedKind cfg env (k.seen plainArr) v
  | .leaf k, v, h => by simpa only [CtKind.seen] using h
  | .record fs, v, h => by
      cases v with
      | seq vs =>
        simp only [CtKind.seen, ShapedKind, envOf_seen countedArr plainArr fs] at h ⊢
        exact shapedFields_counted cfg _ fs vs h
      | _ => simp only [CtKind.seen, ShapedKind]
  | .arrRec fs n len, v, h => by
      cases v with
      | seq vs =>
        have h' : ∀ v ∈ vs, ∃ ws, v = .seq ws ∧
            ShapedFields cfg (envOf (seenFields countedArr fs) ws) (seenFields countedArr fs) ws := by
          rcases len with _ | (s | g)
          · simpa only [CtKind.seen, countedArr, ShapedKind] using h
          · simp only [CtKind.seen, countedArr, ShapedKind] at h; exact h.2
          · simpa only [CtKind.seen, countedArr, ShapedKind] using h
        simp only [CtKind.seen, plainArr, ShapedKind]
        intro v hv
        obtain ⟨ws, rfl, hs⟩ := h' v hv
        rw [envOf_seen countedArr plainArr fs] at hs
        exact ⟨ws, rfl, shapedFields_counted cfg _ fs ws hs⟩
      | _ => simp only [CtKind.seen, plainArr, ShapedKind]
  | .vecRec fs len bound sz, v, h => by
      cases v with
      | seq vs =>
        simp only [CtKind.seen, ShapedKind, envOf_seen countedArr plainArr fs] at h ⊢
        refine ⟨h.1, fun v hv => ?_⟩
        obtain ⟨ws, rfl, hs⟩ := h.2 v hv
        exact ⟨ws, rfl, shapedFields_counted cfg _ fs ws hs⟩
      | _ => simp only [CtKind.seen, ShapedKind]
termination_by structural k => k
theorem shapedField_counted (cfg : Cfg) (env : Env) : (f : CtField) → ∀ v,
    ShapedField cfg env (f.seen countedArr) v → ShapedField cfg env (f.seen plainArr) v
  | .plain id k c, v, h => by
      simp only [CtField.seen, ShapedField] at h ⊢
      exact shapedKind_counted cfg env k v h
  | .maybe id k p, v, h => by
      cases v with
      | present w =>
        simp only [CtField.seen, ShapedField] at h ⊢
        exact ⟨h.1, shapedKind_counted cfg env k w h.2⟩
      | _ => simpa only [CtField.seen, ShapedField] using h
  | .union id d alts c, v, h => by
      cases v with
      | var i w =>
        simp only [CtField.seen, ShapedField] at h ⊢
        exact ⟨h.1, shapedAlts_counted cfg env alts i w h.2⟩
      | _ => simp only [CtField.seen, ShapedField]
termination_by structural f => f
theorem shapedAlts_counted (cfg : Cfg) (env : Env) : (alts : List CtAlt) → ∀ i v,
    ShapedAlts cfg env (seenAlts countedArr alts) i v → ShapedAlts cfg env (seenAlts plainArr alts) i v
  | [], i, v, h => by simpa only [seenAlts] using h
  | .mk k c :: alts, 0, v, h => by
      simp only [seenAlts, ShapedAlts] at h ⊢
      exact shapedKind_counted cfg env k v h
  | .mk k c :: alts, i + 1, v, h => by
      simp only [seenAlts, ShapedAlts] at h ⊢
      exact shapedAlts_counted cfg env alts i v h
termination_by structural alts => alts
theorem shapedFields_counted (cfg : Cfg) (env : Env) : (fs : List CtField) → ∀ vs,
    ShapedFields cfg env (seenFields countedArr fs) vs → ShapedFields cfg env (seenFields plainArr fs) vs
  | [], vs, h => by simpa only [seenFields] using h
  | f :: fs, [], h => by simp only [seenFields, ShapedFields]
  | f :: fs, v :: vs, h => by
      simp only [seenFields, ShapedFields] at h ⊢
      exact ⟨shapedField_counted cfg env f v h.1, shapedFields_counted cfg env fs vs h.2⟩
termination_by structural fs => fs
end

theorem fits_int_seen (cfg : Cfg) (k : CtKind) (x : Int) (h : FitsKind cfg (k.seen countedArr) (.int x)) :
    FitsKind cfg (k.seen plainArr) (.int x) := by
  cases k with
  | leaf k => simpa only [CtKind.seen] using h
  | record fs => simp [CtKind.seen, FitsKind] at h
  | arrRec fs n len => rcases len with _ | (s | g) <;> simp [CtKind.seen, countedArr, FitsKind] at h
  | vecRec fs len bound sz => simp [CtKind.seen, FitsKind] at h

theorem fits_const_seen (cfg : Cfg) (k : CtKind) (c : Constraint) (u : Val)
    (hc : constOf (k.seen countedArr) c = some u) (h : FitsKind cfg (k.seen countedArr) u) :
    FitsKind cfg (k.seen plainArr) u := by
  cases k with
  | leaf k => simpa only [CtKind.seen] using h
  | record fs => simp [CtKind.seen, constOf] at hc
  | arrRec fs n len => rcases len with _ | (s | g) <;> simp [CtKind.seen, countedArr, constOf] at hc
  | vecRec fs len bound sz => simp [CtKind.seen, constOf] at hc

mutual
theorem fitsKind_settled (cfg : Cfg) : (k : CtKind) → ∀ v, FullKind k v →
    FitsKind cfg (k.seen countedArr) (settleKind (k.seen countedArr) v) →
    FitsKind cfg (k.seen plainArr) (settleKind (k.seen countedArr) v)
  | .leaf k, v, _, h => by simpa only [CtKind.seen] using h
  | .record fs, v, hf, h => by
      rw [FullKind] at hf
      cases v with
      | seq vs =>
        simp only [CtKind.seen, settleKind, FitsKind] at h ⊢
        exact fitsFields_settled cfg _ _ fs vs (hf vs rfl) h
      | _ => simp [CtKind.seen, settleKind, FitsKind] at h
  | .arrRec fs n len, v, hf, h => by
      rw [FullKind] at hf
      obtain ⟨vs, rfl, hn, hf⟩ := hf
      have hrow : ∀ xs : List Val, (∀ v ∈ xs.map (mapRecord fun ws =>
          settleFields (seenFields countedArr fs) ws (seenFields countedArr fs) ws),
            ∃ ws, v = .seq ws ∧ FitsFields cfg (seenFields countedArr fs) ws) →
          (∀ ws, .seq ws ∈ xs → FullFields fs ws) →
          ∀ v ∈ xs.map (mapRecord fun ws =>
            settleFields (seenFields countedArr fs) ws (seenFields countedArr fs) ws),
            ∃ ws, v = .seq ws ∧ FitsFields cfg (seenFields plainArr fs) ws := by
        intro xs h1 h2 v hv
        obtain ⟨ws, rfl, h3⟩ := h1 v hv
        obtain ⟨x, hx, he⟩ := List.mem_map.1 hv
        cases x with
        | seq ys =>
          simp only [mapRecord, Val.seq.injEq] at he
          subst he
          exact ⟨_, rfl, fitsFields_settled cfg _ _ fs ys (h2 ys hx) h3⟩
        | _ => simp [mapRecord] at he
      rcases len with _ | (s | g) <;>
        simp only [CtKind.seen, countedArr, plainArr, settleKind, FitsKind, List.length_map] at h ⊢ <;>
        exact ⟨hn, hrow vs h.2 hf⟩
  | .vecRec fs len bound sz, v, hf, h => by
      rw [FullKind] at hf
      cases v with
      | seq vs =>
        simp only [CtKind.seen, settleKind, FitsKind] at h ⊢
        refine ⟨h.1, fun v hv => ?_⟩
        obtain ⟨ws, rfl, h3⟩ := h.2 v hv
        obtain ⟨x, hx, he⟩ := List.mem_map.1 hv
        cases x with
        | seq ys =>
          simp only [mapRecord, Val.seq.injEq] at he
          subst he
          exact ⟨_, rfl, fitsFields_settled cfg _ _ fs ys (hf vs rfl ys hx) h3⟩
        | _ => simp [mapRecord] at he
      | _ => simp [CtKind.seen, settleKind, FitsKind] at h
termination_by structural k => k
theorem fitsField_settled (cfg : Cfg) (all : List Field) (vals : List Val) : (f : CtField) → ∀ v, FullField f v →
    FitsField cfg (f.seen countedArr) (settleField all vals (f.seen countedArr) v) →
    FitsField cfg (f.seen plainArr) (settleField all vals (f.seen countedArr) v)
  | .plain id k c, v, hf, h => by
      rw [FullField] at hf
      have ih := fitsKind_settled cfg k v hf
      simp only [CtField.seen, settleField, FitsField] at h ⊢
      split at h
      · rename_i hs
        rw [if_pos hs]
        exact fits_int_seen cfg k _ h
      · rename_i hs
        rw [if_neg hs]
        cases hc : constOf (k.seen countedArr) c with
        | some u =>
          rw [hc] at h
          exact fits_const_seen cfg k c u hc h
        | none =>
          rw [hc] at h
          exact ih h
  | .maybe id k p, v, hf, h => by
      rw [FullField] at hf
      cases v with
      | present w =>
        simp only [CtField.seen, settleField, FitsField] at h ⊢
        exact fitsKind_settled cfg k w (hf w rfl) h
      | _ => simpa only [CtField.seen, settleField, FitsField] using h
  | .union id d alts c, v, hf, h => by
      rw [FullField] at hf
      cases v with
      | var i w =>
        simp only [CtField.seen, settleField, FitsField] at h ⊢
        exact fitsAlts_settled cfg alts i w (hf i w rfl) h
      | _ => simp [CtField.seen, settleField, FitsField] at h
termination_by structural f => f
theorem fitsAlts_settled (cfg : Cfg) : (alts : List CtAlt) → ∀ i v, FullAlts alts i v →
    FitsAlts cfg (seenAlts countedArr alts) i (settleAlts (seenAlts countedArr alts) i v) →
    FitsAlts cfg (seenAlts plainArr alts) i (settleAlts (seenAlts countedArr alts) i v)
  | [], i, v, _, h => by simp [seenAlts, FitsAlts] at h
  | .mk k c :: alts, 0, v, hf, h => by
      rw [FullAlts] at hf
      simp only [seenAlts, settleAlts, FitsAlts] at h ⊢
      exact fitsKind_settled cfg k v hf h
  | .mk k c :: alts, i + 1, v, hf, h => by
      rw [FullAlts] at hf
      simp only [seenAlts, settleAlts, FitsAlts] at h ⊢
      exact fitsAlts_settled cfg alts i v hf h
termination_by structural alts => alts
theorem fitsFields_settled (cfg : Cfg) (all : List Field) (vals : List Val) : (fs : List CtField) → ∀ vs,
    FullFields fs vs →
    FitsFields cfg (seenFields countedArr fs) (settleFields all vals (seenFields countedArr fs) vs) →
    FitsFields cfg (seenFields plainArr fs) (settleFields all vals (seenFields countedArr fs) vs)
  | [], vs, _, h => by simpa only [seenFields] using h
  | f :: fs, [], _, h => by simp [seenFields, settleFields, FitsFields] at h
  | f :: fs, v :: vs, hf, h => by
      rw [FullFields] at hf
      simp only [seenFields, settleFields, FitsFields] at h ⊢
      exact ⟨fitsField_settled cfg all vals f v hf.1 h.1, fitsFields_settled cfg all vals fs vs hf.2 h.2⟩
termination_by structural fs => fs
end

mutual
theorem saneKind_counted : (k : CtKind) → saneKind (k.seen countedArr) = saneKind (k.seen plainArr)
  | .leaf k => rfl
  | .record fs => by simp only [CtKind.seen, saneKind, saneFields_counted fs]
  | .arrRec fs n len => by
      rcases len with _ | (s | g) <;>
        simp [CtKind.seen, countedArr, plainArr, saneKind, saneFields_counted fs]
  | .vecRec fs len bound sz => by simp only [CtKind.seen, saneKind, saneFields_counted fs]
termination_by structural k => k
theorem saneField_counted : (f : CtField) → saneField (f.seen countedArr) = saneField (f.seen plainArr)
  | .plain id k c => by simp only [CtField.seen, saneField, saneKind_counted k]
  | .maybe id k p => by simp only [CtField.seen, saneField, saneKind_counted k]
  | .union id d alts c => by
      simp only [CtField.seen, saneField, (saneAlts_counted alts).1, (saneAlts_counted alts).2]
termination_by structural f => f
theorem saneAlts_counted : (alts : List CtAlt) →
    saneAlts (seenAlts countedArr alts) = saneAlts (seenAlts plainArr alts) ∧
      (seenAlts countedArr alts).length = (seenAlts plainArr alts).length
  | [] => by simp only [seenAlts, and_self]
  | .mk k c :: alts => by
      simp only [seenAlts, saneAlts, saneKind_counted k, (saneAlts_counted alts).1,
        (saneAlts_counted alts).2, List.length_cons, and_self]
termination_by structural alts => alts
theorem saneFields_counted : (fs : List CtField) →
    saneFields (seenFields countedArr fs) = saneFields (seenFields plainArr fs)
  | [] => by simp only [seenFields]
  | f :: fs => by simp only [seenFields, saneFields, saneField_counted f, saneFields_counted fs]
termination_by structural fs => fs
end

mutual
theorem uniqueKind_counted : (k : CtKind) → uniqueKind (k.seen countedArr) = uniqueKind (k.seen plainArr)
  | .leaf k => rfl
  | .record fs => by simp only [CtKind.seen, uniqueKind, uniqueFields_counted fs]
  | .arrRec fs n len => by
      rcases len with _ | (s | g) <;>
        simp only [CtKind.seen, countedArr, plainArr, uniqueKind, uniqueFields_counted fs]
  | .vecRec fs len bound sz => by simp only [CtKind.seen, uniqueKind, uniqueFields_counted fs]
termination_by structural k => k
theorem uniqueField_counted : (f : CtField) → uniqueField (f.seen countedArr) = uniqueField (f.seen plainArr)
  | .plain id k c => by simp only [CtField.seen, uniqueField, uniqueKind_counted k]
  | .maybe id k p => by simp only [CtField.seen, uniqueField, uniqueKind_counted k]
  | .union id d alts c => by simp only [CtField.seen, uniqueField, uniqueAlts_counted alts]
termination_by structural f => f
theorem uniqueAlts_counted : (alts : List CtAlt) →
    uniqueAlts (seenAlts countedArr alts) = uniqueAlts (seenAlts plainArr alts)
  | [] => by simp only [seenAlts]
  | .mk k c :: alts => by simp only [seenAlts, uniqueAlts, uniqueKind_counted k, uniqueAlts_counted alts]
termination_by structural alts => alts
theorem uniqueFields_counted : (fs : List CtField) → ∀ seen,
    uniqueFields seen (seenFields countedArr fs) = uniqueFields seen (seenFields plainArr fs)
  | [], seen => by simp only [seenFields]
  | f :: fs, seen => by
      simp only [seenFields, uniqueFields, uniqueField_counted f, id_seen countedArr plainArr f,
        uniqueFields_counted fs]
termination_by structural fs => fs
end

theorem kindDeps_counted (k : CtKind) : ∀ i ∈ kindDeps (k.seen plainArr), i ∈ kindDeps (k.seen countedArr) := by
  cases k with
  | arrRec fs n len => intro i hi; simp [CtKind.seen, plainArr, kindDeps] at hi
  | _ => intro i hi; exact hi

theorem altDeps_counted : ∀ alts : List CtAlt,
    ∀ i ∈ (seenAlts plainArr alts).flatMap (fun a => kindDeps a.kind),
      i ∈ (seenAlts countedArr alts).flatMap (fun a => kindDeps a.kind)
  | [], i, hi => by simp [seenAlts] at hi
  | .mk k c :: alts, i, hi => by
      simp only [seenAlts, List.flatMap_cons, List.mem_append, Alt.kind] at hi ⊢
      exact hi.imp (kindDeps_counted k i) (altDeps_counted alts i)

theorem fieldDeps_counted (f : CtField) : ∀ i ∈ fieldDeps (f.seen plainArr), i ∈ fieldDeps (f.seen countedArr) := by
  cases f with
  | plain id k c => intro i hi; simp only [CtField.seen, fieldDeps] at hi ⊢; exact kindDeps_counted k i hi
  | maybe id k p =>
      intro i hi; simp only [CtField.seen, fieldDeps, List.mem_append] at hi ⊢
      exact hi.imp (kindDeps_counted k i) fun h => h
  | union id d alts c =>
      intro i hi; simp only [CtField.seen, fieldDeps, List.mem_append] at hi ⊢
      exact hi.imp (fun h => h) (altDeps_counted alts i)

mutual
theorem earlierKind_counted : (k : CtKind) → earlierKind (k.seen countedArr) = true →
    earlierKind (k.seen plainArr) = true
  | .leaf k, h => h
  | .record fs, h => by
      simp only [CtKind.seen, earlierKind] at h ⊢; exact earlierFields_counted fs [] h
  | .arrRec fs n len, h => by
      simp only [CtKind.seen, plainArr, earlierKind]
      refine earlierFields_counted fs [] ?_
      rcases len with _ | (s | g) <;> simpa only [CtKind.seen, countedArr, earlierKind] using h
  | .vecRec fs len bound sz, h => by
      simp only [CtKind.seen, earlierKind] at h ⊢; exact earlierFields_counted fs [] h
termination_by structural k => k
theorem earlierField_counted : (f : CtField) → earlierField (f.seen countedArr) = true →
    earlierField (f.seen plainArr) = true
  | .plain id k c, h => by simp only [CtField.seen, earlierField] at h ⊢; exact earlierKind_counted k h
  | .maybe id k p, h => by simp only [CtField.seen, earlierField] at h ⊢; exact earlierKind_counted k h
  | .union id d alts c, h => by
      simp only [CtField.seen, earlierField] at h ⊢; exact earlierAlts_counted alts h
termination_by structural f => f
theorem earlierAlts_counted : (alts : List CtAlt) → earlierAlts (seenAlts countedArr alts) = true →
    earlierAlts (seenAlts plainArr alts) = true
  | [], h => h
  | .mk k c :: alts, h => by
      simp only [seenAlts, earlierAlts, Bool.and_eq_true] at h ⊢
      exact ⟨earlierKind_counted k h.1, earlierAlts_counted alts h.2⟩
termination_by structural alts => alts
theorem earlierFields_counted : (fs : List CtField) → ∀ seen,
    earlierFields seen (seenFields countedArr fs) = true → earlierFields seen (seenFields plainArr fs) = true
  | [], seen, h => h
  | f :: fs, seen, h => by
      simp only [seenFields, earlierFields, Bool.and_eq_true, List.all_eq_true,
        id_seen countedArr plainArr f] at h ⊢
      exact ⟨⟨fun i hi => h.1.1 i (fieldDeps_counted f i hi), earlierField_counted f h.1.2⟩,
        earlierFields_counted fs _ h.2⟩
termination_by structural fs => fs
end

theorem wellFormed_counted {cs : List CtField} (h : WellFormed (asVectors cs)) : WellFormed (asArrays cs) :=
  ⟨(saneFields_counted cs).symm.trans h.1, (uniqueFields_counted cs []).symm.trans h.2.1,
    earlierFields_counted cs [] h.2.2⟩

end S2S
