import Verif.Lemmas.HostFree
import Verif.Lemmas.ReadTree
import Verif.Spec.Schema
import Verif.Spec.Order
import Verif.Spec.Streams
/-
The element-wise path of compile-time streams against the bulk path of run-time
streams, when reading.
-/
namespace S2S
open Spec

/-- Success on a `memstream` is success on the byte string. -/
theorem mem_ok {P : ε → Prop} {r : RdE ε α} (hs : RdE.ShortE P r) (inp : List Byte) (a : α)
    (s : List Byte × Bool) : Rd.runOn memstreamIn r (inp, false) = (.done (.ok a), s) ↔
      ∃ rest, Rd.run r inp = (.done (.ok a), rest) ∧ s = (rest, false) := by
  induction r generalizing inp with
  | ret b =>
    constructor
    · intro h; cases h; exact ⟨_, rfl, rfl⟩
    · rintro ⟨rest, h, rfl⟩; cases h; rfl
  | stuck w => exact ⟨fun h => (by cases h), fun h => by obtain ⟨_, h, _⟩ := h; cases h⟩
  | read n k ih =>
    obtain ⟨⟨b, h1, h2⟩, h3⟩ := hs
    rw [Rd.run_read]
    simp only [Rd.runOn, memstreamIn]
    by_cases hn : n ≤ inp.length
    · rw [if_pos hn, if_pos hn]
      exact ih _ (h3 _ (by simp; omega)) _
    · rw [if_neg hn, if_neg hn, h1]
      cases b with
      | ok b => exact h2.elim
      | error e =>
        exact ⟨fun h => (by cases h), fun h => by obtain ⟨_, h, _⟩ := h; cases h⟩
  | alloc b k ih => exact ih hs inp

/-- Over a `memstream`: `r'` leaves defined behaviour (which `E` must allow), or both end
alike and leave the stream alike, healthy if they succeed. -/
def AgreeR (E : Prop) (r r' : RdE ε α) : Prop := ∀ inp : List Byte,
  (E ∧ ∃ w, (Rd.runOn memstreamIn r' (inp, false)).1 = .stuck w) ∨
  (Rd.runOn memstreamIn r (inp, false) = Rd.runOn memstreamIn r' (inp, false) ∧
    ∀ a, (Rd.runOn memstreamIn r' (inp, false)).1 = .done (.ok a) →
      (Rd.runOn memstreamIn r' (inp, false)).2.2 = false)

theorem AgreeR.of_same {E : Prop} {P : ε → Prop} {r r' : RdE ε α} (h : Rd.Same r r')
    (hs : RdE.ShortE P r') : AgreeR E r r' := by
  intro inp
  have := (h.runOn memstreamIn (inp, false)).1
  refine .inr ⟨this, fun a ha => ?_⟩
  obtain ⟨rest, -, hr⟩ := (mem_ok hs inp a _).1 (Prod.ext ha rfl)
  exact congrArg Prod.snd hr

theorem AgreeR.refl {E : Prop} {P : ε → Prop} {r : RdE ε α} (hs : RdE.ShortE P r) : AgreeR E r r :=
  .of_same (.refl r) hs

theorem AgreeR.lift {E : Prop} (o : Except Stuck α) : AgreeR E (RdE.lift o : RdE ε α) (RdE.lift o) := by
  intro inp
  cases o <;> exact .inr ⟨rfl, fun _ h => rfl⟩

theorem AgreeR.ok {E : Prop} (a : α) : AgreeR E (RdE.ok a : RdE ε α) (RdE.ok a) :=
  fun _ => .inr ⟨rfl, fun _ _ => rfl⟩

theorem AgreeR.err {E : Prop} (e : ε) : AgreeR E (RdE.err e : RdE ε α) (RdE.err e) :=
  fun _ => .inr ⟨rfl, fun _ _ => rfl⟩

theorem AgreeR.andThen {E : Prop} {r r' : RdE ε α} {f f' : α → RdE ε β} (h : AgreeR E r r')
    (hf : ∀ a, AgreeR E (f a) (f' a)) : AgreeR E (r.andThen f) (r'.andThen f') := by
  intro inp
  rw [RdE.runOn_andThen, RdE.runOn_andThen]
  rcases h inp with ⟨hE, w, hw⟩ | ⟨h1, h2⟩
  · cases hr : Rd.runOn memstreamIn r' (inp, false) with
    | mk o rest => rw [hr] at hw; cases hw; exact .inl ⟨hE, w, rfl⟩
  · rw [h1]
    cases hr : Rd.runOn memstreamIn r' (inp, false) with
    | mk o rest =>
      rw [hr] at h2
      cases o with
      | stuck w => exact .inr ⟨rfl, fun a ha => by cases ha⟩
      | done a =>
        cases a with
        | error e => exact .inr ⟨rfl, fun a ha => by cases ha⟩
        | ok a =>
          obtain ⟨rest, bad⟩ := rest
          have := h2 a rfl
          cases this
          exact hf a rest

theorem AgreeR.mapErr {E : Prop} {r r' : RdE ε α} (g : ε → ε') (h : AgreeR E r r') :
    AgreeR E (r.mapErr g) (r'.mapErr g) := by
  intro inp
  rw [RdE.runOn_mapErr, RdE.runOn_mapErr]
  rcases h inp with ⟨hE, w, hw⟩ | ⟨h1, h2⟩
  · cases hr : Rd.runOn memstreamIn r' (inp, false) with
    | mk o rest => rw [hr] at hw; cases hw; exact .inl ⟨hE, w, rfl⟩
  · rw [h1]
    cases hr : Rd.runOn memstreamIn r' (inp, false) with
    | mk o rest =>
      rw [hr] at h2
      cases o with
      | stuck w => exact .inr ⟨rfl, fun a ha => by cases ha⟩
      | done a =>
        cases a with
        | error e => exact .inr ⟨rfl, fun a ha => by cases ha⟩
        | ok a => exact .inr ⟨rfl, fun _ _ => h2 a rfl⟩

theorem AgreeR.mapOk {E : Prop} {r r' : RdE ε α} (g : α → β) (h : AgreeR E r r') :
    AgreeR E (r.mapOk g) (r'.mapOk g) := h.andThen fun _ => .ok _

theorem AgreeR.repeatE {E : Prop} {r r' : RdE ε Val} (h : AgreeR E r r') (n : Nat) :
    AgreeR E (repeatE r n) (S2S.repeatE r' n) := by
  induction n with
  | zero => exact .ok _
  | succ n ih => exact h.andThen fun _ => ih.andThen fun _ => .ok _

theorem AgreeR.resize {E : Prop} {k k' : RdE ε α} (cfg : Cfg) (n : Nat) (h : AgreeR E k k') :
    AgreeR E (resize cfg n k) (S2S.resize cfg n k') := by
  unfold S2S.resize
  split
  · exact fun _ => .inr ⟨rfl, fun _ ha => by cases ha⟩
  · exact h

/-! ### One vector -/

/-- An object read whole, then taken for a value. -/
def readObj (size : Nat) (g : List Byte → Option α) : RdE Reason α :=
  (readNativeImpl size size).andThen fun m => RdE.value (g m)

theorem run_readObj (size : Nat) (g : List Byte → Option α) (inp : List Byte) :
    Rd.runOn memstreamIn (readObj size g) (inp, false) =
      if size ≤ inp.length then
        match g (inp.take size) with
        | some v => (.done (.ok v), (inp.drop size, false))
        | none => (.stuck .invalidValue, (inp.drop size, false))
      else (.done (.error .bufferExhaustion), ([], true)) := by
  unfold readObj readNativeImpl
  rw [if_neg (Nat.lt_irrefl _), RdE.runOn_andThen]
  by_cases h : size ≤ inp.length
  · simp only [Rd.runOn, memstreamIn, if_pos h, Nat.sub_self, List.replicate_zero, List.append_nil,
      RdE.ok, Bool.false_eq_true, if_false]
    cases g (inp.take size) <;> rfl
  · simp only [Rd.runOn, memstreamIn, if_neg h, RdE.err]

theorem elems_error (size : Nat) (g : List Byte → Option Val) (n : Nat) (inp : List Byte)
    (s : List Byte × Bool) (x : Reason)
    (h : Rd.runOn memstreamIn (repeatE (readObj size g) n) (inp, false) = (.done (.error x), s)) :
    x = .bufferExhaustion ∧ s = ([], true) ∧ inp.length < n * size := by
  induction n generalizing inp s with
  | zero => cases h
  | succ n ih =>
    rw [repeatE, RdE.runOn_andThen, run_readObj] at h
    by_cases hs : size ≤ inp.length
    · rw [if_pos hs] at h
      cases hg : g (inp.take size) with
      | none => rw [hg] at h; cases h
      | some v =>
        rw [hg] at h
        simp only at h
        rw [RdE.runOn_andThen] at h
        cases hr : Rd.runOn memstreamIn (repeatE (readObj size g) n) (inp.drop size, false) with
        | mk o r =>
          rw [hr] at h
          cases o with
          | stuck w => cases h
          | done a =>
            cases a with
            | ok a => cases h
            | error e =>
              cases h
              obtain ⟨h1, h2, h3⟩ := ih _ _ hr
              refine ⟨h1, h2, ?_⟩
              rw [List.length_drop] at h3
              rw [Nat.succ_mul]
              omega
    · rw [if_neg hs] at h
      cases h
      refine ⟨rfl, rfl, ?_⟩
      rw [Nat.succ_mul]
      omega

/-- Elements made of integers always have a value. -/
theorem elems_stuck (size : Nat) (g : List Byte → Option Val) (n : Nat) (inp : List Byte)
    (hg : ∀ m : List Byte, m.length = size → ∃ v, g m = some v) (w : Stuck) :
    (Rd.runOn memstreamIn (repeatE (readObj size g) n) (inp, false)).1 ≠ .stuck w := by
  induction n generalizing inp with
  | zero => exact fun h => by cases h
  | succ n ih =>
    rw [repeatE, RdE.runOn_andThen, run_readObj]
    by_cases hs : size ≤ inp.length
    · rw [if_pos hs]
      obtain ⟨v, hv⟩ := hg (inp.take size) (by simp; omega)
      rw [hv]
      simp only
      rw [RdE.runOn_andThen]
      have := ih (inp.drop size)
      cases hr : Rd.runOn memstreamIn (repeatE (readObj size g) n) (inp.drop size, false) with
      | mk o r =>
        rw [hr] at this
        cases o with
        | stuck w' => simp only at this ⊢; exact this
        | done a => cases a <;> exact fun h => by cases h
    · rw [if_neg hs]
      exact fun h => by cases h

theorem decodeN_total {f : List Byte → Option Val} {size : Nat}
    (hf : ∀ m : List Byte, m.length = size → ∃ v, f m = some v) (n : Nat) (m : List Byte)
    (hm : m.length = n * size) : ∃ vs, decodeN f size n m = some vs := by
  induction n generalizing m with
  | zero => exact ⟨[], rfl⟩
  | succ n ih =>
    rw [Nat.succ_mul] at hm
    obtain ⟨v, hv⟩ := hf (m.take size) (by simp; omega)
    obtain ⟨vs, hvs⟩ := ih (m.drop size) (by simp; omega)
    exact ⟨v :: vs, by simp only [decodeN, hv, hvs]⟩

theorem ofMem_total (host : Endian) (e : ElemTy) (he : baseTy e ≠ .bool) (m : List Byte)
    (hm : m.length = e.size) : ∃ v, e.ofMem host m = some v := by
  induction e generalizing m with
  | scalar t =>
    cases t with
    | int b s => exact ⟨_, rfl⟩
    | bool => exact absurd rfl he
  | arr e n ih =>
    obtain ⟨vs, hvs⟩ := decodeN_total (fun m hm => ih he m hm) n m hm
    exact ⟨.seq vs, by simp only [ElemTy.ofMem, hvs, Option.map_some]⟩

theorem readVec_at_bulk (cfg : Cfg) (e : ElemTy) (c n : Nat) :
    readVec (cfg.at cfg.host false) e c n = match checkedByteCount cfg e.size c n with
    | .error r => RdE.err r
    | .ok bc => S2S.resize cfg (n * e.size) ((readNativeImpl (n * e.size) bc).andThen fun m =>
        RdE.value ((blockValue cfg e n m).map .seq)) := by
  rw [readVec_eq]
  show (match checkedByteCount cfg e.size c n with
    | .error r => _
    | .ok bc => _) = _
  cases checkedByteCount cfg e.size c n
  · rfl
  · simp only [Bool.false_eq_true, if_false]
    rfl

theorem readVec_at_elems (cfg : Cfg) (e : ElemTy) (c n : Nat) :
    readVec (cfg.at cfg.host true) e c n = match checkedByteCount cfg e.size c n with
    | .error r => RdE.err r
    | .ok _ => S2S.resize cfg (n * e.size)
        ((S2S.repeatE (readObj e.size (elemValue cfg e)) n).andThen fun vs => RdE.ok (.seq vs)) := by
  rw [readVec_eq]
  show (match checkedByteCount cfg e.size c n with
    | .error r => _
    | .ok bc => _) = _
  cases checkedByteCount cfg e.size c n
  · rfl
  · simp only [if_true]
    rfl

theorem agree_readVec {E : Prop} (cfg : Cfg) (e : ElemTy) (hs : 0 < e.size) (c n : Nat)
    (hE : baseTy e = .bool → E) :
    AgreeR E (readVec (cfg.at cfg.host false) e c n) (readVec (cfg.at cfg.host true) e c n) := by
  intro inp
  have hiff : ∀ s v, Rd.runOn memstreamIn (readVec (cfg.at cfg.host false) e c n) (inp, false) =
        (.done (.ok v), s) ↔
      Rd.runOn memstreamIn (readVec (cfg.at cfg.host true) e c n) (inp, false) = (.done (.ok v), s) := by
    intro s v
    rw [mem_ok (short_readVec _ _ _ _), mem_ok (short_readVec _ _ _ _)]
    have key : ∀ (cx : Bool) (rest : List Byte), Rd.run (readVec (cfg.at cfg.host cx) e c n) inp =
        (.done (.ok v), rest) ↔ ∃ p, inp = p ++ rest ∧
          (readVec (cfg.at cfg.host cx) e c n).Gives p v := by
      intro cx rest
      constructor
      · intro h
        rcases Rd.run_cases (short_readVec (cfg.at cfg.host cx) e c n) inp with
          ⟨p, rest', o, rfl, hp, hr⟩ | ⟨a', rest', hP, hr, _⟩
        · rw [h] at hr; cases hr; exact ⟨p, rfl, hp⟩
        · rw [h] at hr; cases hr; exact hP.elim
      · rintro ⟨p, rfl, h⟩
        exact Rd.run_of_path h rest
    simp only [key, gives_readVec _ _ _ _ hs]
    exact Iff.rfl
  by_cases hok : ∃ s v, Rd.runOn memstreamIn (readVec (cfg.at cfg.host true) e c n) (inp, false) =
      (.done (.ok v), s)
  · obtain ⟨s, v, h⟩ := hok
    rw [h, (hiff _ _).2 h]
    refine .inr ⟨rfl, fun _ _ => ?_⟩
    obtain ⟨rest, -, rfl⟩ := (mem_ok (short_readVec _ _ _ _) _ _ _).1 h
    rfl
  rw [readVec_at_bulk, readVec_at_elems] at *
  cases hc : checkedByteCount cfg e.size c n with
  | error r => exact .inr ⟨rfl, fun a ha => by cases ha⟩
  | ok bc =>
    simp only [hc] at hok ⊢
    obtain ⟨-, rfl⟩ := (checkedByteCount_ok cfg e.size c n bc hs).1 hc
    by_cases hp : n * e.size ≤ cfg.ptrdiffMax
    · simp only [S2S.resize, if_neg (Nat.not_lt.2 hp), Rd.runOn,
        Nat.mod_eq_of_lt (ptrdiff_lt cfg _ hp)] at hok ⊢
      rw [RdE.runOn_andThen] at hok
      simp only [RdE.runOn_andThen _ (repeatE _ _)]
      cases hr2 : Rd.runOn memstreamIn (S2S.repeatE (readObj e.size (elemValue cfg e)) n)
          (inp, false) with
      | mk o2 r2 =>
        rw [hr2] at hok
        cases o2 with
        | stuck w =>
          by_cases hb : baseTy e = .bool
          · exact .inl ⟨hE hb, w, rfl⟩
          · refine absurd (congrArg Prod.fst hr2) (elems_stuck _ _ _ _ (fun m hm => ?_) w)
            obtain ⟨v, hv⟩ := ofMem_total cfg.host e hb m hm
            exact ⟨_, by rw [elemValue, hv, Option.map_some]⟩
        | done a2 =>
          cases a2 with
          | ok a2 => exact absurd ⟨_, _, rfl⟩ hok
          | error x2 =>
            obtain ⟨rfl, rfl, hl⟩ := elems_error _ _ _ _ _ _ hr2
            have hb := run_readObj (n * e.size)
              (fun m => (blockValue cfg e n m).map Val.seq) inp
            rw [if_neg (by omega)] at hb
            unfold readObj at hb
            rw [hb]
            exact .inr ⟨rfl, fun a ha => by cases ha⟩
    · unfold S2S.resize
      rw [if_pos (Nat.lt_of_not_le hp), if_pos (Nat.lt_of_not_le hp)]
      exact .inr ⟨rfl, fun _ ha => by cases ha⟩

theorem bool_or_of_and {a b : Bool} {E : Prop} (h : (a && b) = false → E) :
    (a = false → E) ∧ (b = false → E) :=
  ⟨fun ha => h (by rw [ha]; rfl), fun hb => h (by rw [hb, Bool.and_false])⟩

theorem AgreeR.checked {E : Prop} (c : Constraint) (v : Val) :
    AgreeR E (RdE.checked c v) (RdE.checked c v) := .refl (short_checked c v)

mutual
theorem agree_readKind {E : Prop} (cfg : Cfg) : (k : Kind) → saneKind k = true →
    (noBoolVecKind k = false → E) → ∀ env,
    AgreeR E (readKind (cfg.at cfg.host false) env k) (readKind (cfg.at cfg.host true) env k)
  | .num t w, _, _, env => by
      rw [readKind, readKind]
      exact .of_same (same_readNum (cfg.at cfg.host false) _ _ _ _) (short_readNum _ _ _)
  | .fbuf e n, _, _, env => by
      rw [readKind, readKind]
      exact .of_same (same_readFixedBuf (cfg.at cfg.host false) _ _ _ _) (short_readFixedBuf _ _ _)
  | .fstr n, _, _, env => by rw [readKind, readKind]; exact .refl (short_readFixedStr n)
  | .vec e len b, hk, hE, env => by
      simp only [saneKind, decide_eq_true_eq] at hk
      rw [readKind, readKind, lenEval_at, lenEval_at]
      exact (AgreeR.lift _).andThen fun n => agree_readVec cfg e hk _ _ fun hb =>
        hE (by rw [noBoolVecKind, hb]; rfl)
  | .record fs, hk, hE, env => by
      rw [saneKind] at hk
      rw [noBoolVecKind] at hE
      rw [readKind, readKind]
      exact ((agree_readFields cfg fs hk hE _).mapErr _).mapOk _
  | .arrRec fs n, hk, hE, env => by
      rw [saneKind] at hk
      rw [noBoolVecKind] at hE
      rw [readKind, readKind]
      exact (((agree_readFields cfg fs hk hE _).mapErr _).mapOk _).repeatE _ |>.mapOk _
  | .vecRec fs len b sz, hk, hE, env => by
      rw [saneKind, Bool.and_eq_true] at hk
      rw [noBoolVecKind] at hE
      rw [readKind, readKind, lenEval_at, lenEval_at]
      refine (AgreeR.lift _).andThen fun n => ?_
      show AgreeR E (match checkedByteCount cfg sz (ceilingOf cfg b) n with
        | .error r => RdE.err r
        | .ok _ => S2S.resize cfg (n * sz) _) (match checkedByteCount cfg sz (ceilingOf cfg b) n with
        | .error r => RdE.err r
        | .ok _ => S2S.resize cfg (n * sz) _)
      cases checkedByteCount cfg sz (ceilingOf cfg b) n
      · exact .err _
      · exact AgreeR.resize _ _ <|
          (((agree_readFields cfg fs hk.2 hE _).mapErr _).mapOk _).repeatE _ |>.mapOk _
theorem agree_readField {E : Prop} (cfg : Cfg) : (f : Field) → saneField f = true →
    (noBoolVecField f = false → E) → ∀ env,
    AgreeR E (readField (cfg.at cfg.host false) env f) (readField (cfg.at cfg.host true) env f)
  | .plain id k c, h, hE, env => by
      rw [saneField] at h
      rw [noBoolVecField] at hE
      rw [readField, readField]
      exact agree_readKind cfg k h hE env
  | .maybe id k p, h, hE, env => by
      rw [saneField] at h
      rw [noBoolVecField] at hE
      rw [readField, readField]
      refine (AgreeR.lift _).andThen fun b => ?_
      split
      · exact (agree_readKind cfg k h hE env).mapOk _
      · exact .ok _
  | .union id d alts c, h, hE, env => by
      rw [saneField, Bool.and_eq_true] at h
      rw [noBoolVecField] at hE
      rw [readField, readField]
      refine (AgreeR.lift _).andThen fun o => ?_
      cases o with
      | none => exact .err _
      | some i => exact (agree_readAlts cfg alts h.2 hE env i).mapOk _
theorem agree_readAlts {E : Prop} (cfg : Cfg) : (alts : List Alt) → saneAlts alts = true →
    (noBoolVecAlts alts = false → E) → ∀ env i,
    AgreeR E (readAlts (cfg.at cfg.host false) env alts i) (readAlts (cfg.at cfg.host true) env alts i)
  | [], _, _, env, i => by rw [readAlts, readAlts]; exact .ok _
  | .mk k c :: alts, h, hE, env, 0 => by
      rw [saneAlts, Bool.and_eq_true] at h
      rw [noBoolVecAlts] at hE
      rw [readAlts, readAlts]
      exact (agree_readKind cfg k h.1 (bool_or_of_and hE).1 env).andThen fun _ => (AgreeR.checked _ _).mapOk _
  | .mk k c :: alts, h, hE, env, i + 1 => by
      rw [saneAlts, Bool.and_eq_true] at h
      rw [noBoolVecAlts] at hE
      rw [readAlts, readAlts]
      exact agree_readAlts cfg alts h.2 (bool_or_of_and hE).2 env i
theorem agree_readFields {E : Prop} (cfg : Cfg) : (fs : List Field) → saneFields fs = true →
    (noBoolVecFields fs = false → E) → ∀ env,
    AgreeR E (readFields (cfg.at cfg.host false) env fs) (readFields (cfg.at cfg.host true) env fs)
  | [], _, _, env => by rw [readFields, readFields]; exact .ok _
  | f :: fs, h, hE, env => by
      rw [saneFields, Bool.and_eq_true] at h
      rw [noBoolVecFields] at hE
      rw [readFields, readFields]
      refine (((agree_readField cfg f h.1 (bool_or_of_and hE).1 env).andThen fun _ =>
        AgreeR.checked _ _).mapErr _).andThen fun _ => ?_
      exact (agree_readFields cfg fs h.2 (bool_or_of_and hE).2 _).andThen fun _ => .ok _
end

/-- `E` is what must hold for a schema in which some vector has `bool` elements. -/
theorem agree_structCast {E : Prop} (cfg : Cfg) (fs : List Field) (h : saneFields fs = true)
    (hE : noBoolVecFields fs = false → E) :
    AgreeR E (structCast (cfg.at cfg.host false) fs) (structCast (cfg.at cfg.host true) fs) :=
  agree_readFields cfg fs h hE _

end S2S
