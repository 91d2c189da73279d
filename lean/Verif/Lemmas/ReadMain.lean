import Verif.Lemmas.ReadPrim
import Verif.Spec.Schema
/-
Successful reads of whole schemas: exactly the valid structs, from exactly their
encoding.
-/
namespace S2S
open Spec

/-! ### Shape, as the reader sees it: with the list as it stands -/

mutual
def StepKind (cfg : Cfg) (env : Env) : Kind → Val → Prop
  | .vec _ len _, .seq vs => len.eval cfg env = .ok vs.length
  | .record fs, .seq vs => StepFields cfg (dfltEnv fs) fs vs
  | .arrRec fs _, .seq vs => ∀ v ∈ vs, ∃ ws, v = .seq ws ∧ StepFields cfg (dfltEnv fs) fs ws
  | .vecRec fs len _ _, .seq vs =>
      len.eval cfg env = .ok vs.length ∧
      ∀ v ∈ vs, ∃ ws, v = .seq ws ∧ StepFields cfg (dfltEnv fs) fs ws
  | _, _ => True
def StepField (cfg : Cfg) (env : Env) : Field → Val → Prop
  | .plain _ k _, v => StepKind cfg env k v
  | .maybe _ _ p, .absent => p.eval env = .ok false
  | .maybe _ k p, .present v => p.eval env = .ok true ∧ StepKind cfg env k v
  | .union _ d alts _, .var i v => d.eval env = .ok (some i) ∧ StepAlts cfg env alts i v
  | _, _ => True
def StepAlts (cfg : Cfg) (env : Env) : List Alt → Nat → Val → Prop
  | .mk k _ :: _, 0, v => StepKind cfg env k v
  | _ :: alts, i + 1, v => StepAlts cfg env alts i v
  | [], _, _ => True
def StepFields (cfg : Cfg) (env : Env) : List Field → List Val → Prop
  | f :: fs, v :: vs => StepField cfg env f v ∧ StepFields cfg (env.set f.id v) fs vs
  | _, _ => True
end

theorem switchIdx_lt (t : ScalarTy) (x : Int) (ls : List (ScalarTy × Int)) (i : Nat)
    (h : switchIdx t x ls = some i) : i < ls.length := by
  induction ls generalizing i with
  | nil => simp [switchIdx] at h
  | cons l ls ih =>
    simp only [switchIdx] at h
    split at h
    · cases h; simp
    · cases hs : switchIdx t x ls with
      | none => simp [hs] at h
      | some j =>
        simp only [hs, Option.map_some, Option.some.injEq] at h
        have := ih j hs
        simp only [List.length_cons]
        omega

theorem ladderIdx_lt (env : Env) (ps : List Pred) (i : Nat)
    (h : ladderIdx env ps = .ok (some i)) : i < ps.length := by
  induction ps generalizing i with
  | nil => simp [ladderIdx] at h
  | cons p ps ih =>
    simp only [ladderIdx] at h
    split at h
    · cases h
    · cases h; simp
    · split at h
      · cases h
      · rename_i o hs
        cases o with
        | none => simp at h
        | some j =>
          simp only [Option.map_some, Except.ok.injEq, Option.some.injEq] at h
          have := ih j hs
          simp only [List.length_cons]
          omega

theorem Deducer.eval_lt (env : Env) (d : Deducer) (i : Nat)
    (h : d.eval env = .ok (some i)) : i < arity d := by
  cases d with
  | matchField id t ls =>
    simp only [Deducer.eval] at h
    split at h
    · simp only [Except.ok.injEq] at h
      exact switchIdx_lt _ _ _ _ h
    · simp only [Except.ok.injEq] at h
      exact switchIdx_lt _ _ _ _ h
    · cases h
    · cases h
  | matchCompute comp t ls =>
    simp only [Deducer.eval] at h
    split at h
    · simp only [Except.ok.injEq] at h
      exact switchIdx_lt _ _ _ _ h
    · cases h
  | ladder ps => exact ladderIdx_lt _ _ _ h

theorem gives_checked (c : Constraint) (v u : Val) (p : List Byte) :
    RdE.Gives (RdE.checked c v) p u ↔ p = [] ∧ u = v ∧ Holds c v := by
  simp only [RdE.checked, RdE.gives_andThen, gives_lift]
  constructor
  · rintro ⟨b, q, s, rfl, ⟨rfl, hb⟩, h⟩
    cases b with
    | true =>
      simp only [if_true, RdE.gives_ok] at h
      exact ⟨by simpa using h.1, h.2, hb⟩
    | false => simp at h
  · rintro ⟨rfl, rfl, h⟩
    exact ⟨true, [], [], rfl, ⟨rfl, h⟩, by simp⟩

theorem gives_tag (id : String) (r : RdE Reason α) (p : List Byte) (a : α) :
    RdE.Gives (r.tag id) p a ↔ RdE.Gives r p a := RdE.gives_mapErr ..

theorem gives_untag (r : RdE CastError α) (p : List Byte) (a : α) :
    RdE.Gives r.untag p a ↔ RdE.Gives r p a := RdE.gives_mapErr ..

/-- Everything a record nested in a container must satisfy. -/
private theorem recs_split (cfg : Cfg) (fs : List Field) (vs : List Val) :
    (∀ v ∈ vs, ∃ ws, v = .seq ws ∧
      (FitsFields cfg fs ws ∧ OkFields fs ws ∧ StepFields cfg (dfltEnv fs) fs ws)) ↔
    (∀ v ∈ vs, ∃ ws, v = .seq ws ∧ FitsFields cfg fs ws) ∧
    (∀ v ∈ vs, ∃ ws, v = .seq ws ∧ OkFields fs ws) ∧
    (∀ v ∈ vs, ∃ ws, v = .seq ws ∧ StepFields cfg (dfltEnv fs) fs ws) := by
  constructor
  · intro h
    refine ⟨fun v hv => ?_, fun v hv => ?_, fun v hv => ?_⟩ <;>
    · obtain ⟨ws, rfl, h1, h2, h3⟩ := h v hv
      exact ⟨ws, rfl, by assumption⟩
  · rintro ⟨h1, h2, h3⟩ v hv
    obtain ⟨ws, rfl, a⟩ := h1 v hv
    obtain ⟨ws', e, b⟩ := h2 _ hv
    cases e
    obtain ⟨ws', e, c⟩ := h3 _ hv
    cases e
    exact ⟨ws, rfl, a, b, c⟩

/-- Repeating a record read. -/
private theorem gives_recs (cfg : Cfg) (fs : List Field)
    (hfs : ∀ p ws, RdE.Gives (readFields cfg (dfltEnv fs) fs) p ws ↔
      (FitsFields cfg fs ws ∧ OkFields fs ws ∧ StepFields cfg (dfltEnv fs) fs ws) ∧
        p = wireFields cfg.wire fs ws) (n : Nat) (p : List Byte) (v : Val) :
    RdE.Gives ((repeatE (((readFields cfg (dfltEnv fs) fs).untag).mapOk .seq) n).mapOk .seq) p v ↔
      ∃ vs, v = .seq vs ∧ vs.length = n ∧
        ((∀ v ∈ vs, ∃ ws, v = .seq ws ∧ FitsFields cfg fs ws) ∧
         (∀ v ∈ vs, ∃ ws, v = .seq ws ∧ OkFields fs ws) ∧
         (∀ v ∈ vs, ∃ ws, v = .seq ws ∧ StepFields cfg (dfltEnv fs) fs ws)) ∧
        p = vs.flatMap (recordBytes fun ws => wireFields cfg.wire fs ws) := by
  rw [RdE.gives_mapOk]
  have hr : ∀ (p : List Byte) (v : Val), RdE.Gives (((readFields cfg (dfltEnv fs) fs).untag).mapOk Val.seq) p v ↔
      (∃ ws, v = .seq ws ∧
        (FitsFields cfg fs ws ∧ OkFields fs ws ∧ StepFields cfg (dfltEnv fs) fs ws)) ∧
      p = recordBytes (fun ws => wireFields cfg.wire fs ws) v := by
    intro p v
    simp only [RdE.gives_mapOk, gives_untag, hfs]
    constructor
    · rintro ⟨ws, rfl, h, rfl⟩; exact ⟨⟨ws, rfl, h⟩, rfl⟩
    · rintro ⟨⟨ws, rfl, h⟩, rfl⟩; exact ⟨ws, rfl, h, rfl⟩
  simp only [gives_repeatE _ _ _ hr, recs_split]

mutual
theorem gives_readKind (cfg : Cfg) : (k : Kind) → saneKind k = true →
    ∀ env p v, RdE.Gives (readKind cfg env k) p v ↔
      (FitsKind cfg k v ∧ OkKind k v ∧ StepKind cfg env k v) ∧ p = wireKind cfg.wire k v
  | .num t w, _, env, p, v => by
      simp only [readKind, gives_readNum]
      cases v <;> simp [FitsKind, OkKind, StepKind, wireKind]
  | .fbuf e n, _, env, p, v => by
      simp only [readKind, gives_readFixedBuf]
      cases v <;> simp [FitsKind, OkKind, StepKind, wireKind]
  | .fstr n, _, env, p, v => by
      simp only [readKind, gives_readFixedStr cfg.wire]
      cases v <;> simp [FitsKind, OkKind, StepKind, wireKind]
  | .vec e len bound, hs, env, p, v => by
      simp only [saneKind, decide_eq_true_eq] at hs
      simp only [readKind, RdE.gives_andThen, gives_lift, gives_readVec cfg e _ _ hs]
      constructor
      · rintro ⟨n, q, s, rfl, ⟨rfl, hn⟩, vs, rfl, hl, hc, he, rfl⟩
        subst hl
        simp only [List.nil_append]
        exact ⟨⟨⟨hc, he⟩, trivial, hn⟩, rfl⟩
      · rintro ⟨⟨h1, h2, h3⟩, rfl⟩
        cases v with
        | seq vs =>
          exact ⟨vs.length, [], _, rfl, ⟨rfl, h3⟩, vs, rfl, rfl, h1.1, h1.2, rfl⟩
        | _ => simp [FitsKind] at h1
  | .record fs, hs, env, p, v => by
      simp only [saneKind] at hs
      simp only [readKind, RdE.gives_mapOk, gives_untag, gives_readFields cfg fs hs]
      cases v <;> simp [FitsKind, OkKind, StepKind, wireKind]
  | .arrRec fs n, hs, env, p, v => by
      simp only [saneKind] at hs
      simp only [readKind, gives_recs cfg fs (gives_readFields cfg fs hs (dfltEnv fs))]
      constructor
      · rintro ⟨vs, rfl, hl, ⟨h1, h2, h3⟩, rfl⟩
        refine ⟨?_, rfl⟩
        simp only [FitsKind, OkKind, StepKind]
        exact ⟨⟨hl, h1⟩, h2, h3⟩
      · rintro ⟨⟨h1, h2, h3⟩, rfl⟩
        cases v with
        | seq vs =>
          simp only [FitsKind, OkKind, StepKind] at h1 h2 h3
          exact ⟨vs, rfl, h1.1, ⟨h1.2, h2, h3⟩, rfl⟩
        | _ => simp [FitsKind] at h1
  | .vecRec fs len bound sz, hs, env, p, v => by
      simp only [saneKind, Bool.and_eq_true, decide_eq_true_eq] at hs
      simp only [readKind, RdE.gives_andThen, gives_lift]
      constructor
      · rintro ⟨n, q, s, rfl, ⟨rfl, hn⟩, h⟩
        simp only [List.nil_append]
        cases hc : checkedByteCount cfg sz (ceilingOf cfg bound) n with
        | error r => simp [hc] at h
        | ok m =>
          simp only [hc, gives_resize,
            gives_recs cfg fs (gives_readFields cfg fs hs.2 (dfltEnv fs))] at h
          obtain ⟨hp, vs, rfl, hl, ⟨h1, h2, h3⟩, rfl⟩ := h
          subst hl
          refine ⟨?_, rfl⟩
          simp only [FitsKind, OkKind, StepKind]
          exact ⟨⟨⟨((checkedByteCount_ok _ _ _ _ _ hs.1).mp hc).1, hp⟩, h1⟩, h2, hn, h3⟩
      · rintro ⟨⟨h1, h2, h3⟩, rfl⟩
        cases v with
        | seq vs =>
          simp only [FitsKind, OkKind, StepKind] at h1 h2 h3
          refine ⟨vs.length, [], _, rfl, ⟨rfl, h3.1⟩, ?_⟩
          have hc := (checkedByteCount_ok cfg sz (ceilingOf cfg bound) vs.length _ hs.1).mpr
            ⟨h1.1.1, rfl⟩
          simp only [hc, gives_resize,
            gives_recs cfg fs (gives_readFields cfg fs hs.2 (dfltEnv fs))]
          exact ⟨h1.1.2, vs, rfl, rfl, ⟨h1.2, h2, h3.2⟩, rfl⟩
        | _ => simp [FitsKind] at h1
theorem gives_readField (cfg : Cfg) : (f : Field) → saneField f = true →
    ∀ env p v, (RdE.Gives (readField cfg env f) p v ∧ Holds f.constraint v) ↔
      (FitsField cfg f v ∧ OkField f v ∧ StepField cfg env f v) ∧ p = wireField cfg.wire f v
  | .plain id k c, hs, env, p, v => by
      simp only [saneField] at hs
      simp only [readField, gives_readKind cfg k hs, FitsField, OkField, StepField, wireField,
        Field.constraint]
      constructor
      · rintro ⟨⟨⟨a, b, c⟩, rfl⟩, d⟩; exact ⟨⟨a, ⟨b, d⟩, c⟩, rfl⟩
      · rintro ⟨⟨a, ⟨b, d⟩, c⟩, rfl⟩; exact ⟨⟨⟨a, b, c⟩, rfl⟩, d⟩
  | .maybe id k pr, hs, env, p, v => by
      simp only [saneField] at hs
      simp only [readField, RdE.gives_andThen, gives_lift, Field.constraint]
      constructor
      · rintro ⟨⟨b, q, s, rfl, ⟨rfl, hb⟩, h⟩, _⟩
        simp only [List.nil_append]
        cases b with
        | true =>
          simp only [if_true, RdE.gives_mapOk, gives_readKind cfg k hs] at h
          obtain ⟨u, rfl, ⟨h1, h2, h3⟩, rfl⟩ := h
          exact ⟨⟨h1, h2, hb, h3⟩, rfl⟩
        | false =>
          simp only [if_false, RdE.gives_ok, Bool.false_eq_true] at h
          obtain ⟨rfl, rfl⟩ := h
          exact ⟨⟨trivial, trivial, hb⟩, rfl⟩
      · rintro ⟨⟨h1, h2, h3⟩, rfl⟩
        refine ⟨?_, rfl⟩
        cases v with
        | present u =>
          simp only [FitsField, OkField, StepField] at h1 h2 h3
          refine ⟨true, [], _, rfl, ⟨rfl, h3.1⟩, ?_⟩
          simp only [if_true, RdE.gives_mapOk, gives_readKind cfg k hs]
          exact ⟨u, rfl, ⟨h1, h2, h3.2⟩, rfl⟩
        | absent =>
          simp only [StepField] at h3
          refine ⟨false, [], _, rfl, ⟨rfl, h3⟩, ?_⟩
          simp
        | _ => simp [FitsField] at h1
  | .union id d alts c, hs, env, p, v => by
      simp only [saneField, Bool.and_eq_true, decide_eq_true_eq] at hs
      simp only [readField, RdE.gives_andThen, gives_lift, Field.constraint]
      constructor
      · rintro ⟨⟨o, q, s, rfl, ⟨rfl, hb⟩, h⟩, hc⟩
        simp only [List.nil_append]
        cases o with
        | none => simp at h
        | some i =>
          have hi := Deducer.eval_lt env d i hb
          rw [hs.1] at hi
          simp only [RdE.gives_mapOk] at h
          obtain ⟨a, rfl, h⟩ := h
          rw [gives_readAlts cfg alts hs.2 env i hi] at h
          obtain ⟨u, rfl, ⟨h1, h2, h3⟩, rfl⟩ := h
          exact ⟨⟨h1, ⟨h2, hc⟩, hb, h3⟩, rfl⟩
      · rintro ⟨⟨h1, h2, h3⟩, rfl⟩
        cases v with
        | var i u =>
          simp only [FitsField, OkField, StepField] at h1 h2 h3
          have hi := Deducer.eval_lt env d i h3.1
          rw [hs.1] at hi
          refine ⟨⟨some i, [], _, rfl, ⟨rfl, h3.1⟩, ?_⟩, h2.2⟩
          simp only [RdE.gives_mapOk]
          refine ⟨some u, rfl, ?_⟩
          rw [gives_readAlts cfg alts hs.2 env i hi]
          exact ⟨u, rfl, ⟨h1, h2.1, h3.2⟩, rfl⟩
        | _ => simp [FitsField] at h1
theorem gives_readAlts (cfg : Cfg) : (alts : List Alt) → saneAlts alts = true →
    ∀ env i, i < alts.length → ∀ p o, RdE.Gives (readAlts cfg env alts i) p o ↔
      ∃ v, o = some v ∧ (FitsAlts cfg alts i v ∧ OkAlts alts i v ∧ StepAlts cfg env alts i v) ∧
        p = wireAlts cfg.wire alts i v
  | [], _, env, i, hi, p, o => by simp at hi
  | .mk k c :: alts, hs, env, 0, hi, p, o => by
      simp only [saneAlts, Bool.and_eq_true] at hs
      simp only [readAlts, RdE.gives_andThen, RdE.gives_mapOk, gives_checked,
        gives_readKind cfg k hs.1, FitsAlts, OkAlts, StepAlts, wireAlts]
      constructor
      · rintro ⟨v, q, s, rfl, ⟨⟨a, b, c⟩, rfl⟩, u, rfl, rfl, rfl, hc⟩
        exact ⟨_, rfl, ⟨a, ⟨b, hc⟩, c⟩, by simp⟩
      · rintro ⟨v, rfl, ⟨a, ⟨b, hc⟩, c⟩, rfl⟩
        exact ⟨v, _, [], by simp, ⟨⟨a, b, c⟩, rfl⟩, v, rfl, rfl, rfl, hc⟩
  | .mk k c :: alts, hs, env, i + 1, hi, p, o => by
      simp only [saneAlts, Bool.and_eq_true] at hs
      simp only [readAlts, FitsAlts, OkAlts, StepAlts, wireAlts]
      exact gives_readAlts cfg alts hs.2 env i (by simpa using hi) p o
theorem gives_readFields (cfg : Cfg) : (fs : List Field) → saneFields fs = true →
    ∀ env p vs, RdE.Gives (readFields cfg env fs) p vs ↔
      (FitsFields cfg fs vs ∧ OkFields fs vs ∧ StepFields cfg env fs vs) ∧
        p = wireFields cfg.wire fs vs
  | [], _, env, p, vs => by
      simp only [readFields, RdE.gives_ok]
      cases vs <;> simp [FitsFields, OkFields, StepFields, wireFields]
  | f :: fs, hs, env, p, vs => by
      simp only [saneFields, Bool.and_eq_true] at hs
      simp only [readFields, RdE.gives_andThen, gives_tag, gives_checked, RdE.gives_ok,
        gives_readFields cfg fs hs.2]
      constructor
      · rintro ⟨v, q, s, rfl, ⟨u, q', s', rfl, h1, rfl, rfl, h2⟩, ws, _, _, rfl,
          ⟨⟨h3, h4, h5⟩, rfl⟩, rfl, rfl⟩
        obtain ⟨⟨a, b, c⟩, rfl⟩ := (gives_readField cfg f hs.1 env _ _).mp ⟨h1, h2⟩
        simp only [FitsFields, OkFields, StepFields, wireFields, List.append_nil]
        exact ⟨⟨⟨a, h3⟩, ⟨b, h4⟩, c, h5⟩, trivial⟩
      · rintro ⟨⟨h1, h2, h3⟩, rfl⟩
        cases vs with
        | nil => simp [FitsFields] at h1
        | cons v vs =>
          simp only [FitsFields, OkFields, StepFields] at h1 h2 h3
          obtain ⟨h4, h5⟩ := (gives_readField cfg f hs.1 env _ v).mpr ⟨⟨h1.1, h2.1, h3.1⟩, rfl⟩
          exact ⟨v, _, _, rfl, ⟨v, _, [], (List.append_nil _).symm, h4, rfl, rfl, h5⟩,
            vs, _, [], (List.append_nil _).symm, ⟨⟨h1.2, h2.2, h3.2⟩, rfl⟩, rfl, rfl⟩
end

end S2S
