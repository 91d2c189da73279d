import Verif.Lemmas.Fields
import Verif.Spec.Refused
/-
Failing reads: the error is the one the wire format says.
-/
namespace S2S
open Spec

namespace RdE

variable {ε ε' α β : Type}

/-- On the byte string the computation ends in the error. -/
def Ends (r : RdE ε α) (inp : List Byte) (e : ε) : Prop := ∃ rest, r.run inp = (.done (.error e), rest)

theorem run_ok_iff {P : ε → Prop} {r : RdE ε α} (hs : ShortE P r) (inp rest : List Byte) (a : α) :
    r.run inp = (.done (.ok a), rest) ↔ ∃ p, inp = p ++ rest ∧ Gives r p a := by
  constructor
  · intro h
    rcases Rd.run_cases hs inp with ⟨p, rest', o, rfl, hp, hr⟩ | ⟨a, rest', hP, hr, _⟩
    · rw [h] at hr; cases hr; exact ⟨p, rfl, hp⟩
    · rw [h] at hr; cases hr; exact hP.elim
  · rintro ⟨p, rfl, h⟩
    exact Rd.run_of_path h rest

@[simp] theorem ends_ok (a : α) (inp : List Byte) (e : ε) : Ends (RdE.ok a : RdE ε α) inp e ↔ False := by
  simp [Ends, RdE.ok, Rd.run_ret]

@[simp] theorem ends_err (e e' : ε) (inp : List Byte) :
    Ends (RdE.err e : RdE ε α) inp e' ↔ e' = e := by
  simp [Ends, RdE.err, Rd.run_ret, eq_comm]

@[simp] theorem ends_stuck (w : Stuck) (inp : List Byte) (e : ε) :
    Ends (Rd.stuck w : RdE ε α) inp e ↔ False := by
  simp [Ends, Rd.run_stuck]

theorem ends_andThen {P : ε → Prop} {r : RdE ε α} (hs : ShortE P r) (f : α → RdE ε β)
    (inp : List Byte) (e : ε) :
    Ends (r.andThen f) inp e ↔
      Ends r inp e ∨ ∃ a p tail, inp = p ++ tail ∧ Gives r p a ∧ Ends (f a) tail e := by
  have hrun : (r.andThen f).run inp = match r.run inp with
      | (.done (.ok a), s') => (f a).run s'
      | (.done (.error e), s') => (.done (.error e), s')
      | (.stuck w, s') => (.stuck w, s') := by
    have h := RdE.runOn_andThen listIn r f inp
    unfold Rd.run
    refine h.trans ?_
    rcases Rd.runOn listIn r inp with ⟨(_ | _) | _, s⟩ <;> rfl
  have hok := run_ok_iff hs inp
  unfold Ends
  rw [hrun]
  cases hr : r.run inp with
  | mk o s =>
    rw [hr] at hok
    cases o with
    | stuck w =>
      constructor
      · rintro ⟨_, h⟩; cases h
      · rintro (⟨_, h⟩ | ⟨a, p, tail, rfl, hg, _⟩)
        · cases h
        · have := (hok tail a).mpr ⟨p, rfl, hg⟩
          cases this
    | done x =>
      cases x with
      | error e' =>
        constructor
        · rintro ⟨_, h⟩; cases h; exact .inl ⟨_, rfl⟩
        · rintro (⟨_, h⟩ | ⟨a, p, tail, rfl, hg, _⟩)
          · cases h; exact ⟨_, rfl⟩
          · have := (hok tail a).mpr ⟨p, rfl, hg⟩
            cases this
      | ok a =>
        constructor
        · rintro ⟨t, h⟩
          obtain ⟨p, rfl, hg⟩ := (hok s a).mp rfl
          exact .inr ⟨a, p, s, rfl, hg, t, h⟩
        · rintro (⟨_, h⟩ | ⟨a', p, tail, rfl, hg, h⟩)
          · cases h
          · have := (hok tail a').mpr ⟨p, rfl, hg⟩
            cases this
            exact h

theorem ends_mapErr (g : ε → ε') (r : RdE ε α) (inp : List Byte) (e : ε') :
    Ends (r.mapErr g) inp e ↔ ∃ e', e = g e' ∧ Ends r inp e' := by
  have hrun : (r.mapErr g).run inp = match r.run inp with
      | (.done (.ok a), s') => (.done (.ok a), s')
      | (.done (.error e), s') => (.done (.error (g e)), s')
      | (.stuck w, s') => (.stuck w, s') := by
    have h := RdE.runOn_mapErr listIn g r inp
    unfold Rd.run
    refine h.trans ?_
    rcases Rd.runOn listIn r inp with ⟨(_ | _) | _, s⟩ <;> rfl
  unfold Ends
  rw [hrun]
  rcases r.run inp with ⟨(_ | _) | _, s⟩ <;> simp [eq_comm]

theorem ends_mapOk {P : ε → Prop} {r : RdE ε α} (hs : ShortE P r) (g : α → β) (inp : List Byte)
    (e : ε) : Ends (r.mapOk g) inp e ↔ Ends r inp e := by
  unfold mapOk
  rw [ends_andThen hs]
  simp

theorem ends_resize (cfg : Cfg) (n : Nat) (k : RdE ε α) (inp : List Byte) (e : ε) :
    Ends (resize cfg n k) inp e ↔ n ≤ cfg.ptrdiffMax ∧ Ends k inp e := by
  unfold resize
  split
  · simp; omega
  · have : n ≤ cfg.ptrdiffMax := by omega
    simp only [this, true_and, Ends, Rd.run_alloc]

theorem ends_lift (o : Except Stuck α) (inp : List Byte) (e : ε) :
    Ends (RdE.lift o : RdE ε α) inp e ↔ False := by
  cases o <;> simp [RdE.lift]

theorem ends_value (o : Option α) (inp : List Byte) (e : ε) :
    Ends (RdE.value o : RdE ε α) inp e ↔ False := by
  cases o <;> simp [RdE.value]

end RdE

open RdE

theorem ends_checked (c : Constraint) (v : Val) (inp : List Byte) (r : Reason) :
    Ends (RdE.checked c v) inp r ↔ r = .validationFailure ∧ c.check v = .ok false := by
  unfold RdE.checked
  rw [ends_andThen (short_lift _ fun _ => True)]
  simp only [ends_lift, gives_lift, false_or]
  constructor
  · rintro ⟨b, p, tail, rfl, ⟨rfl, hb⟩, h⟩
    cases b with
    | true => simp at h
    | false => simp at h; exact ⟨h, hb⟩
  · rintro ⟨rfl, h⟩
    exact ⟨false, [], inp, rfl, ⟨rfl, h⟩, by simp⟩

theorem ends_readNativeImpl (size n : Nat) (inp : List Byte) (r : Reason) :
    Ends (readNativeImpl size n) inp r ↔ n ≤ size ∧ inp.length < n ∧ r = .bufferExhaustion := by
  unfold readNativeImpl
  split
  · rw [ends_stuck]; simp; omega
  · have h : n ≤ size := by omega
    simp only [h, true_and, Ends, Rd.run_read]
    by_cases hn : n ≤ inp.length
    · rw [if_pos hn]
      constructor
      · rintro ⟨_, h⟩; cases h
      · rintro ⟨h, _⟩; omega
    · rw [if_neg hn]
      simp only [RdE.err, Rd.run_ret]
      constructor
      · rintro ⟨_, h⟩; cases h; exact ⟨by omega, rfl⟩
      · rintro ⟨_, rfl⟩; exact ⟨_, rfl⟩

theorem ends_readNum (cfg : Cfg) (t : ScalarTy) (w : Nat) (inp : List Byte) (r : Reason) :
    Ends (readNum cfg t w) inp r ↔ w ≤ t.size ∧ inp.length < w ∧ r = .bufferExhaustion := by
  unfold readNum
  simp only [ends_andThen (short_readNativeImpl _ _), ends_andThen (short_value _),
    ends_readNativeImpl, ends_value, ends_ok, and_false, exists_false, or_false]

theorem ends_readFixedBuf (cfg : Cfg) (e : ElemTy) (n : Nat) (inp : List Byte) (r : Reason) :
    Ends (readFixedBuf cfg e n) inp r ↔ inp.length < n * e.size ∧ r = .bufferExhaustion := by
  unfold readFixedBuf
  simp only [ends_andThen (short_readNativeImpl _ _), ends_andThen (short_value _),
    ends_readNativeImpl, ends_value, ends_ok, and_false, exists_false, or_false, Nat.le_refl, true_and]

theorem ends_readFixedStr (n : Nat) (inp : List Byte) (r : Reason) :
    Ends (readFixedStr n) inp r ↔ inp.length < n + 1 ∧ r = .bufferExhaustion := by
  unfold readFixedStr
  simp only [ends_andThen (short_readNativeImpl _ _),
    ends_readNativeImpl, ends_ok, and_false, exists_false, or_false, Nat.le_refl, true_and]

theorem ends_repeatE {Q : ε → Prop} {r : RdE ε Val} (hs : ShortE Q r) (P : Val → Prop)
    (W : Val → List Byte) (hr : ∀ p v, RdE.Gives r p v ↔ P v ∧ p = W v) (n : Nat) (inp : List Byte)
    (e : ε) :
    Ends (repeatE r n) inp e ↔ ∃ (vs : List Val) (tail : List Byte), inp = vs.flatMap W ++ tail ∧
      vs.length < n ∧ (∀ v ∈ vs, P v) ∧ Ends r tail e := by
  induction n generalizing inp with
  | zero => simp [repeatE]
  | succ n ih =>
    simp only [repeatE, ends_andThen hs, ends_andThen (short_repeatE hs n), ends_ok, and_false,
      exists_false, or_false, ih, hr]
    constructor
    · rintro (h | ⟨v, p, tail, rfl, ⟨hv, rfl⟩, vs, tail, rfl, hl, hvs, h⟩)
      · exact ⟨[], inp, rfl, by simp, by simp, h⟩
      · exact ⟨v :: vs, tail, by simp, by simpa using hl, by simpa using ⟨hv, hvs⟩, h⟩
    · rintro ⟨vs, tail, rfl, hl, hvs, h⟩
      cases vs with
      | nil => exact .inl (by simpa using h)
      | cons v vs =>
        exact .inr ⟨v, W v, vs.flatMap W ++ tail, by simp, ⟨hvs v (by simp), rfl⟩, vs, tail, rfl,
          by simpa using hl, fun u hu => hvs u (by simp [hu]), h⟩

theorem ends_readElem (cfg : Cfg) (e : ElemTy) (inp : List Byte) (r : Reason) :
    Ends (readElem cfg e) inp r ↔ inp.length < e.size ∧ r = .bufferExhaustion := by
  unfold readElem
  simp only [ends_andThen (short_readNativeImpl _ _), ends_value,
    ends_readNativeImpl, and_false, exists_false, or_false, Nat.le_refl, true_and]

theorem gives_readElem (cfg : Cfg) (e : ElemTy) (q : List Byte) (u : Val) :
    (∃ u', RdE.Gives (readElem cfg e) q u' ∧ u = if cfg.foreign then e.swap u' else u') ↔
      ElemFits e u ∧ q = wireElem cfg.wire e u := by
  simp only [readElem, RdE.gives_andThen, gives_readNativeImpl, gives_value]
  constructor
  · rintro ⟨u', ⟨mem, q, s, rfl, ⟨_, hq, rfl⟩, rfl, hx⟩, hu⟩
    simp only [Nat.sub_self, List.replicate, List.append_nil] at hx ⊢
    exact (ofMem_elem_iff cfg e q hq u).mp ⟨u', hx, hu⟩
  · rintro ⟨h1, rfl⟩
    have hl := wireElem_length cfg.wire e u h1
    obtain ⟨u', h2, h3⟩ := (ofMem_elem_iff cfg e _ hl u).mpr ⟨h1, rfl⟩
    exact ⟨u', ⟨_, _, [], by simp, ⟨Nat.le_refl _, hl, rfl⟩, rfl, by simpa using h2⟩, h3⟩

theorem short_readElem (cfg : Cfg) (e : ElemTy) : ShortR (readElem cfg e) :=
  RdE.short_andThen (short_readNativeImpl _ _) fun _ => short_value _

theorem ends_elems (cfg : Cfg) (e : ElemTy) (n : Nat) (inp : List Byte) (r : Reason) :
    Ends (repeatE (readElem cfg e) n) inp r ↔ inp.length < n * e.size ∧
      (∃ (vs : List Val) (tail : List Byte), inp = vs.flatMap (wireElem cfg.wire e) ++ tail ∧
        (∀ v ∈ vs, ElemFits e v) ∧ tail.length < e.size) ∧ r = .bufferExhaustion := by
  induction n generalizing inp with
  | zero => simp [repeatE]
  | succ n ih =>
    simp only [repeatE, ends_andThen (short_readElem cfg e),
      ends_andThen (short_repeatE (short_readElem cfg e) n), ends_ok, and_false,
      exists_false, or_false, ih, ends_readElem]
    constructor
    · rintro (⟨h, rfl⟩ | ⟨v', p, tail, rfl, hg, hlt, ⟨vs, t, rfl, hvs, ht⟩, rfl⟩)
      · refine ⟨?_, ⟨[], inp, rfl, by simp, h⟩, rfl⟩
        rw [Nat.add_mul]; omega
      · obtain ⟨hf, rfl⟩ := (gives_readElem cfg e p _).mp ⟨v', hg, rfl⟩
        refine ⟨?_, ⟨_ :: vs, t, by simp; rfl, ?_, ht⟩, rfl⟩
        · rw [List.length_append, wireElem_length _ _ _ hf, Nat.add_mul]; omega
        · intro u hu
          rcases List.mem_cons.mp hu with rfl | hu
          · exact hf
          · exact hvs u hu
    · rintro ⟨hlt, ⟨vs, t, rfl, hvs, ht⟩, rfl⟩
      cases vs with
      | nil => exact .inl ⟨by simpa using ht, rfl⟩
      | cons v vs =>
        have hf := hvs v (by simp)
        obtain ⟨v', hg, _⟩ := (gives_readElem cfg e _ v).mpr ⟨hf, rfl⟩
        refine .inr ⟨v', _, vs.flatMap (wireElem cfg.wire e) ++ t, by simp, hg, ?_,
          ⟨vs, t, rfl, fun u hu => hvs u (by simp [hu]), ht⟩, rfl⟩
        rw [List.flatMap_cons, List.append_assoc, List.length_append, wireElem_length _ _ _ hf,
          Nat.add_mul] at hlt
        omega

theorem checkedByteCount_refuses (cfg : Cfg) (size ceiling len : Nat) (hs : 0 < size) (r : Reason) :
    checkedByteCount cfg size ceiling len = .error r ↔ ceiling < len * size ∧ r = .excessiveLength := by
  have := checkedByteCount_ok cfg size ceiling len (len * size % cfg.szMod) hs
  cases h : checkedByteCount cfg size ceiling len with
  | ok m =>
    obtain ⟨h1, _⟩ := (checkedByteCount_ok cfg size ceiling len m hs).mp h
    constructor
    · intro h; cases h
    · rintro ⟨h, _⟩; omega
  | error r' =>
    rw [h] at this
    unfold checkedByteCount at h
    split at h
    · cases h
      constructor
      · intro h
        cases h
        refine ⟨?_, rfl⟩
        false_or_by_contra
        rename_i hn
        have := this.mpr ⟨by omega, rfl⟩
        cases this
      · rintro ⟨_, rfl⟩; rfl
    · cases h

theorem ends_readVec (cfg : Cfg) (e : ElemTy) (bound : Option Nat) (n : Nat) (hs : 0 < e.size)
    (inp : List Byte) (r : Reason) :
    Ends (readVec cfg e (ceilingOf cfg bound) n) inp r ↔
      (bound.getD cfg.defaultMax < n * e.size ∧ r = .excessiveLength ∨
       StorageFits cfg bound e.size n ∧ inp.length < n * e.size ∧ WholeElements cfg e inp ∧
         r = .bufferExhaustion) := by
  unfold readVec
  cases hc : checkedByteCount cfg e.size (ceilingOf cfg bound) n with
  | error r' =>
    obtain ⟨h1, rfl⟩ := (checkedByteCount_refuses cfg _ _ _ hs _).mp hc
    have h1 : bound.getD cfg.defaultMax < n * e.size := h1
    simp only [ends_err]
    constructor
    · rintro rfl; exact .inl ⟨h1, rfl⟩
    · rintro (⟨_, h⟩ | ⟨⟨h, _⟩, _⟩)
      · exact h
      · omega
  | ok m =>
    obtain ⟨hc1, hc2⟩ := (checkedByteCount_ok cfg e.size (ceilingOf cfg bound) n m hs).mp hc
    have hc1 : n * e.size ≤ bound.getD cfg.defaultMax := hc1
    have hnot : ¬ bound.getD cfg.defaultMax < n * e.size := by omega
    simp only [ends_resize, hnot, false_and, false_or, StorageFits, hc1, true_and]
    by_cases hp : n * e.size ≤ cfg.ptrdiffMax
    · simp only [hp, true_and]
      by_cases hmode : cfg.constexprStream = true
      · simp only [hmode, if_true, ends_andThen (short_repeatE (short_readElem cfg e) n), ends_ok,
          and_false, exists_false, or_false, ends_elems, WholeElements, true_implies]
      · rw [Nat.mod_eq_of_lt (ptrdiff_lt cfg _ hp)] at hc2
        subst hc2
        simp only [hmode, if_false, Bool.false_eq_true, ends_andThen (short_readNativeImpl _ _),
          ends_andThen (short_value _), ends_readNativeImpl, ends_value, ends_ok, and_false,
          exists_false, or_false, Nat.le_refl, true_and, WholeElements, false_implies]
    · simp [hp]

/-! ### Schemas -/

theorem shapedKind_congr (cfg : Cfg) (k : Kind) (hu : uniqueKind k = true)
    (he : earlierKind k = true) {env env' : Env} (h : Agree (kindDeps k) env env') (v : Val) :
    ShapedKind cfg env k v ↔ ShapedKind cfg env' k v :=
  (step_iff_kind cfg k hu he env env v fun _ _ => rfl).symm.trans
    (step_iff_kind cfg k hu he env env' v h)

theorem shapedField_congr (cfg : Cfg) (f : Field) (hu : uniqueField f = true)
    (he : earlierField f = true) {env env' : Env} (h : Agree (fieldDeps f) env env') (v : Val) :
    ShapedField cfg env f v ↔ ShapedField cfg env' f v :=
  (step_iff_field cfg f hu he env env v fun _ _ => rfl).symm.trans
    (step_iff_field cfg f hu he env env' v h)

theorem gives_isKind (cfg : Cfg) (k : Kind) (hs : saneKind k = true) (hu : uniqueKind k = true)
    (he : earlierKind k = true) (env : Env) (p : List Byte) (v : Val) :
    RdE.Gives (readKind cfg env k) p v ↔ IsKind cfg env k v ∧ p = wireKind cfg.wire k v := by
  rw [gives_readKind cfg k hs, step_iff_kind cfg k hu he env env v fun _ _ => rfl]
  rfl

theorem gives_isAlt (cfg : Cfg) (alts : List Alt) (hs : saneAlts alts = true)
    (hu : uniqueAlts alts = true) (he : earlierAlts alts = true) (env : Env) (i : Nat)
    (hi : i < alts.length) (p : List Byte) (o : Option Val) :
    RdE.Gives (readAlts cfg env alts i) p o ↔ ∃ v, o = some v ∧
      (FitsAlts cfg alts i v ∧ OkAlts alts i v ∧ ShapedAlts cfg env alts i v) ∧
        p = wireAlts cfg.wire alts i v := by
  rw [gives_readAlts cfg alts hs env i hi]
  simp only [step_iff_alts cfg alts hu he env env i _ fun _ _ => rfl]

theorem gives_isField (cfg : Cfg) (f : Field) (hs : saneField f = true) (hu : uniqueField f = true)
    (he : earlierField f = true) (env : Env) (p : List Byte) (v : Val) :
    RdE.Gives (fieldStep cfg env f) p v ↔ IsField cfg env f v ∧ p = wireField cfg.wire f v := by
  simp only [fieldStep, gives_tag, RdE.gives_andThen, gives_checked]
  unfold IsField
  rw [← step_iff_field cfg f hu he env env v fun _ _ => rfl, ← gives_readField cfg f hs]
  constructor
  · rintro ⟨a, q, s, rfl, h1, rfl, rfl, h2⟩; exact ⟨by simpa using h1, h2⟩
  · rintro ⟨h1, h2⟩; exact ⟨v, p, [], by simp, h1, rfl, rfl, h2⟩

theorem short_fieldStep (cfg : Cfg) (env : Env) (f : Field) : ShortC (fieldStep cfg env f) :=
  RdE.short_mapErr (RdE.short_andThen (short_readField cfg f env) fun _ => short_checked _ _)
    fun _ h => h

/-- The values of the fields before, with one more. -/
theorem envOf_snoc (pre : List Field) (vs : List Val) (f : Field) (v : Val)
    (hl : vs.length = pre.length) (hn : f.id ∉ pre.map Field.id) {env : Env}
    (h : Agree (pre.map Field.id) env (envOf pre vs)) :
    Agree ((pre ++ [f]).map Field.id) (env.set f.id v) (envOf (pre ++ [f]) (vs ++ [v])) := by
  have hval : ∀ (pre : List Field) (vs : List Val), vs.length = pre.length → ∀ i,
      (i ∈ pre.map Field.id → envOf (pre ++ [f]) (vs ++ [v]) i = envOf pre vs i) ∧
      (f.id ∉ pre.map Field.id → envOf (pre ++ [f]) (vs ++ [v]) f.id = some v) := by
    intro pre
    induction pre with
    | nil =>
      intro vs hl i
      have : vs = [] := by simpa using hl
      subst this
      simp [envOf, Env.set]
    | cons g gs ih =>
      intro vs hl i
      cases vs with
      | nil => simp at hl
      | cons w ws =>
        obtain ⟨h1, h2⟩ := ih ws (by simpa using hl) i
        simp only [List.cons_append, envOf, Env.set, List.map_cons, List.mem_cons, not_or]
        refine ⟨?_, ?_⟩
        · intro hi
          split
          · rfl
          · rcases hi with hi | hi
            · contradiction
            · exact h1 hi
        · rintro ⟨hne, hni⟩
          rw [if_neg hne]
          exact h2 hni
  intro i hi
  obtain ⟨h1, h2⟩ := hval pre vs hl i
  simp only [Env.set]
  split
  · rename_i hif
    subst hif
    exact (h2 hn).symm
  · rename_i hif
    rw [List.map_append, List.mem_append] at hi
    rcases hi with hi | hi
    · rw [h i hi, h1 hi]
    · simp at hi; contradiction

theorem short_untag {r : RdE CastError α} (h : ShortC r) : ShortR r.untag :=
  RdE.short_mapErr h fun _ h => h

/-- Records, one after the other. -/
private theorem ends_recs (cfg : Cfg) (fs : List Field) (hwf : WellFormed fs)
    (hfs : ∀ inp r, (∃ id, Ends (readFields cfg (dfltEnv fs) fs) inp ⟨r, id⟩) ↔
      ∃ id, FieldsRefused cfg [] [] fs inp r id) (n : Nat) (inp : List Byte) (r : Reason) :
    Ends ((repeatE (((readFields cfg (dfltEnv fs) fs).untag).mapOk Val.seq) n).mapOk Val.seq) inp r ↔
      NextRecord (Valid cfg fs) (wire cfg fs)
        (fun tail => ∃ id, FieldsRefused cfg [] [] fs tail r id) n inp := by
  have hshort : ShortR (((readFields cfg (dfltEnv fs) fs).untag).mapOk Val.seq) :=
    RdE.short_mapOk (RdE.short_mapErr (short_readFields cfg fs _) fun _ h => h)
  have hg : ∀ (p : List Byte) (v : Val),
      RdE.Gives (((readFields cfg (dfltEnv fs) fs).untag).mapOk Val.seq) p v ↔
      (∃ ws, v = .seq ws ∧ Valid cfg fs ws) ∧ p = recordBytes (wire cfg fs) v := by
    intro p v
    simp only [RdE.gives_mapOk, gives_untag]
    have := structCast_gives_iff cfg fs hwf p
    unfold structCast at this
    simp only [this]
    constructor
    · rintro ⟨ws, rfl, h, rfl⟩; exact ⟨⟨ws, rfl, h⟩, rfl⟩
    · rintro ⟨⟨ws, rfl, h⟩, rfl⟩; exact ⟨ws, rfl, h, rfl⟩
  rw [ends_mapOk (short_repeatE hshort n), ends_repeatE hshort _ _ hg]
  have hend : ∀ tail, Ends (((readFields cfg (dfltEnv fs) fs).untag).mapOk Val.seq) tail r ↔
      ∃ id, FieldsRefused cfg [] [] fs tail r id := by
    intro tail
    rw [ends_mapOk (short_untag (short_readFields cfg fs _)),
      ← hfs]
    unfold RdE.untag
    rw [ends_mapErr]
    constructor
    · rintro ⟨⟨_, id⟩, rfl, h⟩; exact ⟨id, h⟩
    · rintro ⟨id, h⟩; exact ⟨⟨r, id⟩, rfl, h⟩
  simp only [hend]
  rfl

mutual
theorem ends_readKind (cfg : Cfg) : (k : Kind) → saneKind k = true → uniqueKind k = true →
    earlierKind k = true → ∀ env inp r,
    Ends (readKind cfg env k) inp r ↔ KindRefused cfg env k inp r
  | .num t w, _, _, _, env, inp, r => by simp only [readKind, KindRefused]; exact ends_readNum ..
  | .fbuf e n, _, _, _, env, inp, r => by simp only [readKind, KindRefused]; exact ends_readFixedBuf ..
  | .fstr n, _, _, _, env, inp, r => by simp only [readKind, KindRefused]; exact ends_readFixedStr ..
  | .vec e len b, hs, _, _, env, inp, r => by
      simp only [saneKind, decide_eq_true_eq] at hs
      simp only [readKind, KindRefused, ends_andThen (short_lift _ fun _ => True), ends_lift,
        gives_lift, false_or]
      constructor
      · rintro ⟨n, p, tail, rfl, ⟨rfl, hn⟩, h⟩
        exact ⟨n, hn, (ends_readVec cfg e b n hs _ r).mp h⟩
      · rintro ⟨n, hn, h⟩
        exact ⟨n, [], inp, rfl, ⟨rfl, hn⟩, (ends_readVec cfg e b n hs _ r).mpr h⟩
  | .record fs, hs, hu, he, env, inp, r => by
      simp only [saneKind, uniqueKind, earlierKind] at hs hu he
      simp only [readKind, KindRefused]
      rw [ends_mapOk (short_untag (short_readFields cfg fs _))]
      unfold RdE.untag
      rw [ends_mapErr]
      constructor
      · rintro ⟨⟨_, id⟩, rfl, h⟩
        exact ⟨id, (ends_readFields cfg fs hs [] [] rfl (by simpa using hu) (by simpa using he) _ (by simp [Agree]) inp _ _).mp h⟩
      · rintro ⟨id, h⟩
        exact ⟨⟨r, id⟩, rfl, (ends_readFields cfg fs hs [] [] rfl (by simpa using hu) (by simpa using he) _ (by simp [Agree]) inp _ _).mpr h⟩
  | .arrRec fs n, hs, hu, he, env, inp, r => by
      simp only [saneKind, uniqueKind, earlierKind] at hs hu he
      simp only [readKind, KindRefused]
      exact ends_recs cfg fs ⟨hs, hu, he⟩ (fun inp r => exists_congr fun id =>
        ends_readFields cfg fs hs [] [] rfl (by simpa using hu) (by simpa using he) _ (by simp [Agree]) inp r id) n inp r
  | .vecRec fs len b sz, hs, hu, he, env, inp, r => by
      simp only [saneKind, uniqueKind, earlierKind, Bool.and_eq_true, decide_eq_true_eq] at hs hu he
      have hrecs := ends_recs cfg fs ⟨hs.2, hu, he⟩ (fun inp r => exists_congr fun id =>
        ends_readFields cfg fs hs.2 [] [] rfl (by simpa using hu) (by simpa using he) _ (by simp [Agree]) inp r id)
      simp only [readKind, KindRefused, ends_andThen (short_lift _ fun _ => True), ends_lift,
        gives_lift, false_or]
      have hone : ∀ n, Ends (match checkedByteCount cfg sz (ceilingOf cfg b) n with
          | .error r => RdE.err r
          | .ok _ => resize cfg (n * sz)
            ((repeatE (((readFields cfg (dfltEnv fs) fs).untag).mapOk Val.seq) n).mapOk Val.seq)) inp r ↔
          (b.getD cfg.defaultMax < n * sz ∧ r = .excessiveLength ∨
            StorageFits cfg b sz n ∧ NextRecord (Valid cfg fs) (wire cfg fs)
              (fun tail => ∃ id, FieldsRefused cfg [] [] fs tail r id) n inp) := by
        intro n
        cases hc : checkedByteCount cfg sz (ceilingOf cfg b) n with
        | error r' =>
          obtain ⟨h1, rfl⟩ := (checkedByteCount_refuses cfg _ _ _ hs.1 _).mp hc
          have h1 : b.getD cfg.defaultMax < n * sz := h1
          have h2 : ¬ StorageFits cfg b sz n := fun h => by have := h.1; omega
          simp only [ends_err, h1, true_and, h2, false_and, or_false]
        | ok m =>
          have h1 : n * sz ≤ b.getD cfg.defaultMax :=
            ((checkedByteCount_ok cfg sz (ceilingOf cfg b) n m hs.1).mp hc).1
          have h2 : ¬ b.getD cfg.defaultMax < n * sz := by omega
          simp only [ends_resize, hrecs, h2, false_and, false_or, StorageFits, h1, true_and]
      constructor
      · rintro ⟨n, p, tail, rfl, ⟨rfl, hn⟩, h⟩
        exact ⟨n, hn, (hone n).mp h⟩
      · rintro ⟨n, hn, h⟩
        exact ⟨n, [], inp, rfl, ⟨rfl, hn⟩, (hone n).mpr h⟩
theorem ends_readField (cfg : Cfg) : (f : Field) → saneField f = true → uniqueField f = true →
    earlierField f = true → ∀ env inp r,
    Ends ((readField cfg env f).andThen fun v => RdE.checked f.constraint v) inp r ↔
      FieldRefused cfg env f inp r
  | .plain id k c, hs, hu, he, env, inp, r => by
      simp only [saneField, uniqueField, earlierField] at hs hu he
      simp only [readField, FieldRefused, ends_andThen (short_readKind cfg k env), Field.constraint,
        ends_checked, gives_isKind cfg k hs hu he, ends_readKind cfg k hs hu he]
      constructor
      · rintro (h | ⟨v, p, tail, rfl, ⟨h1, rfl⟩, rfl, h2⟩)
        · exact .inl h
        · exact .inr ⟨rfl, v, tail, rfl, h1, h2⟩
      · rintro (h | ⟨rfl, v, tail, rfl, h1, h2⟩)
        · exact .inl h
        · exact .inr ⟨v, _, tail, rfl, ⟨h1, rfl⟩, rfl, h2⟩
  | .maybe id k p, hs, hu, he, env, inp, r => by
      simp only [saneField, uniqueField, earlierField] at hs hu he
      have hnone : ∀ v : Val, Constraint.check .none v = .ok false ↔ False := by
        intro v; simp [Constraint.check]
      rw [ends_andThen (short_readField cfg (.maybe id k p) env)]
      simp only [Field.constraint, ends_checked, hnone, and_false, exists_false, or_false,
        readField, FieldRefused, ends_andThen (short_lift _ fun _ => True), ends_lift,
        gives_lift, false_or]
      constructor
      · rintro ⟨b, q, tail, rfl, ⟨rfl, hb⟩, h⟩
        cases b with
        | true =>
          simp only [if_true, ends_mapOk (short_readKind cfg k env), ends_readKind cfg k hs hu he] at h
          exact ⟨hb, h⟩
        | false => simp at h
      · rintro ⟨hb, h⟩
        refine ⟨true, [], inp, rfl, ⟨rfl, hb⟩, ?_⟩
        simp only [if_true, ends_mapOk (short_readKind cfg k env), ends_readKind cfg k hs hu he]
        exact h
  | .union id d alts c, hs, hu, he, env, inp, r => by
      simp only [saneField, uniqueField, earlierField, Bool.and_eq_true, decide_eq_true_eq] at hs hu he
      rw [ends_andThen (short_readField cfg (.union id d alts c) env)]
      simp only [Field.constraint, ends_checked, readField, FieldRefused,
        ends_andThen (short_lift _ fun _ => True), ends_lift, RdE.gives_andThen,
        gives_lift, false_or]
      constructor
      · rintro (⟨o, q, tail, rfl, ⟨rfl, ho⟩, h⟩ | ⟨v, p, tail, rfl, ⟨o, q, s, rfl, ⟨rfl, ho⟩, h⟩, rfl, hc⟩)
        · cases o with
          | none => simp only [ends_err] at h; exact .inl ⟨ho, h⟩
          | some i =>
            simp only [ends_mapOk (short_readAlts cfg alts env i)] at h
            exact .inr ⟨i, ho, .inl ((ends_readAlts cfg alts hs.2 hu he env i
              (hs.1 ▸ Deducer.eval_lt env d i ho) _ r).mp h)⟩
        · cases o with
          | none => simp at h
          | some i =>
            simp only [RdE.gives_mapOk, gives_isAlt cfg alts hs.2 hu he env i
              (hs.1 ▸ Deducer.eval_lt env d i ho)] at h
            obtain ⟨_, rfl, u, rfl, h, rfl⟩ := h
            exact .inr ⟨i, ho, .inr ⟨rfl, u, tail, by simp, h, hc⟩⟩
      · rintro (⟨ho, rfl⟩ | ⟨i, ho, h | ⟨rfl, v, tail, rfl, h, hc⟩⟩)
        · exact .inl ⟨none, [], inp, rfl, ⟨rfl, ho⟩, by simp⟩
        · refine .inl ⟨some i, [], inp, rfl, ⟨rfl, ho⟩, ?_⟩
          simp only [ends_mapOk (short_readAlts cfg alts env i)]
          exact (ends_readAlts cfg alts hs.2 hu he env i
              (hs.1 ▸ Deducer.eval_lt env d i ho) _ r).mpr h
        · refine .inr ⟨.var i v, _, tail, rfl, ⟨some i, [], _, rfl, ⟨rfl, ho⟩, ?_⟩, rfl, hc⟩
          simp only [RdE.gives_mapOk, gives_isAlt cfg alts hs.2 hu he env i
              (hs.1 ▸ Deducer.eval_lt env d i ho)]
          exact ⟨some v, rfl, v, rfl, h, rfl⟩
theorem ends_readAlts (cfg : Cfg) : (alts : List Alt) → saneAlts alts = true →
    uniqueAlts alts = true → earlierAlts alts = true → ∀ env i, i < alts.length → ∀ inp r,
    Ends (readAlts cfg env alts i) inp r ↔ AltsRefused cfg env alts i inp r
  | [], _, _, _, env, i, hi, inp, r => by simp at hi
  | .mk k c :: alts, hs, hu, he, env, 0, hi, inp, r => by
      simp only [saneAlts, uniqueAlts, earlierAlts, Bool.and_eq_true] at hs hu he
      simp only [readAlts, AltsRefused, ends_andThen (short_readKind cfg k env),
        ends_mapOk (short_checked _ _), ends_checked, gives_isKind cfg k hs.1 hu.1 he.1,
        ends_readKind cfg k hs.1 hu.1 he.1]
      constructor
      · rintro (h | ⟨v, p, tail, rfl, ⟨h1, rfl⟩, rfl, h2⟩)
        · exact .inl h
        · exact .inr ⟨rfl, v, tail, rfl, h1, h2⟩
      · rintro (h | ⟨rfl, v, tail, rfl, h1, h2⟩)
        · exact .inl h
        · exact .inr ⟨v, _, tail, rfl, ⟨h1, rfl⟩, rfl, h2⟩
  | .mk k c :: alts, hs, hu, he, env, i + 1, hi, inp, r => by
      simp only [saneAlts, uniqueAlts, earlierAlts, Bool.and_eq_true] at hs hu he
      simp only [readAlts, AltsRefused]
      exact ends_readAlts cfg alts hs.2 hu.2 he.2 env i (by simpa using hi) inp r
theorem ends_readFields (cfg : Cfg) : (fs : List Field) → saneFields fs = true →
    ∀ pre vs, vs.length = pre.length → uniqueFields (pre.map Field.id) fs = true →
    earlierFields (pre.map Field.id) fs = true → ∀ env, Agree (pre.map Field.id) env (envOf pre vs) →
    ∀ inp r id, Ends (readFields cfg env fs) inp ⟨r, id⟩ ↔ FieldsRefused cfg pre vs fs inp r id
  | [], _, pre, vs, _, _, _, env, _, inp, r, id => by simp [readFields, FieldsRefused]
  | f :: fs, hs, pre, vs, hl, hu, he, env, ha, inp, r, id => by
      simp only [saneFields, uniqueFields, earlierFields, Bool.and_eq_true, List.all_eq_true,
        Bool.not_eq_true', List.contains_eq_mem, decide_eq_false_iff_not] at hs hu he
      have hdeps : Agree (fieldDeps f) env (envOf pre vs) := ha.mono fun i hi => by
        simpa using he.1.1 i hi
      have hstep : fieldStep cfg env f = fieldStep cfg (envOf pre vs) f := by
        simp only [fieldStep, readField_congr cfg f hdeps]
      have hmap : pre.map Field.id ++ [f.id] = (pre ++ [f]).map Field.id := by simp
      rw [hmap] at hu he
      have hrest : ∀ v tail, Ends (readFields cfg (env.set f.id v) fs) tail ⟨r, id⟩ ↔
          FieldsRefused cfg (pre ++ [f]) (vs ++ [v]) fs tail r id := fun v tail =>
        ends_readFields cfg fs hs.2 (pre ++ [f]) (vs ++ [v]) (by simp [hl]) hu.2 he.2 _
          (envOf_snoc pre vs f v hl hu.1.1 ha) tail r id
      have hfield : Ends (fieldStep cfg (envOf pre vs) f) inp ⟨r, id⟩ ↔
          f.id = id ∧ FieldRefused cfg (envOf pre vs) f inp r := by
        rw [← ends_readField cfg f hs.1 hu.1.2 he.1.2]
        unfold fieldStep RdE.tag
        rw [ends_mapErr]
        constructor
        · rintro ⟨e, h, h'⟩; cases h; exact ⟨rfl, h'⟩
        · rintro ⟨rfl, h⟩; exact ⟨r, rfl, h⟩
      simp only [readFields_cons, FieldsRefused, hstep, ends_andThen (short_fieldStep cfg _ f),
        ends_andThen (short_readFields cfg fs _), ends_ok, and_false, exists_false, or_false,
        hrest, hfield, gives_isField cfg f hs.1 hu.1.2 he.1.2]
      constructor
      · rintro (h | ⟨v, p, tail, rfl, ⟨h1, rfl⟩, h2⟩)
        · exact .inl h
        · exact .inr ⟨v, tail, rfl, h1, h2⟩
      · rintro (h | ⟨v, tail, rfl, h1, h2⟩)
        · exact .inl h
        · exact .inr ⟨v, _, tail, rfl, ⟨h1, rfl⟩, h2⟩
end

/-! ### The fields before, together -/

/-- Values of fields before play no role in each other's. -/
theorem envOf_append_agree (pre post : List Field) (vs ws : List Val) (hl : vs.length = pre.length) :
    Agree (pre.map Field.id) (envOf pre vs) (envOf (pre ++ post) (vs ++ ws)) := by
  induction pre generalizing vs with
  | nil => simp [Agree]
  | cons f fs ih =>
    cases vs with
    | nil => simp at hl
    | cons v vs =>
      intro i hi
      simp only [List.cons_append, envOf, Env.set]
      split
      · rfl
      · rename_i hn
        rw [List.map_cons, List.mem_cons] at hi
        rcases hi with hi | hi
        · contradiction
        · exact ih vs (by simpa using hl) i hi

theorem fieldsRefused_split (cfg : Cfg) (fs : List Field) (pre : List Field) (vs : List Val)
    (hl : vs.length = pre.length) (hu : uniqueFields (pre.map Field.id) fs = true)
    (he : earlierFields (pre.map Field.id) fs = true) (inp : List Byte) (r : Reason) (id : String) :
    FieldsRefused cfg pre vs fs inp r id ↔
      ∃ mid f post us tail, fs = mid ++ f :: post ∧ f.id = id ∧
        (FitsFields cfg mid us ∧ OkFields mid us ∧
          ShapedFields cfg (envOf (pre ++ mid) (vs ++ us)) mid us) ∧
        inp = wireFields cfg.wire mid us ++ tail ∧
        FieldRefused cfg (envOf (pre ++ mid) (vs ++ us)) f tail r := by
  induction fs generalizing pre vs inp with
  | nil => simp [FieldsRefused]
  | cons f fs ih =>
    have hmap : pre.map Field.id ++ [f.id] = (pre ++ [f]).map Field.id := by simp
    simp only [uniqueFields, earlierFields, Bool.and_eq_true, List.all_eq_true, hmap] at hu he
    simp only [FieldsRefused]
    have hself : ∀ (mid : List Field) (us : List Val) v, IsField cfg (envOf pre vs) f v ↔
        FitsField cfg f v ∧ OkField f v ∧
          ShapedField cfg (envOf (pre ++ f :: mid) (vs ++ v :: us)) f v := by
      intro mid us v
      unfold IsField
      rw [shapedField_congr cfg f hu.1.2 he.1.2 ((envOf_append_agree pre (f :: mid) vs (v :: us) hl).mono
        fun i hi => by simpa using he.1.1 i hi)]
    constructor
    · rintro (⟨h1, h2⟩ | ⟨v, tail, rfl, h1, h2⟩)
      · exact ⟨[], f, fs, [], inp, rfl, h1, by simp [FitsFields, OkFields, ShapedFields],
          by simp [wireFields], by simpa using h2⟩
      · obtain ⟨mid, g, post, us, t, rfl, h3, ⟨h4, h5, h6⟩, rfl, h7⟩ :=
          (ih (pre ++ [f]) (vs ++ [v]) (by simp [hl]) hu.2 he.2 tail).mp h2
        rw [List.append_assoc, List.append_assoc] at h6 h7
        obtain ⟨a, b, c⟩ := (hself mid us v).mp h1
        exact ⟨f :: mid, g, post, v :: us, t, rfl, h3, ⟨⟨a, h4⟩, ⟨b, h5⟩, c, h6⟩,
          by simp [wireFields], h7⟩
    · rintro ⟨mid, g, post, us, t, hfs, h3, ⟨h4, h5, h6⟩, rfl, h7⟩
      cases mid with
      | nil =>
        simp only [List.nil_append, List.cons.injEq] at hfs
        obtain ⟨rfl, rfl⟩ := hfs
        have : us = [] := by cases us <;> simp [FitsFields] at h4 ⊢
        subst this
        exact .inl ⟨h3, by simpa [wireFields] using h7⟩
      | cons f' mid =>
        simp only [List.cons_append, List.cons.injEq] at hfs
        obtain ⟨rfl, rfl⟩ := hfs
        cases us with
        | nil => simp [FitsFields] at h4
        | cons v us =>
          simp only [FitsFields, OkFields, ShapedFields] at h4 h5 h6
          refine .inr ⟨v, wireFields cfg.wire mid us ++ t, by simp [wireFields],
            (hself mid us v).mpr ⟨h4.1, h5.1, h6.1⟩, ?_⟩
          refine (ih (pre ++ [f]) (vs ++ [v]) (by simp [hl]) hu.2 he.2 _).mpr
            ⟨mid, g, post, us, t, rfl, h3, ?_, rfl, ?_⟩
          · rw [List.append_assoc, List.append_assoc]
            exact ⟨h4.2, h5.2, h6.2⟩
          · rw [List.append_assoc, List.append_assoc]
            exact h7

theorem refused_iff_fields (cfg : Cfg) (fs : List Field) (hwf : WellFormed fs) (inp : List Byte)
    (r : Reason) (id : String) : FieldsRefused cfg [] [] fs inp r id ↔ Refused cfg fs inp r id := by
  rw [fieldsRefused_split cfg fs [] [] rfl hwf.2.1 hwf.2.2]
  rfl

/-- **Failing reads, characterised.** -/
theorem structCast_ends_iff (cfg : Cfg) (fs : List Field) (hwf : WellFormed fs) (inp : List Byte)
    (r : Reason) (id : String) : Ends (structCast cfg fs) inp ⟨r, id⟩ ↔ Refused cfg fs inp r id := by
  rw [← refused_iff_fields cfg fs hwf]
  exact ends_readFields cfg fs hwf.1 [] [] rfl hwf.2.1 hwf.2.2 _ (by simp [Agree]) inp r id

end S2S
