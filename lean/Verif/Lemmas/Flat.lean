import Verif.Spec.Flat
import Verif.Lemmas.Either
/-
Arrays of arrays as flat arrays.
-/
namespace S2S
open Spec

theorem size_eq_scalars : ∀ e : ElemTy, e.size = scalarCount e * e.leaf.size
  | .scalar t => by simp [ElemTy.size, scalarCount, ElemTy.leaf]
  | .arr e n => by simp only [ElemTy.size, scalarCount, ElemTy.leaf, size_eq_scalars e, Nat.mul_assoc]

/-! ### Reading -/

def joined : Option (List Val) → Option (List Val) → Option (List Val)
  | some a, some b => some (a ++ b)
  | _, _ => none

theorem decodeN_add (f : List Byte → Option Val) (s : Nat) : ∀ a b mem,
    decodeN f s (a + b) mem = joined (decodeN f s a mem) (decodeN f s b (mem.drop (a * s)))
  | 0, b, mem => by
      simp only [Nat.zero_add, decodeN, Nat.zero_mul, List.drop_zero]
      cases decodeN f s b mem <;> rfl
  | a + 1, b, mem => by
      have h : a + 1 + b = (a + b) + 1 := by omega
      have h2 : (a + 1) * s = s + a * s := by rw [Nat.succ_mul]; omega
      rw [h, decodeN, decodeN, decodeN_add f s a b, List.drop_drop, h2]
      cases f (mem.take s) with
      | none => rfl
      | some v =>
        cases decodeN f s a (mem.drop s) with
        | none => rfl
        | some vs => cases decodeN f s b (mem.drop (s + a * s)) <;> rfl

theorem decodeN_take (f : List Byte → Option Val) (s : Nat) : ∀ a mem k, a * s ≤ k →
    decodeN f s a (mem.take k) = decodeN f s a mem
  | 0, _, _, _ => rfl
  | a + 1, mem, k, h => by
      have h2 : (a + 1) * s = a * s + s := Nat.succ_mul a s
      rw [decodeN, decodeN, List.take_take, Nat.min_eq_left (by omega), List.drop_take,
        decodeN_take f s a _ _ (by omega)]

theorem decode_flat_of (host : Endian) (e : ElemTy)
    (h1 : ∀ mem, (e.ofMem host (mem.take e.size)).map (scalarsIn e) =
      decodeN ((ElemTy.scalar e.leaf).ofMem host) e.leaf.size (scalarCount e) mem) : ∀ n mem,
    decodeN ((ElemTy.scalar e.leaf).ofMem host) e.leaf.size (n * scalarCount e) mem =
      (decodeN (e.ofMem host) e.size n mem).map fun vs => vs.flatMap (scalarsIn e)
  | 0, mem => by rw [Nat.zero_mul]; rfl
  | n + 1, mem => by
      rw [Nat.succ_mul, Nat.add_comm, decodeN_add, ← h1, ← size_eq_scalars, decode_flat_of host e h1 n, decodeN]
      cases e.ofMem host (mem.take e.size) with
      | none => rfl
      | some v => cases decodeN (e.ofMem host) e.size n (mem.drop e.size) <;> rfl

theorem decode_elem_flat (host : Endian) : ∀ (e : ElemTy) mem, (e.ofMem host (mem.take e.size)).map (scalarsIn e) =
    decodeN ((ElemTy.scalar e.leaf).ofMem host) e.leaf.size (scalarCount e) mem
  | .scalar t, mem => by
      simp only [ElemTy.leaf, ElemTy.size, scalarCount, decodeN]
      cases (ElemTy.scalar t).ofMem host (mem.take t.size) <;> rfl
  | .arr e n, mem => by
      have h := decode_flat_of host e (decode_elem_flat host e) n mem
      have hm : (ElemTy.arr e n).ofMem host (mem.take (n * e.size)) =
          (decodeN (e.ofMem host) e.size n mem).map .seq := by
        rw [ElemTy.ofMem, decodeN_take _ _ _ _ _ (Nat.le_refl _)]
      rw [show (ElemTy.arr e n).size = n * e.size from rfl, hm,
        show (ElemTy.arr e n).leaf = e.leaf from rfl, show scalarCount (.arr e n) = n * scalarCount e from rfl, h]
      cases decodeN (e.ofMem host) e.size n mem <;> rfl

theorem swap_scalars : ∀ (e : ElemTy) (v : Val),
    scalarsIn e (e.swap v) = (scalarsIn e v).map (ElemTy.scalar e.leaf).swap
  | .scalar t, v => rfl
  | .arr e n, .seq vs => by
      simp only [ElemTy.swap, scalarsIn, ElemTy.leaf, List.flatMap_map, List.map_flatMap]
      congr 1
      funext v
      exact swap_scalars e v
  | .arr _ _, .int _ => rfl
  | .arr _ _, .absent => rfl
  | .arr _ _, .present _ => rfl
  | .arr _ _, .var _ _ => rfl

theorem swapIfForeign_flat (cfg : Cfg) (e : ElemTy) (vs : List Val) :
    swapIfForeign cfg (.scalar e.leaf) (vs.flatMap (scalarsIn e)) =
      (swapIfForeign cfg e vs).flatMap (scalarsIn e) := by
  unfold swapIfForeign
  split
  · rw [List.flatMap_map, List.map_flatMap]
    congr 1
    funext v
    exact (swap_scalars e v).symm
  · rfl

theorem readFixedBuf_flat (cfg : Cfg) (e : ElemTy) (n : Nat) :
    readFixedBuf cfg (.scalar e.leaf) (n * scalarCount e) =
      (readFixedBuf cfg e n).mapOk (flatVal (.fbuf e n)) := by
  unfold readFixedBuf RdE.mapOk
  rw [RdE.andThen_assoc]
  simp only [RdE.andThen_assoc]
  have hs : n * scalarCount e * (ElemTy.scalar e.leaf).size = n * e.size := by
    rw [size_eq_scalars e, Nat.mul_assoc]; rfl
  rw [hs]
  congr 1
  funext mem
  have h := decode_flat_of cfg.host e (decode_elem_flat cfg.host e) n mem
  simp only [ElemTy.size] at h ⊢
  rw [h]
  cases decodeN (e.ofMem cfg.host) e.size n mem with
  | none => rfl
  | some vs => simp [RdE.value, RdE.ok_andThen, swapIfForeign_flat, flatVal]

theorem RdE.mapOk_id (r : RdE ε α) {g : α → α} (h : ∀ a, g a = a) : r.mapOk g = r := by
  have : g = id := funext h
  subst this
  unfold RdE.mapOk
  induction r with
  | ret a => cases a <;> rfl
  | stuck w => rfl
  | read n k ih => simp only [RdE.andThen, Rd.bind] at ih ⊢; congr 1; funext x; exact ih x
  | alloc n k ih => simp only [RdE.andThen, Rd.bind] at ih ⊢; congr 1

theorem readKind_flat (cfg : Cfg) (env : Env) (k : Kind) :
    readKind cfg env (flatKind k) = (readKind cfg env k).mapOk (flatVal k) := by
  cases k with
  | fbuf e n => simp only [flatKind, readKind, readFixedBuf_flat]
  | _ => exact (RdE.mapOk_id _ fun v => by simp [flatVal]).symm

@[simp] theorem flatField_id (pick : String → Bool) (f : Field) : (flatField pick f).id = f.id := by
  cases f <;> rfl

@[simp] theorem flatField_constraint (pick : String → Bool) (f : Field) :
    (flatField pick f).constraint = f.constraint := by
  cases f <;> rfl

theorem flatMember_unpicked {pick : String → Bool} {f : Field} (h : pick f.id = false) (v : Val) :
    flatMember pick f v = v := by
  cases f with
  | plain id k c => simp only [Field.id] at h; simp [flatMember, h]
  | maybe id k p => simp only [Field.id] at h; cases v <;> simp [flatMember, h]
  | union => rfl

theorem lenTarget_flat (k : Kind) : (flatKind k).lenTarget? = k.lenTarget? := by cases k <;> rfl

theorem kindDeps_flat (k : Kind) : kindDeps (flatKind k) = kindDeps k := by cases k <;> rfl

theorem fieldDeps_flat (pick : String → Bool) (f : Field) : fieldDeps (flatField pick f) = fieldDeps f := by
  cases f with
  | plain id k c => simp only [flatField, fieldDeps]; split <;> simp [kindDeps_flat]
  | maybe id k p => simp only [flatField, fieldDeps]; split <;> simp [kindDeps_flat]
  | union => rfl

theorem readField_flat (pick : String → Bool) (cfg : Cfg) (env : Env) (f : Field) :
    readField cfg env (flatField pick f) = (readField cfg env f).mapOk (flatMember pick f) := by
  cases f with
  | plain id k c =>
    simp only [flatField, readField]
    cases hp : pick id with
    | false => exact (RdE.mapOk_id _ fun v => by simp [flatMember, hp]).symm
    | true =>
      rw [if_pos rfl, readKind_flat]
      congr 1
      funext v
      simp [flatMember, hp]
  | maybe id k p =>
    simp only [flatField, readField]
    cases hp : pick id with
    | false => exact (RdE.mapOk_id _ fun v => by cases v <;> simp [flatMember, hp]).symm
    | true =>
      rw [if_pos rfl, readKind_flat]
      unfold RdE.mapOk
      refine Eq.trans ?_ (RdE.andThen_assoc _ _ _).symm
      congr 1
      funext b
      cases b with
      | false => rfl
      | true =>
        simp only [if_true, RdE.andThen_assoc]
        congr 1
        funext v
        simp [RdE.ok_andThen, flatMember, hp]
  | union id d alts c => exact (RdE.mapOk_id _ fun v => rfl).symm

theorem envOf_flat (pick : String → Bool) : ∀ fs vs i, pick i = false →
    envOf (fs.map (flatField pick)) (flatStruct pick fs vs) i = envOf fs vs i
  | [], vs, i, _ => by simp [flatStruct, envOf]
  | f :: fs, [], i, _ => by simp [flatStruct, envOf]
  | f :: fs, v :: vs, i, h => by
      simp only [List.map_cons, flatStruct, envOf, flatField_id]
      have ih := envOf_flat pick fs vs i h
      simp only [Env.set] at ih ⊢
      split
      · rename_i he; subst he; rw [flatMember_unpicked h]
      · exact ih

theorem dflts_flat (pick : String → Bool) : ∀ fs i, pick i = false →
    dfltEnv (fs.map (flatField pick)) i = dfltEnv fs i
  | [], i, _ => rfl
  | f :: fs, i, h => by
      have ih := dflts_flat pick fs i h
      unfold dfltEnv at ih ⊢
      simp only [List.map_cons, Field.dflts, envOf, flatField_id]
      simp only [Env.set] at ih ⊢
      split
      · rename_i he
        subst he
        cases f <;> simp only [flatField, Field.id] at h ⊢
        · simp [h]
        · simp [h]
      · exact ih

theorem checked_flat {pick : String → Bool} {fs : List Field} (hc : Unchecked pick fs) {f : Field} (hf : f ∈ fs)
    (v : Val) : f.constraint.check (flatMember pick f v) = f.constraint.check v := by
  cases f with
  | plain id k c =>
    cases hp : pick id with
    | false => rw [flatMember_unpicked (by simpa [Field.id] using hp)]
    | true => rw [show Field.constraint (.plain id k c) = c from rfl, hc id k c hf hp]; rfl
  | maybe id k p => rfl
  | union => rfl

theorem fieldStep_flat (pick : String → Bool) (cfg : Cfg) {fs : List Field} (hc : Unchecked pick fs) {f : Field}
    (hf : f ∈ fs) {env env' : Env} (h : Agree (fieldDeps f) env env') :
    fieldStep cfg env' (flatField pick f) = (fieldStep cfg env f).mapOk (flatMember pick f) := by
  unfold fieldStep
  rw [readField_flat, ← readField_congr cfg f h, flatField_id, flatField_constraint, RdE.mapOk_andThen']
  unfold RdE.tag RdE.mapOk
  rw [RdE.mapErr_andThen, RdE.mapErr_andThen, RdE.andThen_assoc]
  congr 1
  funext v
  simp only [RdE.checked, checked_flat hc hf]
  cases f.constraint.check v with
  | error w => rfl
  | ok b => cases b <;> rfl

theorem readFields_flat (pick : String → Bool) (cfg : Cfg) : ∀ (fs : List Field), Unread pick fs →
    Unchecked pick fs → ∀ (env env' : Env), (∀ i, pick i = false → env i = env' i) →
    readFields cfg env' (fs.map (flatField pick)) = (readFields cfg env fs).mapOk (flatStruct pick fs)
  | [], _, _, _, _, _ => by simp [readFields, RdE.mapOk, RdE.ok_andThen, flatStruct]
  | f :: fs, hu, hc, env, env', he => by
      rw [List.map_cons, readFields_cons, readFields_cons,
        fieldStep_flat pick cfg hc (by simp) (fun i hi => he i (hu f (by simp) i hi)), RdE.mapOk_andThen']
      unfold RdE.mapOk
      rw [RdE.andThen_assoc]
      congr 1
      funext v
      rw [flatField_id, readFields_flat pick cfg fs (fun g hg => hu g (by simp [hg]))
        (fun id k c hm => hc id k c (by simp [hm])) (env.set f.id v) (env'.set f.id (flatMember pick f v)) ?_]
      · unfold RdE.mapOk
        rw [RdE.andThen_assoc, RdE.andThen_assoc]
        rfl
      · intro i hi
        simp only [Env.set]
        split
        · rename_i e; subst e; rw [flatMember_unpicked hi]
        · exact he i hi

/-! ### Writing -/

theorem encodeN_append (f : Val → Option (List Byte)) : ∀ as bs, encodeN f (as ++ bs) =
    match encodeN f as, encodeN f bs with
    | some a, some b => some (a ++ b)
    | _, _ => none
  | [], bs => by simp only [List.nil_append, encodeN]; cases encodeN f bs <;> rfl
  | v :: as, bs => by
      rw [List.cons_append, encodeN, encodeN, encodeN_append f as bs]
      cases f v <;> cases encodeN f as <;> cases encodeN f bs <;> simp

theorem encode_flat_of (host : Endian) (e : ElemTy)
    (h1 : ∀ v, HasDims e v → encodeN ((ElemTy.scalar e.leaf).toMem host) (scalarsIn e v) = e.toMem host v) :
    ∀ vs, (∀ v ∈ vs, HasDims e v) →
      encodeN ((ElemTy.scalar e.leaf).toMem host) (vs.flatMap (scalarsIn e)) = encodeN (e.toMem host) vs
  | [], _ => rfl
  | v :: vs, h => by
      rw [List.flatMap_cons, encodeN_append, h1 v (h v (by simp)),
        encode_flat_of host e h1 vs fun w hw => h w (by simp [hw]), encodeN]
      cases e.toMem host v <;> cases encodeN (e.toMem host) vs <;> rfl

theorem encode_elem_flat (host : Endian) : ∀ (e : ElemTy) v, HasDims e v →
    encodeN ((ElemTy.scalar e.leaf).toMem host) (scalarsIn e v) = e.toMem host v
  | .scalar t, v, h => by
      obtain ⟨x, rfl⟩ := h
      simp [scalarsIn, encodeN, ElemTy.leaf, ElemTy.toMem]
  | .arr e n, v, h => by
      obtain ⟨vs, rfl, hl, hv⟩ := h
      have h := encode_flat_of host e (encode_elem_flat host e) vs hv
      rw [show (ElemTy.arr e n).leaf = e.leaf from rfl, show scalarsIn (.arr e n) (.seq vs) = vs.flatMap (scalarsIn e) by
        simp [scalarsIn], h, ElemTy.toMem, if_pos hl]

theorem all_append (as bs : List (WrE ε Unit)) :
    WrE.all (as ++ bs) = (WrE.all as).andThen fun _ => WrE.all bs := by
  induction as with
  | nil => rfl
  | cons a as ih => simp only [List.cons_append, WrE.all, ih, WrE.andThen_assoc]

theorem foreign_flat_of (cfg : Cfg) (e : ElemTy)
    (h1 : ∀ v, HasDims e v → WrE.all ((scalarsIn e v).map (writeForeignElem cfg (.scalar e.leaf))) =
      writeForeignElem cfg e v) : ∀ vs : List Val, (∀ v ∈ vs, HasDims e v) →
      WrE.all ((vs.flatMap (scalarsIn e)).map (writeForeignElem cfg (.scalar e.leaf))) =
        WrE.all (vs.map (writeForeignElem cfg e))
  | [], _ => rfl
  | v :: vs, h => by
      rw [List.flatMap_cons, List.map_append, all_append, h1 v (h v (by simp)),
        foreign_flat_of cfg e h1 vs fun w hw => h w (by simp [hw])]
      rfl

theorem andThen_unit (w : WrE ε Unit) : (w.andThen fun _ => WrE.ok ()) = w := by
  induction w with
  | ret a => cases a <;> rfl
  | stuck => rfl
  | write bs k ih => simp only [WrE.andThen, Wr.bind] at ih ⊢; congr 1; funext b; exact ih b

theorem foreign_elem_flat (cfg : Cfg) : ∀ (e : ElemTy) v, HasDims e v →
    WrE.all ((scalarsIn e v).map (writeForeignElem cfg (.scalar e.leaf))) = writeForeignElem cfg e v
  | .scalar t, v, h => by
      simp only [scalarsIn, List.map_cons, List.map_nil, WrE.all, ElemTy.leaf]
      exact andThen_unit _
  | .arr e n, v, h => by
      obtain ⟨vs, rfl, hl, hv⟩ := h
      have h := foreign_flat_of cfg e (foreign_elem_flat cfg e) vs hv
      rw [show (ElemTy.arr e n).leaf = e.leaf from rfl, show scalarsIn (.arr e n) (.seq vs) = vs.flatMap (scalarsIn e) by
        simp [scalarsIn], h, writeForeignElem, if_pos hl]

theorem scalars_length : ∀ (e : ElemTy) v, HasDims e v → (scalarsIn e v).length = scalarCount e
  | .scalar t, v, _ => by simp [scalarsIn, scalarCount]
  | .arr e n, v, h => by
      obtain ⟨vs, rfl, rfl, hv⟩ := h
      simp only [scalarsIn, scalarCount]
      induction vs with
      | nil => simp
      | cons v vs ih =>
        rw [List.flatMap_cons, List.length_append, scalars_length e v (hv v (by simp)),
          ih fun w hw => hv w (by simp [hw]), List.length_cons, Nat.succ_mul, Nat.add_comm]

theorem emitFixed_flat (cfg : Cfg) (k : Kind) (v : Val) (h : ArrayDims k v) :
    emitFixed cfg (flatKind k) (flatVal k v) = emitFixed cfg k v := by
  cases k with
  | fbuf e n =>
    have hl := scalars_length (.arr e n) v h
    obtain ⟨vs, rfl, hn, hv⟩ := h
    simp only [scalarsIn, scalarCount] at hl
    have hs : n * scalarCount e * (ElemTy.scalar e.leaf).size = n * e.size := by
      rw [size_eq_scalars e, Nat.mul_assoc]; rfl
    simp only [flatKind, flatVal, emitFixed, writeFixedBuf, hl, hn, ne_eq, not_true_eq_false, if_false, hs,
      foreign_flat_of cfg e (foreign_elem_flat cfg e) vs hv, encode_flat_of cfg.host e (encode_elem_flat cfg.host e) vs hv]
  | _ => rfl

theorem writeKind_flat (cfg : Cfg) {ctx : WCtx} {id : String} (hd : isDerived ctx.fs id = false)
    (hh : hasConditional ctx.fs id = false) (member : Bool) (k : Kind) (v : Val) (h : ArrayDims k v) :
    writeKind cfg ctx member id .none (flatKind k) (flatVal k v) = writeKind cfg ctx member id .none k v := by
  cases k with
  | fbuf e n =>
    have := emitFixed_flat cfg (.fbuf e n) v h
    simp only [flatKind] at this
    simp [flatKind, writeKind, writeFixed, hd, frozenVal, verifyThenWrite, hh, this]
  | _ => rfl

theorem lenDerived_flat (pick : String → Bool) (fs : List Field) :
    lenDerivedIds (fs.map (flatField pick)) = lenDerivedIds fs := by
  induction fs with
  | nil => rfl
  | cons f fs ih =>
    unfold lenDerivedIds at ih ⊢
    rw [List.map_cons, List.filterMap_cons, List.filterMap_cons, ih]
    cases f with
    | plain id k c => simp only [flatField]; cases pick id <;> simp [lenTarget_flat]
    | _ => rfl

theorem discDerived_flat (pick : String → Bool) (fs : List Field) :
    discDerivedIds (fs.map (flatField pick)) = discDerivedIds fs := by
  induction fs with
  | nil => rfl
  | cons f fs ih =>
    unfold discDerivedIds at ih ⊢
    rw [List.map_cons, List.filterMap_cons, List.filterMap_cons, ih]
    cases f <;> rfl

theorem isDerived_flat (pick : String → Bool) (fs : List Field) (i : String) :
    isDerived (fs.map (flatField pick)) i = isDerived fs i := by
  simp only [isDerived, lenDerived_flat, discDerived_flat]

theorem flatVal_eq {k : Kind} (h : k.lenTarget? ≠ none) (v : Val) : flatVal k v = v := by
  cases k with
  | fbuf e n => exact absurd rfl h
  | _ => rfl

theorem implies_flat (pick : String → Bool) (cfg : Cfg) (t : String) (f : Field) (v : Val) :
    (flatField pick f).implies cfg t (flatMember pick f v) = f.implies cfg t v := by
  cases f with
  | union => rfl
  | maybe id k p => rfl
  | plain id k c =>
    simp only [flatField, flatMember]
    cases pick id with
    | false => rfl
    | true =>
      simp only [if_true, Field.implies, lenTarget_flat]
      by_cases hk : k.lenTarget? = some t
      · simp [hk, flatVal_eq (k := k) (by simp [hk])]
      · simp [hk]

theorem deriveScan_flat (pick : String → Bool) (cfg : Cfg) (t : String) : ∀ fs vs d,
    deriveScan cfg t (fs.map (flatField pick)) (flatStruct pick fs vs) d = deriveScan cfg t fs vs d
  | [], vs, d => by simp [deriveScan]
  | f :: fs, [], d => by simp [deriveScan, flatStruct]
  | f :: fs, v :: vs, d => by
      simp only [List.map_cons, flatStruct, deriveScan, implies_flat, deriveScan_flat pick cfg t fs vs]

theorem condTargets_flat (pick : String → Bool) (t : String) (f : Field) :
    (flatField pick f).condTargets t = f.condTargets t := by
  cases f with
  | plain => rfl
  | union => rfl
  | maybe id k p => simp only [flatField]; cases pick id <;> simp [Field.condTargets, lenTarget_flat]

theorem hasConditional_flat (pick : String → Bool) (fs : List Field) (t : String) :
    hasConditional (fs.map (flatField pick)) t = hasConditional fs t := by
  simp only [hasConditional, List.any_map]
  congr 1
  funext f
  exact condTargets_flat pick t f

theorem condAgrees_flat (pick : String → Bool) {env env' : Env} (t : String) (n : Nat) (f : Field)
    (he : Agree (fieldDeps f) env env') (v : Val) :
    (flatField pick f).condAgrees env' t n (flatMember pick f v) = f.condAgrees env t n v := by
  cases f with
  | plain => rfl
  | union => rfl
  | maybe id k p =>
    have hp : p.eval env = p.eval env' := Pred.eval_congr (he.mono (by simp +contextual [fieldDeps]))
    cases v with
    | present w =>
      simp only [flatField, flatMember]
      cases pick id with
      | false => simp [Field.condAgrees, hp]
      | true =>
        simp only [if_true, Field.condAgrees, lenTarget_flat, hp]
        by_cases hk : k.lenTarget? = some t
        · simp [hk, flatVal_eq (k := k) (by simp [hk])]
        · simp [hk]
    | _ =>
      simp only [flatField, flatMember]
      cases pick id <;> simp [Field.condAgrees, lenTarget_flat]

theorem verifyScan_flat (pick : String → Bool) {env env' : Env} (he : ∀ i, pick i = false → env i = env' i)
    (t : String) (n : Nat) : ∀ fs vs, Unread pick fs →
    verifyScan env' t n (fs.map (flatField pick)) (flatStruct pick fs vs) = verifyScan env t n fs vs
  | [], vs, _ => by simp [verifyScan]
  | f :: fs, [], _ => by simp [verifyScan, flatStruct]
  | f :: fs, v :: vs, hu => by
      simp only [List.map_cons, flatStruct, verifyScan,
        verifyScan_flat pick he t n fs vs fun g hg => hu g (by simp [hg])]
      rw [condAgrees_flat pick t n f (fun i hi => he i (hu f (by simp) i hi))]

theorem sameTo_flat (pick : String → Bool) (cfg : Cfg) (fs : List Field) (vs : List Val) (hu : Unread pick fs) :
    SameTo cfg fs ⟨fs, vs⟩ ⟨fs.map (flatField pick), flatStruct pick fs vs⟩ where
  env f hf i hi := (envOf_flat pick fs vs i (hu f hf i hi)).symm
  derived f _ := (isDerived_flat pick fs f.id).symm
  value f _ t w := by simp only [deriveValue, deriveScan_flat]
  cond f _ := (hasConditional_flat pick fs f.id).symm
  verify f _ n := (verifyScan_flat pick (fun i hi => (envOf_flat pick fs vs i hi).symm) f.id n fs vs hu).symm

theorem unread_flat {pick : String → Bool} {fs : List Field} (hu : Unread pick fs) :
    Unread pick (fs.map (flatField pick)) := by
  intro g hg i hi
  obtain ⟨f, hf, rfl⟩ := List.mem_map.1 hg
  rw [fieldDeps_flat] at hi
  exact hu f hf i hi

theorem writeStep_flat (pick : String → Bool) (cfg : Cfg) {fs : List Field} {ctx ctx' : WCtx}
    (h : SameTo cfg fs ctx ctx') (hc : Unchecked pick fs) (hu' : Unread pick ctx'.fs) {f : Field} (hf : f ∈ fs)
    {v : Val} (hv : Dims pick [f] [v]) :
    writeStep cfg ctx' (flatField pick f) (flatMember pick f v) = writeStep cfg ctx f v := by
  have hid : writeStep cfg ctx' f v = writeStep cfg ctx f v := by
    rw [writeStep, writeStep, h.derived f hf, h.field hf]
  cases f with
  | union => exact hid
  | plain id k c =>
    simp only [flatField, flatMember]
    cases hp : pick id with
    | false => exact hid
    | true =>
      obtain rfl := hc id k c hf hp
      rw [← hid, if_pos rfl, if_pos rfl]
      have hk := writeKind_flat cfg (not_isDerived_of_unread hu' hp) (not_hasConditional_of_unread hu' hp) true k v
        (hv.1 hp)
      have hz : ∀ k, frozenVal k .none = none := fun k => by cases k <;> rfl
      simp only [writeStep, Field.id, Field.constraint, Field.isFrozen, writeField, hk, hz]
      rfl
  | maybe id k p =>
    cases hp : pick id with
    | false =>
      rw [flatMember_unpicked (by simpa [Field.id] using hp)]
      simp only [flatField, hp]
      exact hid
    | true =>
      rw [← hid]
      have d2 := not_isDerived_of_unread hu' hp
      have c2 := not_hasConditional_of_unread hu' hp
      cases v with
      | present w =>
        have hk := writeKind_flat cfg d2 c2 false k w (hv.1 hp w rfl)
        simp only [flatField, flatMember, hp, if_true, writeStep, Field.id, Field.constraint, Field.isFrozen, writeField,
          hk]
        rfl
      | _ => simp only [flatField, flatMember, writeStep, Field.id, Field.constraint, Field.isFrozen, writeField]; rfl

theorem dims_cons {pick : String → Bool} {f : Field} {v : Val} {fs : List Field} {vs : List Val}
    (h : Dims pick (f :: fs) (v :: vs)) : Dims pick [f] [v] ∧ Dims pick fs vs := by
  cases f with
  | union => exact ⟨trivial, h⟩
  | plain => exact ⟨⟨h.1, trivial⟩, h.2⟩
  | maybe => exact ⟨⟨h.1, trivial⟩, h.2⟩

theorem writeFields_flat (pick : String → Bool) (cfg : Cfg) {fs : List Field} {ctx ctx' : WCtx}
    (h : SameTo cfg fs ctx ctx') (hc : Unchecked pick fs) (hu' : Unread pick ctx'.fs) :
    ∀ ps ws, (∀ f ∈ ps, f ∈ fs) → Dims pick ps ws →
    writeFields cfg ctx' (ps.map (flatField pick)) (flatStruct pick ps ws) = writeFields cfg ctx ps ws
  | [], [], _, _ => by simp only [List.map_nil, flatStruct, writeFields]
  | [], _ :: _, _, _ => by simp only [List.map_nil, flatStruct, writeFields]
  | _ :: _, [], _, _ => by simp only [List.map_cons, flatStruct, writeFields]
  | f :: ps, w :: ws, hm, hd => by
      rw [List.map_cons, flatStruct, writeFields_cons, writeFields_cons,
        writeStep_flat pick cfg h hc hu' (hm f (by simp)) (dims_cons hd).1]
      congr 1
      funext _
      exact writeFields_flat pick cfg h hc hu' ps ws (fun g hg => hm g (by simp [hg])) (dims_cons hd).2

/-! ### Schemas -/

theorem saneFields_flat (pick : String → Bool) : ∀ fs, saneFields (fs.map (flatField pick)) = saneFields fs
  | [] => rfl
  | f :: fs => by
      simp only [List.map_cons, saneFields, saneFields_flat pick fs]
      congr 1
      have hk : ∀ k, saneKind (flatKind k) = saneKind k := fun k => by cases k <;> rfl
      cases f with
      | union => rfl
      | _ id => simp only [flatField, saneField]; cases pick id <;> simp [hk]

theorem uniqueFields_flat (pick : String → Bool) : ∀ fs seen,
    uniqueFields seen (fs.map (flatField pick)) = uniqueFields seen fs
  | [], _ => rfl
  | f :: fs, seen => by
      simp only [List.map_cons, uniqueFields, uniqueFields_flat pick fs, flatField_id]
      congr 2
      have hk : ∀ k, uniqueKind (flatKind k) = uniqueKind k := fun k => by cases k <;> rfl
      cases f with
      | union => rfl
      | _ id => simp only [flatField, uniqueField]; cases pick id <;> simp [hk]

theorem earlierFields_flat (pick : String → Bool) : ∀ fs seen,
    earlierFields seen (fs.map (flatField pick)) = earlierFields seen fs
  | [], _ => rfl
  | f :: fs, seen => by
      simp only [List.map_cons, earlierFields, earlierFields_flat pick fs, flatField_id, fieldDeps_flat]
      congr 1
      have hk : ∀ k, earlierKind (flatKind k) = earlierKind k := fun k => by cases k <;> rfl
      cases f with
      | union => rfl
      | _ id => simp only [flatField, earlierField]; cases pick id <;> simp [hk]

end S2S
