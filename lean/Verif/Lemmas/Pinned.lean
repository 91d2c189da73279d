import Verif.Spec.Pinned
import Verif.Lemmas.Inside
import Verif.Lemmas.Asked
import Verif.Lemmas.Slots
/-
A vector whose count can only be one number, and the array of that many.
-/
namespace S2S
open Spec

/-! ### Reading -/

theorem Rd.sameOn_bind_every {S : InStream} {Q : α → Prop} {r : Rd α} {f g : α → Rd β} (h : r.Every Q)
    (hf : ∀ a, Q a → Rd.SameOn S (f a) (g a)) : Rd.SameOn S (r.bind f) (r.bind g) := by
  induction r with
  | ret a => exact hf a h
  | stuck w => exact fun _ => rfl
  | read n k ih => exact fun s => by simp only [Rd.bind, Rd.runOn]; exact ih _ (h _) _
  | alloc b k ih => exact fun s => by simp only [Rd.bind, Rd.runOn]; exact ih h _

theorem RdE.sameOn_andThen_every {S : InStream} {P : α → Prop} {r : RdE ε α} {f g : α → RdE ε β}
    (h : Rd.Every (OkOf P) r) (hf : ∀ a, P a → Rd.SameOn S (f a) (g a)) : Rd.SameOn S (r.andThen f) (r.andThen g) :=
  Rd.sameOn_bind_every h fun a ha => by
    cases a with
    | ok a => exact hf a ha
    | error e => exact fun _ => rfl

/-- What is read before two lists that read the same is nothing to them, but for the fields it fills. -/
theorem sameOn_behind {S : InStream} (cfg : Cfg) (rest rest' : List Field) : ∀ (pre : List Field) (seen : List String)
    {env env' : Env}, earlierFields seen pre = true → Agree seen env env' →
    (∀ e e', Agree (seen ++ pre.map Field.id) e e' → (∀ i, i ∉ pre.map Field.id → e i = env i) →
      Rd.SameOn S (readFields cfg e rest) (readFields cfg e' rest')) →
    Rd.SameOn S (readFields cfg env (pre ++ rest)) (readFields cfg env' (pre ++ rest'))
  | [], seen, env, env', _, ha, h => h env env' (by simpa using ha) fun _ _ => rfl
  | f :: pre, seen, env, env', he, ha, h => by
      simp only [earlierFields, Bool.and_eq_true, List.all_eq_true] at he
      simp only [List.cons_append, readFields]
      rw [readField_congr cfg f (ha.mono fun i hi => by simpa using he.1.1 i hi)]
      refine RdE.sameOn_andThen (Rd.SameOn.refl _) fun v => ?_
      refine RdE.sameOn_andThen (sameOn_behind cfg rest rest' pre (seen ++ [f.id]) he.2 ?_ ?_) fun _ => Rd.SameOn.refl _
      · intro i hi
        simp only [Env.set]
        split
        · rfl
        · rename_i hne
          simp only [List.mem_append, List.mem_singleton] at hi
          exact ha i (hi.resolve_right hne)
      · intro e e' he1 he2
        refine h e e' (by simpa using he1) fun i hi => ?_
        simp only [List.map_cons, List.mem_cons, not_or] at hi
        rw [he2 i hi.2, Env.set, if_neg hi.1]

theorem Spec.Pinned.small {cfg : Cfg} {n : String} {N : Nat} {k k' : Kind} (h : Pinned cfg n N k k') : N ≤ cfg.ptrdiffMax := by
  have : ∀ sz, 0 < sz → N * sz ≤ cfg.ptrdiffMax → N ≤ cfg.ptrdiffMax := fun sz h1 h2 =>
    Nat.le_trans (Nat.le_mul_of_pos_right N h1) h2
  cases h with
  | vec e b _ h1 h2 => exact this _ h1 h2.2
  | recs gs b sz h1 h2 => exact this _ h1 h2.2

theorem Spec.Pinned.read {S : InStream} {cfg : Cfg} {n : String} {N : Nat} {k k' : Kind} (h : Pinned cfg n N k k')
    {env env' : Env} (hn : env n = some (.int N)) : Rd.SameOn S (readKind cfg env k) (readKind cfg env' k') := by
  have hl : LenSpec.eval cfg env (.fromField n) = .ok N := by
    simp only [LenSpec.eval, hn, toSz_count h.small]
  cases h with
  | vec e bound hc h1 h2 =>
    have hb := (checkedByteCount_ok cfg e.size (ceilingOf cfg bound) N _ h1).2 ⟨h2.1, rfl⟩
    simp only [readKind, hl, RdE.lift, RdE.ok_andThen, readVec, hb, resize, hc, readFixedBuf,
      Nat.mod_eq_of_lt (ptrdiff_lt cfg _ h2.2)]
    rw [if_neg (by have := h2.2; omega)]
    exact fun s => rfl
  | recs gs bound sz h1 h2 =>
    have hb := (checkedByteCount_ok cfg sz (ceilingOf cfg bound) N _ h1).2 ⟨h2.1, rfl⟩
    simp only [readKind, hl, RdE.lift, RdE.ok_andThen, hb, resize]
    rw [if_neg (by have := h2.2; omega)]
    exact fun s => rfl

theorem checked_only {cfg : Cfg} {t : ScalarTy} {w : Nat} {c : Constraint} {N : Nat} (h : LetsOnly t c N) :
    Rd.Every (OkOf fun v => v = .int N) ((readNum cfg t w).andThen fun v => RdE.checked c v) := by
  refine RdE.every_andThen (readNum_every cfg t w) ?_
  rintro _ ⟨x, rfl, hx⟩
  rw [RdE.checked, h x hx]
  simp only [RdE.lift, RdE.ok_andThen]
  by_cases hN : x = N
  · subst hN; simp only [decide_true, if_true]; rfl
  · simp only [hN, decide_false, Bool.false_eq_true, if_false]; trivial

theorem readFields_pinned (S : InStream) (cfg : Cfg) {n id : String} {t : ScalarTy} {w N : Nat} {c d : Constraint}
    {k k' : Kind} {pre mid post : List Field} (ho : LetsOnly t c N) (hp : Pinned cfg n N k k')
    (hu : uniqueFields [] (counted n t w c pre mid post (.plain id k d)) = true)
    (he : earlierFields [] (counted n t w c pre mid post (.plain id k d)) = true) (env env' : Env) :
    Rd.SameOn S (readFields cfg env (counted n t w c pre mid post (.plain id k d)))
      (readFields cfg env' (counted n t w c pre mid post (.plain id k' d))) := by
  have hmid : n ∉ mid.map Field.id := by
    have : ((counted n t w c pre mid post (.plain id k d)).map Field.id).Nodup := ((uniqueFields_iff [] _).1 hu).1
    simp only [Spec.counted, List.map_append, List.map_cons, Field.id] at this
    have := (List.nodup_append.1 this).2.1
    simp only [List.nodup_cons, List.mem_append, not_or] at this
    exact this.1.1
  have he1 := earlier_suffix _ _ _ he
  simp only [List.nil_append, earlierFields, Bool.and_eq_true] at he1
  have he2 := earlier_suffix _ _ _ he1.2
  have he3 := earlier_prefix _ _ _ he1.2
  simp only [earlierFields, Bool.and_eq_true] at he2
  refine sameOn_behind cfg _ _ pre [] (earlier_prefix _ _ _ he) (fun _ h => absurd h (by simp)) ?_
  intro e e' ha _
  simp only [readFields, readField, readKind]
  refine RdE.sameOn_andThen_every (RdE.every_mapErr _ (checked_only ho)) ?_
  rintro _ rfl
  refine RdE.sameOn_andThen ?_ fun _ => Rd.SameOn.refl _
  refine sameOn_behind cfg _ _ mid (pre.map Field.id ++ [n]) (by simpa [Field.id] using he3) ?_ ?_
  · intro i hi
    simp only [Env.set, Field.id]
    by_cases hne : i = n
    · simp [hne]
    · simp only [List.mem_append, List.mem_singleton] at hi
      simp only [hne, if_false]
      exact ha i (by simpa using hi.resolve_right hne)
  · intro e2 e2' ha2 hk2
    have hn : e2 n = some (.int N) := by rw [hk2 n hmid]; simp [Env.set, Field.id]
    simp only [readFields, readField]
    refine RdE.sameOn_andThen (RdE.sameOn_mapErr _ (RdE.sameOn_andThen (hp.read hn) fun _ => Rd.SameOn.refl _)) fun v => ?_
    rw [readFields_congr cfg post _ he2.2 (env' := e2'.set id v)]
    · exact Rd.SameOn.refl _
    · intro i hi
      simp only [Env.set, Field.id]
      by_cases hne : i = id
      · simp [hne]
      · simp only [hne, if_false]
        refine ha2 i ?_
        simp only [Field.id, List.mem_append, List.mem_singleton] at hi ⊢
        exact hi.resolve_right hne

/-! ### Writing -/

theorem pinned_implies {cfg : Cfg} {n id : String} {N : Nat} {k k' : Kind} (h : Pinned cfg n N k k') (d : Constraint)
    (i : String) (hi : i ≠ n) (v : Val) :
    (Field.plain id k d).implies cfg i v = .ok none ∧ (Field.plain id k' d).implies cfg i v = .ok none := by
  cases h <;> simp [Field.implies, Kind.lenTarget?, Kind.lenSpec?, Ne.symm hi]

theorem pinned_lenTarget {cfg : Cfg} {n : String} {N : Nat} {k k' : Kind} (h : Pinned cfg n N k k') :
    k.lenTarget? = some n ∧ k'.lenTarget? = none := by
  cases h <;> exact ⟨rfl, rfl⟩

section
variable {cfg : Cfg} {n id : String} {N : Nat} {k k' : Kind} {c d : Constraint} {post : List Field}

theorem pinned_env (k k' : Kind) : ∀ (P : List Field) (vs : List Val),
    envOf (P ++ .plain id k d :: post) vs = envOf (P ++ .plain id k' d :: post) vs
  | [], [] => rfl
  | [], v :: vs => by simp only [List.nil_append, envOf, Field.id]
  | f :: P, [] => rfl
  | f :: P, v :: vs => by simp only [List.cons_append, envOf, pinned_env k k' P vs]

theorem pinned_cond (k k' : Kind) (P : List Field) (i : String) :
    hasConditional (P ++ .plain id k d :: post) i = hasConditional (P ++ .plain id k' d :: post) i := by
  simp only [hasConditional, List.any_append, List.any_cons, Field.condTargets]

theorem pinned_verify (k k' : Kind) (env : Env) (i : String) (m : Nat) : ∀ (P : List Field) (vs : List Val),
    verifyScan env i m (P ++ .plain id k d :: post) vs = verifyScan env i m (P ++ .plain id k' d :: post) vs
  | [], [] => rfl
  | [], v :: vs => by simp only [List.nil_append, verifyScan, Field.condAgrees]
  | f :: P, [] => rfl
  | f :: P, v :: vs => by simp only [List.cons_append, verifyScan, pinned_verify k k' env i m P vs]

theorem pinned_derived (h : Pinned cfg n N k k') (P : List Field) (i : String) :
    isDerived (P ++ .plain id k d :: post) i = (isDerived (P ++ .plain id k' d :: post) i || decide (i = n)) := by
  obtain ⟨h1, h2⟩ := pinned_lenTarget h
  simp only [isDerived, lenDerivedIds, discDerivedIds, List.filterMap_append, List.filterMap_cons, h1, h2,
    List.contains_eq_mem, List.mem_append, List.mem_cons, Bool.decide_or]
  grind

theorem pinned_scan (h : Pinned cfg n N k k') (i : String) (hi : i ≠ n) : ∀ (P : List Field) (vs : List Val) (s : Derivation),
    deriveScan cfg i (P ++ .plain id k d :: post) vs s = deriveScan cfg i (P ++ .plain id k' d :: post) vs s
  | [], [], s => rfl
  | [], v :: vs, s => by
      simp only [List.nil_append, deriveScan, (pinned_implies h d i hi v).1, (pinned_implies h d i hi v).2]
  | f :: P, [], s => rfl
  | f :: P, v :: vs, s => by
      simp only [List.cons_append, deriveScan]
      split
      · rfl
      · exact pinned_scan h i hi P vs s
      · exact pinned_scan h i hi P vs _

theorem implies_none_of {f : Field} {fs : List Field} (hf : f ∈ fs) {i : String} (h : isDerived fs i = false) (v : Val) :
    f.implies cfg i v = .ok none := by
  simp only [isDerived, Bool.or_eq_false_iff, List.contains_eq_mem, decide_eq_false_iff_not, lenDerivedIds, discDerivedIds,
    List.mem_filterMap, not_exists, not_and] at h
  cases f with
  | plain j k c => simp only [Field.implies]; exact if_neg (h.1 _ hf)
  | maybe j k p => simp only [Field.implies]
  | union j dd alts c =>
    cases dd with
    | matchField m t ls =>
      have hm : m ≠ i := fun he => h.2 _ hf (by simp [he])
      cases v <;> simp [Field.implies, hm]
    | _ => cases v <;> simp only [Field.implies]

theorem scan_none {fs : List Field} {i : String} (h : isDerived fs i = false) : ∀ (gs : List Field), (∀ f ∈ gs, f ∈ fs) →
    ∀ (vs : List Val) (s : Derivation), deriveScan cfg i gs vs s = .ok s
  | [], _, vs, s => by simp [deriveScan]
  | f :: gs, hs, [], s => rfl
  | f :: gs, hs, v :: vs, s => by
      rw [deriveScan, implies_none_of (hs f (by simp)) h v]
      exact scan_none h gs (fun f hf => hs f (by simp [hf])) vs s

theorem pinned_size (h : Pinned cfg n N k k') {P : List Field} (hd : isDerived (P ++ .plain id k' d :: post) n = false)
    {vP vpost ws : List Val} (hl : vP.length = P.length) :
    deriveScan cfg n (P ++ .plain id k d :: post) (vP ++ .seq ws :: vpost) {} =
      .ok { derived := ws.length, seen := true, agreed := true } := by
  rw [deriveScan_append _ _ _ _ _ _ hl, scan_none hd P (fun f hf => by simp [hf])]
  have hi : (Field.plain id k d).implies cfg n (.seq ws) = .ok (some ws.length) := by
    simp only [Field.implies, (pinned_lenTarget h).1, if_true, Val.size?]
  simp only [deriveScan, hi, Derivation.record, Bool.false_and, Bool.false_eq_true, if_false]
  exact scan_none hd post (fun f hf => by simp [hf]) _ _

theorem pinned_same (h : Pinned cfg n N k k') (P : List Field) (vs : List Val) (fs : List Field)
    (hn : ∀ f ∈ fs, f.id ≠ n) :
    SameTo cfg fs ⟨P ++ .plain id k d :: post, vs⟩ ⟨P ++ .plain id k' d :: post, vs⟩ where
  env f hf := by
    have : WCtx.env ⟨P ++ .plain id k d :: post, vs⟩ = WCtx.env ⟨P ++ .plain id k' d :: post, vs⟩ := pinned_env k k' P vs
    rw [this]
    exact fun _ _ => rfl
  derived f hf := by rw [pinned_derived h]; simp [hn f hf]
  value f hf t w := by simp only [deriveValue, pinned_scan h f.id (hn f hf)]
  cond f hf := pinned_cond k k' P f.id
  verify f hf m := by
    have : WCtx.env ⟨P ++ .plain id k d :: post, vs⟩ = WCtx.env ⟨P ++ .plain id k' d :: post, vs⟩ := pinned_env k k' P vs
    rw [this]
    exact pinned_verify k k' _ _ _ P vs

/-- What is written for the count. -/
theorem pinned_count (h : Pinned cfg n N k k') {P : List Field} {t : ScalarTy} {w : Nat} {vn : Val}
    (hd : isDerived (P ++ .plain id k' d :: post) n = false) (ho : LetsOnly t c N) (hr : t.InRange N) (hw : N < 256 ^ w)
    (hv : (frozenVal (.num t w) c).getD vn = .int N)
    {vP vpost ws : List Val} (hl : vP.length = P.length) (hN : ws.length = N) {ctx ctx' : WCtx}
    (hx : ⟨P ++ .plain id k d :: post, vP ++ .seq ws :: vpost⟩ = ctx)
    (hx' : ⟨P ++ .plain id k' d :: post, vP ++ .seq ws :: vpost⟩ = ctx') :
    (if isDerived ctx.fs n || (Field.plain n (.num t w) c).isFrozen then writeField cfg ctx (.plain n (.num t w) c) vn
      else WrE.checked c vn (writeField cfg ctx (.plain n (.num t w) c) vn)) =
    (if isDerived ctx'.fs n || (Field.plain n (.num t w) c).isFrozen then writeField cfg ctx' (.plain n (.num t w) c) vn
      else WrE.checked c vn (writeField cfg ctx' (.plain n (.num t w) c) vn)) := by
  have hd1 : isDerived ctx.fs n = true := by
    rw [← hx]
    show isDerived (P ++ .plain id k d :: post) n = true
    rw [pinned_derived h]; simp
  have hc : c.check (.int N) = .ok true := by simpa using ho N hr
  have he : ctx.env = ctx'.env := by rw [← hx, ← hx']; exact pinned_env k k' P _
  have hvt : ∀ x, verifyThenWrite cfg ctx n (.num t w) x = verifyThenWrite cfg ctx' n (.num t w) x := by
    intro x
    have h1 : hasConditional ctx.fs n = hasConditional ctx'.fs n := by rw [← hx, ← hx']; exact pinned_cond k k' P n
    have h2 : ∀ m, verifyScan ctx.env n m ctx.fs ctx.vs = verifyScan ctx'.env n m ctx'.fs ctx'.vs := fun m => by
      rw [he, ← hx, ← hx']; exact pinned_verify k k' _ _ _ P _
    simp only [verifyThenWrite, h1, h2]
  have hdv : deriveValue cfg ctx.fs ctx.vs n t w = .ok (.ok N) := by
    have := pinned_size h hd (ws := ws) (vpost := vpost) hl
    have hf : fitsDeclaredWidth cfg t w N = true := (fitsDeclaredWidth_iff h.small).2 ⟨hr, hw⟩
    rw [← hx]
    show deriveValue cfg (P ++ .plain id k d :: post) (vP ++ .seq ws :: vpost) n t w = _
    simp only [deriveValue, this, hN, hf, Bool.not_true, Bool.false_eq_true, if_false, ScalarTy.conv_of_inRange t _ hr]
  have hd2 : isDerived ctx'.fs n = false := by rw [← hx']; exact hd
  have hlhs : writeField cfg ctx (.plain n (.num t w) c) vn = verifyThenWrite cfg ctx' n (.num t w) (.int N) := by
    simp only [writeField, writeKind, writeFixed, hd1, if_true, hdv, lift_ok_andThen, hc, hvt]
  rw [hlhs]
  simp only [hd1, hd2, Bool.true_or, if_true, Bool.false_or, Field.isFrozen, writeField, writeKind, writeFixed,
    Bool.false_eq_true, if_false]
  cases hz : frozenVal (.num t w) c with
  | some u =>
    simp only [hz, Option.getD_some] at hv
    simp only [hv, Option.isSome_some, if_true]
  | none =>
    simp only [hz, Option.getD_none] at hv
    simp only [hv, Option.isSome_none, Bool.false_eq_true, if_false, WrE.checked, hc, lift_ok_andThen, if_true]

/-- What is written for the elements. -/
theorem pinned_elems (h : Pinned cfg n N k k') {P : List Field} (hni : id ≠ n)
    (hd : isDerived (P ++ .plain id k' d :: post) id = false) (hc : hasConditional (P ++ .plain id k' d :: post) id = false)
    (hz : frozenVal k' d = none) {ws vs : List Val} (hN : ws.length = N) {ctx ctx' : WCtx}
    (hx : ⟨P ++ .plain id k d :: post, vs⟩ = ctx) (hx' : ⟨P ++ .plain id k' d :: post, vs⟩ = ctx') :
    (if isDerived ctx.fs id || (Field.plain id k d).isFrozen then writeField cfg ctx (.plain id k d) (.seq ws)
      else WrE.checked d (.seq ws) (writeField cfg ctx (.plain id k d) (.seq ws))) =
    (if isDerived ctx'.fs id || (Field.plain id k' d).isFrozen then writeField cfg ctx' (.plain id k' d) (.seq ws)
      else WrE.checked d (.seq ws) (writeField cfg ctx' (.plain id k' d) (.seq ws))) := by
  have hd2 : isDerived ctx'.fs id = false := by rw [← hx']; exact hd
  have hc2 : hasConditional ctx'.fs id = false := by rw [← hx']; exact hc
  have hd1 : isDerived ctx.fs id = false := by
    rw [← hx]
    show isDerived (P ++ .plain id k d :: post) id = false
    rw [pinned_derived h, hd]; simp [hni]
  have hz1 : frozenVal k d = none := by cases h <;> cases d <;> rfl
  have he : writeField cfg ctx (.plain id k d) (.seq ws) = writeField cfg ctx' (.plain id k' d) (.seq ws) := by
    cases h with
    | vec e bound hs h1 h2 =>
      simp only [writeField, writeKind, verifyComputed, writeFixed, hd2, Bool.false_eq_true, if_false, if_true, hz,
        verifyThenWrite, hc2, emitFixed, writeFixedBuf, writeVec, hs, hN, ne_eq, not_true_eq_false]
      rw [Nat.mod_eq_of_lt (ptrdiff_lt cfg _ h2.2)]
    | recs gs bound sz h1 h2 =>
      simp only [writeField, writeKind, verifyComputed, hN, ne_eq, not_true_eq_false, if_false]
  simp only [hd1, hd2, Field.isFrozen, hz, hz1, he]

end

theorem writeFields_pinned (cfg : Cfg) {n id : String} {t : ScalarTy} {w N : Nat} {c d : Constraint}
    {k k' : Kind} {pre mid post : List Field} (ho : LetsOnly t c N) (hp : Pinned cfg n N k k')
    (hu : uniqueFields [] (counted n t w c pre mid post (.plain id k d)) = true) (hr : t.InRange N) (hw : N < 256 ^ w)
    (hdn : isDerived (counted n t w c pre mid post (.plain id k' d)) n = false)
    (hdi : isDerived (counted n t w c pre mid post (.plain id k' d)) id = false)
    (hci : hasConditional (counted n t w c pre mid post (.plain id k' d)) id = false)
    (hz : frozenVal k' d = none) {vpre vmid vpost ws : List Val} {vn : Val} (hv : (frozenVal (.num t w) c).getD vn = .int N)
    (hl : vpre.length = pre.length) (hm : vmid.length = mid.length) (hN : ws.length = N) :
    streamCast cfg (counted n t w c pre mid post (.plain id k d)) (vpre ++ vn :: (vmid ++ .seq ws :: vpost)) =
      streamCast cfg (counted n t w c pre mid post (.plain id k' d)) (vpre ++ vn :: (vmid ++ .seq ws :: vpost)) := by
  have hnd : ((counted n t w c pre mid post (.plain id k d)).map Field.id).Nodup := ((uniqueFields_iff [] _).1 hu).1
  have hne : (∀ f ∈ pre, f.id ≠ n) ∧ (∀ f ∈ mid, f.id ≠ n) ∧ (∀ f ∈ post, f.id ≠ n) ∧ id ≠ n := by
    have hid : ∀ (i : String) (k : Kind) (c : Constraint), (Field.plain i k c).id = i := fun _ _ _ => rfl
    simp only [Spec.counted, List.map_append, List.map_cons, hid, List.nodup_append, List.nodup_cons, List.mem_append,
      List.mem_cons, List.mem_map] at hnd
    refine ⟨fun f hf he => hnd.2.2 _ ⟨f, hf, rfl⟩ _ (.inl rfl) he, fun f hf he => hnd.2.1.1 (.inl ⟨f, hf, he⟩),
      fun f hf he => hnd.2.1.1 (.inr (.inr ⟨f, hf, he⟩)), fun he => hnd.2.1.1 (.inr (.inl he.symm))⟩
  have hL : ∀ f, counted n t w c pre mid post f = (pre ++ .plain n (.num t w) c :: mid) ++ f :: post := by
    intro f; simp [Spec.counted]
  have hV : vpre ++ vn :: (vmid ++ .seq ws :: vpost) = (vpre ++ vn :: vmid) ++ .seq ws :: vpost := by simp
  rw [streamCast, streamCast]
  rw [hL] at hdn hdi hci
  generalize hctx : (⟨counted n t w c pre mid post (.plain id k d), vpre ++ vn :: (vmid ++ .seq ws :: vpost)⟩ : WCtx) = ctx
  generalize hctx' : (⟨counted n t w c pre mid post (.plain id k' d), vpre ++ vn :: (vmid ++ .seq ws :: vpost)⟩ : WCtx) = ctx'
  rw [hL, hV] at hctx hctx'
  have hs := fun fs hn => pinned_same (cfg := cfg) (id := id) (d := d) (post := post) hp (pre ++ .plain n (.num t w) c :: mid)
    ((vpre ++ vn :: vmid) ++ .seq ws :: vpost) fs hn
  rw [hctx, hctx'] at hs
  have h1 := pinned_count hp (vn := vn) hdn ho hr hw hv (ws := ws) (vP := vpre ++ vn :: vmid) (vpost := vpost)
    (by simp [hl, hm]) hN hctx hctx'
  have h2 := pinned_elems hp (vs := (vpre ++ vn :: vmid) ++ .seq ws :: vpost) hne.2.2.2 hdi hci hz hN hctx hctx'
  simp only [Spec.counted]
  rw [writeFields_append cfg ctx pre _ vpre _ hl, writeFields_append cfg ctx' pre _ vpre _ hl,
    (hs pre hne.1).fields (fun _ h => h)]
  congr 1
  funext _
  simp only [writeFields]
  refine congr (congrArg WrE.andThen (congrArg (WrE.tag n) h1)) ?_
  funext _
  rw [writeFields_append cfg ctx mid _ vmid _ hm, writeFields_append cfg ctx' mid _ vmid _ hm,
    (hs mid hne.2.1).fields (fun _ h => h)]
  congr 1
  funext _
  simp only [writeFields]
  refine congr (congrArg WrE.andThen (congrArg (WrE.tag id) h2)) ?_
  funext _
  exact (hs post hne.2.2.1).fields (fun _ h => h) _

/-- With another number of elements there is no count to write. -/
theorem writeFields_unpinned (cfg : Cfg) {n id : String} {t : ScalarTy} {w N : Nat} {c d : Constraint}
    {k k' : Kind} {pre mid post : List Field} (ho : LetsOnly t c N) (hp : Pinned cfg n N k k')
    (hdn : isDerived (counted n t w c pre mid post (.plain id k' d)) n = false)
    {vpre vmid vpost ws : List Val} {vn : Val}
    (hl : vpre.length = pre.length) (hm : vmid.length = mid.length) (hN : ws.length ≠ N) :
    streamCast cfg (counted n t w c pre mid post (.plain id k d)) (vpre ++ vn :: (vmid ++ .seq ws :: vpost)) =
      (writeFields cfg ⟨counted n t w c pre mid post (.plain id k d), vpre ++ vn :: (vmid ++ .seq ws :: vpost)⟩ pre vpre).andThen
        fun _ => WrE.err ⟨.validationFailure, n⟩ := by
  have hL : ∀ f, counted n t w c pre mid post f = (pre ++ .plain n (.num t w) c :: mid) ++ f :: post := by
    intro f; simp [Spec.counted]
  have hV : vpre ++ vn :: (vmid ++ .seq ws :: vpost) = (vpre ++ vn :: vmid) ++ .seq ws :: vpost := by simp
  rw [streamCast]
  rw [hL] at hdn
  generalize hctx : (⟨counted n t w c pre mid post (.plain id k d), vpre ++ vn :: (vmid ++ .seq ws :: vpost)⟩ : WCtx) = ctx
  rw [hL, hV] at hctx
  have hd1 : isDerived ctx.fs n = true := by
    rw [← hctx]
    show isDerived (_ ++ .plain id k d :: post) n = true
    rw [pinned_derived hp]; simp
  have hw : writeField cfg ctx (.plain n (.num t w) c) vn = WrE.err .validationFailure := by
    have hs := pinned_size hp hdn (ws := ws) (vpost := vpost) (vP := vpre ++ vn :: vmid) (by simp [hl, hm])
    have hs : deriveScan cfg n ctx.fs ctx.vs {} = .ok { derived := ws.length, seen := true, agreed := true } := by
      rw [← hctx]; exact hs
    simp only [writeField, writeKind, writeFixed, hd1, if_true, deriveValue, hs, Bool.not_true, Bool.false_eq_true, if_false]
    by_cases hf : fitsDeclaredWidth cfg t w ws.length = true
    · simp only [hf, Bool.not_true, Bool.false_eq_true, if_false, lift_ok_andThen]
      rw [ho _ (ScalarTy.conv_inRange _ _), lift_ok_andThen]
      have hne : t.conv ws.length ≠ N := by
        intro he
        simp only [fitsDeclaredWidth, Bool.and_eq_true, beq_iff_eq, he, toSz_count hp.small] at hf
        exact hN hf.2.symm
      simp [hne]
    · simp only [Bool.not_eq_true] at hf
      simp only [hf, Bool.not_false, if_true, lift_ok_andThen]
  simp only [Spec.counted]
  rw [writeFields_append cfg ctx pre _ vpre _ hl]
  congr 1
  funext _
  simp only [writeFields, Field.id, hd1, Bool.true_or, if_true, hw]
  rfl

end S2S
