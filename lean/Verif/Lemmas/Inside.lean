import Verif.Spec.Inside
import Verif.Lemmas.Either
import Verif.Lemmas.Flat
import Verif.Lemmas.Leaf
import Verif.Lemmas.ReadMain
/-
Records replaced by ones that stand for them.
-/
namespace S2S
open Spec

theorem Rd.SameOn.refl {S : InStream} (r : Rd α) : Rd.SameOn S r r := fun _ => rfl
theorem Rd.SameOn.trans {S : InStream} {a b c : Rd α} (h : Rd.SameOn S a b) (h' : Rd.SameOn S b c) : Rd.SameOn S a c :=
  fun s => (h s).trans (h' s)
theorem Wr.SameOn.refl {S : OutStream} (r : Wr α) : Wr.SameOn S r r := fun _ => rfl

theorem sameOn_mapOk {S : InStream} {r r' : RdE ε α} (g : α → β) (h : Rd.SameOn S r r') :
    Rd.SameOn S (r.mapOk g) (r'.mapOk g) :=
  RdE.sameOn_andThen h fun _ => Rd.SameOn.refl _

theorem mapOk_mapOk (r : RdE ε α) (f : α → β) (g : β → γ) : (r.mapOk f).mapOk g = r.mapOk fun a => g (f a) :=
  RdE.mapOk_andThen' r f _

theorem runOn_mapOk {S : InStream} (r : RdE ε α) (g : α → β) (s : S.State) : Rd.runOn S (r.mapOk g) s =
    match Rd.runOn S r s with
    | (.done (.ok a), s') => (.done (.ok (g a)), s')
    | (.done (.error e), s') => (.done (.error e), s')
    | (.stuck w, s') => (.stuck w, s') := by
  rw [RdE.mapOk, RdE.runOn_andThen]
  rcases Rd.runOn S r s with ⟨(_ | _) | _, s'⟩ <;> rfl

section
variable {cfg : Cfg} {S : InStream} {T : OutStream}

theorem Spec.StandsFor.sameOn {gs gs' : List Field} {φ : List Val → List Val} {ok : List Val → Prop}
    (h : StandsFor cfg S T gs gs' φ ok) :
    Rd.SameOn S (structCast cfg gs').untag ((structCast cfg gs).untag.mapOk φ) :=
  fun s => by
    rw [h.read s, runOn_mapOk]
    rcases Rd.runOn S (structCast cfg gs).untag s with ⟨(_ | _) | _, s'⟩ <;> rfl

/-! ### Kinds -/

theorem sameOn_repeatE {r r' : RdE ε Val} {g : Val → Val} (h : Rd.SameOn S r' (r.mapOk g)) : ∀ n,
    Rd.SameOn S (repeatE r' n) ((repeatE r n).mapOk (List.map g))
  | 0 => Rd.SameOn.refl _
  | n + 1 => by
      have h2 := RdE.sameOn_andThen h (f := fun v => (repeatE r' n).andThen fun vs => RdE.ok (v :: vs))
        (f' := fun v => ((repeatE r n).mapOk (List.map g)).andThen fun vs => RdE.ok (v :: vs))
        fun v => RdE.sameOn_andThen (sameOn_repeatE h n) fun vs => Rd.SameOn.refl _
      refine h2.trans fun s => ?_
      simp only [RdE.mapOk_andThen', repeatE]
      unfold RdE.mapOk
      simp only [RdE.andThen_assoc, RdE.ok_andThen, List.map_cons]

theorem sameOn_resize {r r' : RdE ε α} (n : Nat) (h : Rd.SameOn S r r') :
    Rd.SameOn S (resize cfg n r) (resize cfg n r') := by
  intro s
  unfold resize
  split
  · rfl
  · exact h s

theorem sameOn_rows {gs gs' : List Field} {φ : List Val → List Val} {ok : List Val → Prop}
    (h : StandsFor cfg S T gs gs' φ ok) (n : Nat) :
    Rd.SameOn S ((repeatE (((readFields cfg (dfltEnv gs') gs').untag).mapOk .seq) n).mapOk .seq)
      (((repeatE (((readFields cfg (dfltEnv gs) gs).untag).mapOk .seq) n).mapOk .seq).mapOk (onRecords φ)) := by
  have h1 : Rd.SameOn S (((readFields cfg (dfltEnv gs') gs').untag).mapOk Val.seq)
      ((((readFields cfg (dfltEnv gs) gs).untag).mapOk Val.seq).mapOk (onRecord φ)) := by
    have := sameOn_mapOk Val.seq h.sameOn
    rw [mapOk_mapOk] at this
    rw [mapOk_mapOk]
    exact this
  have h2 := sameOn_mapOk Val.seq (sameOn_repeatE h1 n)
  rw [mapOk_mapOk] at h2
  rw [mapOk_mapOk]
  exact h2

theorem Spec.SwapKind.read {k k' : Kind} {g : Val → Val} {ok : Val → Prop} (h : SwapKind cfg S T k k' g ok) (env : Env) :
    Rd.SameOn S (readKind cfg env k') ((readKind cfg env k).mapOk g) := by
  cases h with
  | same k => rw [RdE.mapOk_id (g := id) _ fun _ => rfl]; exact Rd.SameOn.refl _
  | leaf h => exact h.read S env
  | record h =>
    simp only [readKind]
    have := sameOn_mapOk Val.seq h.sameOn
    rw [mapOk_mapOk] at this
    rw [mapOk_mapOk]
    exact this
  | arrRec n h => simp only [readKind]; exact sameOn_rows h n
  | vecRec len bound sz h =>
    simp only [readKind]
    unfold RdE.mapOk
    rw [RdE.andThen_assoc]
    refine RdE.sameOn_andThen (Rd.SameOn.refl _) fun n => ?_
    cases checkedByteCount cfg sz (ceilingOf cfg bound) n with
    | error e => exact Rd.SameOn.refl _
    | ok m =>
      have h1 := sameOn_resize (cfg := cfg) (n * sz) (sameOn_rows h n)
      refine h1.trans fun s => ?_
      unfold resize
      split
      · rfl
      · rfl

theorem Spec.SwapKind.lenTarget {k k' : Kind} {g : Val → Val} {ok : Val → Prop} (h : SwapKind cfg S T k k' g ok) :
    k'.lenTarget? = k.lenTarget? := by
  cases h with
  | leaf h => exact h.lenTarget
  | _ => rfl

theorem Spec.SwapKind.deps {k k' : Kind} {g : Val → Val} {ok : Val → Prop} (h : SwapKind cfg S T k k' g ok) :
    kindDeps k' = kindDeps k := by
  cases h with
  | leaf h => exact h.deps
  | _ => rfl

theorem Spec.SwapKind.size {k k' : Kind} {g : Val → Val} {ok : Val → Prop} (h : SwapKind cfg S T k k' g ok)
    (hl : k.lenTarget? ≠ none) (v : Val) : (g v).size? = v.size? := by
  cases h with
  | same k => rfl
  | leaf h => exact h.size hl v
  | record h => exact absurd rfl hl
  | arrRec n h => exact absurd rfl hl
  | vecRec len b sz h => cases v <;> simp [onRecords, Val.size?]

theorem writeRecs_stands {gs gs' : List Field} {φ : List Val → List Val} {ok : List Val → Prop}
    (h : StandsFor cfg S T gs gs' φ ok) : ∀ rows, (∀ r ∈ rows, okRecord ok r) →
    Wr.SameOn T (writeRecs (fun ws => writeFields cfg ⟨gs', ws⟩ gs' ws) (rows.map (onRecord φ)))
      (writeRecs (fun ws => writeFields cfg ⟨gs, ws⟩ gs ws) rows)
  | [], _ => Wr.SameOn.refl _
  | r :: rows, hr => by
      have ih := writeRecs_stands h rows fun r hm => hr r (by simp [hm])
      cases r with
      | seq vs =>
        exact WrE.sameOn_andThen (h.write vs (hr _ (by simp) vs rfl)) fun _ => ih
      | _ => exact Wr.SameOn.refl _

theorem sameOn_verifyComputed (env : Env) (len : LenSpec) (n : Nat) {w w' : WrE Reason Unit}
    (h : Wr.SameOn T w w') : Wr.SameOn T (verifyComputed cfg env len n w) (verifyComputed cfg env len n w') := by
  cases len with
  | fromField i => exact h
  | computed c =>
    refine WrE.sameOn_andThen (Wr.SameOn.refl _) fun m => ?_
    by_cases hm : m = n
    · simp only [ne_eq, hm, not_true_eq_false, if_false]; exact h
    · simp only [ne_eq, hm, not_false_eq_true, if_true]; exact Wr.SameOn.refl _

theorem Spec.SwapKind.write {k k' : Kind} {g : Val → Val} {ok : Val → Prop} (h : SwapKind cfg S T k k' g ok)
    (ctx : WCtx) (member : Bool) (i : String) (c : Constraint) (hd : isDerived ctx.fs i = false)
    (hc : hasConditional ctx.fs i = false) (hz : member = true → frozenVal k c = none)
    (hz' : member = true → frozenVal k' c = none) (v : Val) (hv : ok v) :
    Wr.SameOn T (writeKind cfg ctx member i c k' (g v)) (writeKind cfg ctx member i c k v) := by
  cases h with
  | same k => exact Wr.SameOn.refl _
  | leaf h => rw [h.write hd hc hz hz' v hv]; exact Wr.SameOn.refl _
  | record h =>
    cases v with
    | seq vs => simp only [onRecord, writeKind]; exact h.write vs (hv vs rfl)
    | _ => simp only [onRecord, writeKind]; exact Wr.SameOn.refl _
  | arrRec n h =>
    cases v with
    | seq rows =>
      simp only [onRecords, writeKind, List.length_map]
      by_cases hn : rows.length = n
      · simp only [ne_eq, hn, not_true_eq_false, if_false]
        exact writeRecs_stands h rows (hv rows rfl)
      · simp only [ne_eq, hn, not_false_eq_true, if_true]
        exact Wr.SameOn.refl _
    | _ => simp only [onRecords, writeKind]; exact Wr.SameOn.refl _
  | vecRec len b sz h =>
    cases v with
    | seq rows =>
      simp only [onRecords, writeKind, List.length_map]
      exact sameOn_verifyComputed _ _ _ (writeRecs_stands h rows (hv rows rfl))
    | _ => simp only [onRecords, writeKind]; exact Wr.SameOn.refl _

/-! ### Alternatives -/

theorem checked_map {c : Constraint} {g : Val → Val} (hc : ∀ v, c.check (g v) = c.check v) (v : Val) :
    RdE.checked c (g v) = (RdE.checked c v).mapOk g := by
  unfold RdE.checked
  rw [hc]
  cases c.check v with
  | error e => rfl
  | ok b => cases b <;> rfl

theorem Spec.SwapAlts.length {as as' : List Alt} {gs : Nat → Val → Val} {oks : Nat → Val → Prop}
    (h : SwapAlts cfg S T as as' gs oks) : as'.length = as.length := by
  induction h with
  | nil => rfl
  | cons _ _ _ ih => simp [ih]

theorem Spec.SwapAlts.read {as as' : List Alt} {gs : Nat → Val → Val} {oks : Nat → Val → Prop}
    (h : SwapAlts cfg S T as as' gs oks) (env : Env) : ∀ i, i < as.length → ∃ r : RdE Reason Val,
      readAlts cfg env as i = r.mapOk some ∧ Rd.SameOn S (readAlts cfg env as' i) ((r.mapOk (gs i)).mapOk some) := by
  induction h with
  | nil => intro i hi; simp at hi
  | @cons k k' g ok as as' gs oks c hk hc _ ih =>
    intro i hi
    cases i with
    | succ i =>
      obtain ⟨r, h1, h2⟩ := ih i (by simpa using hi)
      exact ⟨r, by simpa only [readAlts] using h1, by simpa only [readAlts, perIndex] using h2⟩
    | zero =>
      refine ⟨(readKind cfg env k).andThen fun v => RdE.checked c v, ?_, ?_⟩
      · simp only [readAlts]
        unfold RdE.mapOk
        rw [RdE.andThen_assoc]
      · simp only [readAlts, perIndex]
        have h1 := RdE.sameOn_andThen (f := fun v => (RdE.checked c v).mapOk some)
          (f' := fun v => (RdE.checked c v).mapOk some) (hk.read env) fun v => Rd.SameOn.refl _
        refine h1.trans fun s => ?_
        rw [RdE.mapOk_andThen']
        simp only [checked_map hc]
        unfold RdE.mapOk
        simp only [RdE.andThen_assoc]

theorem Spec.SwapAlts.write {as as' : List Alt} {gs : Nat → Val → Val} {oks : Nat → Val → Prop}
    (h : SwapAlts cfg S T as as' gs oks) (ctx : WCtx) (id : String) (hd : isDerived ctx.fs id = false)
    (hn : hasConditional ctx.fs id = false) : ∀ i w, oks i w →
      Wr.SameOn T (writeAlts cfg ctx id as' i (gs i w)) (writeAlts cfg ctx id as i w) := by
  induction h with
  | nil => intro i w _; exact Wr.SameOn.refl _
  | @cons k k' g ok as as' gs oks c hk hc _ ih =>
    intro i w hw
    cases i with
    | succ i => simp only [writeAlts, perIndex]; exact ih i w hw
    | zero =>
      simp only [writeAlts, perIndex, WrE.checked, hc]
      refine WrE.sameOn_andThen (Wr.SameOn.refl _) fun b => ?_
      cases b with
      | false => exact Wr.SameOn.refl _
      | true => exact hk.write ctx false id c hd hn (by simp) (by simp) w hw

theorem Spec.SwapAlts.deps {as as' : List Alt} {gs : Nat → Val → Val} {oks : Nat → Val → Prop}
    (h : SwapAlts cfg S T as as' gs oks) :
    (as'.flatMap fun a => kindDeps a.kind) = as.flatMap fun a => kindDeps a.kind := by
  induction h with
  | nil => rfl
  | cons hk _ _ ih => simp only [List.flatMap_cons, ih, hk.deps]

theorem Spec.SwapAlts.anyTargets {as as' : List Alt} {gs : Nat → Val → Val} {oks : Nat → Val → Prop}
    (h : SwapAlts cfg S T as as' gs oks) (t : String) : anyAltTargets t as' = anyAltTargets t as := by
  induction h with
  | nil => rfl
  | cons hk _ _ ih => simp only [anyAltTargets, List.any_cons, hk.lenTarget] at ih ⊢; rw [ih]

theorem Spec.SwapAlts.at {as as' : List Alt} {gs : Nat → Val → Val} {oks : Nat → Val → Prop}
    (h : SwapAlts cfg S T as as' gs oks) : ∀ i,
    (as[i]? = none ∧ as'[i]? = none) ∨ ∃ k k' c ok, as[i]? = some (.mk k c) ∧ as'[i]? = some (.mk k' c) ∧
      SwapKind cfg S T k k' (gs i) ok := by
  induction h with
  | nil => intro i; simp
  | @cons k k' g ok as as' gs oks c hk hc _ ih =>
    intro i
    cases i with
    | zero => exact .inr ⟨k, k', c, ok, rfl, rfl, hk⟩
    | succ i => simpa [perIndex] using ih i

/-! ### Fields -/

variable {pick : String → Bool}

theorem Spec.SwapField.id {f f' : Field} {g : Val → Val} {ok : Val → Prop} (h : SwapField cfg S T pick f f' g ok) :
    f'.id = f.id := by cases h <;> rfl

theorem Spec.SwapField.constraint {f f' : Field} {g : Val → Val} {ok : Val → Prop}
    (h : SwapField cfg S T pick f f' g ok) : f'.constraint = f.constraint := by cases h <;> rfl

theorem Spec.SwapField.check {f f' : Field} {g : Val → Val} {ok : Val → Prop}
    (h : SwapField cfg S T pick f f' g ok) (v : Val) : f.constraint.check (g v) = f.constraint.check v := by
  cases h with
  | kept => rfl
  | plain _ _ _ _ hc => exact hc v
  | maybe => rfl
  | union _ _ _ hc => exact hc v

theorem Spec.SwapField.unpicked {f f' : Field} {g : Val → Val} {ok : Val → Prop}
    (h : SwapField cfg S T pick f f' g ok) (hp : pick f.id = false) : f' = f ∧ ∀ v, g v = v := by
  cases h with
  | kept => exact ⟨rfl, fun _ => rfl⟩
  | plain h => simp [Field.id, h] at hp
  | maybe h => simp [Field.id, h] at hp
  | union h => simp [Field.id, h] at hp

theorem Spec.SwapField.deps {f f' : Field} {g : Val → Val} {ok : Val → Prop}
    (h : SwapField cfg S T pick f f' g ok) : fieldDeps f' = fieldDeps f := by
  cases h with
  | kept => rfl
  | plain _ hk => simp only [fieldDeps, hk.deps]
  | maybe _ hk => simp only [fieldDeps, hk.deps]
  | union _ ha => simp only [fieldDeps, ha.deps]

theorem Spec.SwapField.frozen {f f' : Field} {g : Val → Val} {ok : Val → Prop}
    (h : SwapField cfg S T pick f f' g ok) : f'.isFrozen = f.isFrozen := by
  cases h with
  | kept => rfl
  | plain _ hk hz hz' => simp only [Field.isFrozen, hz, hz']
  | maybe => rfl
  | union => rfl

theorem Spec.SwapField.read {f f' : Field} {g : Val → Val} {ok : Val → Prop}
    (h : SwapField cfg S T pick f f' g ok) (env : Env) :
    Rd.SameOn S (readField cfg env f') ((readField cfg env f).mapOk g) := by
  cases h with
  | kept => rw [RdE.mapOk_id (g := _root_.id) _ fun _ => rfl]; exact Rd.SameOn.refl _
  | plain _ hk => simp only [readField]; exact hk.read env
  | @maybe i k k' g ok p _ hk =>
    simp only [readField]
    unfold RdE.mapOk
    rw [RdE.andThen_assoc]
    refine RdE.sameOn_andThen (Rd.SameOn.refl _) fun b => ?_
    cases b with
    | false => exact Rd.SameOn.refl _
    | true =>
      have h1 := sameOn_mapOk Val.present (hk.read env)
      rw [mapOk_mapOk] at h1
      refine h1.trans fun s => ?_
      simp only [if_true]
      unfold RdE.mapOk
      rw [RdE.andThen_assoc]
      rfl
  | @union i as as' gs oks d c _ ha hn hc =>
    simp only [readField]
    cases hd : d.eval env with
    | error e => exact Rd.SameOn.refl _
    | ok o =>
      cases o with
      | none => exact Rd.SameOn.refl _
      | some j =>
        obtain ⟨r, h1, h2⟩ := ha.read env j (hn ▸ Deducer.eval_lt _ _ _ hd)
        simp only [RdE.lift, RdE.ok_andThen, h1]
        have h3 := sameOn_mapOk (fun | none => Val.var 0 (Alt.dfltFirst as') | some v => .var j v) h2
        rw [mapOk_mapOk, mapOk_mapOk] at h3
        rw [mapOk_mapOk, mapOk_mapOk]
        exact h3

theorem Spec.SwapField.implies {f f' : Field} {g : Val → Val} {ok : Val → Prop}
    (h : SwapField cfg S T pick f f' g ok) (t : String) (v : Val) :
    f'.implies cfg t (g v) = f.implies cfg t v := by
  cases h with
  | kept => rfl
  | @plain i k k' g ok c _ hk =>
    simp only [Field.implies, hk.lenTarget]
    by_cases ht : k.lenTarget? = some t
    · simp only [ht, if_true, hk.size (by simp [ht])]
    · simp [ht]
  | maybe => rfl
  | @union i as as' gs oks d c _ ha =>
    cases d <;> cases v <;> simp [Field.implies, onHeld]

theorem Spec.SwapField.condTargets {f f' : Field} {g : Val → Val} {ok : Val → Prop}
    (h : SwapField cfg S T pick f f' g ok) (t : String) : f'.condTargets t = f.condTargets t := by
  cases h with
  | kept => rfl
  | plain => rfl
  | maybe _ hk => simp only [Field.condTargets, hk.lenTarget]
  | union _ ha => simp only [Field.condTargets, ha.anyTargets]

theorem Spec.SwapField.condAgrees {f f' : Field} {g : Val → Val} {ok : Val → Prop}
    (h : SwapField cfg S T pick f f' g ok) (env : Env) (t : String) (n : Nat) (v : Val) :
    f'.condAgrees env t n (g v) = f.condAgrees env t n v := by
  cases h with
  | kept => rfl
  | plain => rfl
  | @maybe i k k' g ok p _ hk =>
    simp only [Field.condAgrees, hk.lenTarget]
    by_cases ht : k.lenTarget? = some t
    · cases v <;> simp only [ht, if_true, onPresent]
      rw [hk.size (by simp [ht])]
    · simp [ht]
  | @union i as as' gs oks d c _ ha =>
    simp only [Field.condAgrees, ha.anyTargets]
    cases v with
    | var j w =>
      simp only [onHeld]
      rcases ha.at j with ⟨h1, h2⟩ | ⟨k, k', c, ok, h1, h2, hk⟩
      · simp only [h1, h2]
      · simp only [h1, h2, Alt.kind, hk.lenTarget]
        by_cases ht : k.lenTarget? = some t
        · simp only [ht, if_true, hk.size (by simp [ht])]
        · simp [ht]
    | _ => rfl

theorem Spec.SwapField.write {f f' : Field} {g : Val → Val} {ok : Val → Prop}
    (h : SwapField cfg S T pick f f' g ok) (ctx : WCtx) (hu : Unread pick ctx.fs) (v : Val) (hv : ok v) :
    Wr.SameOn T (writeField cfg ctx f' (g v)) (writeField cfg ctx f v) := by
  cases h with
  | kept => exact Wr.SameOn.refl _
  | plain hp hk hz hz' =>
    simp only [writeField]
    exact hk.write ctx true _ _ (not_isDerived_of_unread hu hp) (not_hasConditional_of_unread hu hp)
      (fun _ => hz) (fun _ => hz') v hv
  | @maybe i k k' g ok p hp hk =>
    simp only [writeField]
    refine WrE.sameOn_andThen (Wr.SameOn.refl _) fun b => ?_
    cases v with
    | present w =>
      simp only [onPresent]
      cases b with
      | false => exact Wr.SameOn.refl _
      | true =>
        exact hk.write ctx false i .none (not_isDerived_of_unread hu hp) (not_hasConditional_of_unread hu hp)
          (by simp) (by simp) w (hv w rfl)
    | _ => exact Wr.SameOn.refl _
  | @union i as as' gs oks d c hp ha =>
    cases v with
    | var j w =>
      have hw := ha.write ctx i (not_isDerived_of_unread hu hp) (not_hasConditional_of_unread hu hp) j w (hv j w rfl)
      have hd : ∀ o : Option Nat, Wr.SameOn T
          (match o with
            | none => WrE.err .typeDeductionFailure
            | some n => if n ≠ j then WrE.err .validationFailure else writeAlts cfg ctx i as' j (gs j w) : WrE Reason Unit)
          (match o with
            | none => WrE.err .typeDeductionFailure
            | some n => if n ≠ j then WrE.err .validationFailure else writeAlts cfg ctx i as j w) := by
        intro o
        cases o with
        | none => exact Wr.SameOn.refl _
        | some n =>
          by_cases hn : n = j
          · simp only [hn, ne_eq, not_true_eq_false, if_false]; exact hw
          · simp only [hn, ne_eq, not_false_eq_true, if_true]; exact Wr.SameOn.refl _
      cases d with
      | matchField => simp only [onHeld, writeField]; exact hw
      | matchCompute =>
        simp only [onHeld, writeField]
        exact WrE.sameOn_andThen (Wr.SameOn.refl _) hd
      | ladder =>
        simp only [onHeld, writeField]
        exact WrE.sameOn_andThen (Wr.SameOn.refl _) hd
    | _ => exact Wr.SameOn.refl _

/-! ### Lists -/

theorem fieldStep_swap {f f' : Field} {g : Val → Val} {ok : Val → Prop} (h : SwapField cfg S T pick f f' g ok)
    {env env' : Env} (he : Agree (fieldDeps f) env env') :
    Rd.SameOn S (fieldStep cfg env' f') ((fieldStep cfg env f).mapOk g) := by
  unfold fieldStep
  rw [readField_congr cfg f he, h.id, h.constraint]
  have h1 := RdE.sameOn_andThen (f := fun v => RdE.checked f.constraint v)
    (f' := fun v => RdE.checked f.constraint v) (h.read env') fun v => Rd.SameOn.refl _
  have h2 := RdE.sameOn_mapErr (fun e => (⟨e, f.id⟩ : CastError)) h1
  refine h2.trans fun s => ?_
  rw [RdE.mapOk_andThen']
  simp only [checked_map h.check]
  unfold RdE.tag RdE.mapOk
  rw [← RdE.andThen_assoc, RdE.mapErr_andThen]
  rfl

theorem Spec.SwapFields.envs {fs fs' : List Field} {gs : List Val → List Val} {oks : List Val → Prop}
    (h : SwapFields cfg S T pick fs fs' gs oks) (i : String) (hi : pick i = false) : ∀ vs,
    envOf fs' (gs vs) i = envOf fs vs i := by
  induction h with
  | nil => intro vs; rfl
  | @cons f f' g ok fs fs' gs oks hf _ ih =>
    intro vs
    cases vs with
    | nil => rfl
    | cons v vs =>
      simp only [onEach, envOf, Env.set, hf.id]
      split
      · rename_i e
        subst e
        rw [(hf.unpicked hi).2]
      · exact ih vs

theorem Spec.SwapFields.dflts {fs fs' : List Field} {gs : List Val → List Val} {oks : List Val → Prop}
    (h : SwapFields cfg S T pick fs fs' gs oks) (i : String) (hi : pick i = false) :
    dfltEnv fs' i = dfltEnv fs i := by
  unfold dfltEnv
  induction h with
  | nil => rfl
  | @cons f f' g ok fs fs' gs oks hf _ ih =>
    simp only [Field.dflts, envOf, Env.set, hf.id]
    split
    · rename_i e
      subst e
      rw [(hf.unpicked hi).1]
    · exact ih

theorem Spec.SwapFields.read {fs fs' : List Field} {gs : List Val → List Val} {oks : List Val → Prop}
    (h : SwapFields cfg S T pick fs fs' gs oks) : Unread pick fs → ∀ env env' : Env,
    (∀ i, pick i = false → env i = env' i) →
    Rd.SameOn S (readFields cfg env' fs') ((readFields cfg env fs).mapOk gs) := by
  induction h with
  | nil => intro _ env env' _; exact Rd.SameOn.refl _
  | @cons f f' g ok fs fs' gs oks hf _ ih =>
    intro hu env env' he
    rw [readFields_cons, readFields_cons]
    have h1 := fieldStep_swap hf (env := env) (env' := env') fun i hi => he i (hu f (by simp) i hi)
    have h2 := RdE.sameOn_andThen (f := fun v => (readFields cfg (env'.set f'.id v) fs').andThen fun vs => RdE.ok (v :: vs))
      (f' := fun v => (readFields cfg (env'.set f'.id v) fs').andThen fun vs => RdE.ok (v :: vs)) h1
      fun v => Rd.SameOn.refl _
    refine h2.trans ?_
    rw [RdE.mapOk_andThen', RdE.mapOk, RdE.andThen_assoc]
    refine RdE.sameOn_andThen (Rd.SameOn.refl _) fun v => ?_
    have h3 := ih (fun g hg => hu g (by simp [hg])) (env.set f.id v) (env'.set f'.id (g v)) (by
      intro i hi
      simp only [Env.set, hf.id]
      split
      · rename_i e
        subst e
        rw [(hf.unpicked hi).2]
      · exact he i hi)
    refine (RdE.sameOn_andThen h3 (f' := fun vs => RdE.ok (g v :: vs)) fun vs => Rd.SameOn.refl _).trans fun s => ?_
    rw [RdE.mapOk_andThen', RdE.andThen_assoc]
    rfl

theorem Spec.SwapFields.derived {fs fs' : List Field} {gs : List Val → List Val} {oks : List Val → Prop}
    (h : SwapFields cfg S T pick fs fs' gs oks) (i : String) : isDerived fs' i = isDerived fs i := by
  have h1 : lenDerivedIds fs' = lenDerivedIds fs ∧ discDerivedIds fs' = discDerivedIds fs := by
    induction h with
    | nil => exact ⟨rfl, rfl⟩
    | @cons f f' g ok fs fs' gs oks hf _ ih =>
      unfold lenDerivedIds discDerivedIds at ih ⊢
      simp only [List.filterMap_cons, ih.1, ih.2]
      cases hf with
      | kept => exact ⟨rfl, rfl⟩
      | plain _ hk => simp only [hk.lenTarget, and_self]
      | maybe => exact ⟨rfl, rfl⟩
      | @union i as as' gs oks d c => cases d <;> exact ⟨rfl, rfl⟩
  simp only [isDerived, h1]

theorem Spec.SwapFields.scan {fs fs' : List Field} {gs : List Val → List Val} {oks : List Val → Prop}
    (h : SwapFields cfg S T pick fs fs' gs oks) (t : String) : ∀ vs d,
    deriveScan cfg t fs' (gs vs) d = deriveScan cfg t fs vs d := by
  induction h with
  | nil => intro vs d; rfl
  | @cons f f' g ok fs fs' gs oks hf _ ih =>
    intro vs d
    cases vs with
    | nil => rfl
    | cons v vs => simp only [onEach, deriveScan, hf.implies, ih]

theorem Spec.SwapFields.cond {fs fs' : List Field} {gs : List Val → List Val} {oks : List Val → Prop}
    (h : SwapFields cfg S T pick fs fs' gs oks) (t : String) : hasConditional fs' t = hasConditional fs t := by
  unfold hasConditional
  induction h with
  | nil => rfl
  | cons hf _ ih => simp only [List.any_cons, hf.condTargets, ih]

theorem Spec.SwapFields.verify {fs fs' : List Field} {gs : List Val → List Val} {oks : List Val → Prop}
    (h : SwapFields cfg S T pick fs fs' gs oks) : Unread pick fs → ∀ {env env' : Env},
    (∀ i, pick i = false → env i = env' i) → ∀ (t : String) (n : Nat) vs,
    verifyScan env' t n fs' (gs vs) = verifyScan env t n fs vs := by
  induction h with
  | nil => intros; rfl
  | @cons f f' g ok fs fs' gs oks hf _ ih =>
    intro hu env env' he t n vs
    cases vs with
    | nil => rfl
    | cons v vs =>
      simp only [onEach, verifyScan, ih (fun g hg => hu g (by simp [hg])) he]
      rw [hf.condAgrees, condAgrees_agree (env := env') (env' := env)
        fun i hi => (he i (hu f (by simp) i hi)).symm]

theorem Spec.SwapFields.unread {fs fs' : List Field} {gs : List Val → List Val} {oks : List Val → Prop}
    (h : SwapFields cfg S T pick fs fs' gs oks) : Unread pick fs → Unread pick fs' := by
  induction h with
  | nil => exact fun h => h
  | @cons f f' g ok fs fs' gs oks hf _ ih =>
    intro hu x hx
    cases hx with
    | head => rw [hf.deps]; exact hu f (by simp)
    | tail _ hx => exact ih (fun y hy => hu y (by simp [hy])) x hx

theorem Spec.SwapFields.sameTo {fs fs' : List Field} {gs : List Val → List Val} {oks : List Val → Prop}
    (h : SwapFields cfg S T pick fs fs' gs oks) (hu : Unread pick fs) (vs : List Val) :
    SameTo cfg fs ⟨fs, vs⟩ ⟨fs', gs vs⟩ where
  env f hf i hi := (h.envs i (hu f hf i hi) vs).symm
  derived f _ := (h.derived f.id).symm
  value f _ t w := by simp only [deriveValue, h.scan]
  cond f _ := (h.cond f.id).symm
  verify f _ n := (h.verify hu (fun i hi => (h.envs i hi vs).symm) f.id n vs).symm

theorem Spec.SwapFields.write {fs fs' : List Field} {gs : List Val → List Val} {oks : List Val → Prop}
    (h : SwapFields cfg S T pick fs fs' gs oks) : ∀ {all : List Field} {ctx ctx' : WCtx}, SameTo cfg all ctx ctx' →
    Unread pick ctx'.fs → (∀ f ∈ fs, f ∈ all) → ∀ vs, oks vs →
    Wr.SameOn T (writeFields cfg ctx' fs' (gs vs)) (writeFields cfg ctx fs vs) := by
  induction h with
  | nil => intro all ctx ctx' _ _ _ vs _; cases vs <;> simp only [id, writeFields] <;> exact Wr.SameOn.refl _
  | @cons f f' g ok fs fs' gs oks hf _ ih =>
    intro all ctx ctx' hs hu hm vs hv
    cases vs with
    | nil => simp only [onEach, writeFields]; exact Wr.SameOn.refl _
    | cons v vs =>
      rw [onEach, writeFields_cons, writeFields_cons]
      refine WrE.sameOn_andThen ?_ fun _ => ih hs hu (fun f hf => hm f (by simp [hf])) vs hv.2
      unfold writeStep
      rw [hs.derived f (hm f (by simp)), hs.field (hm f (by simp)), hf.id, hf.frozen, hf.constraint]
      refine WrE.sameOn_mapErr _ ?_
      cases isDerived ctx'.fs f.id || f.isFrozen with
      | true => exact hf.write ctx' hu v hv.1
      | false =>
        simp only [WrE.checked, hf.check]
        refine WrE.sameOn_andThen (Wr.SameOn.refl _) fun b => ?_
        cases b with
        | false => exact Wr.SameOn.refl _
        | true => exact hf.write ctx' hu v hv.1

end
end S2S
