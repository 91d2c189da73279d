import Verif.Lemmas.RunOn
import Verif.Lemmas.ReadMain
import Verif.Lemmas.Wr
import Verif.Lemmas.WriteComplete
import Verif.Lemmas.Wellformed
import Verif.Spec.Evolve
import Verif.Spec.Typed
/-
Compatible changes of a schema keep what succeeds.
-/
namespace S2S
open Spec

/-! ### Names and default values stay -/

theorem Spec.LooserField.id_eq {keep cfg f g} (h : LooserField keep cfg f g) : g.id = f.id := by
  cases h <;> rfl

mutual
theorem looser_dfltKind {keep cfg} : ∀ {k k'}, LooserKind keep cfg k k' → k'.dflt = k.dflt
  | _, _, .num => rfl
  | _, _, .fbuf => rfl
  | _, _, .fstr => rfl
  | _, _, .vec _ => rfl
  | _, _, .record h => by rw [Kind.dflt, Kind.dflt, looser_dflts h]
  | _, _, .arrRec h => by rw [Kind.dflt, Kind.dflt, looser_dflts h]
  | _, _, .vecRec _ _ => rfl
theorem looser_dflt {keep cfg} : ∀ {f g}, LooserField keep cfg f g → g.dflt = f.dflt
  | _, _, .plain h _ _ => by rw [Field.dflt, Field.dflt, looser_dfltKind h]
  | _, _, .maybe _ => rfl
  | _, _, .union _ hne h _ => by rw [Field.dflt, Field.dflt, looser_dfltFirst h hne]
theorem looser_dfltFirst {keep cfg} : ∀ {a b}, LooserAlts keep cfg a b → a ≠ [] →
    Alt.dfltFirst b = Alt.dfltFirst a
  | _, _, .more, h => absurd rfl h
  | _, _, .cons h _ _, _ => by rw [Alt.dfltFirst, Alt.dfltFirst, looser_dfltKind h]
theorem looser_dflts {keep cfg} : ∀ {fs gs}, LooserFields keep cfg fs gs → Field.dflts gs = Field.dflts fs
  | _, _, .nil => rfl
  | _, _, .cons h1 h2 => by rw [Field.dflts, Field.dflts, looser_dflt h1, looser_dflts h2]
end

theorem looser_envOf {keep cfg} : ∀ {fs gs}, LooserFields keep cfg fs gs → ∀ vs, envOf gs vs = envOf fs vs
  | _, _, .nil, _ => rfl
  | _, _, .cons h1 h2, [] => rfl
  | _, _, .cons h1 h2, v :: vs => by rw [envOf, envOf, h1.id_eq, looser_envOf h2]

theorem looser_dfltEnv {keep cfg fs gs} (h : LooserFields keep cfg fs gs) : dfltEnv gs = dfltEnv fs := by
  rw [dfltEnv, dfltEnv, looser_dflts h, looser_envOf h]

theorem switchIdx_append {t : ScalarTy} {x : Int} {ls more : List (ScalarTy × Int)} {i : Nat}
    (h : switchIdx t x ls = some i) : switchIdx t x (ls ++ more) = some i := by
  induction ls generalizing i with
  | nil => cases h
  | cons l ls ih =>
    rw [switchIdx] at h
    rw [List.cons_append, switchIdx]
    split at h
    · rename_i hl; rw [if_pos hl]; exact h
    · rename_i hl
      rw [if_neg hl]
      rw [Option.map_eq_some_iff] at h ⊢
      obtain ⟨j, hj, rfl⟩ := h
      exact ⟨j, ih hj, rfl⟩

theorem ladderIdx_append {env : Env} {ps more : List Pred} {i : Nat}
    (h : ladderIdx env ps = .ok (some i)) : ladderIdx env (ps ++ more) = .ok (some i) := by
  induction ps generalizing i with
  | nil => cases h
  | cons p ps ih =>
    rw [ladderIdx] at h
    rw [List.cons_append, ladderIdx]
    cases hp : p.eval env with
    | error w => rw [hp] at h; cases h
    | ok b =>
      rw [hp] at h
      cases b with
      | true => exact h
      | false =>
        simp only at h ⊢
        cases hl : ladderIdx env ps with
        | error w => rw [hl] at h; cases h
        | ok o =>
          rw [hl] at h
          cases o with
          | none => cases h
          | some j =>
            rw [ih hl]
            exact h

theorem Spec.MoreCases.eval {d d' : Deducer} (h : MoreCases d d') {env : Env} {i : Nat}
    (he : d.eval env = .ok (some i)) : d'.eval env = .ok (some i) := by
  cases h with
  | matchField more =>
    rw [Deducer.eval] at he ⊢
    split at he
    · simp only [Except.ok.injEq] at he ⊢; exact switchIdx_append he
    · simp only [Except.ok.injEq] at he ⊢; exact switchIdx_append he
    · cases he
    · cases he
  | @matchCompute c t labels more =>
    rw [Deducer.eval] at he ⊢
    cases hc : c.eval env with
    | error w => rw [hc] at he; cases he
    | ok x =>
      rw [hc] at he
      simp only [Except.ok.injEq] at he ⊢
      exact switchIdx_append he
  | ladder more => exact ladderIdx_append he

/-! ### Reading -/

/-- On whatever stream: where the first succeeds so does the second, with the same result,
leaving the stream in the same state. -/
def RdE.Sub (r r' : RdE ε α) : Prop :=
  ∀ (S : InStream) s a s', Rd.runOn S r s = (.done (.ok a), s') → Rd.runOn S r' s = (.done (.ok a), s')

namespace RdE.Sub

theorem refl (r : RdE ε α) : Sub r r := fun _ _ _ _ h => h

theorem andThen {r r' : RdE ε α} {f f' : α → RdE ε β} (hr : Sub r r') (hf : ∀ a, Sub (f a) (f' a)) :
    Sub (r.andThen f) (r'.andThen f') := by
  intro S s b s' h
  rw [RdE.runOn_andThen] at h ⊢
  rcases h1 : Rd.runOn S r s with ⟨(e | a) | w, s1⟩
  · rw [h1] at h; cases h
  · rw [h1] at h
    rw [hr S s a s1 h1]
    exact hf a S s1 b s' h
  · rw [h1] at h; cases h

theorem mapOk {r r' : RdE ε α} {f f' : α → β} (hr : Sub r r') (hf : ∀ a, f a = f' a) :
    Sub (r.mapOk f) (r'.mapOk f') := by
  refine andThen hr fun a => ?_
  rw [hf a]; exact refl _

theorem mapErr {r r' : RdE ε α} {g g' : ε → ε'} (hr : Sub r r') : Sub (r.mapErr g) (r'.mapErr g') := by
  intro S s b s' h
  rw [RdE.runOn_mapErr] at h ⊢
  rcases h1 : Rd.runOn S r s with ⟨(e | a) | w, s1⟩
  · rw [h1] at h; cases h
  · rw [h1] at h
    rw [hr S s a s1 h1]
    exact h
  · rw [h1] at h; cases h

theorem lift {x y : Except Stuck α} {f f' : α → RdE ε β} (hf : ∀ a, x = .ok a → Sub (f a) ((RdE.lift y).andThen f')) :
    Sub ((RdE.lift x).andThen f) ((RdE.lift y).andThen f') := by
  intro S s b s' h
  cases x with
  | error w => cases h
  | ok a => exact hf a rfl S s b s' h

theorem repeatE {r r' : RdE ε Val} (h : Sub r r') : ∀ n, Sub (S2S.repeatE r n) (S2S.repeatE r' n)
  | 0 => refl _
  | n + 1 => andThen h fun _ => andThen (repeatE h n) fun _ => refl _

theorem checked {c c' : Constraint} (h : Weaker c c') (v : Val) : Sub (RdE.checked c v) (RdE.checked c' v) := by
  intro S s a s' hr
  rw [RdE.checked] at hr ⊢
  cases hc : c.check v with
  | error w => rw [hc] at hr; cases hr
  | ok b =>
    rw [hc] at hr
    cases b with
    | false => cases hr
    | true => rw [h v hc]; exact hr

theorem resize {cfg : Cfg} {n m : Nat} {r r' : RdE ε α} (hn : n ≤ cfg.ptrdiffMax → m ≤ cfg.ptrdiffMax)
    (h : Sub r r') : Sub (S2S.resize cfg n r) (S2S.resize cfg m r') := by
  intro S s a s' hr
  rw [S2S.resize] at hr ⊢
  split at hr
  · cases hr
  · rw [if_neg (by omega)]
    exact h S s a s' hr

end RdE.Sub

open RdE (Sub)

theorem sub_readVec (cfg : Cfg) (e : ElemTy) {c c' : Nat} (h : c ≤ c') (n : Nat) :
    Sub (readVec cfg e c n) (readVec cfg e c' n) := by
  intro S s a s' hr
  rw [readVec, checkedByteCount] at hr ⊢
  split at hr
  · cases hr
  · rename_i h1
    split at h1
    · cases h1
    · rename_i h2
      cases h1
      rw [if_neg (by have := Nat.div_le_div_right (c := e.size) h; omega)]
      exact hr

theorem count_of_storage {cfg : Cfg} {b : Option Nat} {sz n : Nat} (hsz : 0 < sz) :
    n ≤ ceilingOf cfg b / sz ∧ n * sz ≤ cfg.ptrdiffMax ↔ StorageFits cfg b sz n := by
  rw [StorageFits, ceilingOf, Nat.le_div_iff_mul_le hsz]

mutual
theorem sub_readKind {keep cfg} : ∀ {k k'}, LooserKind keep cfg k k' → saneKind k = true → saneKind k' = true →
    ∀ env, Sub (readKind cfg env k) (readKind cfg env k')
  | _, _, .num, _, _, _ => Sub.refl _
  | _, _, .fbuf, _, _, _ => Sub.refl _
  | _, _, .fstr, _, _, _ => Sub.refl _
  | _, _, .vec h, _, _, env => by
    rw [readKind, readKind]
    exact Sub.andThen (Sub.refl _) fun n => sub_readVec cfg _ h n
  | _, _, .record h, hs, hs', env => by
    rw [saneKind] at hs hs'
    rw [readKind, readKind, looser_dfltEnv h]
    exact Sub.mapOk (Sub.mapErr (sub_readFields h hs hs' _)) fun _ => rfl
  | _, _, .arrRec h, hs, hs', env => by
    rw [saneKind] at hs hs'
    rw [readKind, readKind, looser_dfltEnv h]
    exact Sub.mapOk (Sub.repeatE (Sub.mapOk (Sub.mapErr (sub_readFields h hs hs' _)) fun _ => rfl) _) fun _ => rfl
  | _, _, .vecRec (b := b) (b' := b') (sz := sz) (sz' := sz') h hst, hs, hs', env => by
    rw [saneKind, Bool.and_eq_true, decide_eq_true_eq] at hs hs'
    rw [readKind, readKind, looser_dfltEnv h]
    refine Sub.andThen (Sub.refl _) fun n => ?_
    intro S s a s' hr
    rw [checkedByteCount] at hr ⊢
    split at hr
    · cases hr
    · rename_i h1
      split at h1
      · cases h1
      · rename_i h2
        rw [resize] at hr
        split at hr
        · cases hr
        · rename_i h3
          have h4 := (count_of_storage hs'.1).2 (hst n ((count_of_storage hs.1).1 ⟨by omega, by omega⟩))
          rw [if_neg (by omega)]
          simp only
          rw [resize, if_neg (by omega)]
          exact Sub.mapOk (Sub.repeatE (Sub.mapOk (Sub.mapErr (sub_readFields h hs.2 hs'.2 _)) fun _ => rfl) _)
            (fun _ => rfl) S s a s' hr
theorem sub_readField {keep cfg} : ∀ {f g}, LooserField keep cfg f g → saneField f = true → saneField g = true →
    ∀ env, Sub (readField cfg env f) (readField cfg env g)
  | _, _, .plain h _ _, hs, hs', env => by
    rw [saneField] at hs hs'
    rw [readField, readField]
    exact sub_readKind h hs hs' env
  | _, _, .maybe h, hs, hs', env => by
    rw [saneField] at hs hs'
    rw [readField, readField]
    refine Sub.andThen (Sub.refl _) fun b => ?_
    cases b with
    | false => exact Sub.refl _
    | true => exact Sub.mapOk (sub_readKind h hs hs' env) fun _ => rfl
  | _, _, .union (d := d) (d' := d') (alts := alts) (alts' := alts') hd hne h _, hs, hs', env => by
    rw [saneField, Bool.and_eq_true, decide_eq_true_eq] at hs hs'
    intro S s a s' hr
    rw [readField] at hr ⊢
    cases he : d.eval env with
    | error w => rw [he] at hr; cases hr
    | ok o =>
      rw [he] at hr
      cases o with
      | none => cases hr
      | some i =>
        rw [hd.eval he]
        have hi : i < alts.length := by rw [← hs.1]; exact Deducer.eval_lt env d i he
        refine Sub.andThen (sub_readAlts h hs.2 hs'.2 env i hi) (fun v => ?_) S s a s' hr
        cases v with
        | some v => exact Sub.refl _
        | none => rw [looser_dfltFirst h hne]; exact Sub.refl _
theorem sub_readAlts {keep cfg} : ∀ {a b}, LooserAlts keep cfg a b → saneAlts a = true → saneAlts b = true →
    ∀ env i, i < a.length → Sub (readAlts cfg env a i) (readAlts cfg env b i)
  | _, _, .more, _, _, _, i, hi => absurd hi (Nat.not_lt_zero i)
  | _, _, .cons h hc h', hs, hs', env, 0, _ => by
    rw [saneAlts, Bool.and_eq_true] at hs hs'
    rw [readAlts, readAlts]
    exact Sub.andThen (sub_readKind h hs.1 hs'.1 env) fun v => Sub.mapOk (Sub.checked hc v) fun _ => rfl
  | _, _, .cons h hc h', hs, hs', env, i + 1, hi => by
    rw [saneAlts, Bool.and_eq_true] at hs hs'
    rw [readAlts, readAlts]
    exact sub_readAlts h' hs.2 hs'.2 env i (Nat.lt_of_succ_lt_succ hi)
theorem sub_readFields {keep cfg} : ∀ {fs gs}, LooserFields keep cfg fs gs → saneFields fs = true →
    saneFields gs = true → ∀ env, Sub (readFields cfg env fs) (readFields cfg env gs)
  | _, _, .nil, _, _, _ => Sub.refl _
  | _, _, .cons (f := f) (g := g) h h', hs, hs', env => by
    rw [saneFields, Bool.and_eq_true] at hs hs'
    rw [readFields, readFields, h.id_eq]
    have hc : Weaker f.constraint g.constraint := by
      cases h with
      | plain _ hc _ => exact hc
      | maybe _ => exact fun _ h => h
      | union _ _ _ hc => exact hc
    exact Sub.andThen
      (Sub.mapErr (Sub.andThen (sub_readField h hs.1 hs'.1 env) fun v => Sub.checked hc v))
      fun v => Sub.andThen (sub_readFields h' hs.2 hs'.2 _) fun _ => Sub.refl _
end

/-! ### Writing -/

def WrE.Sub (r r' : WrE ε α) : Prop :=
  ∀ (S : OutStream) s a s', Wr.runOn S r s = (.done (.ok a), s') → Wr.runOn S r' s = (.done (.ok a), s')

namespace WrE.Sub

theorem refl (r : WrE ε α) : WrE.Sub r r := fun _ _ _ _ h => h

theorem andThen {r r' : WrE ε α} {f f' : α → WrE ε β} (hr : WrE.Sub r r') (hf : ∀ a, WrE.Sub (f a) (f' a)) :
    WrE.Sub (r.andThen f) (r'.andThen f') := by
  intro S s b s' h
  rw [WrE.runOn_andThen] at h ⊢
  rcases h1 : Wr.runOn S r s with ⟨(e | a) | w, s1⟩
  · rw [h1] at h; cases h
  · rw [h1] at h
    rw [hr S s a s1 h1]
    exact hf a S s1 b s' h
  · rw [h1] at h; cases h

theorem mapErr {r r' : WrE ε α} {g g' : ε → ε'} (hr : WrE.Sub r r') : WrE.Sub (r.mapErr g) (r'.mapErr g') := by
  intro S s b s' h
  rw [WrE.runOn_mapErr] at h ⊢
  rcases h1 : Wr.runOn S r s with ⟨(e | a) | w, s1⟩
  · rw [h1] at h; cases h
  · rw [h1] at h
    rw [hr S s a s1 h1]
    exact h
  · rw [h1] at h; cases h

/-- An evaluation that comes out the same, where it comes out. -/
theorem lift {x y : Except Stuck α} {f f' : α → WrE ε β} (hxy : ∀ a, x = .ok a → y = .ok a)
    (hf : ∀ a, x = .ok a → WrE.Sub (f a) (f' a)) :
    WrE.Sub ((WrE.lift x).andThen f) ((WrE.lift y).andThen f') := by
  cases x with
  | error w => intro S s b s' h; cases h
  | ok a => rw [hxy a rfl]; exact hf a rfl

theorem checked {c c' : Constraint} (h : Weaker c c') (v : Val) {r r' : WrE Reason Unit} (hr : WrE.Sub r r') :
    WrE.Sub (WrE.checked c v r) (WrE.checked c' v r') := by
  intro S s a s' hrun
  rw [WrE.checked] at hrun ⊢
  cases hc : c.check v with
  | error w => rw [hc] at hrun; cases hrun
  | ok b =>
    rw [hc] at hrun
    cases b with
    | false => cases hrun
    | true => rw [h v hc]; exact hr S s a s' hrun

end WrE.Sub

theorem Spec.LooserKind.lenTarget {keep cfg k k'} (h : LooserKind keep cfg k k') :
    k'.lenTarget? = k.lenTarget? := by
  cases h <;> rfl

theorem looser_lenDerived {keep cfg} : ∀ {fs gs}, LooserFields keep cfg fs gs →
    lenDerivedIds gs = lenDerivedIds fs
  | _, _, .nil => rfl
  | _, _, .cons h h' => by
    have ih := looser_lenDerived h'
    simp only [lenDerivedIds] at ih ⊢
    cases h with
    | plain hk _ _ => simp only [List.filterMap_cons, hk.lenTarget, ih]
    | maybe _ => simp only [List.filterMap_cons, ih]
    | union _ _ _ _ => simp only [List.filterMap_cons, ih]

theorem looser_discDerived {keep cfg} : ∀ {fs gs}, LooserFields keep cfg fs gs →
    discDerivedIds gs = discDerivedIds fs
  | _, _, .nil => rfl
  | _, _, .cons h h' => by
    have ih := looser_discDerived h'
    simp only [discDerivedIds] at ih ⊢
    cases h with
    | plain hk _ _ => simp only [List.filterMap_cons, ih]
    | maybe _ => simp only [List.filterMap_cons, ih]
    | union hd _ _ _ => cases hd <;> simp only [List.filterMap_cons, ih]

theorem looser_isDerived {keep cfg fs gs} (h : LooserFields keep cfg fs gs) (id : String) :
    isDerived gs id = isDerived fs id := by
  rw [isDerived, isDerived, looser_lenDerived h, looser_discDerived h]

theorem looser_implies {keep cfg f g} (h : LooserField keep cfg f g) {t : String} {v : Val} {o : Option Nat}
    (hf : f.implies cfg t v = .ok o) : g.implies cfg t v = .ok o := by
  cases h with
  | plain hk _ _ =>
    rw [Field.implies] at hf ⊢
    rw [hk.lenTarget]
    exact hf
  | maybe _ => exact hf
  | union hd _ _ _ =>
    cases hd with
    | @matchField id _ labels more =>
      cases v with
      | var i w =>
        rw [Field.implies] at hf ⊢
        split at hf
        · rename_i hid
          rw [if_pos hid]
          cases hl : labels[i]? with
          | none => rw [hl] at hf; cases hf
          | some l =>
            rw [hl] at hf
            have hi := (List.getElem?_eq_some_iff.1 hl).1
            rw [List.getElem?_append_left hi, hl]
            exact hf
        · rename_i hid
          rw [if_neg hid]
          exact hf
      | _ =>
        simp only [Field.implies] at hf ⊢
        exact hf
    | matchCompute more => simp only [Field.implies] at hf ⊢; exact hf
    | ladder more => simp only [Field.implies] at hf ⊢; exact hf

theorem looser_deriveScan {keep cfg} {t : String} : ∀ {fs gs}, LooserFields keep cfg fs gs →
    ∀ (vs : List Val) (d e : Derivation), deriveScan cfg t fs vs d = .ok e → deriveScan cfg t gs vs d = .ok e
  | _, _, .nil, _, _, _, h => h
  | _, _, .cons _ _, [], _, _, h => by simpa only [deriveScan] using h
  | _, _, .cons (f := f) hf hfs, v :: vs, d, e, h => by
    rw [deriveScan] at h ⊢
    cases hi : f.implies cfg t v with
    | error w => rw [hi] at h; cases h
    | ok o =>
      rw [hi] at h
      rw [looser_implies hf hi]
      cases o with
      | none => exact looser_deriveScan hfs vs d e h
      | some n => exact looser_deriveScan hfs vs _ e h

theorem looser_deriveValue {keep cfg fs gs} (h : LooserFields keep cfg fs gs) {vs : List Val} {id : String}
    {t : ScalarTy} {w : Nat} {r : Except Reason Int} (hr : deriveValue cfg fs vs id t w = .ok r) :
    deriveValue cfg gs vs id t w = .ok r := by
  rw [deriveValue] at hr ⊢
  cases hd : deriveScan cfg id fs vs {} with
  | error w => rw [hd] at hr; cases hr
  | ok d =>
    rw [hd] at hr
    rw [looser_deriveScan h vs _ d hd]
    exact hr

theorem looser_altAt {keep cfg} : ∀ {a b}, LooserAlts keep cfg a b → ∀ {i : Nat} {x : Alt}, a[i]? = some x →
    ∃ y, b[i]? = some y ∧ y.kind.lenTarget? = x.kind.lenTarget?
  | _, _, .more, i, x, h => by simp at h
  | _, _, .cons hk _ _, 0, x, h => by
    simp only [List.length_cons, Nat.zero_lt_succ, List.getElem?_eq_getElem, List.getElem_cons_zero,
      Option.some.injEq] at h
    subst h
    exact ⟨_, rfl, hk.lenTarget⟩
  | _, _, .cons _ _ h', i + 1, x, h => by
    simp only [List.getElem?_cons_succ] at h ⊢
    exact looser_altAt h' h

theorem typedAlts_get {cfg : Cfg} : ∀ {alts : List Alt} {i : Nat} {v : Val}, TypedAlts cfg alts i v →
    ∃ a, alts[i]? = some a ∧ TypedKind cfg a.kind v
  | [], _, _, h => by simp [TypedAlts] at h
  | .mk k c :: _, 0, v, h => ⟨.mk k c, rfl, by simpa only [TypedAlts] using h⟩
  | .mk _ _ :: alts, i + 1, v, h => by
    rw [TypedAlts] at h
    simpa using typedAlts_get h

/-- Fields agree about a length as before. -/
theorem looser_condAgrees {keep cfg f g} (h : LooserField keep cfg f g) {env : Env} {t : String} {n : Nat} {v : Val}
    (ht : TypedField cfg f v) {b : Bool} (hf : f.condAgrees env t n v = .ok b) :
    g.condAgrees env t n v = .ok b := by
  cases h with
  | plain _ _ _ => exact hf
  | maybe hk =>
    cases v <;> simp only [Field.condAgrees, hk.lenTarget] at hf ⊢ <;> exact hf
  | @union id d d' alts alts' c c' _ _ ha _ =>
    cases v with
    | var i w =>
      rw [TypedField] at ht
      obtain ⟨x, hx, -⟩ := typedAlts_get ht
      obtain ⟨y, hy, hxy⟩ := looser_altAt ha hx
      have hnot : anyAltTargets t alts = false → ¬ x.kind.lenTarget? = some t := by
        intro hno hxt
        have : anyAltTargets t alts = true :=
          List.any_eq_true.2 ⟨x, List.mem_of_getElem? hx, decide_eq_true hxt⟩
        rw [hno] at this
        cases this
      have hyes : x.kind.lenTarget? = some t → anyAltTargets t alts' = true := fun hxt =>
        List.any_eq_true.2 ⟨y, List.mem_of_getElem? hy, decide_eq_true (hxy.trans hxt)⟩
      rw [Field.condAgrees] at hf ⊢
      simp only [hx] at hf
      simp only [hy, hxy]
      by_cases hxt : x.kind.lenTarget? = some t
      · rw [if_pos hxt] at hf
        rw [if_pos (hyes hxt), if_pos hxt]
        split at hf
        · exact hf
        · exact absurd hxt (hnot (by simpa using ‹¬ anyAltTargets t alts = true›))
      · rw [if_neg hxt] at hf
        rw [if_neg hxt]
        simp only [ite_self] at hf ⊢
        exact hf
    | _ => simp [TypedField] at ht

theorem looser_verifyScan {keep cfg} {env : Env} {t : String} {n : Nat} : ∀ {fs gs}, LooserFields keep cfg fs gs →
    ∀ {vs : List Val} {b : Bool}, TypedFields cfg fs vs → verifyScan env t n fs vs = .ok b →
    verifyScan env t n gs vs = .ok b
  | _, _, .nil, _, _, _, h => h
  | _, _, .cons _ _, [], _, ht, _ => by simp [TypedFields] at ht
  | _, _, .cons (f := f) (fs := fs) hf hfs, v :: vs, b, ht, h => by
    rw [TypedFields] at ht
    rw [verifyScan] at h ⊢
    cases h1 : f.condAgrees env t n v with
    | error w => rw [h1] at h; cases h
    | ok a1 =>
      cases h2 : verifyScan env t n fs vs with
      | error w => rw [h1, h2] at h; cases h
      | ok a2 =>
        rw [h1, h2] at h
        rw [looser_condAgrees hf ht.1 h1, looser_verifyScan hfs ht.2 h2]
        exact h

theorem verifyScan_none {env : Env} {t : String} {n : Nat} : ∀ {fs : List Field} {vs : List Val},
    hasConditional fs t = false → verifyScan env t n fs vs = .ok true
  | [], _, _ => by rw [verifyScan]; nofun
  | _ :: _, [], _ => by rw [verifyScan]; nofun
  | f :: fs, v :: vs, h => by
    rw [hasConditional, List.any_cons, Bool.or_eq_false_iff] at h
    rw [verifyScan, verifyScan_none (fs := fs) h.2]
    have : f.condAgrees env t n v = .ok true := by
      cases f with
      | plain _ _ _ => rfl
      | maybe id k p =>
        have h1 := h.1
        rw [Field.condTargets, decide_eq_false_iff_not] at h1
        cases v <;> simp only [Field.condAgrees, if_neg h1]
      | union id d alts c =>
        have h1 := h.1
        rw [Field.condTargets] at h1
        cases v <;> simp [Field.condAgrees, h1]
    rw [this]
    rfl

theorem looser_hasConditional {keep cfg} {t : String} : ∀ {fs gs}, LooserFields keep cfg fs gs →
    hasConditional fs t = true → hasConditional gs t = true
  | _, _, .nil, h => h
  | _, _, .cons (f := f) (g := g) hf hfs, h => by
    rw [hasConditional, List.any_cons, Bool.or_eq_true] at h ⊢
    refine h.imp (fun h => ?_) fun h => looser_hasConditional hfs h
    cases hf with
    | plain _ _ _ => exact h
    | maybe hk => rw [Field.condTargets] at h ⊢; rw [hk.lenTarget]; exact h
    | union _ _ ha _ =>
      rw [Field.condTargets, anyAltTargets, List.any_eq_true] at h ⊢
      obtain ⟨x, hx, hxt⟩ := h
      obtain ⟨i, hi⟩ := List.getElem?_of_mem hx
      obtain ⟨y, hy, hxy⟩ := looser_altAt ha hi
      exact ⟨y, List.mem_of_getElem? hy, by rw [hxy]; exact hxt⟩

/-- A slot somebody's length is taken from is a number. -/
def NumIfCond (gs : List Field) (id : String) (k : Kind) : Prop :=
  hasConditional gs id = true → ∃ t w, k = .num t w

theorem sub_verifyThenWrite {keep cfg fs gs} (h : LooserFields keep cfg fs gs) {vs : List Val}
    (ht : TypedFields cfg fs vs) {id : String} {k : Kind} (hn : NumIfCond gs id k) (v : Val) :
    WrE.Sub (verifyThenWrite cfg ⟨fs, vs⟩ id k v) (verifyThenWrite cfg ⟨gs, vs⟩ id k v) := by
  have he : WCtx.env ⟨gs, vs⟩ = WCtx.env ⟨fs, vs⟩ := looser_envOf h vs
  unfold verifyThenWrite
  rw [he]
  show WrE.Sub (if hasConditional fs id = true then _ else _) (if hasConditional gs id = true then _ else _)
  by_cases hf : hasConditional fs id = true
  · rw [if_pos hf, if_pos (looser_hasConditional h hf)]
    cases v with
    | int x => exact .lift (fun b hb => looser_verifyScan h ht hb) fun b _ => .refl _
    | _ => exact .refl _
  · rw [if_neg hf]
    split
    · rename_i hg
      obtain ⟨t, w, rfl⟩ := hn hg
      cases v with
      | int x =>
        have := looser_verifyScan (env := WCtx.env ⟨fs, vs⟩) (t := id) (n := cfg.toSz x) h ht
          (verifyScan_none (by simpa using hf))
        simp only [this]
        exact .refl _
      | _ => intro S s a s' hr; cases hr
    · exact .refl _

theorem sub_writeFixed {keep cfg fs gs} (h : LooserFields keep cfg fs gs) {vs : List Val}
    (ht : TypedFields cfg fs vs) {id : String} {k : Kind} (hn : NumIfCond gs id k) {c c' : Constraint}
    (hc : Weaker c c') {member : Bool} (hz : member = true → frozenVal k c' = frozenVal k c) (v : Val) :
    WrE.Sub (writeFixed cfg ⟨fs, vs⟩ member id k c v) (writeFixed cfg ⟨gs, vs⟩ member id k c' v) := by
  unfold writeFixed
  show WrE.Sub (if isDerived fs id = true then _ else _) (if isDerived gs id = true then _ else _)
  rw [looser_isDerived h]
  split
  · cases k with
    | num t w =>
      refine .lift (fun r hr => looser_deriveValue h hr) fun r _ => ?_
      cases r with
      | error e => exact .refl _
      | ok x => exact WrE.Sub.checked hc (.int x) (sub_verifyThenWrite h ht hn _)
    | _ => exact .refl _
  · have : (if member then frozenVal k c' else none) = if member then frozenVal k c else none := by
      cases member with
      | false => rfl
      | true => exact hz rfl
    rw [this]
    split <;> exact sub_verifyThenWrite h ht hn _

theorem sub_verifyComputed {cfg : Cfg} {env : Env} {len : LenSpec} {n : Nat} {r r' : WrE Reason Unit}
    (h : WrE.Sub r r') : WrE.Sub (verifyComputed cfg env len n r) (verifyComputed cfg env len n r') := by
  cases len with
  | fromField _ => exact h
  | computed c =>
    rw [verifyComputed, verifyComputed]
    refine WrE.Sub.andThen (.refl _) fun m => ?_
    split
    · exact .refl _
    · exact h

theorem sub_writeRecs {one one' : List Val → WrE CastError Unit} {P : List Val → Prop}
    (h : ∀ ws, P ws → WrE.Sub (one ws) (one' ws)) : ∀ vs : List Val, (∀ v ∈ vs, ∃ ws, v = .seq ws ∧ P ws) →
    WrE.Sub (writeRecs one vs) (writeRecs one' vs)
  | [], _ => .refl _
  | v :: vs, hv => by
    obtain ⟨ws, rfl, hw⟩ := hv v (List.mem_cons_self ..)
    rw [writeRecs, writeRecs]
    exact WrE.Sub.andThen (WrE.Sub.mapErr (h ws hw)) fun _ =>
      sub_writeRecs h vs fun v hv' => hv v (List.mem_cons_of_mem _ hv')

theorem eq_of_id {gs : List Field} (hd : Distinct gs) {f g : Field} (hf : f ∈ gs) (hg : g ∈ gs)
    (h : f.id = g.id) : f = g := by
  induction gs with
  | nil => cases hf
  | cons x gs ih =>
    rw [Distinct, List.map_cons, List.nodup_cons] at hd
    rcases List.mem_cons.1 hf with hfx | hf' <;> rcases List.mem_cons.1 hg with hgx | hg'
    · rw [hfx, hgx]
    · subst hfx; exact absurd (h ▸ List.mem_map_of_mem hg') hd.1
    · subst hgx; exact absurd (h ▸ List.mem_map_of_mem hf') hd.1
    · exact ih hd.2 hf' hg'

theorem numIfCond_of_mem {gs : List Field} (hr : Resolves gs) (hd : Distinct gs) {g : Field} (hg : g ∈ gs)
    (hcond : hasConditional gs g.id = true) : ∃ t w c, g = .plain g.id (.num t w) c := by
  rw [hasConditional, List.any_eq_true] at hcond
  obtain ⟨x, hx, hxt⟩ := hcond
  have hid : g.id ∈ lengthTargets x := by
    cases x with
    | plain _ _ _ => cases hxt
    | maybe _ k p =>
      rw [Field.condTargets, decide_eq_true_eq] at hxt
      rw [lengthTargets, hxt]; simp
    | union _ _ alts _ =>
      rw [Field.condTargets, anyAltTargets, List.any_eq_true] at hxt
      obtain ⟨a, ha, hat⟩ := hxt
      rw [decide_eq_true_eq] at hat
      rw [lengthTargets, List.mem_flatMap]
      exact ⟨a, ha, by rw [hat]; simp⟩
  obtain ⟨y, hy, hyg⟩ := (hr x hx).1 _ hid
  match y, hyg with
  | .plain i (.num t w) c, ⟨hi, _⟩ =>
    obtain rfl := eq_of_id hd hy hg hi
    exact ⟨t, w, c, rfl⟩

theorem numIfCond_plain {gs : List Field} (hr : Resolves gs) (hd : Distinct gs) {id : String} {k : Kind}
    {c : Constraint} (hg : .plain id k c ∈ gs) : NumIfCond gs id k := by
  intro hcond
  obtain ⟨t, w, c', h⟩ := numIfCond_of_mem hr hd hg hcond
  cases h
  exact ⟨t, w, rfl⟩

theorem numIfCond_other {gs : List Field} (hr : Resolves gs) (hd : Distinct gs) {g : Field} (hg : g ∈ gs)
    (hno : ∀ id k c, g ≠ .plain id k c) (k : Kind) : NumIfCond gs g.id k := by
  intro hcond
  obtain ⟨t, w, c', h⟩ := numIfCond_of_mem hr hd hg hcond
  exact absurd h (hno _ _ _)

/-- Names resolve and are distinct. -/
abbrev NamedList (gs : List Field) : Prop := Resolves gs ∧ Distinct gs

mutual
theorem sub_writeKind {cfg} : ∀ {k k'}, LooserKind true cfg k k' → ∀ {fs gs}, LooserFields true cfg fs gs →
    ∀ {vs}, TypedFields cfg fs vs → ∀ {id}, NumIfCond gs id k' → ∀ {c c'}, Weaker c c' →
    ∀ {member : Bool}, (member = true → typedConst k' c' = typedConst k c) → EveryKind NamedList k' →
    ∀ v, TypedKind cfg k v →
    WrE.Sub (writeKind cfg ⟨fs, vs⟩ member id c k v) (writeKind cfg ⟨gs, vs⟩ member id c' k' v)
  | _, _, .num, _, _, h, _, ht, _, hn, _, _, hc, _, hz, _, v, _ => by
    rw [writeKind, writeKind]
    exact sub_writeFixed h ht hn hc (fun hm => by rw [← typedConst_eq, ← typedConst_eq]; exact hz hm) v
  | _, _, .fbuf, _, _, h, _, ht, _, hn, _, _, hc, _, hz, _, v, _ => by
    rw [writeKind, writeKind]
    exact sub_writeFixed h ht hn hc (fun hm => by rw [← typedConst_eq, ← typedConst_eq]; exact hz hm) v
  | _, _, .fstr, _, _, h, _, ht, _, hn, _, _, hc, _, hz, _, v, _ => by
    rw [writeKind, writeKind]
    exact sub_writeFixed h ht hn hc (fun hm => by rw [← typedConst_eq, ← typedConst_eq]; exact hz hm) v
  | _, _, .vec _, fs, gs, h, vs, ht, _, _, _, _, _, _, _, _, .seq us, _ => by
    have he : WCtx.env ⟨gs, vs⟩ = WCtx.env ⟨fs, vs⟩ := looser_envOf h vs
    rw [writeKind, writeKind, he]
    exact .refl _
  | _, _, .record hr, _, _, h, _, ht, _, _, _, _, _, _, _, hp, .seq us, hv => by
    rw [writeKind, writeKind]
    rw [TypedKind] at hv
    rw [EveryKind] at hp
    exact WrE.Sub.mapErr (sub_writeFields hr hr hv hp.1 hp.2 (fun _ h => h) us hv)
  | _, _, .arrRec hr, _, _, h, _, ht, _, _, _, _, _, _, _, hp, .seq us, hv => by
    rw [writeKind, writeKind]
    rw [TypedKind] at hv
    rw [EveryKind] at hp
    split
    · exact .refl _
    · exact sub_writeRecs (P := TypedFields cfg _)
        (fun ws hw => sub_writeFields hr hr hw hp.1 hp.2 (fun _ h => h) ws hw) us hv.2
  | _, _, .vecRec hr _, fs, gs, h, vs, ht, _, _, _, _, _, _, _, hp, .seq us, hv => by
    have he : WCtx.env ⟨gs, vs⟩ = WCtx.env ⟨fs, vs⟩ := looser_envOf h vs
    rw [writeKind, writeKind, he]
    rw [TypedKind] at hv
    rw [EveryKind] at hp
    exact sub_verifyComputed (sub_writeRecs (P := TypedFields cfg _)
        (fun ws hw => sub_writeFields hr hr hw hp.1 hp.2 (fun _ h => h) ws hw) us hv.2)
theorem sub_writeField {cfg} : ∀ {f g}, LooserField true cfg f g → ∀ {fs gs}, LooserFields true cfg fs gs →
    ∀ {vs}, TypedFields cfg fs vs → NamedList gs → EveryField NamedList g → g ∈ gs →
    ∀ v, TypedField cfg f v →
    WrE.Sub (writeField cfg ⟨fs, vs⟩ f v) (writeField cfg ⟨gs, vs⟩ g v)
  | _, _, .plain hk hc hz, _, _, h, _, ht, hg, hp, hm, v, hv => by
    rw [writeField, writeField]
    rw [TypedField] at hv
    rw [EveryField] at hp
    exact sub_writeKind hk h ht (numIfCond_plain hg.1 hg.2 hm) hc (fun _ => hz rfl) hp v hv
  | _, _, .maybe (id := id) hk, fs, gs, h, vs, ht, hg, hp, hm, v, hv => by
    have he : WCtx.env ⟨gs, vs⟩ = WCtx.env ⟨fs, vs⟩ := looser_envOf h vs
    rw [EveryField] at hp
    cases v with
    | present w =>
      rw [writeField, writeField, he]
      rw [TypedField] at hv
      refine WrE.Sub.andThen (.refl _) fun b => ?_
      cases b with
      | false => exact .refl _
      | true =>
        exact sub_writeKind hk h ht (numIfCond_other hg.1 hg.2 hm nofun _) (fun _ h => h) (fun h => by cases h) hp w hv
    | absent => rw [writeField, writeField, he]; exact .refl _
    | _ => simp [TypedField] at hv
  | _, _, .union (id := id) (d := d) (d' := d') (alts := al) (alts' := al') hd hne ha hc, fs, gs, h, vs, ht, hg, hp, hm, v, hv => by
    have he : WCtx.env ⟨gs, vs⟩ = WCtx.env ⟨fs, vs⟩ := looser_envOf h vs
    rw [EveryField] at hp
    cases v with
    | var i w =>
      rw [TypedField] at hv
      have key := sub_writeAlts ha h ht (numIfCond_other hg.1 hg.2 hm nofun) hp i w hv
      have other : WrE.Sub ((WrE.lift (d.eval (WCtx.env ⟨fs, vs⟩))).andThen fun
          | none => WrE.err .typeDeductionFailure
          | some j => if j ≠ i then WrE.err .validationFailure else writeAlts cfg ⟨fs, vs⟩ id al i w)
          ((WrE.lift (d'.eval (WCtx.env ⟨gs, vs⟩))).andThen fun
          | none => WrE.err .typeDeductionFailure
          | some j => if j ≠ i then WrE.err .validationFailure else writeAlts cfg ⟨gs, vs⟩ id al' i w) := by
        rw [he]
        intro S s a s' hr
        cases hev : d.eval (WCtx.env ⟨fs, vs⟩) with
        | error x => rw [hev] at hr; cases hr
        | ok o =>
          rw [hev] at hr
          cases o with
          | none => cases hr
          | some j =>
            rw [hd.eval hev]
            by_cases hj : j ≠ i
            · simp only [WrE.lift, WrE.andThen, WrE.ok, Wr.bind, if_pos hj] at hr
              cases hr
            · simp only [WrE.lift, WrE.andThen, WrE.ok, Wr.bind, if_neg hj] at hr ⊢
              exact key S s a s' hr
      cases hd with
      | matchField more => rw [writeField, writeField]; exact key
      | matchCompute more => simp only [writeField]; exact other
      | ladder more => simp only [writeField]; exact other
    | _ => simp [TypedField] at hv
theorem sub_writeAlts {cfg} : ∀ {a b}, LooserAlts true cfg a b → ∀ {fs gs}, LooserFields true cfg fs gs →
    ∀ {vs}, TypedFields cfg fs vs → ∀ {id}, (∀ k, NumIfCond gs id k) → EveryAlts NamedList b →
    ∀ i v, TypedAlts cfg a i v →
    WrE.Sub (writeAlts cfg ⟨fs, vs⟩ id a i v) (writeAlts cfg ⟨gs, vs⟩ id b i v)
  | _, _, .more, _, _, _, _, _, _, _, _, _, _, hv => by simp [TypedAlts] at hv
  | _, _, .cons hk hc _, _, _, h, _, ht, _, hn, hp, 0, v, hv => by
    rw [writeAlts, writeAlts]
    rw [TypedAlts] at hv
    rw [EveryAlts] at hp
    exact WrE.Sub.checked hc v (sub_writeKind hk h ht (hn _) hc (fun h => by cases h) hp.1 v hv)
  | _, _, .cons _ _ ha, _, _, h, _, ht, _, hn, hp, i + 1, v, hv => by
    rw [writeAlts, writeAlts]
    rw [TypedAlts] at hv
    rw [EveryAlts] at hp
    exact sub_writeAlts ha h ht hn hp.2 i v hv
theorem sub_writeFields {cfg} : ∀ {fs' gs'}, LooserFields true cfg fs' gs' → ∀ {fs gs},
    LooserFields true cfg fs gs → ∀ {vs}, TypedFields cfg fs vs → NamedList gs → EveryFields NamedList gs' →
    (∀ g ∈ gs', g ∈ gs) → ∀ us, TypedFields cfg fs' us →
    WrE.Sub (writeFields cfg ⟨fs, vs⟩ fs' us) (writeFields cfg ⟨gs, vs⟩ gs' us)
  | _, _, .nil, _, _, _, _, _, _, _, _, [], _ => .refl _
  | _, _, .nil, _, _, _, _, _, _, _, _, _ :: _, hv => by simp [TypedFields] at hv
  | _, _, .cons _ _, _, _, _, _, _, _, _, _, [], hv => by simp [TypedFields] at hv
  | _, _, .cons (f := f) (g := g) hf hfs, fs, gs, h, vs, ht, hg, hp, hm, v :: us, hv => by
    rw [writeFields, writeFields]
    rw [TypedFields] at hv
    rw [EveryFields] at hp
    have hmem := hm g (List.mem_cons_self ..)
    have hc : Weaker f.constraint g.constraint := by
      cases hf with
      | plain _ hc _ => exact hc
      | maybe _ => exact fun _ h => h
      | union _ _ _ hc => exact hc
    have hz : g.isFrozen = f.isFrozen := by
      cases hf with
      | plain _ _ hz =>
        rw [Field.isFrozen, Field.isFrozen, ← typedConst_eq, ← typedConst_eq, hz rfl]
      | maybe _ => rfl
      | union _ _ _ hc => rfl
    rw [hf.id_eq, looser_isDerived h, hz]
    refine WrE.Sub.andThen (WrE.Sub.mapErr ?_) fun _ =>
      sub_writeFields hfs h ht hg hp.2 (fun g hg' => hm g (List.mem_cons_of_mem _ hg')) us hv.2
    have key := sub_writeField hf h ht hg hp.1 hmem v hv.1
    split
    · exact key
    · exact WrE.Sub.checked hc v key
end

end S2S
