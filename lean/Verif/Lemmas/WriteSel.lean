import Verif.Lemmas.Slots
import Verif.Lemmas.WriteTree
import Verif.Spec.Select
/-
Selection: first matches, and what is written for a field.
-/
namespace S2S
open Spec

/-! ### first match -/

theorem switchIdx_none {t : ScalarTy} {x : Int} {ls : List (ScalarTy × Int)}
    (h : switchIdx t x ls = none) {i : Nat} {l : ScalarTy × Int} (hi : ls[i]? = some l) :
    labelMatches t x l = false := by
  induction ls generalizing i with
  | nil => simp at hi
  | cons a ls ih =>
    rw [switchIdx] at h
    split at h
    · cases h
    · rename_i ha
      cases i with
      | zero =>
        simp only [List.getElem?_cons_zero, Option.some.injEq] at hi
        subst hi
        simpa using ha
      | succ i =>
        exact ih (by simpa using h) (by simpa using hi)

theorem switchIdx_first {t : ScalarTy} {x : Int} {ls : List (ScalarTy × Int)} {i : Nat}
    (h : switchIdx t x ls = some i) {j : Nat} (hj : j < i) {l : ScalarTy × Int}
    (hl : ls[j]? = some l) : labelMatches t x l = false := by
  induction ls generalizing i j with
  | nil => simp at hl
  | cons a ls ih =>
    rw [switchIdx] at h
    split at h
    · cases h; omega
    · rename_i ha
      cases hs : switchIdx t x ls with
      | none => rw [hs] at h; cases h
      | some i' =>
        rw [hs] at h
        simp only [Option.map_some, Option.some.injEq] at h
        cases j with
        | zero =>
          simp only [List.getElem?_cons_zero, Option.some.injEq] at hl
          subst hl
          simpa using ha
        | succ j =>
          have hj' : j < i' := by omega
          exact ih hs hj' (by simpa using hl)

theorem ladderIdx_none {env : Env} {ps : List Pred} (h : ladderIdx env ps = .ok none) {j : Nat}
    {p : Pred} (hp : ps[j]? = some p) : p.eval env = .ok false := by
  induction ps generalizing j with
  | nil => simp at hp
  | cons a ps ih =>
    rw [ladderIdx] at h
    cases ha : a.eval env with
    | error w => rw [ha] at h; cases h
    | ok b =>
      rw [ha] at h
      cases b with
      | true => cases h
      | false =>
        cases j with
        | zero =>
          simp only [List.getElem?_cons_zero, Option.some.injEq] at hp
          subst hp; exact ha
        | succ j =>
          refine ih ?_ (by simpa using hp)
          cases hl : ladderIdx env ps with
          | error w => simp only [hl] at h; cases h
          | ok o' =>
            cases o' with
            | none => rfl
            | some i => simp only [hl] at h; cases h

theorem ladderIdx_some {env : Env} {ps : List Pred} {i : Nat} (h : ladderIdx env ps = .ok (some i)) :
    (∃ p, ps[i]? = some p ∧ p.eval env = .ok true) ∧
      ∀ (j : Nat) (p : Pred), j < i → ps[j]? = some p → p.eval env = .ok false := by
  induction ps generalizing i with
  | nil => cases h
  | cons a ps ih =>
    rw [ladderIdx] at h
    cases ha : a.eval env with
    | error w => rw [ha] at h; cases h
    | ok b =>
      rw [ha] at h
      cases b with
      | true =>
        cases h
        exact ⟨⟨a, rfl, ha⟩, fun j p hj => by omega⟩
      | false =>
        cases hl : ladderIdx env ps with
        | error w => simp only [hl] at h; cases h
        | ok o' =>
          cases o' with
          | none => simp only [hl] at h; cases h
          | some i' =>
            have hi : i' + 1 = i := by
              simp only [hl] at h
              injection h with h
              simpa using h
            subst hi
            obtain ⟨⟨p, hp, he⟩, h2⟩ := ih hl
            refine ⟨⟨p, by simpa using hp, he⟩, fun j p' hj hp' => ?_⟩
            cases j with
            | zero =>
              simp only [List.getElem?_cons_zero, Option.some.injEq] at hp'
              subst hp'; exact ha
            | succ j => exact h2 j p' (by omega) (by simpa using hp')

theorem firstMatch_of_eval {env : Env} {d : Deducer} {i : Nat} (h : d.eval env = .ok (some i)) :
    FirstMatch env d i := by
  cases d with
  | matchField id t ls =>
    rw [Deducer.eval] at h
    split at h
    · rename_i x hx
      injection h with h
      obtain ⟨l, hl, hm⟩ := switchIdx_sound h
      refine ⟨⟨x, l, .inl hx, hl, hm⟩, ?_⟩
      rintro j hj ⟨x', l', hx', hl', hm'⟩
      rw [hx] at hx'
      rcases hx' with hx' | hx' <;> cases hx'
      rw [switchIdx_first h hj hl'] at hm'
      cases hm'
    · rename_i x hx
      injection h with h
      obtain ⟨l, hl, hm⟩ := switchIdx_sound h
      refine ⟨⟨x, l, .inr hx, hl, hm⟩, ?_⟩
      rintro j hj ⟨x', l', hx', hl', hm'⟩
      rw [hx] at hx'
      rcases hx' with hx' | hx' <;> cases hx'
      rw [switchIdx_first h hj hl'] at hm'
      cases hm'
    · cases h
    · cases h
  | matchCompute comp t ls =>
    rw [Deducer.eval] at h
    split at h
    · rename_i x hx
      injection h with h
      obtain ⟨l, hl, hm⟩ := switchIdx_sound h
      refine ⟨⟨x, l, hx, hl, hm⟩, ?_⟩
      rintro j hj ⟨x', l', hx', hl', hm'⟩
      rw [hx] at hx'
      cases hx'
      rw [switchIdx_first h hj hl'] at hm'
      cases hm'
    · cases h
  | ladder ps =>
    rw [Deducer.eval] at h
    have := ladderIdx_some h
    refine ⟨this.1, ?_⟩
    rintro j hj ⟨p, hp, he⟩
    rw [this.2 j p hj hp] at he
    cases he

theorem noMatch_of_eval {env : Env} {d : Deducer} (h : d.eval env = .ok none) (i : Nat) :
    ¬ Matches env d i := by
  cases d with
  | matchField id t ls =>
    rw [Deducer.eval] at h
    split at h
    · rename_i x hx
      injection h with h
      rintro ⟨x', l', hx', hl', hm'⟩
      rw [hx] at hx'
      rcases hx' with hx' | hx' <;> cases hx'
      rw [switchIdx_none h hl'] at hm'
      cases hm'
    · rename_i x hx
      injection h with h
      rintro ⟨x', l', hx', hl', hm'⟩
      rw [hx] at hx'
      rcases hx' with hx' | hx' <;> cases hx'
      rw [switchIdx_none h hl'] at hm'
      cases hm'
    · rename_i hx
      rintro ⟨x', l', hx', hl', hm'⟩
      rw [hx] at hx'
      rcases hx' with hx' | hx' <;> cases hx'
    · cases h
  | matchCompute comp t ls =>
    rw [Deducer.eval] at h
    split at h
    · rename_i x hx
      injection h with h
      rintro ⟨x', l', hx', hl', hm'⟩
      rw [hx] at hx'
      cases hx'
      rw [switchIdx_none h hl'] at hm'
      cases hm'
    · cases h
  | ladder ps =>
    rw [Deducer.eval] at h
    rintro ⟨p, hp, he⟩
    rw [ladderIdx_none h hp] at he
    cases he

theorem eval_of_evaluable {env : Env} {d : Deducer} (h : Evaluable env d) :
    ∃ o, d.eval env = .ok o := by
  cases d with
  | matchField id t ls =>
    rcases h with ⟨x, hx | hx⟩ | hx <;> exact ⟨_, by rw [Deducer.eval, hx]⟩
  | matchCompute comp t ls =>
    obtain ⟨x, hx⟩ := h
    exact ⟨_, by rw [Deducer.eval, hx]⟩
  | ladder ps =>
    simp only [Deducer.eval]
    simp only [Evaluable] at h
    induction ps with
    | nil => exact ⟨none, rfl⟩
    | cons a ps ih =>
      obtain ⟨b, hb⟩ := h a (by simp)
      obtain ⟨o, ho⟩ := ih fun p hp => h p (by simp [hp])
      cases b with
      | true => exact ⟨some 0, by rw [ladderIdx, hb]⟩
      | false => exact ⟨o.map (· + 1), by simp only [ladderIdx, hb, ho]⟩

theorem firstMatch_unique {env : Env} {d : Deducer} {i j : Nat} (h : FirstMatch env d i)
    (h' : FirstMatch env d j) : i = j := by
  rcases Nat.lt_trichotomy i j with hij | hij | hij
  · exact absurd h.1 (h'.2 i hij)
  · exact hij
  · exact absurd h'.1 (h.2 j hij)

theorem eval_of_firstMatch {env : Env} {d : Deducer} (he : Evaluable env d) {i : Nat}
    (h : FirstMatch env d i) : d.eval env = .ok (some i) := by
  obtain ⟨o, ho⟩ := eval_of_evaluable he
  cases o with
  | none => exact absurd h.1 (noMatch_of_eval ho i)
  | some j => rw [ho, firstMatch_unique h (firstMatch_of_eval ho)]

theorem eval_of_noMatch {env : Env} {d : Deducer} (he : Evaluable env d)
    (h : ∀ i, ¬ Matches env d i) : d.eval env = .ok none := by
  obtain ⟨o, ho⟩ := eval_of_evaluable he
  cases o with
  | none => exact ho
  | some j => exact absurd (firstMatch_of_eval ho).1 (h j)

/-! ### what is written for a field -/

theorem writeAlts_get {cfg : Cfg} {ctx : WCtx} {id : String} {alts : List Alt} {i : Nat} {k : Kind}
    {c : Constraint} {v : Val} (hi : alts[i]? = some (.mk k c)) :
    writeAlts cfg ctx id alts i v = WrE.checked c v (writeKind cfg ctx false id c k v) := by
  induction alts generalizing i with
  | nil => simp at hi
  | cons a alts ih =>
    cases a with
    | mk k' c' =>
      cases i with
      | zero =>
        simp only [List.getElem?_cons_zero, Option.some.injEq] at hi
        cases hi
        rw [writeAlts]
      | succ i =>
        rw [writeAlts]
        exact ih (by simpa using hi)

theorem checked_holds {c : Constraint} {v : Val} (h : Holds c v) (k : WrE Reason Unit) :
    WrE.checked c v k = k := by
  unfold WrE.checked
  rw [h]
  rfl

theorem writeField_selects {cfg : Cfg} {ctx : WCtx} {f : Field} {v : Val} {k : Kind} {u : Val}
    (h : SelectsW ctx.env f v k u) :
    ∃ m c, writeField cfg ctx f v = writeKind cfg ctx m f.id c k u := by
  cases h with
  | @plain id k c v => exact ⟨true, c, by rw [writeField]; rfl⟩
  | @maybe id k p v hp => exact ⟨false, .none, by rw [writeField, hp]; rfl⟩
  | @switch id d t ls alts c i v k c' ha hc =>
    refine ⟨false, c', ?_⟩
    simp only [writeField]
    rw [writeAlts_get ha, checked_holds hc]
    rfl
  | @union id d alts c i v k c' hd he ha hc =>
    refine ⟨false, c', ?_⟩
    cases d with
    | matchField a b c => exact absurd rfl (hd a b c)
    | matchCompute comp t ls =>
      simp only [writeField]
      rw [he, lift_ok_andThen]
      simp only [ne_eq, not_true_eq_false, if_false]
      rw [writeAlts_get ha, checked_holds hc]
      rfl
    | ladder ps =>
      simp only [writeField]
      rw [he, lift_ok_andThen]
      simp only [ne_eq, not_true_eq_false, if_false]
      rw [writeAlts_get ha, checked_holds hc]
      rfl

theorem emits_alts_get {cfg : Cfg} {ctx : WCtx} {id : String} {alts : List Alt} {i : Nat} {v : Val}
    {p : List Byte} (h : (writeAlts cfg ctx id alts i v).Emits p ()) :
    ∃ k c, alts[i]? = some (.mk k c) ∧ Holds c v := by
  induction alts generalizing i with
  | nil => rw [writeAlts] at h; exact ((WrE.emits_stuck _ _ _).1 h).elim
  | cons a alts ih =>
    cases a with
    | mk k c =>
      cases i with
      | zero =>
        rw [writeAlts, emits_checked] at h
        exact ⟨k, c, rfl, h.1⟩
      | succ i =>
        rw [writeAlts] at h
        obtain ⟨k, c, h1, h2⟩ := ih h
        exact ⟨k, c, by simpa using h1, h2⟩

/-- A field that is written: an absent optional, or something is selected. -/
theorem selects_of_emits {cfg : Cfg} {ctx : WCtx} {f : Field} {v : Val} {p : List Byte}
    (h : (writeField cfg ctx f v).Emits p ()) :
    (∃ id k pr, f = .maybe id k pr ∧ v = .absent ∧ pr.eval ctx.env = .ok false ∧ p = []) ∨
    ∃ k u, SelectsW ctx.env f v k u := by
  cases f with
  | plain id k c => exact .inr ⟨k, v, .plain⟩
  | maybe id k pr =>
    rw [writeField, WrE.emits_andThen] at h
    obtain ⟨b, q1, s1, rfl, h4, h5⟩ := h
    rw [WrE.emits_lift] at h4
    obtain ⟨rfl, hp⟩ := h4
    cases v with
    | present u =>
      cases b with
      | false => exact ((WrE.emits_err _ _ _).1 h5).elim
      | true => exact .inr ⟨k, u, .maybe hp⟩
    | absent =>
      cases b with
      | true => exact ((WrE.emits_err _ _ _).1 h5).elim
      | false =>
        refine .inl ⟨id, k, pr, rfl, rfl, hp, ?_⟩
        have := (WrE.emits_ok () () s1).1 h5
        simp [this]
    | _ => exact ((WrE.emits_stuck _ _ _).1 h5).elim
  | union id d alts c =>
    cases v with
    | var i u =>
      obtain ⟨h1, h2⟩ := emits_union h
      obtain ⟨k, c', h3, h4⟩ := emits_alts_get h1
      refine .inr ⟨k, u, ?_⟩
      cases d with
      | matchField a b c => exact .switch h3 h4
      | matchCompute a b c =>
        refine .union (by simp) ?_ h3 h4
        simpa using h2
      | ladder ps =>
        refine .union (by simp) ?_ h3 h4
        simpa using h2
    | _ => simp only [writeField] at h; exact ((WrE.emits_stuck _ _ _).1 h).elim

theorem verifyComputed_emits {cfg : Cfg} {env : Env} {comp : Calc} {n : Nat} {r : WrE Reason Unit}
    {p : List Byte} (h : (verifyComputed cfg env (.computed comp) n r).Emits p ()) :
    (LenSpec.computed comp).eval cfg env = .ok n ∧ r.Emits p () := by
  simp only [verifyComputed, WrE.emits_andThen, WrE.emits_lift] at h
  obtain ⟨x, q, s, rfl, ⟨rfl, h1⟩, h⟩ := h
  split at h
  · exact ((WrE.emits_err _ _ _).1 h).elim
  · rename_i hx
    simp only [Decidable.not_not] at hx
    subst hx
    exact ⟨h1, h⟩

end S2S
