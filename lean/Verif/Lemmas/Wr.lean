import Verif.Model.Stream
import Verif.Spec.Streams
/-
Reasoning about writing computations.
-/
namespace S2S
open Spec

namespace Wr

/-- The outcome and the bytes when every write is accepted. -/
def out : Wr α → Outcome α × List Byte
  | ret a => (.done a, [])
  | stuck w => (.stuck w, [])
  | write bs k => ((k true).out.1, bs ++ (k true).out.2)

/-- A refused write ends the computation at once, with a result in `P`. -/
def Short (P : α → Prop) : Wr α → Prop
  | ret _ => True
  | stuck _ => True
  | write _ k => (∃ a, k false = ret a ∧ P a) ∧ (k true).Short P

/-- Whatever the stream does, results are in `Q`. -/
def All (Q : α → Prop) : Wr α → Prop
  | ret a => Q a
  | stuck _ => True
  | write _ k => ∀ b, (k b).All Q

theorem runOn_listOut (w : Wr α) (s : List Byte) :
    w.runOn listOut s = (w.out.1, s ++ w.out.2) := by
  induction w generalizing s with
  | ret a => simp only [runOn, out, List.append_nil]; rfl
  | stuck w => simp only [runOn, out, List.append_nil]; rfl
  | write bs k ih =>
    simp only [runOn, out, listOut]
    rw [← List.append_assoc]
    exact ih true (s ++ bs)

theorem run_eq (w : Wr α) : w.run = w.out := by
  rw [run, runOn_listOut]
  simp

theorem out_bind (r : Wr α) (f : α → Wr β) :
    (r.bind f).out =
      match r.out with
      | (.done a, b) => ((f a).out.1, b ++ (f a).out.2)
      | (.stuck w, b) => (.stuck w, b) := by
  induction r with
  | ret a => simp [bind, out]
  | stuck w => simp [bind, out]
  | write bs k ih =>
    simp only [bind, out, ih]
    split <;> rename_i h <;> simp [h]

theorem short_bind {P : α → Prop} {Q : β → Prop} (r : Wr α) (f : α → Wr β)
    (hr : r.Short P) (hf : ∀ a, (f a).Short Q) (hp : ∀ a, P a → ∃ b, f a = ret b ∧ Q b) :
    (r.bind f).Short Q := by
  induction r with
  | ret a => exact hf a
  | stuck w => trivial
  | write bs k ih =>
    obtain ⟨⟨a, h1, h2⟩, h3⟩ := hr
    obtain ⟨b, h4, h5⟩ := hp a h2
    exact ⟨⟨b, by simp [h1, bind, h4], h5⟩, ih true h3⟩

theorem all_bind {Q : α → Prop} {Q' : β → Prop} (r : Wr α) (f : α → Wr β)
    (hr : r.All Q) (hf : ∀ a, Q a → (f a).All Q') : (r.bind f).All Q' := by
  induction r with
  | ret a => exact hf a hr
  | stuck w => trivial
  | write bs k ih => exact fun b => ih b (hr b)

theorem All.mono {Q Q' : α → Prop} {r : Wr α} (h : r.All Q) (hq : ∀ a, Q a → Q' a) :
    r.All Q' := by
  induction r with
  | ret a => exact hq a h
  | stuck w => trivial
  | write bs k ih => exact fun b => ih b (h b)

theorem bind_assoc (r : Wr α) (f : α → Wr β) (g : β → Wr γ) :
    (r.bind f).bind g = r.bind fun a => (f a).bind g := by
  induction r with
  | ret a => rfl
  | stuck w => rfl
  | write bs k ih => simp only [bind, ih]

theorem bind_ret (r : Wr α) : r.bind ret = r := by
  induction r with
  | ret a => rfl
  | stuck w => rfl
  | write bs k ih => simp only [bind, ih]

/-- On any stream: either every write was accepted, and outcome and bytes are
those of `out`; or a write was refused and the run ended there. -/
theorem runOn_cases {P : α → Prop} (S : OutStream) {r : Wr α} (hs : r.Short P) (s : S.State) :
    (∃ s', Accepted S s r.out.2 s' ∧ r.runOn S s = (r.out.1, s')) ∨
    (∃ a pre bs s1 s', P a ∧ (pre ++ bs) <+: r.out.2 ∧ Accepted S s pre s1 ∧
      S.write s1 bs = (false, s') ∧ r.runOn S s = (.done a, s')) := by
  induction r generalizing s with
  | ret a => exact .inl ⟨s, .nil s, rfl⟩
  | stuck w => exact .inl ⟨s, .nil s, rfl⟩
  | write bs k ih =>
    obtain ⟨⟨a, h1, h2⟩, h3⟩ := hs
    cases hw : S.write s bs with
    | mk b s1 =>
      cases b with
      | false =>
        refine .inr ⟨a, [], bs, s, s1, h2, ?_, .nil s, hw, ?_⟩
        · simp [out]
        · simp only [runOn, hw, h1]
      | true =>
        rcases ih true h3 s1 with ⟨s', hacc, hr⟩ | ⟨a, pre, bs', s2, s', hP, hp, hacc, hw', hr⟩
        · exact .inl ⟨s', .cons hw hacc, by simp only [runOn, hw, hr, out]⟩
        · refine .inr ⟨a, bs ++ pre, bs', s2, s', hP, ?_, .cons hw hacc, hw', ?_⟩
          · simp only [out, List.append_assoc]
            exact (List.prefix_append_right_inj bs).mpr hp
          · simp only [runOn, hw, hr]

theorem runOn_bind (S : OutStream) (r : Wr α) (f : α → Wr β) (s : S.State) :
    (r.bind f).runOn S s =
      match r.runOn S s with
      | (.done a, s') => (f a).runOn S s'
      | (.stuck w, s') => (.stuck w, s') := by
  induction r generalizing s with
  | ret a => rfl
  | stuck w => rfl
  | write bs k ih => simp only [bind, runOn, ih]

/-- Results on any stream satisfy what all results of the tree satisfy. -/
theorem runOn_all {Q : α → Prop} (S : OutStream) {r : Wr α} (h : r.All Q) (s : S.State) (a : α)
    (s' : S.State) (hr : r.runOn S s = (.done a, s')) : Q a := by
  induction r generalizing s with
  | ret b => cases hr; exact h
  | stuck w => cases hr
  | write bs k ih =>
    simp only [runOn] at hr
    exact ih _ (h _) _ hr

theorem out_all {Q : α → Prop} {r : Wr α} (h : r.All Q) (a : α) (bs : List Byte)
    (hr : r.out = (.done a, bs)) : Q a := by
  have := runOn_all listOut h ([] : List Byte) a bs
  apply this
  rw [runOn_listOut, hr, List.nil_append]
  rfl

end Wr

namespace WrE
variable {ε ε' α β : Type}

/-- Every write accepted, the computation succeeds having written `p`. -/
abbrev Emits (w : WrE ε α) (p : List Byte) (a : α) : Prop := Wr.out w = (.done (.ok a), p)

theorem out_andThen (r : WrE ε α) (f : α → WrE ε β) :
    Wr.out (r.andThen f) =
      match Wr.out r with
      | (.done (.ok a), b) => ((Wr.out (f a)).1, b ++ (Wr.out (f a)).2)
      | (.done (.error e), b) => (.done (.error e), b)
      | (.stuck w, b) => (.stuck w, b) := by
  rw [andThen, Wr.out_bind]
  cases Wr.out r with
  | mk o b =>
    cases o with
    | stuck w => rfl
    | done a => cases a <;> simp [Wr.out]

theorem out_mapErr (g : ε → ε') (r : WrE ε α) :
    Wr.out (r.mapErr g) =
      match Wr.out r with
      | (.done (.ok a), b) => (.done (.ok a), b)
      | (.done (.error e), b) => (.done (.error (g e)), b)
      | (.stuck w, b) => (.stuck w, b) := by
  rw [mapErr, Wr.map, Wr.out_bind]
  cases Wr.out r with
  | mk o b =>
    cases o with
    | stuck w => rfl
    | done a => cases a <;> simp [Wr.out]

@[simp] theorem out_ok (a : α) : Wr.out (WrE.ok a : WrE ε α) = (.done (.ok a), []) := rfl
@[simp] theorem out_err (e : ε) : Wr.out (WrE.err e : WrE ε α) = (.done (.error e), []) := rfl
@[simp] theorem out_stuck (w : Stuck) : Wr.out (Wr.stuck w : WrE ε α) = (.stuck w, []) := rfl

theorem emits_ok (a b : α) (p : List Byte) :
    Emits (WrE.ok a : WrE ε α) p b ↔ p = [] ∧ b = a := by
  simp only [Emits, out_ok, Prod.mk.injEq, Outcome.done.injEq, Except.ok.injEq]
  exact ⟨fun h => ⟨h.2.symm, h.1.symm⟩, fun h => ⟨h.2.symm, h.1.symm⟩⟩

theorem emits_err (e : ε) (b : α) (p : List Byte) :
    Emits (WrE.err e : WrE ε α) p b ↔ False := by simp [Emits]

theorem emits_stuck (w : Stuck) (b : α) (p : List Byte) :
    Emits (Wr.stuck w : WrE ε α) p b ↔ False := by simp [Emits]

theorem emits_andThen (r : WrE ε α) (f : α → WrE ε β) (p : List Byte) (b : β) :
    Emits (r.andThen f) p b ↔ ∃ a q s, p = q ++ s ∧ Emits r q a ∧ Emits (f a) s b := by
  simp only [Emits, out_andThen]
  constructor
  · intro h
    split at h
    · rename_i a q hr
      simp only [Prod.mk.injEq] at h
      exact ⟨a, q, (Wr.out (f a)).2, h.2.symm, hr, Prod.ext h.1 rfl⟩
    · cases h
    · cases h
  · rintro ⟨a, q, s, rfl, h1, h2⟩
    rw [h1]
    simp [h2]

theorem emits_mapErr (g : ε → ε') (r : WrE ε α) (p : List Byte) (b : α) :
    Emits (r.mapErr g) p b ↔ Emits r p b := by
  simp only [Emits, out_mapErr]
  constructor
  · intro h
    split at h
    · rename_i hr; cases h; exact hr
    · cases h
    · cases h
  · intro h; rw [h]

/-! `Short` -/

abbrev ShortE (P : ε → Prop) (r : WrE ε α) : Prop :=
  Wr.Short (fun | .ok _ => False | .error e => P e) r

theorem short_andThen {P : ε → Prop} {r : WrE ε α} {f : α → WrE ε β}
    (hr : ShortE P r) (hf : ∀ a, ShortE P (f a)) : ShortE P (r.andThen f) := by
  refine Wr.short_bind r _ hr ?_ ?_
  · rintro (a | a)
    · trivial
    · exact hf a
  · rintro (a | a) h
    · exact ⟨_, rfl, h⟩
    · exact h.elim

theorem short_mapErr {P : ε → Prop} {P' : ε' → Prop} {g : ε → ε'} {r : WrE ε α}
    (hr : ShortE P r) (hg : ∀ e, P e → P' (g e)) : ShortE P' (r.mapErr g) := by
  refine Wr.short_bind r _ hr ?_ ?_
  · intro a; trivial
  · rintro (a | a) h
    · exact ⟨_, rfl, hg a h⟩
    · exact h.elim

/-! `All` -/

abbrev AllE (E : ε → Prop) (r : WrE ε α) : Prop :=
  Wr.All (fun | .ok _ => True | .error e => E e) r

theorem all_andThen {E : ε → Prop} {r : WrE ε α} {f : α → WrE ε β}
    (hr : AllE E r) (hf : ∀ a, AllE E (f a)) : AllE E (r.andThen f) := by
  refine Wr.all_bind r _ hr ?_
  rintro (a | a) h
  · exact h
  · exact hf a

theorem all_mapErr {E : ε → Prop} {E' : ε' → Prop} {r : WrE ε α} {g : ε → ε'}
    (hr : AllE E r) (hg : ∀ e, E e → E' (g e)) : AllE E' (r.mapErr g) := by
  refine Wr.all_bind r _ hr ?_
  rintro (a | a) h
  · exact hg a h
  · trivial

theorem runOn_andThen (S : OutStream) (r : WrE ε α) (f : α → WrE ε β) (s : S.State) :
    Wr.runOn S (r.andThen f) s =
      match Wr.runOn S r s with
      | (.done (.ok a), s') => Wr.runOn S (f a) s'
      | (.done (.error e), s') => (.done (.error e), s')
      | (.stuck w, s') => (.stuck w, s') := by
  rw [andThen, Wr.runOn_bind]
  cases Wr.runOn S r s with
  | mk o s' =>
    cases o with
    | done a => cases a <;> rfl
    | stuck w => rfl

theorem runOn_mapErr (S : OutStream) (g : ε → ε') (r : WrE ε α) (s : S.State) :
    Wr.runOn S (r.mapErr g) s =
      match Wr.runOn S r s with
      | (.done (.ok a), s') => (.done (.ok a), s')
      | (.done (.error e), s') => (.done (.error (g e)), s')
      | (.stuck w, s') => (.stuck w, s') := by
  rw [mapErr, Wr.map, Wr.runOn_bind]
  cases Wr.runOn S r s with
  | mk o s' =>
    cases o with
    | done a => cases a <;> rfl
    | stuck w => rfl

end WrE
end S2S
