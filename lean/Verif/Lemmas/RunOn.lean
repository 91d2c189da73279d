import Verif.Lemmas.Rd
import Verif.Spec.Streams
/-
Running reading computations on arbitrary streams.
-/
namespace S2S
open Spec

theorem Delivered.trans {S : InStream} {s s' s'' : S.State} {p q : List Byte}
    (h : Delivered S s p s') (h' : Delivered S s' q s'') : Delivered S s (p ++ q) s'' := by
  induction h with
  | nil s => exact h'
  | cons h1 _ ih => rw [List.append_assoc]; exact .cons h1 (ih h')

/-- The result is in `Q`, or the undefined behaviour in `U`. -/
def Outcome.Sat (Q : α → Prop) (U : Stuck → Prop) : Outcome α → Prop
  | .done a => Q a
  | .stuck w => U w

namespace Rd

theorem runOn_bind (S : InStream) (r : Rd α) (f : α → Rd β) (s : S.State) :
    (r.bind f).runOn S s =
      match r.runOn S s with
      | (.done a, s') => (f a).runOn S s'
      | (.stuck w, s') => (.stuck w, s') := by
  induction r generalizing s with
  | ret a => rfl
  | stuck w => rfl
  | read n k ih => simp only [bind, runOn, ih]
  | alloc b k ih => simp only [bind, runOn, ih]

/-- On any stream: either all reads were satisfied and the run followed a path, or
a read failed and the run ended there. -/
theorem runOn_cases {P : α → Prop} (S : InStream) {r : Rd α} (hs : r.Short P) (s : S.State) :
    (∃ p o s', r.Path p o ∧ Delivered S s p s' ∧ r.runOn S s = (o, s')) ∨
    (∃ a p s1 n s', P a ∧ Delivered S s p s1 ∧ S.read s1 n = (none, s') ∧
      r.runOn S s = (.done a, s')) := by
  induction r generalizing s with
  | ret a => exact .inl ⟨[], _, s, ⟨rfl, rfl⟩, .nil s, rfl⟩
  | stuck w => exact .inl ⟨[], _, s, ⟨rfl, rfl⟩, .nil s, rfl⟩
  | read n k ih =>
    obtain ⟨⟨a, h1, h2⟩, h3⟩ := hs
    cases hr : S.read s n with
    | mk o s' =>
      cases o with
      | none =>
        refine .inr ⟨a, [], s, n, s', h2, .nil s, hr, ?_⟩
        simp only [runOn, hr, h1]
      | some bs =>
        have hl := S.len s n bs s' hr
        rcases ih _ (h3 bs hl) s' with ⟨p, o, s2, hp, hd, he⟩ | ⟨a, p, s1, m, s2, hP, hd, hm, he⟩
        · exact .inl ⟨bs ++ p, o, s2, ⟨bs, p, rfl, hl, hp⟩, .cons hr hd, by simp only [runOn, hr, he]⟩
        · exact .inr ⟨a, bs ++ p, s1, m, s2, hP, .cons hr hd, hm, by simp only [runOn, hr, he]⟩
  | alloc b k ih => exact ih hs s

/-- On a healthy stream that abides by the contract the result is the one on the
plain byte string; and unless a read failed, so is what is left. -/
theorem runOn_contract {P : α → Prop} {S : InStream} {content : S.State → List Byte}
    {good : S.State → Prop} (hS : InContract S content good) {r : Rd α} (hs : r.Short P)
    (s : S.State) (hg : good s) :
    (r.runOn S s).1 = (r.run (content s)).1 ∧
      (good (r.runOn S s).2 → content (r.runOn S s).2 = (r.run (content s)).2) := by
  induction r generalizing s with
  | ret a => exact ⟨rfl, fun _ => rfl⟩
  | stuck w => exact ⟨rfl, fun _ => rfl⟩
  | read n k ih =>
    obtain ⟨⟨a, h1, h2⟩, h3⟩ := hs
    rw [run_read]
    by_cases hn : n ≤ (content s).length
    · obtain ⟨s', hr, hg', hc⟩ := hS.deliver s n hg hn
      have hl := S.len s n _ s' hr
      rw [if_pos hn]
      simp only [runOn, hr]
      have := ih _ (h3 _ hl) s' hg'
      rwa [hc] at this
    · obtain ⟨s', hr, hg'⟩ := hS.exhaust s n hg (by omega)
      rw [if_neg hn]
      simp only [runOn, hr, h1, run_ret, true_and]
      exact fun h => absurd h hg'
  | alloc b k ih => exact ih hs s hg

/-- Allocations on any stream satisfy what all allocations of the tree satisfy. -/
theorem allocsOn_all {Q : α → Prop} {A : Nat → Prop} {U : Stuck → Prop} (S : InStream) {r : Rd α}
    (h : r.All Q A U) (s : S.State) : ∀ b ∈ r.allocsOn S s, A b := by
  induction r generalizing s with
  | ret a => simp [allocsOn]
  | stuck w => simp [allocsOn]
  | read n k ih =>
    cases hr : S.read s n with
    | mk o s' =>
      cases o with
      | none => simp only [allocsOn, hr]; exact ih _ h.1 s'
      | some bs => simp only [allocsOn, hr]; exact ih _ (h.2 bs (S.len s n bs s' hr)) s'
  | alloc b k ih =>
    simp only [allocsOn, List.mem_cons, forall_eq_or_imp]
    exact ⟨h.1, ih h.2 s⟩

/-- Results on any stream satisfy what all results of the tree satisfy. -/
theorem runOn_all {Q : α → Prop} {A : Nat → Prop} {U : Stuck → Prop} (S : InStream) {r : Rd α}
    (h : r.All Q A U) (s : S.State) :
    (r.runOn S s).1.Sat Q U := by
  induction r generalizing s with
  | ret a => exact h
  | stuck w => exact h
  | read n k ih =>
    cases hr : S.read s n with
    | mk o s' =>
      cases o with
      | none => simp only [runOn, hr]; exact ih _ h.1 s'
      | some bs => simp only [runOn, hr]; exact ih _ (h.2 bs (S.len s n bs s' hr)) s'
  | alloc b k ih => exact ih h.2 s

/-- What all results satisfy, a path's result does. -/
theorem path_all {Q : α → Prop} {A : Nat → Prop} {U : Stuck → Prop} {r : Rd α}
    (h : r.All Q A U) {p : List Byte} {o : Outcome α} (hp : r.Path p o) :
    o.Sat Q U := by
  induction r generalizing p with
  | ret a => obtain ⟨_, rfl⟩ := hp; exact h
  | stuck w => obtain ⟨_, rfl⟩ := hp; exact h
  | read n k ih =>
    obtain ⟨q, s, _, hq, hp⟩ := hp
    exact ih _ (h.2 q hq) hp
  | alloc b k ih => exact ih h.2 hp

end Rd

/-! `andThen` on streams. -/

theorem RdE.runOn_andThen (S : InStream) (r : RdE ε α) (f : α → RdE ε β) (s : S.State) :
    Rd.runOn S (r.andThen f) s =
      match Rd.runOn S r s with
      | (.done (.ok a), s') => Rd.runOn S (f a) s'
      | (.done (.error e), s') => (.done (.error e), s')
      | (.stuck w, s') => (.stuck w, s') := by
  rw [RdE.andThen, Rd.runOn_bind]
  cases Rd.runOn S r s with
  | mk o s' =>
    cases o with
    | done a => cases a <;> rfl
    | stuck w => rfl

theorem RdE.runOn_mapErr (S : InStream) (g : ε → ε') (r : RdE ε α) (s : S.State) :
    Rd.runOn S (r.mapErr g) s =
      match Rd.runOn S r s with
      | (.done (.ok a), s') => (.done (.ok a), s')
      | (.done (.error e), s') => (.done (.error (g e)), s')
      | (.stuck w, s') => (.stuck w, s') := by
  rw [RdE.mapErr, Rd.map, Rd.runOn_bind]
  cases Rd.runOn S r s with
  | mk o s' =>
    cases o with
    | done a => cases a <;> rfl
    | stuck w => rfl

end S2S
