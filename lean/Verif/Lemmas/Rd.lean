import Verif.Model.Stream
/-
Reasoning about reading computations: paths through the tree.
-/
namespace S2S

namespace Rd

/-- `Path r p o`: if every read is satisfied with the next bytes of `p`, the
computation ends in `o` having used exactly `p`. -/
def Path : Rd α → List Byte → Outcome α → Prop
  | ret a, p, o => p = [] ∧ o = .done a
  | stuck w, p, o => p = [] ∧ o = .stuck w
  | read n k, p, o => ∃ q r, p = q ++ r ∧ q.length = n ∧ (k (some q)).Path r o
  | alloc _ k, p, o => k.Path p o

/-- Every failed read ends the computation at once, with a result in `P`. -/
def Short (P : α → Prop) : Rd α → Prop
  | ret _ => True
  | stuck _ => True
  | read n k => (∃ a, k none = ret a ∧ P a) ∧ ∀ q, q.length = n → (k (some q)).Short P
  | alloc _ k => k.Short P

/-- Whatever the stream delivers, results are in `Q`, allocations in `A`,
undefined behaviour in `S`. -/
def All (Q : α → Prop) (A : Nat → Prop) (S : Stuck → Prop) : Rd α → Prop
  | ret a => Q a
  | stuck w => S w
  | read n k => (k none).All Q A S ∧ ∀ q, q.length = n → (k (some q)).All Q A S
  | alloc b k => A b ∧ k.All Q A S

/-! ### bind -/

theorem path_bind (r : Rd α) (f : α → Rd β) (p : List Byte) (o : Outcome β) :
    (r.bind f).Path p o ↔
      (∃ w, r.Path p (.stuck w) ∧ o = .stuck w) ∨
      (∃ a q s, p = q ++ s ∧ r.Path q (.done a) ∧ (f a).Path s o) := by
  induction r generalizing p with
  | ret a =>
    simp only [bind, Path]
    constructor
    · intro h; exact .inr ⟨a, [], p, rfl, ⟨rfl, rfl⟩, h⟩
    · rintro (⟨w, ⟨_, h⟩, _⟩ | ⟨a', q, s, rfl, ⟨rfl, h⟩, h2⟩)
      · cases h
      · cases h; simpa using h2
  | stuck w =>
    simp only [bind, Path]
    constructor
    · rintro ⟨rfl, rfl⟩; exact .inl ⟨w, ⟨rfl, rfl⟩, rfl⟩
    · rintro (⟨w', ⟨rfl, h⟩, rfl⟩ | ⟨a', q, s, rfl, ⟨rfl, h⟩, h2⟩)
      · cases h; exact ⟨rfl, rfl⟩
      · cases h
  | read n k ih =>
    simp only [bind, Path, ih]
    constructor
    · rintro ⟨q, r, rfl, hq, (⟨w, h1, rfl⟩ | ⟨a, q', s, rfl, h1, h2⟩)⟩
      · exact .inl ⟨w, ⟨q, r, rfl, hq, h1⟩, rfl⟩
      · exact .inr ⟨a, q ++ q', s, by simp, ⟨q, q', rfl, hq, h1⟩, h2⟩
    · rintro (⟨w, ⟨q, r, rfl, hq, h1⟩, rfl⟩ | ⟨a, _, s, rfl, ⟨q, q', rfl, hq, h1⟩, h2⟩)
      · exact ⟨q, r, rfl, hq, .inl ⟨w, h1, rfl⟩⟩
      · exact ⟨q, q' ++ s, by simp, hq, .inr ⟨a, q', s, rfl, h1, h2⟩⟩
  | alloc b k ih => simpa only [bind, Path] using ih p

theorem short_bind {P : α → Prop} {Q : β → Prop} (r : Rd α) (f : α → Rd β)
    (hr : r.Short P) (hf : ∀ a, (f a).Short Q)
    (hPQ : ∀ a, P a → ∃ b, f a = ret b ∧ Q b) : (r.bind f).Short Q := by
  induction r with
  | ret a => exact hf a
  | stuck w => trivial
  | read n k ih =>
    obtain ⟨⟨a, h1, h2⟩, h3⟩ := hr
    refine ⟨?_, fun q hq => ih _ (h3 q hq)⟩
    simp only [h1, bind]
    exact hPQ a h2
  | alloc b k ih => exact ih hr

theorem all_bind {Q : α → Prop} {Q' : β → Prop} {A : Nat → Prop} {S : Stuck → Prop}
    (r : Rd α) (f : α → Rd β) (hr : r.All Q A S) (hf : ∀ a, Q a → (f a).All Q' A S) :
    (r.bind f).All Q' A S := by
  induction r with
  | ret a => exact hf a hr
  | stuck w => exact hr
  | read n k ih => exact ⟨ih _ hr.1, fun q hq => ih _ (hr.2 q hq)⟩
  | alloc b k ih => exact ⟨hr.1, ih hr.2⟩

theorem All.mono {Q Q' : α → Prop} {A A' : Nat → Prop} {S S' : Stuck → Prop} {r : Rd α}
    (h : r.All Q A S) (hQ : ∀ a, Q a → Q' a) (hA : ∀ b, A b → A' b) (hS : ∀ w, S w → S' w) :
    r.All Q' A' S' := by
  induction r with
  | ret a => exact hQ a h
  | stuck w => exact hS w h
  | read n k ih => exact ⟨ih _ h.1, fun q hq => ih _ (h.2 q hq)⟩
  | alloc b k ih => exact ⟨hA b h.1, ih h.2⟩

theorem all_true (r : Rd α) : r.All (fun _ => True) (fun _ => True) (fun _ => True) := by
  induction r with
  | ret a => trivial
  | stuck w => trivial
  | read n k ih => exact ⟨ih _, fun q _ => ih _⟩
  | alloc b k ih => exact ⟨trivial, ih⟩

theorem All.and {Q Q' : α → Prop} {A A' : Nat → Prop} {S S' : Stuck → Prop} {r : Rd α}
    (h : r.All Q A S) (h' : r.All Q' A' S') :
    r.All (fun a => Q a ∧ Q' a) (fun b => A b ∧ A' b) (fun w => S w ∧ S' w) := by
  induction r with
  | ret a => exact ⟨h, h'⟩
  | stuck w => exact ⟨h, h'⟩
  | read n k ih => exact ⟨ih _ h.1 h'.1, fun q hq => ih _ (h.2 q hq) (h'.2 q hq)⟩
  | alloc b k ih => exact ⟨⟨h.1, h'.1⟩, ih h.2 h'.2⟩

/-! ### monad laws -/

theorem bind_assoc (r : Rd α) (f : α → Rd β) (g : β → Rd γ) :
    (r.bind f).bind g = r.bind fun a => (f a).bind g := by
  induction r with
  | ret a => rfl
  | stuck w => rfl
  | read n k ih => simp only [bind, ih]
  | alloc b k ih => simp only [bind, ih]

theorem bind_ret (r : Rd α) : r.bind ret = r := by
  induction r with
  | ret a => rfl
  | stuck w => rfl
  | read n k ih => simp only [bind, ih]
  | alloc b k ih => simp only [bind, ih]

/-! ### determinism -/

/-- Two paths whose inputs are prefixes of a common input coincide. -/
theorem path_unique (r : Rd α) (p p' x x' : List Byte) (o o' : Outcome α)
    (h : r.Path p o) (h' : r.Path p' o') (he : p ++ x = p' ++ x') : p = p' ∧ o = o' := by
  induction r generalizing p p' with
  | ret a => obtain ⟨rfl, rfl⟩ := h; obtain ⟨rfl, rfl⟩ := h'; exact ⟨rfl, rfl⟩
  | stuck w => obtain ⟨rfl, rfl⟩ := h; obtain ⟨rfl, rfl⟩ := h'; exact ⟨rfl, rfl⟩
  | read n k ih =>
    obtain ⟨q, s, rfl, hq, h⟩ := h
    obtain ⟨q', s', rfl, hq', h'⟩ := h'
    rw [List.append_assoc, List.append_assoc] at he
    obtain ⟨rfl, he'⟩ := List.append_inj he (by omega)
    obtain ⟨rfl, rfl⟩ := ih _ s s' h h' he'
    exact ⟨rfl, rfl⟩
  | alloc b k ih => exact ih _ _ h h' he

theorem path_fun (r : Rd α) {p : List Byte} {o o' : Outcome α}
    (h : r.Path p o) (h' : r.Path p o') : o = o' :=
  (path_unique r p p [] [] o o' h h' rfl).2

/-! ### running on a byte string -/

theorem run_ret (a : α) (inp : List Byte) : (ret a).run inp = (.done a, inp) := rfl
theorem run_stuck (w : Stuck) (inp : List Byte) : (stuck w : Rd α).run inp = (.stuck w, inp) := rfl
theorem run_alloc (b : Nat) (k : Rd α) (inp : List Byte) : (alloc b k).run inp = k.run inp := rfl
theorem run_read (n : Nat) (k : Option (List Byte) → Rd α) (inp : List Byte) :
    (read n k).run inp =
      if n ≤ inp.length then (k (some (inp.take n))).run (inp.drop n) else (k none).run inp := by
  simp only [run, runOn, listIn]
  split <;> rfl

theorem run_of_path {r : Rd α} {p : List Byte} {o : Outcome α} (h : r.Path p o)
    (rest : List Byte) : r.run (p ++ rest) = (o, rest) := by
  induction r generalizing p with
  | ret a => obtain ⟨rfl, rfl⟩ := h; rfl
  | stuck w => obtain ⟨rfl, rfl⟩ := h; rfl
  | read n k ih =>
    obtain ⟨q, s, rfl, hq, h⟩ := h
    rw [run_read, if_pos (by simp; omega)]
    subst hq
    simp only [List.append_assoc, List.take_left, List.drop_left]
    exact ih _ h
  | alloc b k ih => exact ih h

/-- On a byte string, either all reads are satisfied, or the run ends at the first
one that is not, with a result in `P`. -/
theorem run_cases {P : α → Prop} {r : Rd α} (hs : r.Short P) (inp : List Byte) :
    (∃ p rest o, inp = p ++ rest ∧ r.Path p o ∧ r.run inp = (o, rest)) ∨
    (∃ a rest, P a ∧ r.run inp = (.done a, rest) ∧
      ∀ p x o, r.Path p o → inp ≠ p ++ x) := by
  induction r generalizing inp with
  | ret a => exact .inl ⟨[], inp, _, rfl, ⟨rfl, rfl⟩, rfl⟩
  | stuck w => exact .inl ⟨[], inp, _, rfl, ⟨rfl, rfl⟩, rfl⟩
  | read n k ih =>
    obtain ⟨⟨a, h1, h2⟩, h3⟩ := hs
    rw [run_read]
    by_cases hn : n ≤ inp.length
    · rw [if_pos hn]
      have hl : (inp.take n).length = n := by simp; omega
      rcases ih _ (h3 _ hl) (inp.drop n) with ⟨p, rest, o, e, hp, hr⟩ | ⟨a, rest, hP, hr, hno⟩
      · exact .inl ⟨inp.take n ++ p, rest, o,
          by rw [List.append_assoc, ← e, List.take_append_drop], ⟨_, p, rfl, hl, hp⟩, hr⟩
      · refine .inr ⟨a, rest, hP, hr, ?_⟩
        rintro p x o ⟨q, s, rfl, hq, h⟩ rfl
        subst hq
        rw [List.append_assoc, List.take_left, List.drop_left] at hno
        exact hno s x o h rfl
    · rw [if_neg hn, h1]
      refine .inr ⟨a, inp, h2, rfl, ?_⟩
      rintro p x o ⟨q, s, rfl, hq, h⟩ rfl
      simp at hn
      omega
  | alloc b k ih => exact ih hs inp

end Rd

/-! ### `RdE` -/

namespace RdE

variable {ε ε' α β : Type}

/-- `r` succeeds with `a`, consuming exactly `p`. -/
abbrev Gives (r : RdE ε α) (p : List Byte) (a : α) : Prop := Rd.Path r p (.done (.ok a))

@[simp] theorem gives_ok (a b : α) (p : List Byte) :
    Gives (RdE.ok a : RdE ε α) p b ↔ p = [] ∧ b = a := by
  simp [Gives, RdE.ok, Rd.Path]

@[simp] theorem gives_err (e : ε) (b : α) (p : List Byte) :
    Gives (RdE.err e : RdE ε α) p b ↔ False := by
  simp [Gives, RdE.err, Rd.Path]

@[simp] theorem gives_stuck (w : Stuck) (b : α) (p : List Byte) :
    Gives (Rd.stuck w : RdE ε α) p b ↔ False := by
  simp [Gives, Rd.Path]

theorem gives_read (n : Nat) (k : Option (List Byte) → RdE ε α) (p : List Byte) (b : α) :
    Gives (Rd.read n k : RdE ε α) p b ↔
      ∃ q r, p = q ++ r ∧ q.length = n ∧ Gives (k (some q)) r b := Iff.rfl

theorem gives_alloc (n : Nat) (k : RdE ε α) (p : List Byte) (b : α) :
    Gives (Rd.alloc n k : RdE ε α) p b ↔ Gives k p b := Iff.rfl

theorem gives_andThen (r : RdE ε α) (f : α → RdE ε β) (p : List Byte) (b : β) :
    Gives (r.andThen f) p b ↔ ∃ a q s, p = q ++ s ∧ Gives r q a ∧ Gives (f a) s b := by
  simp only [Gives, andThen, Rd.path_bind]
  constructor
  · rintro (⟨w, _, h⟩ | ⟨a, q, s, rfl, h1, h2⟩)
    · cases h
    · cases a with
      | ok a => exact ⟨a, q, s, rfl, h1, h2⟩
      | error e => cases h2.2
  · rintro ⟨a, q, s, rfl, h1, h2⟩
    exact .inr ⟨.ok a, q, s, rfl, h1, h2⟩

theorem gives_mapErr (g : ε → ε') (r : RdE ε α) (p : List Byte) (b : α) :
    Gives (r.mapErr g) p b ↔ Gives r p b := by
  simp only [Gives, mapErr, Rd.map, Rd.path_bind]
  constructor
  · rintro (⟨w, _, h⟩ | ⟨a, q, s, rfl, h1, h2⟩)
    · cases h
    · obtain ⟨rfl, h2⟩ := h2
      cases a with
      | ok a => cases h2; simpa using h1
      | error e => cases h2
  · intro h
    exact .inr ⟨.ok b, p, [], by simp, h, rfl, rfl⟩

theorem gives_mapOk (g : α → β) (r : RdE ε α) (p : List Byte) (b : β) :
    Gives (r.mapOk g) p b ↔ ∃ a, b = g a ∧ Gives r p a := by
  simp only [mapOk, gives_andThen, gives_ok]
  constructor
  · rintro ⟨a, q, s, rfl, h, rfl, rfl⟩; exact ⟨a, rfl, by simpa using h⟩
  · rintro ⟨a, rfl, h⟩; exact ⟨a, p, [], by simp, h, rfl, rfl⟩

/-- An error of the computation, all reads satisfied. -/
abbrev Fails (r : RdE ε α) (p : List Byte) (e : ε) : Prop := Rd.Path r p (.done (.error e))

theorem fails_andThen (r : RdE ε α) (f : α → RdE ε β) (p : List Byte) (e : ε) :
    Fails (r.andThen f) p e ↔
      Fails r p e ∨ ∃ a q s, p = q ++ s ∧ Gives r q a ∧ Fails (f a) s e := by
  simp only [Fails, Gives, andThen, Rd.path_bind]
  constructor
  · rintro (⟨w, _, h⟩ | ⟨a, q, s, rfl, h1, h2⟩)
    · cases h
    · cases a with
      | ok a => exact .inr ⟨a, q, s, rfl, h1, h2⟩
      | error e' => obtain ⟨rfl, h2⟩ := h2; cases h2; exact .inl (by simpa using h1)
  · rintro (h | ⟨a, q, s, rfl, h1, h2⟩)
    · exact .inr ⟨.error e, p, [], by simp, h, rfl, rfl⟩
    · exact .inr ⟨.ok a, q, s, rfl, h1, h2⟩

theorem fails_mapErr (g : ε → ε') (r : RdE ε α) (p : List Byte) (e : ε') :
    Fails (r.mapErr g) p e ↔ ∃ e', e = g e' ∧ Fails r p e' := by
  simp only [Fails, mapErr, Rd.map, Rd.path_bind]
  constructor
  · rintro (⟨w, _, h⟩ | ⟨a, q, s, rfl, h1, h2⟩)
    · cases h
    · obtain ⟨rfl, h2⟩ := h2
      cases a with
      | ok a => cases h2
      | error e' => cases h2; exact ⟨e', rfl, by simpa using h1⟩
  · rintro ⟨e', rfl, h⟩
    exact .inr ⟨.error e', p, [], by simp, h, rfl, rfl⟩

/-! ### `Short` -/

/-- A failed read ends the computation with an error in `P`. -/
abbrev ShortE (P : ε → Prop) (r : RdE ε α) : Prop :=
  Rd.Short (fun | .ok _ => False | .error e => P e) r

theorem short_ok (P : ε → Prop) (a : α) : ShortE P (RdE.ok a : RdE ε α) := trivial
theorem short_err (P : ε → Prop) (e : ε) : ShortE P (RdE.err e : RdE ε α) := trivial
theorem short_stuck (P : ε → Prop) (w : Stuck) : ShortE P (Rd.stuck w : RdE ε α) := trivial

theorem short_andThen {P : ε → Prop} {r : RdE ε α} {f : α → RdE ε β}
    (hr : ShortE P r) (hf : ∀ a, ShortE P (f a)) : ShortE P (r.andThen f) := by
  refine Rd.short_bind r _ hr ?_ ?_
  · rintro (a | a)
    · trivial
    · exact hf a
  · rintro (a | a) h
    · exact ⟨_, rfl, h⟩
    · exact h.elim

theorem short_mapErr {P : ε → Prop} {P' : ε' → Prop} {g : ε → ε'} {r : RdE ε α}
    (hr : ShortE P r) (hg : ∀ e, P e → P' (g e)) : ShortE P' (r.mapErr g) := by
  refine Rd.short_bind r _ hr ?_ ?_
  · intro a; trivial
  · rintro (a | a) h
    · exact ⟨_, rfl, hg a h⟩
    · exact h.elim

theorem short_mapOk {P : ε → Prop} {g : α → β} {r : RdE ε α}
    (hr : ShortE P r) : ShortE P (r.mapOk g) :=
  short_andThen hr fun _ => trivial

/-! ### `All` -/

/-- Results, errors, allocations and undefined behaviour, whatever the stream. -/
abbrev AllE (Q : α → Prop) (E : ε → Prop) (A : Nat → Prop) (S : Stuck → Prop)
    (r : RdE ε α) : Prop :=
  Rd.All (fun | .ok a => Q a | .error e => E e) A S r

theorem all_andThen {Q : α → Prop} {Q' : β → Prop} {E : ε → Prop} {A : Nat → Prop}
    {S : Stuck → Prop} {r : RdE ε α} {f : α → RdE ε β}
    (hr : AllE Q E A S r) (hf : ∀ a, Q a → AllE Q' E A S (f a)) :
    AllE Q' E A S (r.andThen f) := by
  refine Rd.all_bind r _ hr ?_
  rintro (a | a) h
  · exact h
  · exact hf a h

theorem all_mapErr {Q : α → Prop} {E : ε → Prop} {E' : ε' → Prop} {A : Nat → Prop}
    {S : Stuck → Prop} {r : RdE ε α} {g : ε → ε'}
    (hr : AllE Q E A S r) (hg : ∀ e, E e → E' (g e)) : AllE Q E' A S (r.mapErr g) := by
  refine Rd.all_bind r _ hr ?_
  rintro (a | a) h
  · exact hg a h
  · exact h

theorem all_mapOk {Q : α → Prop} {Q' : β → Prop} {E : ε → Prop} {A : Nat → Prop}
    {S : Stuck → Prop} {r : RdE ε α} {g : α → β}
    (hr : AllE Q E A S r) (hg : ∀ a, Q a → Q' (g a)) : AllE Q' E A S (r.mapOk g) :=
  all_andThen hr fun a h => hg a h

end RdE
end S2S
