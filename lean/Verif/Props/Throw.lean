import Verif.Model.Throw
import Verif.Props.Errors
import Verif.Spec.Demo
import Verif.Spec.Streams
/-
C137: streams that throw.
-/
namespace S2S.Props
open Spec Demo

/-! ## C137 -/

theorem tryOn_read {P : α → Prop} (S : InThrower ξ) {r : Rd α} (hs : r.Short P) (s : S.State) :
    ((r.tryOn S s).1 = .ends (r.runOn S.quiet s).1 ∧ (r.tryOn S s).2 = (r.runOn S.quiet s).2) ∨
    ∃ x s' a s1 n, r.tryOn S s = (.threw x, s') ∧ S.read s1 n = (.threw x, s') ∧ P a ∧
      r.runOn S.quiet s = (.done a, s') := by
  induction r generalizing s with
  | ret a => exact .inl ⟨rfl, rfl⟩
  | stuck w => exact .inl ⟨rfl, rfl⟩
  | alloc b k ih => exact ih hs s
  | read n k ih =>
    obtain ⟨⟨a, h1, h2⟩, h3⟩ := hs
    simp only [Rd.tryOn, Rd.runOn]
    rcases hr : S.read s n with ⟨bs | _ | x, s'⟩
    · have hq : S.quiet.read s n = (some bs, s') := by simp only [InThrower.quiet, hr]
      rw [hq]
      exact ih _ (h3 bs (S.len _ _ _ _ hr)) s'
    · have hq : S.quiet.read s n = (none, s') := by simp only [InThrower.quiet, hr]
      rw [hq]
      simp only [h1]
      exact .inl ⟨rfl, rfl⟩
    · have hq : S.quiet.read s n = (none, s') := by simp only [InThrower.quiet, hr]
      rw [hq]
      simp only [h1]
      exact .inr ⟨x, s', a, s, n, rfl, hr, h2, rfl⟩

theorem tryOn_write {P : α → Prop} (S : OutThrower ξ) {r : Wr α} (hs : r.Short P) (s : S.State) :
    ((r.tryOn S s).1 = .ends (r.runOn S.quiet s).1 ∧ (r.tryOn S s).2 = (r.runOn S.quiet s).2) ∨
    ∃ x s' a pre s1 bs, r.tryOn S s = (.threw x, s') ∧ (pre ++ bs) <+: r.out.2 ∧ Accepted S.quiet s pre s1 ∧
      S.write s1 bs = (.threw x, s') ∧ P a ∧ r.runOn S.quiet s = (.done a, s') := by
  induction r generalizing s with
  | ret a => exact .inl ⟨rfl, rfl⟩
  | stuck w => exact .inl ⟨rfl, rfl⟩
  | write bs k ih =>
    obtain ⟨⟨a, h1, h2⟩, h3⟩ := hs
    simp only [Wr.tryOn, Wr.runOn]
    rcases hr : S.write s bs with ⟨_ | _ | x, s'⟩
    · have hq : S.quiet.write s bs = (true, s') := by simp only [OutThrower.quiet, hr]
      rw [hq]
      rcases ih _ h3 s' with h | ⟨x, s2, a, pre, s1, cs, h4, h5, h6, h7⟩
      · exact .inl h
      · refine .inr ⟨x, s2, a, bs ++ pre, s1, cs, h4, ?_, .cons hq h6, h7⟩
        rw [List.append_assoc, Wr.out]
        exact (List.prefix_append_right_inj bs).2 h5
    · have hq : S.quiet.write s bs = (false, s') := by simp only [OutThrower.quiet, hr]
      rw [hq]
      simp only [h1]
      exact .inl ⟨rfl, rfl⟩
    · have hq : S.quiet.write s bs = (false, s') := by simp only [OutThrower.quiet, hr]
      rw [hq]
      simp only [h1]
      exact .inr ⟨x, s', a, [], s, bs, rfl, by simp [Wr.out], Accepted.nil (S := S.quiet) s, hr, h2, rfl⟩

/-- C137, reading: a cast from a stream that may throw ends as it does with the exceptions of the
stream switched off; or it ends in the exception of the last call it makes, the stream being left
as that call left it, and with exceptions switched off it reports `buffer_exhaustion`. -/
theorem C137_read (cfg : Cfg) (fs : List Field) (S : InThrower ξ) (s : S.State) :
    ((structCast cfg fs).tryOn S s).2 = ((structCast cfg fs).runOn S.quiet s).2 ∧
    (((structCast cfg fs).tryOn S s).1 = .ends ((structCast cfg fs).runOn S.quiet s).1 ∨
      ∃ x s1 n id, ((structCast cfg fs).tryOn S s).1 = .threw x ∧
        S.read s1 n = (.threw x, ((structCast cfg fs).tryOn S s).2) ∧
        ((structCast cfg fs).runOn S.quiet s).1 = .done (.error ⟨.bufferExhaustion, id⟩)) := by
  rcases tryOn_read S (short_structCast cfg fs) s with h | ⟨x, s', a, s1, n, h1, h2, h3, h4⟩
  · exact ⟨h.2, .inl h.1⟩
  · rcases a with ⟨r, id⟩ | a
    · obtain rfl : r = _ := h3
      exact ⟨by rw [h1, h4], .inr ⟨x, s1, n, _, by rw [h1], by rw [h1]; exact h2, by rw [h4]⟩⟩
    · exact h3.elim

/-- C137, writing: the same; what the stream has taken before it threw, and what it was given when
it threw, are the beginning of what the cast writes to a stream that takes everything. -/
theorem C137_write (cfg : Cfg) (fs : List Field) (vs : List Val) (S : OutThrower ξ) (s : S.State) :
    ((streamCast cfg fs vs).tryOn S s).2 = ((streamCast cfg fs vs).runOn S.quiet s).2 ∧
    (((streamCast cfg fs vs).tryOn S s).1 = .ends ((streamCast cfg fs vs).runOn S.quiet s).1 ∨
      ∃ x pre s1 bs id, ((streamCast cfg fs vs).tryOn S s).1 = .threw x ∧
        (pre ++ bs) <+: (streamCast cfg fs vs).run.2 ∧ Accepted S.quiet s pre s1 ∧
        S.write s1 bs = (.threw x, ((streamCast cfg fs vs).tryOn S s).2) ∧
        ((streamCast cfg fs vs).runOn S.quiet s).1 = .done (.error ⟨.bufferExhaustion, id⟩)) := by
  rcases tryOn_write S (wshort_streamCast cfg fs vs) s with h | ⟨x, s', a, pre, s1, bs, h1, hp, hacc, h2, h3, h4⟩
  · exact ⟨h.2, .inl h.1⟩
  · rcases a with ⟨r, id⟩ | a
    · obtain rfl : r = _ := h3
      exact ⟨by rw [h1, h4], .inr ⟨x, pre, s1, bs, _, by rw [h1], by rw [Wr.run_eq]; exact hp, hacc,
        by rw [h1]; exact h2, by rw [h4]⟩⟩
    · exact h3.elim

theorem tryOn_never_bad (S : InThrower ξ) (h : ∀ s n, (S.read s n).1 ≠ .bad) (r : Rd α) (s : S.State) :
    (∃ x, (r.tryOn S s).1 = .threw x) ∨ ∃ p o, r.Path p o ∧ (r.tryOn S s).1 = .ends o := by
  induction r generalizing s with
  | ret a => exact .inr ⟨[], _, ⟨rfl, rfl⟩, rfl⟩
  | stuck w => exact .inr ⟨[], _, ⟨rfl, rfl⟩, rfl⟩
  | alloc b k ih => exact ih s
  | read n k ih =>
    simp only [Rd.tryOn]
    rcases hr : S.read s n with ⟨bs | _ | x, s'⟩
    · rcases ih (some bs) s' with h1 | ⟨p, o, hp, h1⟩
      · exact .inl h1
      · exact .inr ⟨bs ++ p, o, ⟨bs, p, rfl, S.len _ _ _ _ hr, hp⟩, h1⟩
    · exact (h s n (by rw [hr])).elim
    · exact .inl ⟨x, rfl⟩

theorem tryOn_never_bad_write (S : OutThrower ξ) (h : ∀ s bs, (S.write s bs).1 ≠ .bad) (r : Wr α) (s : S.State) :
    (∃ x, (r.tryOn S s).1 = .threw x) ∨ (r.tryOn S s).1 = .ends r.out.1 := by
  induction r generalizing s with
  | ret a => exact .inr rfl
  | stuck w => exact .inr rfl
  | write bs k ih =>
    simp only [Wr.tryOn, Wr.out]
    rcases hr : S.write s bs with ⟨_ | _ | x, s'⟩
    · exact ih true s'
    · exact (h s bs (by rw [hr])).elim
    · exact .inl ⟨x, rfl⟩

/-- C137, of streams that always throw where they would go bad: the exception takes the place of
`buffer_exhaustion`, and of nothing else. -/
theorem C137_instead (cfg : Cfg) (fs : List Field) (S : InThrower ξ) (h : ∀ s n, (S.read s n).1 ≠ .bad)
    (s : S.State) :
    (∃ x, ((structCast cfg fs).tryOn S s).1 = .threw x) ↔
      ∃ id, ((structCast cfg fs).runOn S.quiet s).1 = .done (.error ⟨.bufferExhaustion, id⟩) := by
  constructor
  · rintro ⟨x, hx⟩
    rcases (C137_read cfg fs S s).2 with h1 | ⟨_, _, _, id, -, -, h1⟩
    · rw [h1] at hx; cases hx
    · exact ⟨id, h1⟩
  · rintro ⟨id, hid⟩
    rcases tryOn_never_bad S h (structCast cfg fs) s with h1 | ⟨p, o, hp, h1⟩
    · exact h1
    · rcases (C137_read cfg fs S s).2 with h2 | ⟨x, _, _, _, h2, -, -⟩
      · rw [h1] at h2
        cases h2
        rw [hid] at hp
        exact absurd rfl (Rd.full_path (full_readFields cfg fs _) hp)
      · exact ⟨x, h2⟩

theorem C137_instead_write (cfg : Cfg) (fs : List Field) (vs : List Val) (S : OutThrower ξ)
    (h : ∀ s bs, (S.write s bs).1 ≠ .bad) (s : S.State) :
    (∃ x, ((streamCast cfg fs vs).tryOn S s).1 = .threw x) ↔
      ∃ id, ((streamCast cfg fs vs).runOn S.quiet s).1 = .done (.error ⟨.bufferExhaustion, id⟩) := by
  constructor
  · rintro ⟨x, hx⟩
    rcases (C137_write cfg fs vs S s).2 with h1 | ⟨_, _, _, _, id, -, -, -, -, h1⟩
    · rw [h1] at hx; cases hx
    · exact ⟨id, h1⟩
  · rintro ⟨id, hid⟩
    rcases tryOn_never_bad_write S h (streamCast cfg fs vs) s with h1 | h1
    · exact h1
    · rcases (C137_write cfg fs vs S s).2 with h2 | ⟨x, _, _, _, _, h2, -⟩
      · rw [h1] at h2
        have h2 := Ended.ends.inj h2
        rw [hid] at h2
        obtain ⟨_, _, _, _, h3, _⟩ := fine_writeFields cfg fs ⟨fs, vs⟩ vs ⟨.bufferExhaustion, id⟩
          (Wr.out (streamCast cfg fs vs)).2 (Prod.ext h2 rfl)
        exact absurd rfl h3
      · exact ⟨x, h2⟩

/-! A byte string as a stream that throws when asked for more than is left, as
`std::istringstream` does after `exceptions(std::ios::failbit)`. -/

/-- Exceptions of the stream library. -/
inductive IosFailure
  | failure
  deriving DecidableEq

def throwingIn : InThrower IosFailure where
  State := List Byte
  read s n := if n ≤ s.length then (.bytes (s.take n), s.drop n) else (.threw .failure, [])
  len := by
    intro s n bs s' h
    split at h
    · cases h; simp; omega
    · cases h

/-- One that has room for so many bytes and throws when there is no more. -/
def throwingOut (room : Nat) : OutThrower IosFailure where
  State := List Byte
  write s bs := if s.length + bs.length ≤ room then (.taken, s ++ bs) else (.threw .failure, s)

example : (structCast be64 packet).tryOn throwingIn packetBytes = (.ends (.done (.ok packetParsed)), []) := rfl
example : (structCast be64 packet).tryOn throwingIn [0, 0, 0x12, 0x34, 0, 3, 7, 0, 1] = (.threw .failure, []) := rfl
example : (structCast be64 packet).runOn throwingIn.quiet ([0, 0, 0x12, 0x34, 0, 3, 7, 0, 1] : List Byte) =
    (.done (.error ⟨.bufferExhaustion, "data"⟩), ([] : List Byte)) := rfl
/-- Other errors are errors. -/
example : (structCast be64 packet).tryOn throwingIn [0, 0, 0x12, 0x35] =
    (.ends (.done (.error ⟨.validationFailure, "magic"⟩)), []) := rfl
example : (streamCast be64 packet packetVal).tryOn (throwingOut 10) ([] : List Byte) =
    (.threw .failure, packetBytes.take 9) := rfl
example : (streamCast be64 packet packetVal).tryOn (throwingOut 18) ([] : List Byte) =
    (.ends (.done (.ok ())), packetBytes) := rfl

/-- Which inputs make a cast from the throwing string throw. -/
example (cfg : Cfg) (fs : List Field) (inp : List Byte) :
    (∃ x, ((structCast cfg fs).tryOn throwingIn inp).1 = .threw x) ↔
      ∃ id, ((structCast cfg fs).runOn throwingIn.quiet inp).1 = .done (.error ⟨.bufferExhaustion, id⟩) :=
  C137_instead cfg fs throwingIn (fun s n h => by
    simp only [throwingIn] at h
    split at h <;> cases h) inp

example := C137_read be64 packet throwingIn [0, 0, 0x12, 0x34, 0, 3, 7, 0, 1]
example (n : Nat) := C137_write be64 packet packetVal (throwingOut n) ([] : List Byte)

/-- How much room keeps a write from throwing. -/
example (cfg : Cfg) (fs : List Field) (vs : List Val) (n : Nat) :
    (∃ x, ((streamCast cfg fs vs).tryOn (throwingOut n) ([] : List Byte)).1 = .threw x) ↔
      ∃ id, ((streamCast cfg fs vs).runOn (throwingOut n).quiet ([] : List Byte)).1 =
        .done (.error ⟨.bufferExhaustion, id⟩) :=
  C137_instead_write cfg fs vs (throwingOut n) (fun s bs h => by
    simp only [throwingOut] at h
    split at h <;> cases h) []

end S2S.Props
