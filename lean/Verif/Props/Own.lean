import Verif.Lemmas.Own
import Verif.Props.Meta
import Verif.Props.Unsent
/-
C156: schemas whose callables are told of their own fields.
-/
namespace S2S.Props
open Spec Demo Meta

/-! ### Which schemas these are -/

theorem declaredUpTo_cons {f : Field} {fs : List Field} {i : Nat} {d : String} :
    DeclaredUpTo (f :: fs) (i + 1) d ↔ f.id = d ∨ DeclaredUpTo fs i d := by
  constructor
  · rintro ⟨j, g, hj, hg, rfl⟩
    cases j with
    | zero => rw [at_cons_zero hg]; exact .inl rfl
    | succ j => exact .inr ⟨j, g, by omega, by simpa [At] using hg, rfl⟩
  · rintro (rfl | ⟨j, g, hj, hg, rfl⟩)
    · exact ⟨0, f, by omega, rfl, rfl⟩
    · exact ⟨j + 1, g, by omega, by simpa [At] using hg, rfl⟩

mutual
theorem upToSelfKind_iff : (k : Kind) → (upToSelfKind k = true ↔ EveryKind Upward k)
  | .record fs => by
      simp only [upToSelfKind, EveryKind, upToSelf_iff [] fs, Upward]; simp [and_assoc]
  | .arrRec fs _ => by
      simp only [upToSelfKind, EveryKind, upToSelf_iff [] fs, Upward]; simp [and_assoc]
  | .vecRec fs _ _ _ => by
      simp only [upToSelfKind, EveryKind, upToSelf_iff [] fs, Upward]; simp [and_assoc]
  | .num _ _ => by simp [upToSelfKind, EveryKind]
  | .fbuf _ _ => by simp [upToSelfKind, EveryKind]
  | .fstr _ => by simp [upToSelfKind, EveryKind]
  | .vec _ _ _ => by simp [upToSelfKind, EveryKind]
theorem upToSelfField_iff : (f : Field) → (upToSelfField f = true ↔ EveryField Upward f)
  | .plain _ k _ => by simp only [upToSelfField, EveryField, upToSelfKind_iff k]
  | .maybe _ k _ => by simp only [upToSelfField, EveryField, upToSelfKind_iff k]
  | .union _ _ alts _ => by simp only [upToSelfField, EveryField, upToSelfAlts_iff alts]
theorem upToSelfAlts_iff : (alts : List Alt) → (upToSelfAlts alts = true ↔ EveryAlts Upward alts)
  | [] => by simp [upToSelfAlts, EveryAlts]
  | .mk k _ :: alts => by
      simp only [upToSelfAlts, EveryAlts, Bool.and_eq_true, upToSelfKind_iff k, upToSelfAlts_iff alts]
theorem upToSelf_iff (seen : List String) : (fs : List Field) →
    (upToSelf seen fs = true ↔
      (∀ i f, At fs i f → ∀ d ∈ fieldDeps f, d ∈ seen ∨ DeclaredUpTo fs i d) ∧
      (∀ f ∈ fs, f.id ∉ fieldSources f) ∧ EveryFields Upward fs)
  | [] => by simp [upToSelf, EveryFields, At]
  | f :: fs => by
      simp only [upToSelf, EveryFields, Bool.and_eq_true, upToSelfField_iff f,
        upToSelf_iff (seen ++ [f.id]) fs, List.all_eq_true, List.contains_eq_mem, Bool.or_eq_true,
        beq_iff_eq, Bool.not_eq_true', decide_eq_false_iff_not, decide_eq_true_eq, List.mem_append,
        List.mem_singleton]
      constructor
      · rintro ⟨⟨⟨h1, h0⟩, h2⟩, h3, h5, h4⟩
        refine ⟨fun i g hg d hd => ?_, fun g hg => ?_, h2, h4⟩
        · cases i with
          | zero =>
            rw [at_cons_zero hg] at hd
            exact (h1 d hd).imp id fun e => ⟨0, f, by omega, rfl, e.symm⟩
          | succ i =>
            rw [declaredUpTo_cons]
            rcases h3 i g (by simpa [At] using hg) d hd with (h | h) | h
            · exact .inl h
            · exact .inr (.inl h.symm)
            · exact .inr (.inr h)
        · rcases List.mem_cons.1 hg with rfl | hg
          · exact h0
          · exact h5 g hg
      · rintro ⟨h1, h5, h2, h4⟩
        refine ⟨⟨⟨fun d hd => ?_, h5 f (by simp)⟩, h2⟩, fun i g hg d hd => ?_, fun g hg => h5 g (by simp [hg]), h4⟩
        · rcases h1 0 f rfl d hd with h | ⟨j, g, hj, hg, rfl⟩
          · exact .inl h
          · obtain rfl : j = 0 := by omega
            rw [at_cons_zero hg]
            exact .inr rfl
        · rcases h1 (i + 1) g (by simpa [At] using hg) d hd with h | h
          · exact .inl (.inl h)
          · rw [declaredUpTo_cons] at h
            rcases h with h | h
            · exact .inl (.inr h.symm)
            · exact .inr h
end

theorem acceptable_iff (fs : List Field) :
    Acceptable fs ↔ saneFields fs = true ∧ Everywhere Distinct fs ∧ Everywhere Upward fs := by
  rw [Acceptable, uniqueFields_iff, upToSelf_iff, Everywhere, Everywhere, Upward]
  simp [and_assoc]

/-- C156. The library accepts every list of a schema exactly if the schema is `Acceptable`, stays
within the limits of the tables, and none of its lists is empty; if no name is empty, no callable
names the empty name, and what would not compile is left out. -/
theorem C156_accepted (lt : String → String → Bool) (tid : Field → Nat) (fs : List Field)
    (hs : saneFields fs = true) (hn : Everywhere NamesUsable fs) :
    Everywhere (fun fs => accepts lt tid fs = true) fs ↔
      Acceptable fs ∧ Everywhere (fun fs => fs.length ≤ 256 ∧ ∀ f ∈ fs, WithinLimits f) fs ∧
      Everywhere (fun fs => fs ≠ []) fs := by
  have one : ∀ fs, NamesUsable fs → (accepts lt tid fs = true ↔
      fs ≠ [] ∧ Distinct fs ∧ Upward fs ∧ fs.length ≤ 256 ∧ ∀ f ∈ fs, WithinLimits f) := by
    intro fs hn
    rw [C102_accepts lt tid fs fun f hf => (hn f hf).1]
    refine and_congr_right fun _ => ?_
    constructor
    · rintro ⟨h1, h2, h3, h4⟩
      refine ⟨h1, ⟨fun i f hf d hd => ?_, fun f hf => (hn f hf).2.2⟩, h2, h3⟩
      rcases h4 i f hf d hd with ⟨rfl, -⟩ | h
      · exact absurd hd (hn f (mem_of_at hf)).2.1
      · exact h
    · rintro ⟨h1, h2, h3, h4⟩
      exact ⟨h1, h3, h4, fun i f hf d hd => .inr (h2.1 i f hf d hd)⟩
  rw [acceptable_iff]
  constructor
  · intro h
    have h' := (Everywhere.and.2 ⟨hn, h⟩).mono (Q := fun fs => (Distinct fs ∧ Upward fs) ∧
      (fs.length ≤ 256 ∧ ∀ f ∈ fs, WithinLimits f) ∧ fs ≠ []) fun fs h => by
        have := (one fs h.1).1 h.2
        exact ⟨⟨this.2.1, this.2.2.1⟩, this.2.2.2, this.1⟩
    rw [Everywhere.and, Everywhere.and, Everywhere.and] at h'
    exact ⟨⟨hs, h'.1⟩, h'.2⟩
  · rintro ⟨⟨-, h1, h2⟩, h3, h4⟩
    have h' := Everywhere.and.2 ⟨hn, Everywhere.and.2 ⟨Everywhere.and.2 ⟨h1, h2⟩, Everywhere.and.2 ⟨h3, h4⟩⟩⟩
    exact h'.mono fun fs h => (one fs h.1).2 ⟨h.2.2.2, h.2.1.1, h.2.1.2, h.2.2.1⟩

/-! ### Reading -/

/-- C156. Reading such a schema is the very program that reads the well-formed schema in which every
callable has its own field fixed to what it is default-constructed with: all that is known of reading
well-formed schemas is known of these. -/
theorem C156_reader (cfg : Cfg) (fs : List Field) (h : Acceptable fs) :
    WellFormed (selfless fs) ∧ structCast cfg fs = structCast cfg (selfless fs) :=
  ⟨selfless_wellFormed h, (selfless_structCast cfg h.2.1).symm⟩

/-- C156. What is read, exactly. -/
theorem C156_read_iff (cfg : Cfg) (fs : List Field) (h : Acceptable fs) (inp rest : List Byte)
    (vs : List Val) :
    (structCast cfg fs).run inp = (.done (.ok vs), rest) ↔
      ValidRead cfg fs vs ∧ inp = wire cfg fs vs ++ rest := by
  rw [(C156_reader cfg fs h).2, read_iff cfg _ (selfless_wellFormed h), Valid, ValidRead, selfless_fits,
    selfless_ok, selfless_envOf, wire, wire, selfless_wire]

/-! ### Writing -/

/-- C156. What is written, exactly: the callables are told what the struct holds. -/
theorem C156_write_iff (cfg : Cfg) (fs : List Field) (h : Acceptable fs)
    (hc : Everywhere (TypedConsts cfg) fs) (vs : List Val) (hv : Typed cfg fs vs) (p : List Byte) :
    (streamCast cfg fs vs).run = (.done (.ok ()), p) ↔ ∃ us, Sent cfg fs vs us ∧ p = wire cfg fs us :=
  sent_streamCast h hc hv p

/-- C156. Which error is reported, exactly, and what is on the wire then. -/
theorem C156_unsent_iff (cfg : Cfg) (fs : List Field) (h : Acceptable fs)
    (hc : Everywhere (TypedConsts cfg) fs) (vs : List Val) (hv : Typed cfg fs vs) (p : List Byte)
    (r : Reason) (id : String) :
    (streamCast cfg fs vs).run = (.done (.error ⟨r, id⟩), p) ↔ Unsent cfg fs vs r id p := by
  rw [Wr.run_eq]
  exact unsent_streamCast h hc hv p r id

/-- C156. What was written is read back as the struct sent exactly if the reader finds it valid. -/
theorem C156_round_trip_iff (cfg : Cfg) (fs : List Field) (h : Acceptable fs)
    (hc : Everywhere (TypedConsts cfg) fs) (vs : List Val) (hv : Typed cfg fs vs) (p : List Byte)
    (hw : (streamCast cfg fs vs).run = (.done (.ok ()), p)) :
    ∃ us, Sent cfg fs vs us ∧ p = wire cfg fs us ∧
      ∀ rest, (structCast cfg fs).run (p ++ rest) = (.done (.ok us), rest) ↔ ValidRead cfg fs us := by
  obtain ⟨us, hs, rfl⟩ := (C156_write_iff cfg fs h hc vs hv p).1 hw
  refine ⟨us, hs, rfl, fun rest => ?_⟩
  rw [C156_read_iff cfg fs h]
  exact and_iff_left rfl

/-- C156, where no callable is told of its own field: `ValidRead` is `Valid`. -/
theorem C156_wellFormed (cfg : Cfg) (fs : List Field) (h : WellFormed fs) (vs : List Val) :
    ValidRead cfg fs vs ↔ Valid cfg fs vs := by
  have h1 := C156_read_iff cfg fs h.acceptable (wire cfg fs vs) [] vs
  have h2 := read_iff cfg fs h (wire cfg fs vs) [] vs
  rw [h1] at h2
  simpa using h2

/-! ### Witnesses -/

example : Acceptable selfSchema := by decide
example : ¬ WellFormed selfSchema := by decide

/-- An optional that is there if it is there. -/
def ifThere : List Field := [.maybe "a" (.num u8 1) ⟨["a"], fun vs => vs != [.absent]⟩]

/-- The reader never finds it; so it is written and not read back. -/
theorem C156_fails_lost :
    Acceptable ifThere ∧ (streamCast le64 ifThere [.present (.int 5)]).run = (.done (.ok ()), [5]) ∧
    (structCast le64 ifThere).run [5] = (.done (.ok [.absent]), [5]) :=
  ⟨by decide, by rfl, by rfl⟩

/-- An optional that is there if it is not: it is read, and neither with it nor without it can the
struct be written. -/
theorem C156_fails_unwritable :
    (structCast le64 selfSchema).run [5] = (.done (.ok [.present (.int 5)]), []) ∧
    (streamCast le64 selfSchema [.present (.int 5)]).run = (.done (.error ⟨.validationFailure, "a"⟩), []) ∧
    (streamCast le64 selfSchema [.absent]).run = (.done (.error ⟨.validationFailure, "a"⟩), []) :=
  ⟨by rfl, by rfl, by rfl⟩

/-- In a record of a vector, a length computed from a sibling and the vector itself. -/
def ownLen : List Field :=
  [.plain "n" (.num u8 1) .none,
   .plain "v" (.vecRec [.plain "m" (.num u8 1) .none,
      .plain "w" (.vec (.scalar u8)
        (.computed ⟨["w", "m"], fun | [.seq ws, .int m] => m + 3 * ws.length | _ => 0⟩) none) .none]
      (.fromField "n") none 32) .none]

example : Acceptable ownLen ∧ ¬ WellFormed ownLen := by decide

example : ValidRead le64 ownLen [.int 1, .seq [.seq [.int 2, .seq [.int 8, .int 9]]]] ∧
    [1, 2, 8, 9, 7] = wire le64 ownLen [.int 1, .seq [.seq [.int 2, .seq [.int 8, .int 9]]]] ++ [7] :=
  (C156_read_iff le64 ownLen (by decide) [1, 2, 8, 9, 7] [7] _).1 (by rfl)

/-- It cannot be written back: with two elements in it the length should be eight. -/
example : (streamCast le64 ownLen [.int 1, .seq [.seq [.int 2, .seq [.int 8, .int 9]]]]).run =
    (.done (.error ⟨.foundContradictingLength, "v"⟩), [1, 2]) := by rfl

/-- The library accepts it, and its records too: the table of dependencies is not looked at with the
field itself in mind. -/
example (lt : String → String → Bool) (tid : Field → Nat) :
    Everywhere (fun fs => accepts lt tid fs = true) ownLen :=
  (C156_accepted lt tid ownLen (by decide) (by
    simp only [Everywhere, ownLen, EveryFields, EveryField, EveryKind, NamesUsable]; decide)).2
    ⟨by decide, by decide +kernel, by decide +kernel⟩

/-- The reader of it is that of a well-formed schema, so what is refused is refused as there. -/
example : WellFormed (selfless ownLen) ∧
    (structCast le64 (selfless ownLen)).run [1, 2, 8] = (.done (.error ⟨.bufferExhaustion, "v"⟩), [8]) :=
  ⟨(C156_reader le64 ownLen (by decide)).1, by rw [← (C156_reader le64 ownLen (by decide)).2]; rfl⟩

/-- Without elements it asks for as many as the sibling says, which is none: that is written. -/
example : ∃ us, Sent le64 ownLen [.int 0, .seq [.seq [.int 0, .seq []]]] us ∧
    [1, 0] = wire le64 ownLen us :=
  (C156_write_iff le64 ownLen (by decide) (by decide +kernel) _ (by decide +kernel) _).1 (by rfl)

end S2S.Props
