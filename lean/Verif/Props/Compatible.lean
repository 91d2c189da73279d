import Verif.Lemmas.Evolve
import Verif.Props.RoundTrip
/-
C82: changes of a schema that keep what it could read and write.
-/
namespace S2S.Props
open Spec Demo

/-! ## A newer version of the packet

A raised ceiling, a relaxed bound, an appended case and a dropped constraint. -/

def packet2 : List Field :=
  [.plain "magic" (.num u32 4) (.cmp .eq i32 0x1234),
   .plain "len" (.num u16 2) .none,
   .plain "tag" (.num u8 1) .none,
   .plain "data" (.vec (.scalar u16) (.fromField "len") (some 128)) .none,
   .union "body" (.matchField "tag" u8 ([(i32, 1), (i32, 7)] ++ [(i32, 9)]))
     [.mk (.num u32 4) (.cmp .lt u32 2000), .mk (.record inner) .none, .mk (.fstr 4) .none] .none,
   .plain "crc" (.num u16 2) .none]

theorem weaker_refl (c : Constraint) : Weaker c c := fun _ h => h

theorem weaker_none (c : Constraint) : Weaker c .none := fun _ _ => rfl

theorem weaker_bound : Weaker (.cmp .lt u32 1000) (.cmp .lt u32 2000) := by
  intro v h
  cases v with
  | int x =>
    simp only [Holds, Constraint.check, Except.ok.injEq, CmpOp.holds, decide_eq_true_eq] at h ⊢
    exact Int.lt_trans h (by decide)
  | _ => cases h

theorem inner_looser (keep : Bool) (cfg : Cfg) : LooserFields keep cfg inner inner :=
  .cons (.plain .num (weaker_refl _) fun _ => rfl) (.cons (.maybe .num) .nil)

theorem packet_looser (keep : Bool) : LooserFields keep be64 packet packet2 :=
  .cons (.plain .num (weaker_refl _) fun _ => rfl)
  (.cons (.plain .num (weaker_refl _) fun _ => rfl)
  (.cons (.plain .num (weaker_refl _) fun _ => rfl)
  (.cons (.plain (.vec (by decide)) (weaker_refl _) fun _ => rfl)
  (.cons (.union (.matchField [(i32, 9)]) (by decide)
    (.cons .num weaker_bound (.cons (.record (inner_looser _ _)) (weaker_refl _) .more)) (weaker_refl _))
  (.cons (.plain .num (weaker_none _) fun _ => rfl) .nil)))))

/-! ## Reading -/

/-- C82, on whatever stream: what the older schema can read the newer one reads with the same
result, leaving the stream in the same state. -/
theorem C82_read (keep : Bool) (cfg : Cfg) (fs gs : List Field) (hl : LooserFields keep cfg fs gs)
    (hf : WellFormed fs) (hg : WellFormed gs) (S : InStream) (s s' : S.State) (vs : List Val)
    (h : (structCast cfg fs).runOn S s = (.done (.ok vs), s')) :
    (structCast cfg gs).runOn S s = (.done (.ok vs), s') := by
  have := sub_readFields hl hf.1 hg.1 (dfltEnv fs) S s vs s' h
  rw [structCast, looser_dfltEnv hl]
  exact this

example : (structCast be64 packet2).runOn listIn (packetBytes ++ [0x2a]) =
    (.done (.ok packetParsed), [0x2a]) :=
  C82_read false be64 packet packet2 (packet_looser false) (by decide) (by decide) listIn _ _ _
    (by rfl)

/-! ## Writing -/

/-- C82, on whatever stream: a struct of the older schema that can be written can be written
by the newer one, leaving the stream in the same state: the same bytes. -/
theorem C82_write (cfg : Cfg) (fs gs : List Field) (hl : LooserFields true cfg fs gs)
    (hg : Everywhere (fun gs => Resolves gs ∧ Distinct gs) gs) (vs : List Val) (ht : Typed cfg fs vs)
    (S : OutStream) (s s' : S.State)
    (h : (streamCast cfg fs vs).runOn S s = (.done (.ok ()), s')) :
    (streamCast cfg gs vs).runOn S s = (.done (.ok ()), s') :=
  sub_writeFields hl hl ht hg.1 hg.2 (fun _ h => h) vs ht S s () s' h

example : (streamCast be64 packet2 packetVal).run = (.done (.ok ()), packetBytes) :=
  C82_write be64 packet packet2 (packet_looser true) (by decide +kernel) packetVal (by decide +kernel)
    _ _ _ (by rfl)

/-! ## From the older program to the newer -/

/-- C82: what a program with the older schema writes, one with the newer schema reads, as
the struct with the library's slots filled. -/
theorem C82_old_to_new_partial (keep : Bool) (cfg : Cfg) (fs gs : List Field) (hl : LooserFields keep cfg fs gs)
    (hf : SelfConsistent cfg fs) (hg : WellFormed gs) (vs : List Val) (hst : Storable cfg fs vs)
    (p : List Byte) (h : (streamCast cfg fs vs).run = (.done (.ok ()), p)) (rest : List Byte) :
    (structCast cfg gs).run (p ++ rest) = (.done (.ok (settle fs vs)), rest) :=
  C82_read keep cfg fs gs hl hf.1 hg listIn _ _ _ (C45_round_trip cfg fs hf vs hst p h rest)

example (rest : List Byte) : (structCast be64 packet2).run (packetBytes ++ rest) =
    (.done (.ok packetParsed), rest) :=
  C82_old_to_new_partial true be64 packet packet2 (packet_looser true) (by decide +kernel) (by decide) packetVal
    (by decide +kernel) packetBytes rfl rest

/-! ## What the conditions are for -/

/-- Not so for a constant: a constraint `eq` that is dropped was also what the writer wrote. -/
theorem C82_constant_matters :
    LooserFields false be64 [.plain "v" (.num u8 1) (.cmp .eq u8 7)] [.plain "v" (.num u8 1) .none] ∧
    (streamCast be64 [.plain "v" (.num u8 1) (.cmp .eq u8 7)] [.int 0]).run = (.done (.ok ()), [7]) ∧
    (streamCast be64 [.plain "v" (.num u8 1) .none] [.int 0]).run = (.done (.ok ()), [0]) :=
  ⟨.cons (.plain .num (weaker_none _) nofun) .nil, rfl, rfl⟩

/-- Nor for cases put in front: the bytes of the first case are taken for the other. -/
theorem C82_order_matters :
    (structCast be64 [.plain "x" (.num u8 1) .none,
        .union "u" (.ladder [⟨["x"], fun _ => true⟩]) [.mk (.num u8 1) .none] .none]).run [1, 2, 3] =
      (.done (.ok [.int 1, .var 0 (.int 2)]), [3]) ∧
    (structCast be64 [.plain "x" (.num u8 1) .none,
        .union "u" (.ladder [⟨["x"], fun _ => true⟩, ⟨["x"], fun _ => true⟩])
          [.mk (.num u16 2) .none, .mk (.num u8 1) .none] .none]).run [1, 2, 3] =
      (.done (.ok [.int 1, .var 0 (.int 0x0203)]), []) :=
  ⟨rfl, rfl⟩

/-- The element of a list of messages: 8 bytes of memory, say, with the union of a byte and
32 bits; 264 with a text of 256 characters among the cases. -/
def element : List Field :=
  [.plain "tag" (.num u8 1) .none,
   .union "body" (.matchField "tag" u8 [(u8, 0)]) [.mk (.num u8 1) .none] .none]

def element2 : List Field :=
  [.plain "tag" (.num u8 1) .none,
   .union "body" (.matchField "tag" u8 ([(u8, 0)] ++ [(u8, 1)])) [.mk (.num u8 1) .none, .mk (.fstr 256) .none] .none]

def messages (es : List Field) (sz : Nat) : List Field :=
  [.plain "n" (.num u8 1) .none, .plain "all" (.vecRec es (.fromField "n") (some 256) sz) .none]

/-- Nor for records in a vector, whose ceiling is in bytes of memory and not of input: a case
appended to the element, by itself a compatible change, makes it larger, and lists the
older schema could read are refused although they do not use it. -/
theorem C82_ceiling_matters :
    LooserFields true be64 element element2 ∧
    (structCast be64 (messages element 8)).run [2, 0, 5, 0, 6] =
      (.done (.ok [.int 2, .seq [.seq [.int 0, .var 0 (.int 5)], .seq [.int 0, .var 0 (.int 6)]]]), []) ∧
    ∃ e rest, (structCast be64 (messages element2 264)).run [2, 0, 5, 0, 6] = (.done (.error e), rest) ∧
      e.reason = .excessiveLength ∧ e.failedAt = "all" :=
  ⟨.cons (.plain .num (weaker_refl _) fun _ => rfl)
     (.cons (.union (.matchField [(u8, 1)]) (by decide) (.cons .num (weaker_refl _) .more) (weaker_refl _)) .nil),
   rfl, _, _, rfl, rfl, rfl⟩

end S2S.Props
