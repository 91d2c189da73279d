import Verif.Lemmas.Versions
import Verif.Props.Sent
import Verif.Props.Sizes
import Verif.Props.Evolution
import Verif.Props.Compatible
/-
C71 for every write, and C157: what one version of a schema writes, another reads, exactly.
-/
namespace S2S.Props
open Spec Demo

/-! ## C71, every write -/

/-- C71, the write, self-consistent or not: what a successful write of a struct whose
values fit emits is within the bounds. -/
theorem C71_write_any (cfg : Cfg) (fs : List Field) (hwf : WellFormed fs)
    (hres : Everywhere Resolves fs) (hc : Everywhere (TypedConsts cfg) fs) (vs : List Val)
    (hv : Typed cfg fs vs) (hst : Storable cfg fs vs) (p : List Byte)
    (h : (streamCast cfg fs vs).run = (.done (.ok ()), p)) :
    minFields fs ≤ p.length ∧ p.length ≤ maxFields cfg fs := by
  obtain ⟨us, hs, rfl⟩ := (C115_sends cfg fs hwf hc vs hv p).1 h
  obtain ⟨hsane, hd, -⟩ := (wellFormed_iff fs).1 hwf
  have hp : Everywhere SlotsFixed fs :=
    Everywhere.mono (P := fun gs => Distinct gs ∧ Resolves gs) (fun _ h => slotsFixed h.1 h.2)
      (Everywhere.and.2 ⟨hd, hres⟩)
  exact sentFields_between fs hsane hp.1 hp.2 hs hst (sent_typed hc hv hs)

/-- A length whose declared width is less than its type, in big endian: not read back, and
still within the bounds. -/
example (p : List Byte) (h : (streamCast be64 narrowLenSchema [.int 0, .seq [.int 9]]).run =
    (.done (.ok ()), p)) : 1 ≤ p.length ∧ p.length ≤ maxFields be64 narrowLenSchema :=
  C71_write_any be64 narrowLenSchema (by decide) (by decide +kernel) (by decide +kernel) _
    (by decide +kernel) (by decide +kernel) p h

/-! ## C157 -/

/-- C157, appended fields. A program writes with the longer schema; one with the shorter
schema reads the first fields of what was sent, and leaves the bytes of the others,
exactly if those first fields are valid for it. -/
theorem C157_appended (cfg : Cfg) (pre post : List Field) (hwf : WellFormed (pre ++ post))
    (hc : Everywhere (TypedConsts cfg) (pre ++ post)) (vs : List Val)
    (hv : Typed cfg (pre ++ post) vs) (p : List Byte)
    (h : (streamCast cfg (pre ++ post) vs).run = (.done (.ok ()), p)) :
    ∃ us ws, Sent cfg (pre ++ post) vs (us ++ ws) ∧ us.length = pre.length ∧
      p = wire cfg pre us ++ wire cfg post ws ∧
      ∀ rest, (structCast cfg pre).run (p ++ rest) =
          (.done (.ok us), wire cfg post ws ++ rest) ↔ Valid cfg pre us := by
  obtain ⟨xs, hs, rfl⟩ := (C115_sends cfg _ hwf hc vs hv p).1 h
  have hl : pre.length ≤ xs.length := by
    have := typed_length (sent_typed hc hv hs)
    rw [List.length_append] at this
    omega
  refine ⟨xs.take pre.length, xs.drop pre.length, by rwa [List.take_append_drop], ?_, ?_, ?_⟩
  · rw [List.length_take]; omega
  · conv => lhs; rw [← List.take_append_drop pre.length xs]
    exact wireFields_append _ _ _ _ _ (by rw [List.length_take]; omega)
  · intro rest
    rw [read_iff cfg pre (wf_prefix hwf)]
    refine and_iff_left ?_
    rw [show wire cfg (pre ++ post) xs = wire cfg pre (xs.take pre.length) ++
        wire cfg post (xs.drop pre.length) from ?_, List.append_assoc]
    conv => lhs; rw [← List.take_append_drop pre.length xs]
    exact wireFields_append _ _ _ _ _ (by rw [List.length_take]; omega)

/-- C157: in particular if a program with the longer schema reads back what it wrote. -/
theorem C157_appended_own (cfg : Cfg) (pre post : List Field) (hwf : WellFormed (pre ++ post))
    (us ws : List Val) (hl : us.length = pre.length)
    (h : Valid cfg (pre ++ post) (us ++ ws)) : Valid cfg pre us := by
  obtain ⟨us', ws', e, hl', -, h3⟩ := C74_old_reader_bytes cfg pre post hwf
    (wire cfg (pre ++ post) (us ++ ws)) [] (us ++ ws)
    ((read_iff cfg _ hwf _ _ _).2 ⟨h, by simp⟩)
  obtain ⟨rfl, rfl⟩ := List.append_inj e (by omega)
  exact ((read_iff cfg pre (wf_prefix hwf) _ _ _).1 h3).1

/-- C157, relaxed constraints, raised ceilings, appended cases. A program writes with the
older schema; one with the newer schema reads what was sent exactly if that is valid for the
newer one; it is if it is valid for the older one. -/
theorem C157_loosened (keep : Bool) (cfg : Cfg) (fs gs : List Field) (hl : LooserFields keep cfg fs gs)
    (hf : WellFormed fs) (hg : WellFormed gs) (hc : Everywhere (TypedConsts cfg) fs)
    (vs : List Val) (hv : Typed cfg fs vs) (p : List Byte)
    (h : (streamCast cfg fs vs).run = (.done (.ok ()), p)) :
    ∃ us, Sent cfg fs vs us ∧ p = wire cfg fs us ∧
      (∀ rest, (structCast cfg gs).run (p ++ rest) = (.done (.ok us), rest) ↔ Valid cfg gs us) ∧
      (Valid cfg fs us → Valid cfg gs us) := by
  obtain ⟨us, hs, rfl⟩ := (C115_sends cfg fs hf hc vs hv p).1 h
  have hw : wire cfg gs us = wire cfg fs us := looser_wireFields hl (sent_typed hc hv hs)
  refine ⟨us, hs, rfl, fun rest => ?_, fun hvld => ?_⟩
  · rw [read_iff cfg gs hg]
    exact and_iff_left (by rw [hw])
  · have h1 := (read_iff cfg fs hf (wire cfg fs us) [] us).2 ⟨hvld, by simp⟩
    exact ((read_iff cfg gs hg _ _ _).1 (C82_read keep cfg fs gs hl hf hg listIn _ _ _ h1)).1

/-! ### Without self-consistency -/

/-- A length that must not be zero, narrower than its type. -/
def guardedLen : List Field :=
  [.plain "len" (.num u16 1) (.cmp .ge u16 1),
   .plain "data" (.vec (.scalar u8) (.fromField "len") none) .none]

/-- C74 says that what the longer schema writes the shorter one reads. Not if a length is
narrower than its type, in big endian: both refuse it. -/
theorem C74_fails_narrow :
    WellFormed (guardedLen ++ [.plain "x" (.num u8 1) .none]) ∧
    (streamCast be64 (guardedLen ++ [.plain "x" (.num u8 1) .none])
      [.int 0, .seq [.int 9], .int 7]).run = (.done (.ok ()), [0, 9, 7]) ∧
    (structCast be64 guardedLen).run [0, 9, 7] =
      (.done (.error ⟨.validationFailure, "len"⟩), [9, 7]) :=
  ⟨by decide, by rfl, by rfl⟩

theorem guardedLen_looser : LooserFields true be64 guardedLen guardedLen :=
  .cons (.plain .num (fun _ h => h) fun _ => rfl)
    (.cons (.plain (.vec (Nat.le_refl _)) (fun _ h => h) fun _ => rfl) .nil)

/-- C82 says the same of a newer schema; with the same length, of the schema itself. -/
theorem C82_fails_narrow :
    WellFormed guardedLen ∧ LooserFields true be64 guardedLen guardedLen ∧
    (streamCast be64 guardedLen [.int 0, .seq [.int 9]]).run = (.done (.ok ()), [0, 9]) ∧
    (structCast be64 guardedLen).run [0, 9] = (.done (.error ⟨.validationFailure, "len"⟩), [9]) :=
  ⟨by decide, guardedLen_looser, by rfl, by rfl⟩

/-- With the constraint dropped it is not refused; what was sent is not valid, and something
else is read. -/
theorem guardedLen_looser' : LooserFields true be64 guardedLen narrowLenSchema :=
  .cons (.plain .num (weaker_none _) fun _ => rfl)
    (.cons (.plain (.vec (Nat.le_refl _)) (fun _ h => h) fun _ => rfl) .nil)

example : ∃ us, Sent be64 guardedLen [.int 0, .seq [.int 9]] us ∧
    [0, 9] = wire be64 guardedLen us ∧ ¬ Valid be64 narrowLenSchema us := by
  obtain ⟨us, hs, hp, hi, -⟩ := C157_loosened true be64 guardedLen narrowLenSchema guardedLen_looser'
    (by decide) (by decide) (by decide +kernel) [.int 0, .seq [.int 9]] (by decide +kernel) [0, 9] (by rfl)
  refine ⟨us, hs, hp, fun hv => ?_⟩
  have h1 := (hi []).2 hv
  rw [show (structCast be64 narrowLenSchema).run ([0, 9] ++ []) = (.done (.ok [.int 0, .seq []]), [9])
    from by rfl] at h1
  cases h1

/-- The first three fields of a packet, written whole: their values are valid, so they are
read. -/
example (rest : List Byte) : ∃ us ws, Sent be64 (packet.take 3 ++ packet.drop 3) packetVal (us ++ ws) ∧
    us.length = 3 ∧ ((structCast be64 (packet.take 3)).run (packetBytes ++ rest) =
      (.done (.ok us), wire be64 (packet.drop 3) ws ++ rest) ↔ Valid be64 (packet.take 3) us) := by
  obtain ⟨us, ws, h1, h2, -, h4⟩ := C157_appended be64 (packet.take 3) (packet.drop 3) (by decide +kernel)
    (by decide +kernel) packetVal (by decide +kernel) packetBytes (by rfl)
  exact ⟨us, ws, h1, h2, h4 rest⟩

/-- What the packet holds in its first three fields is valid for these alone. -/
example : Valid be64 (packet.take 3) (packetParsed.take 3) :=
  C157_appended_own be64 (packet.take 3) (packet.drop 3) (by decide +kernel) _ (packetParsed.drop 3) rfl
    ((read_iff be64 packet (by decide +kernel) packetBytes [] packetParsed).1 (by rfl)).1

end S2S.Props
