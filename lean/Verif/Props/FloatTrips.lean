import Verif.Props.Trips
import Verif.Props.FloatOpt
import Verif.Props.FloatTag
import Verif.Props.Sized
/-
C167: the round trips of C162, C163, C164 and C166, exactly.
-/
namespace S2S.Props
open Spec Demo Compare

/-! ## C167 -/

section
variable {cfg : Cfg} {R : Rounding} {C : FloatOf R}

/-- C167, lengths that are floating-point numbers: what was written is read back as what was sent
exactly if that is valid for the list with computed lengths and its numbers are lengths. -/
theorem C167_lens {gs : List LField} {vs us : List Val} (ha : Apart gs) {fs : List Field}
    (hc : AsComputed cfg gs fs) (hwf : WellFormed fs) (ht : Everywhere (TypedConsts cfg) fs)
    (hf : Filled cfg C gs vs us) (hv : Typed cfg fs us) (p : List Byte) :
    (streamCastLens C cfg gs vs).run = (.done (.ok ()), p) ↔
      ∃ ws, Sent cfg fs us ws ∧ p = wire cfg fs ws ∧
        ∀ rest, (structCastLens cfg gs).run (p ++ rest) = (.done (.ok ws), rest) ↔
          Valid cfg fs ws ∧ Lengths cfg (dfltEnv fs) gs ws := by
  rw [C162_write ha hc hf, C115_sends cfg fs hwf ht us hv p]
  refine ⟨fun ⟨ws, h1, h2⟩ => ⟨ws, h1, h2, fun rest => ?_⟩, fun ⟨ws, h1, h2, _⟩ => ⟨ws, h1, h2⟩⟩
  refine (C162_read cfg listIn gs fs hc _ _ _).trans (and_congr_left' ?_)
  refine (read_iff cfg fs hwf _ _ _).trans ?_
  rw [h2]
  exact and_iff_left rfl

/-- C167: and what was read is written as it was exactly if its like is sent for it with the lengths
filled in. -/
theorem C167_lens_back {gs : List LField} {vs us : List Val} (ha : Apart gs) {fs : List Field}
    (hc : AsComputed cfg gs fs) (hwf : WellFormed fs) (ht : Everywhere (TypedConsts cfg) fs)
    (hf : Filled cfg C gs vs us) (hv : Typed cfg fs us) (p rest : List Byte)
    (h : (structCastLens cfg gs).run (p ++ rest) = (.done (.ok vs), rest)) :
    (streamCastLens C cfg gs vs).run = (.done (.ok ()), p) ↔
      ∃ ws, Sent cfg fs us ws ∧ wire cfg fs ws = wire cfg fs vs := by
  have h := ((C162_read cfg listIn gs fs hc _ _ _).1 h).1
  have hp := List.append_cancel_right ((read_iff cfg fs hwf _ _ _).1 h).2
  rw [C162_write ha hc hf, C115_sends cfg fs hwf ht us hv p, hp]
  exact ⟨fun ⟨ws, h1, h2⟩ => ⟨ws, h1, h2.symm⟩, fun ⟨ws, h1, h2⟩ => ⟨ws, h1, h2.symm⟩⟩

/-- C167, optional containers whose lengths are such numbers: a struct is written exactly if its
numbers are lengths that agree and a struct is sent for it, and read back as for `C167_lens`. -/
theorem C167_opts {gs : List QField} {vs : List Val} (ha : OptApart gs) {fs : List Field}
    (hc : AsOpts cfg gs fs) (hwf : WellFormed fs) (ht : Everywhere (TypedConsts cfg) fs)
    (hl : gs.length = vs.length) (hv : Typed cfg fs vs) (p : List Byte) :
    (streamCastOpts C cfg gs vs).run = (.done (.ok ()), p) ↔
      OptReady cfg gs vs ∧ ∃ ws, Sent cfg fs vs ws ∧ p = wire cfg fs ws ∧
        ∀ rest, (structCastOpts cfg gs).run (p ++ rest) = (.done (.ok ws), rest) ↔
          Valid cfg fs ws ∧ OptLengths cfg (dfltEnv fs) gs ws := by
  have key : OptReady cfg gs vs → ((streamCastOpts C cfg gs vs).run = (.done (.ok ()), p) ↔
      ∃ ws, Sent cfg fs vs ws ∧ p = wire cfg fs ws) := fun hr => by
    rw [C164_write ha hc hl hr, C115_sends cfg fs hwf ht vs hv p]
  refine ⟨fun h => ?_, fun ⟨hr, ws, h1, h2, _⟩ => (key hr).2 ⟨ws, h1, h2⟩⟩
  have hr := (C164_refused listOut ha _ _ h).2
  obtain ⟨ws, h1, h2⟩ := (key hr).1 h
  refine ⟨hr, ws, h1, h2, fun rest => ?_⟩
  refine (C164_read cfg listIn gs fs hc _ _ _).trans (and_congr_left' ?_)
  refine (read_iff cfg fs hwf _ _ _).trans ?_
  rw [h2]
  exact and_iff_left rfl

/-- C167: and what was read is written as it was exactly if its numbers are lengths that agree and its
like is sent. -/
theorem C167_opts_back {gs : List QField} {vs : List Val} (ha : OptApart gs) {fs : List Field}
    (hc : AsOpts cfg gs fs) (hwf : WellFormed fs) (ht : Everywhere (TypedConsts cfg) fs)
    (hl : gs.length = vs.length) (p rest : List Byte)
    (h : (structCastOpts cfg gs).run (p ++ rest) = (.done (.ok vs), rest)) :
    (streamCastOpts C cfg gs vs).run = (.done (.ok ()), p) ↔
      OptReady cfg gs vs ∧ ∃ ws, Sent cfg fs vs ws ∧ wire cfg fs ws = wire cfg fs vs := by
  have h := ((C164_read cfg listIn gs fs hc _ _ _).1 h).1
  have key := C117_rewrite_iff cfg fs hwf ht p rest vs h
  constructor
  · intro hw
    have hr := (C164_refused listOut ha _ _ hw).2
    rw [C164_write ha hc hl hr] at hw
    exact ⟨hr, key.1 hw⟩
  · rintro ⟨hr, hs⟩
    rw [C164_write ha hc hl hr]
    exact key.2 hs

/-- C167, discriminants that are floating-point numbers: what was written is read back as what was
sent exactly if that is valid for the list that compares with the labels. -/
theorem C167_tags {gs : List TField} {vs us : List Val} (ha : TagsApart gs)
    (hwf : WellFormed (gs.map (asLadder R))) (hc : Everywhere (TypedConsts cfg) (gs.map (asLadder R)))
    (hf : TagFilled cfg C gs vs us) (ht : Told cfg R gs vs) (hv : Typed cfg (gs.map (asLadder R)) us)
    (p : List Byte) :
    (streamCastTags C cfg gs vs).run = (.done (.ok ()), p) ↔
      ∃ ws, Sent cfg (gs.map (asLadder R)) us ws ∧ p = wire cfg (gs.map (asLadder R)) ws ∧
        ∀ rest, (structCastTags R cfg gs).run (p ++ rest) = (.done (.ok ws), rest) ↔
          Valid cfg (gs.map (asLadder R)) ws := by
  rw [C163_write ha hf ht, C163_read, C115_sends cfg _ hwf hc us hv p]
  refine ⟨fun ⟨ws, h1, h2⟩ => ⟨ws, h1, h2, fun rest => ?_⟩, fun ⟨ws, h1, h2, _⟩ => ⟨ws, h1, h2⟩⟩
  rw [read_iff cfg _ hwf, h2]
  exact and_iff_left rfl

/-- C167: and what was read is written as it was exactly if its like is sent for it with the
discriminants filled in. -/
theorem C167_tags_back {gs : List TField} {vs us : List Val} (ha : TagsApart gs)
    (hwf : WellFormed (gs.map (asLadder R))) (hc : Everywhere (TypedConsts cfg) (gs.map (asLadder R)))
    (hf : TagFilled cfg C gs vs us) (ht : Told cfg R gs vs) (hv : Typed cfg (gs.map (asLadder R)) us)
    (p rest : List Byte) (h : (structCastTags R cfg gs).run (p ++ rest) = (.done (.ok vs), rest)) :
    (streamCastTags C cfg gs vs).run = (.done (.ok ()), p) ↔
      ∃ ws, Sent cfg (gs.map (asLadder R)) us ws ∧
        wire cfg (gs.map (asLadder R)) ws = wire cfg (gs.map (asLadder R)) vs := by
  rw [C163_read, read_iff cfg _ hwf] at h
  have hp := List.append_cancel_right h.2
  rw [C163_write ha hf ht, C115_sends cfg _ hwf hc us hv p, hp]
  exact ⟨fun ⟨ws, h1, h2⟩ => ⟨ws, h1, h2.symm⟩, fun ⟨ws, h1, h2⟩ => ⟨ws, h1, h2.symm⟩⟩
end

/-- C167, records that are given a size and vectors without a length: what was written is read back as
what was sent exactly if that is valid, by the list with arrays in the place of those vectors, and by
the list itself if it can be read. -/
theorem C167_sized (cfg : Cfg) (cs : List SzField) (he : even cs = true) (hw : writes cs = true)
    (vs : List Val) (hwf : WellFormed (asVectors (asFields cs vs)))
    (hc : Everywhere (TypedConsts cfg) (asVectors (asFields cs vs)))
    (hf : Full (asFields cs vs) vs) (hv : Typed cfg (asVectors (asFields cs vs)) vs) (p : List Byte) :
    (streamCastSz cfg cs vs).run = (.done (.ok ()), p) ↔
      ∃ us, Sent cfg (asVectors (asFields cs vs)) vs us ∧ p = wire cfg (asVectors (asFields cs vs)) us ∧
        ∀ rest, ((structCastCt cfg (asFields cs vs)).run (p ++ rest) = (.done (.ok us), rest) ↔
            Valid cfg (asArrays (asFields cs vs)) us) ∧
          (reads cs = true → ((structCastSz cfg cs).run (p ++ rest) = (.done (.ok us), rest) ↔
            Valid cfg (asArrays (asFields cs vs)) us)) := by
  rw [(C166_write cfg cs he hw vs).1, C158_counted cfg _ hwf hc vs hf hv p]
  refine exists_congr fun us => and_congr_right fun _ => and_congr_right fun _ => forall_congr' fun rest =>
    ⟨fun h => ⟨h, fun hr => ?_⟩, fun h => h.1⟩
  rw [(C166_read cfg cs hr).1, ← (C166_one cs hr vs).1]
  exact h

/-- C167: and what was read is written as it was exactly if its like is sent. -/
theorem C167_sized_back (cfg : Cfg) (cs : List SzField) (hr : reads cs = true) (hw : writes cs = true)
    (hwf : WellFormed (asVectors (asFields cs []))) (hc : Everywhere (TypedConsts cfg) (asVectors (asFields cs [])))
    (p rest : List Byte) (vs : List Val) (hv : Typed cfg (asVectors (asFields cs [])) vs)
    (h : (structCastSz cfg cs).run (p ++ rest) = (.done (.ok vs), rest)) :
    (streamCastSz cfg cs vs).run = (.done (.ok ()), p) ↔
      ∃ us, Sent cfg (asVectors (asFields cs [])) vs us ∧
        wire cfg (asVectors (asFields cs [])) us = wire cfg (asVectors (asFields cs [])) vs := by
  rw [(C166_read cfg cs hr).1] at h
  rw [(C166_write cfg cs (even_of_reads cs hr) hw vs).1, asFields_reads cs vs hr]
  exact C158_counted_back cfg _ hwf hc p rest vs hv h

/-! ### Examples -/

set_option exponentiation.threshold 2000

theorem floatNarrow_filled {R : Rounding} (C : FloatOf R) :
    Filled le64 C (floatCounted 2) [.int 0, .seq [.int 7, .int 8, .int 9]]
      [.int 0x40400000, .seq [.int 7, .int 8, .int 9]] := by
  rw [← float_three C]
  refine .cons (.slot _ _ _ _ _ 3 ⟨_, List.mem_cons_of_mem _ (List.mem_singleton_self _), _, _, _, _, rfl⟩ ?_ ?_ rfl) (.cons (.sized ..) .nil)
  · intro g u hg h
    simp only [floatCounted, List.zip_cons_cons, List.zip_nil_left, List.mem_cons, Prod.mk.injEq, List.not_mem_nil,
      or_false] at hg
    rcases hg with ⟨rfl, rfl⟩ | ⟨rfl, rfl⟩
    · obtain ⟨_, _, _, _, h⟩ := h; cases h
    · exact ⟨_, rfl, rfl⟩
  · exact ⟨fun _ => by decide, (small_sizes 3).1 (by decide), by decide⟩

/-- A length of two bytes: what is sent is not valid, or its numbers are no lengths. -/
example {R : Rounding} (C : FloatOf R) : ∃ ws, Sent le64 ((floatCounted 2).map (computed1 le64))
      [.int 0x40400000, .seq [.int 7, .int 8, .int 9]] ws ∧
    ¬ (Valid le64 ((floatCounted 2).map (computed1 le64)) ws ∧
      Lengths le64 (dfltEnv ((floatCounted 2).map (computed1 le64))) (floatCounted 2) ws) := by
  obtain ⟨ws, h1, h2, h3⟩ := (C167_lens (floatCounted_apart 2) (C162_computed ..) (by decide) (by decide +kernel)
    (floatNarrow_filled C) (by decide +kernel) _).1 (C162_fails_narrow C).1
  refine ⟨ws, h1, fun hv => ?_⟩
  have := (h3 []).2 hv
  rw [List.append_nil, (C162_fails_narrow C).2] at this
  cases this

/-- Three numbers after `3.0f`, as they were read. -/
example {R : Rounding} (C : FloatOf R) : (streamCastLens C le64 (floatCounted 4)
      [.int 0x40400000, .seq [.int 7, .int 8, .int 9]]).run =
      (.done (.ok ()), [0, 0, 0x40, 0x40, 7, 0, 8, 0, 9, 0]) ↔
    ∃ ws, Sent le64 ((floatCounted 4).map (computed1 le64)) [.int 0x40400000, .seq [.int 7, .int 8, .int 9]] ws ∧
      wire le64 ((floatCounted 4).map (computed1 le64)) ws =
        wire le64 ((floatCounted 4).map (computed1 le64)) [.int 0x40400000, .seq [.int 7, .int 8, .int 9]] := by
  refine C167_lens_back (floatCounted_apart 4) (C162_computed ..) (by decide) (by decide +kernel)
    (floatCounted_filled C _) (by decide +kernel) _ [] ?_
  rfl

/-- Two numbers after `2.5f` are read back as what was sent. -/
example {R : Rounding} (C : FloatOf R) : ∃ ws, Sent le64 (optCounted.map (optComputed le64))
      [.int 1, .int 0x40200000, .present (.seq [.int 7, .int 8])] ws ∧
    [1, 0, 0, 0x20, 0x40, 7, 0, 8, 0] = wire le64 (optCounted.map (optComputed le64)) ws := by
  obtain ⟨_, ws, h1, h2, _⟩ := (C167_opts optCounted_apart (C164_computed ..) (by decide) (by decide +kernel) rfl
    (by decide +kernel) _).1 (two_half_written C)
  exact ⟨ws, h1, h2⟩

/-- The NaN that is read and not written again. -/
example {R : Rounding} (C : FloatOf R) : ¬ (OptReady le64 optCounted [.int 0, .int 0x7fc00000, .absent] ∧
    ∃ ws, Sent le64 (optCounted.map (optComputed le64)) [.int 0, .int 0x7fc00000, .absent] ws ∧
      wire le64 (optCounted.map (optComputed le64)) ws =
        wire le64 (optCounted.map (optComputed le64)) [.int 0, .int 0x7fc00000, .absent]) := by
  rw [← C167_opts_back (C := C) optCounted_apart (C164_computed ..) (by decide) (by decide +kernel) rfl
    [0, 0, 0, 0xc0, 0x7f] [] (C164_fails_again C).1, (C164_fails_again C).2]
  intro h
  cases h

/-- The second alternative, after `2.0f`. -/
theorem tagged_written (C : FloatOf ieee) (v : Val) :
    (streamCastTags C le64 (floatTagged 4 1 2) [v, .var 1 (.int 7)]).run =
      (.done (.ok ()), [0, 0, 0, 0x40, 7, 0, 0, 0]) := by
  rw [C163_write (floatTagged_apart (.inl rfl) 1 2) (floatTagged_two C _ _) (floatTagged_told _ _)]
  decide +kernel

example (C : FloatOf ieee) (v : Val) :
    ∃ ws, Sent le64 ((floatTagged 4 1 2).map (asLadder ieee)) [.int 0x40000000, .var 1 (.int 7)] ws ∧
      [0, 0, 0, 0x40, 7, 0, 0, 0] = wire le64 ((floatTagged 4 1 2).map (asLadder ieee)) ws := by
  obtain ⟨ws, h1, h2, _⟩ := (C167_tags (floatTagged_apart (.inl rfl) 1 2) (by decide +kernel) (by decide +kernel)
    (floatTagged_two C v _) (floatTagged_told _ _) (by decide +kernel) _).1 (tagged_written C v)
  exact ⟨ws, h1, h2⟩

example (C : FloatOf ieee) :
    ∃ ws, Sent le64 ((floatTagged 4 1 2).map (asLadder ieee)) [.int 0x40000000, .var 1 (.int 7)] ws ∧
      wire le64 ((floatTagged 4 1 2).map (asLadder ieee)) ws =
        wire le64 ((floatTagged 4 1 2).map (asLadder ieee)) [.int 0x40000000, .var 1 (.int 7)] :=
  (C167_tags_back (floatTagged_apart (.inl rfl) 1 2) (by decide +kernel) (by decide +kernel)
    (floatTagged_two C _ _) (floatTagged_told _ _) (by decide +kernel) _ []
    (by rw [C163_read]; decide +kernel)).1 (tagged_written C _)

/-- A count of two bytes, of which one is written: what is sent is not what the writer had. -/
def narrowCrate : List SzField :=
  [.plain "box" (.record
    [.plain "n" (.leaf (.num u16 1)) .none,
     .plain "ps" (.leaf (.vec (.scalar u8) (.fromField "n") none)) .none]
    (some (.computed ⟨[], fun _ => 0⟩))) .none]

example : ∃ us, Sent be64 (asVectors (asFields narrowCrate [])) [.seq [.int 0, .seq [.int 7, .int 8]]] us ∧
    ¬ Valid be64 (asArrays (asFields narrowCrate [])) us := by
  obtain ⟨us, h1, h2, h3⟩ := (C167_sized be64 narrowCrate (by decide +kernel) (by decide +kernel)
    [.seq [.int 0, .seq [.int 7, .int 8]]] (by decide +kernel) (by decide +kernel)
    (C166_full be64 _ _ (by decide +kernel)) (by decide +kernel) [0, 7, 8]).1 (by rfl)
  refine ⟨us, h1, fun hv => ?_⟩
  have h := ((h3 []).2 (by decide +kernel)).2 hv
  rw [List.append_nil, show (structCastSz be64 narrowCrate).run [0, 7, 8] =
    (.done (.ok [.seq [.int 0, .seq []]]), [7, 8]) from rfl] at h
  cases h

example : (streamCastSz be64 crate crateVal).run = (.done (.ok ()), [2, 7, 8]) ↔
    ∃ us, Sent be64 (asVectors (asFields crate [])) crateVal us ∧
      wire be64 (asVectors (asFields crate [])) us = wire be64 (asVectors (asFields crate [])) crateVal :=
  C167_sized_back be64 crate (by decide +kernel) (by decide +kernel) (by decide +kernel) (by decide +kernel)
    [2, 7, 8] [] crateVal (by decide +kernel) (by rfl)

end S2S.Props
