import Verif.Lemmas.Transcode
import Verif.Props.Rewrite
/-
C124: from one byte order to the other.
-/
namespace S2S.Props
open Spec Demo

/-! ## C124 -/

/-- C124. Where every number is declared with all the bytes of its type, the structs that can
be read are the same in both byte orders. -/
theorem C124_same_structs (cfg : Cfg) (o : Endian) (fs : List Field) (hwf : WellFormed fs)
    (hf : Everywhere FullNums fs) (vs : List Val) :
    (∃ inp rest, (structCast cfg fs).run inp = (.done (.ok vs), rest)) ↔
      ∃ inp rest, (structCast (inOrder cfg o) fs).run inp = (.done (.ok vs), rest) := by
  constructor
  · rintro ⟨inp, rest, h⟩
    have hv := ((read_iff cfg fs hwf inp rest vs).1 h).1
    exact ⟨_, [], (read_iff (inOrder cfg o) fs hwf _ [] vs).2 ⟨(valid_order cfg o hf vs).2 hv, rfl⟩⟩
  · rintro ⟨inp, rest, h⟩
    have hv := ((read_iff (inOrder cfg o) fs hwf inp rest vs).1 h).1
    exact ⟨_, [], (read_iff cfg fs hwf _ [] vs).2 ⟨(valid_order cfg o hf vs).1 hv, rfl⟩⟩

/-- C124. Such a struct, read in one order and written in the other, gives as many bytes as
were read; read in the other order they are the struct again; and written back in the first
order they are the bytes it was read from. -/
theorem C124_transcode (cfg : Cfg) (o : Endian) (fs : List Field) (hrw : Rewritable cfg fs)
    (hf : Everywhere FullNums fs) (p rest : List Byte) (vs : List Val)
    (h : (structCast cfg fs).run (p ++ rest) = (.done (.ok vs), rest)) :
    ∃ q, (streamCast (inOrder cfg o) fs vs).run = (.done (.ok ()), q) ∧ q.length = p.length ∧
      (∀ rest', (structCast (inOrder cfg o) fs).run (q ++ rest') = (.done (.ok vs), rest')) ∧
      (streamCast cfg fs vs).run = (.done (.ok ()), p) := by
  obtain ⟨hv, he⟩ := (read_iff cfg fs hrw.1 _ _ _).1 h
  cases List.append_cancel_right he
  have hrw' := rewritable_order o hf hrw
  have hv' := (valid_order cfg o hf vs).2 hv
  refine ⟨wire (inOrder cfg o) fs vs, ?_, wireFields_order _ _ fs vs, fun rest' => ?_, ?_⟩
  · rw [Wr.run_eq]; exact streamCast_complete hrw' hv'
  · exact (read_iff (inOrder cfg o) fs hrw.1 _ _ _).2 ⟨hv', rfl⟩
  · rw [Wr.run_eq]; exact streamCast_complete hrw hv

/-- C124. Different inputs are transcoded to different outputs. -/
theorem C124_injective (cfg : Cfg) (o : Endian) (fs : List Field) (hrw : Rewritable cfg fs)
    (hf : Everywhere FullNums fs) (p p' q : List Byte) (vs vs' : List Val)
    (h : (structCast cfg fs).run p = (.done (.ok vs), []))
    (h' : (structCast cfg fs).run p' = (.done (.ok vs'), []))
    (hq : (streamCast (inOrder cfg o) fs vs).run = (.done (.ok ()), q))
    (hq' : (streamCast (inOrder cfg o) fs vs').run = (.done (.ok ()), q)) : p = p' := by
  obtain ⟨q1, h1, -, h2, h3⟩ := C124_transcode cfg o fs hrw hf p [] vs (by rw [List.append_nil]; exact h)
  obtain ⟨q2, h4, -, h5, h6⟩ := C124_transcode cfg o fs hrw hf p' [] vs' (by rw [List.append_nil]; exact h')
  rw [hq] at h1
  rw [hq'] at h4
  cases h1
  cases h4
  have := (h2 []).symm.trans (h5 [])
  cases this
  rw [h3] at h6
  cases h6
  rfl

/-- C124. In general, narrow numbers included: a struct read in one order that is written in
the other is read back from there if and only if it is valid in that order. -/
theorem C124_exactly (cfg : Cfg) (o : Endian) (fs : List Field) (hrw : Rewritable (inOrder cfg o) fs)
    (vs : List Val) :
    (∃ q, (streamCast (inOrder cfg o) fs vs).run = (.done (.ok ()), q) ∧
      (structCast (inOrder cfg o) fs).run q = (.done (.ok vs), [])) ↔ Valid (inOrder cfg o) fs vs := by
  constructor
  · rintro ⟨q, -, h⟩
    exact ((read_iff _ fs hrw.1 _ _ _).1 h).1
  · intro hv
    refine ⟨wire (inOrder cfg o) fs vs, ?_, (read_iff _ fs hrw.1 _ _ _).2 ⟨hv, by rw [List.append_nil]⟩⟩
    rw [Wr.run_eq]; exact streamCast_complete hrw hv

/-- C124 fails for narrow numbers: 0x0201 in two bytes of a `u32`, read little endian and
written big endian, is sent as its two high bytes, zeros. -/
theorem C124_fails_narrow : (structCast le64 [.plain "x" (.num u32 2) .none]).run [1, 2] = (.done (.ok [.int 0x0201]), []) ∧
    (streamCast (inOrder le64 .big) [.plain "x" (.num u32 2) .none] [.int 0x0201]).run = (.done (.ok ()), [0, 0]) ∧
    (structCast (inOrder le64 .big) [.plain "x" (.num u32 2) .none]).run [0, 0] = (.done (.ok [.int 0]), []) :=
  ⟨by decide +kernel, by decide +kernel, by decide +kernel⟩

/-! ### Examples -/

example : ∃ inp rest, (structCast (inOrder be64 .little) packet).run inp = (.done (.ok packetParsed), rest) :=
  (C124_same_structs be64 .little packet (by decide) (by decide +kernel) packetParsed).1
    ⟨packetBytes, [], (by rfl)⟩

example : ∃ q, (streamCast (inOrder be64 .little) packet packetParsed).run = (.done (.ok ()), q) ∧
    q.length = packetBytes.length ∧
    (∀ rest', (structCast (inOrder be64 .little) packet).run (q ++ rest') = (.done (.ok packetParsed), rest')) ∧
    (streamCast be64 packet packetParsed).run = (.done (.ok ()), packetBytes) :=
  C124_transcode be64 .little packet (rewritable_of_checked (by decide +kernel)) (by decide +kernel) packetBytes []
    packetParsed (by rw [List.append_nil]; rfl)

/-- The bytes are not the same. -/
example : (streamCast (inOrder be64 .little) packet packetParsed).run ≠ (.done (.ok ()), packetBytes) := by
  decide +kernel

example (p : List Byte) (vs : List Val) (h : (structCast be64 packet).run p = (.done (.ok vs), []))
    (q : List Byte) (hq : (streamCast (inOrder be64 .little) packet vs).run = (.done (.ok ()), q))
    (hq' : (streamCast (inOrder be64 .little) packet packetParsed).run = (.done (.ok ()), q)) :
    p = packetBytes :=
  C124_injective be64 .little packet (rewritable_of_checked (by decide +kernel)) (by decide +kernel) p packetBytes q
    vs packetParsed h (by rfl) hq hq'

example : ¬ ∃ q, (streamCast (inOrder le64 .big) [.plain "x" (.num u32 2) .none] [.int 0x0201]).run =
      (.done (.ok ()), q) ∧
    (structCast (inOrder le64 .big) [.plain "x" (.num u32 2) .none]).run q = (.done (.ok [.int 0x0201]), []) := by
  rw [C124_exactly le64 .big _ (rewritable_of_checked (by decide +kernel))]
  decide +kernel

example : inOrder be64 .little = ⟨.little, .little, false, 8, 16 * 1024 * 1024⟩ := rfl

end S2S.Props
