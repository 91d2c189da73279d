import Verif.Lemmas.Reorder
import Verif.Lemmas.Refused
import Verif.Props.Sizes
import Verif.Props.Group
/-
C138: fields picked and patched by their offsets.
-/
namespace S2S.Props
open Spec Demo

/-! ## C138 -/

/-- What a part of a struct sees of itself. -/
theorem envOf_part {a b c : List (Field × Val)} (hu : uniqueFields [] ((a ++ (b ++ c)).map Prod.fst) = true)
    {i : String} (hi : i ∈ (b.map Prod.fst).map Field.id) :
    envOf ((a ++ (b ++ c)).map Prod.fst) ((a ++ (b ++ c)).map Prod.snd) i =
      envOf (b.map Prod.fst) (b.map Prod.snd) i := by
  have hn := unique_nodup [] _ hu
  have hb : ((b.map Prod.fst).map Field.id).Nodup := by
    simp only [List.map_append] at hn
    exact (List.nodup_append.1 (List.nodup_append.1 hn).2.1).1
  obtain ⟨v, hv⟩ := envOf_some (fs := b.map Prod.fst) (vs := b.map Prod.snd) (by simp) hi
  rw [hv]
  obtain ⟨p, hp, h1, h2⟩ := (envOf_each hb i v).1 hv
  exact (envOf_each hn i v).2 ⟨p, by simp [hp], h1, h2⟩

theorem wf_field {fs : List Field} (hwf : WellFormed fs) {f : Field} (hf : f ∈ fs) :
    uniqueField f = true ∧ earlierField f = true := by
  obtain ⟨-, h2, h3⟩ := (wellFormed_iff fs).1 hwf
  rw [uniqueField_iff, earlierField_iff]
  have e2 := h2.2
  have e3 := h3.2
  clear hwf h2 h3
  induction fs with
  | nil => cases hf
  | cons g fs ih =>
    rcases List.mem_cons.1 hf with rfl | hf
    · exact ⟨e2.1, e3.1⟩
    · exact ih hf e2.2 e3.2

theorem own_names {fs : List Field} (hwf : WellFormed fs) {f : Field} (hf : f ∈ fs) {i : String}
    (hi : i ∈ fieldDeps f) : i ∈ fs.map Field.id := by
  rcases earlier_names hwf.2.2 hf hi with h | h
  · cases h
  · exact h

/-- A part that refers to nothing outside is valid on its own. -/
theorem valid_part {cfg : Cfg} {a b c : List (Field × Val)} (hwf : WellFormed ((a ++ (b ++ c)).map Prod.fst))
    (hb : WellFormed (b.map Prod.fst))
    (h : Valid cfg ((a ++ (b ++ c)).map Prod.fst) ((a ++ (b ++ c)).map Prod.snd)) :
    Valid cfg (b.map Prod.fst) (b.map Prod.snd) := by
  obtain ⟨h1, h2, h3⟩ := h
  rw [fits_each] at h1
  rw [ok_each] at h2
  rw [shaped_each] at h3
  refine ⟨?_, ?_, ?_⟩
  · rw [fits_each]; exact fun p hm => h1 p (by simp [hm])
  · rw [ok_each]; exact fun p hm => h2 p (by simp [hm])
  · rw [shaped_each]
    intro p hm
    have hf : p.1 ∈ b.map Prod.fst := List.mem_map_of_mem hm
    obtain ⟨u, e⟩ := wf_field hb hf
    exact (shapedField_congr cfg p.1 u e (fun i hi => envOf_part hwf.2.1 (own_names hb hf hi)) p.2).1
      (h3 p (by simp [hm]))

/-- Another one in its place. -/
theorem valid_patch {cfg : Cfg} {a b b' c : List (Field × Val)} (hwf : WellFormed ((a ++ (b ++ c)).map Prod.fst))
    (hb : WellFormed (b.map Prod.fst)) (he : b'.map Prod.fst = b.map Prod.fst)
    (hc : ∀ p ∈ c, ∀ i ∈ fieldDeps p.1, i ∉ (b.map Prod.fst).map Field.id)
    (h : Valid cfg ((a ++ (b ++ c)).map Prod.fst) ((a ++ (b ++ c)).map Prod.snd))
    (h' : Valid cfg (b'.map Prod.fst) (b'.map Prod.snd)) :
    Valid cfg ((a ++ (b' ++ c)).map Prod.fst) ((a ++ (b' ++ c)).map Prod.snd) := by
  have hwf' : WellFormed ((a ++ (b' ++ c)).map Prod.fst) := by
    simp only [List.map_append, he] at hwf ⊢
    exact hwf
  have hb' : WellFormed (b'.map Prod.fst) := by rw [he]; exact hb
  obtain ⟨h1, h2, h3⟩ := h
  obtain ⟨k1, k2, k3⟩ := h'
  rw [fits_each] at h1 k1
  rw [ok_each] at h2 k2
  rw [shaped_each] at h3 k3
  refine ⟨?_, ?_, ?_⟩
  · rw [fits_each]
    intro p hm
    simp only [List.mem_append] at hm
    rcases hm with hm | hm | hm
    · exact h1 p (by simp [hm])
    · exact k1 p hm
    · exact h1 p (by simp [hm])
  · rw [ok_each]
    intro p hm
    simp only [List.mem_append] at hm
    rcases hm with hm | hm | hm
    · exact h2 p (by simp [hm])
    · exact k2 p hm
    · exact h2 p (by simp [hm])
  · rw [shaped_each]
    have outside : ∀ p ∈ a ++ (b ++ c), (∀ i ∈ fieldDeps p.1, i ∉ (b.map Prod.fst).map Field.id) →
        ShapedField cfg (envOf ((a ++ (b' ++ c)).map Prod.fst) ((a ++ (b' ++ c)).map Prod.snd)) p.1 p.2 := by
      intro p hm hd
      obtain ⟨u, e⟩ := wf_field hwf (List.mem_map_of_mem hm)
      refine (shapedField_congr cfg p.1 u e (fun i hi => ?_) p.2).1 (h3 p hm)
      simp only [List.map_append]
      rw [envOf_drop _ _ _ _ _ _ (by simp) (by simp) i (hd i hi),
        envOf_drop _ _ _ _ _ _ (by simp) (by simp) i (by rw [he]; exact hd i hi)]
    intro p hm
    simp only [List.mem_append] at hm
    rcases hm with hm | hm | hm
    · refine outside p (by simp [hm]) fun i hi hn => ?_
      have hpre : WellFormed (a.map Prod.fst) := by
        rw [List.map_append] at hwf
        exact wf_prefix hwf
      have h4 := own_names hpre (List.mem_map_of_mem hm) hi
      have hwf2 := hwf.2.1
      rw [List.map_append] at hwf2
      exact names_apart hwf2 h4 (by simp only [List.map_append, List.mem_append]; exact .inl hn)
    · have hf : p.1 ∈ b'.map Prod.fst := List.mem_map_of_mem hm
      obtain ⟨u, e⟩ := wf_field hb' hf
      exact (shapedField_congr cfg p.1 u e (fun i hi => envOf_part hwf'.2.1 (own_names hb' hf hi)) p.2).2
        (k3 p hm)
    · exact outside p (by simp [hm]) (hc p hm)

/-- The struct in three parts. -/
theorem three_parts {A B C : List Field} {vs : List Val} (h : (A ++ (B ++ C)).length = vs.length) :
    ∃ a b c : List (Field × Val), A = a.map Prod.fst ∧ B = b.map Prod.fst ∧ C = c.map Prod.fst ∧
      vs = (a ++ (b ++ c)).map Prod.snd := by
  refine ⟨A.zip (vs.take A.length), B.zip ((vs.drop A.length).take B.length),
    C.zip ((vs.drop A.length).drop B.length), ?_, ?_, ?_, ?_⟩
  · exact (each_of_length (by simp at h ⊢; omega)).1.symm
  · exact (each_of_length (by simp at h ⊢; omega)).1.symm
  · exact (each_of_length (by simp at h ⊢; omega)).1.symm
  · simp only [List.map_append]
    rw [(each_of_length (by simp at h ⊢; omega)).2, (each_of_length (by simp at h ⊢; omega)).2,
      (each_of_length (by simp at h ⊢; omega)).2]
    rw [List.take_append_drop, List.take_append_drop]

theorem map_three {α β : Type} (f : α → β) (a b c : List α) :
    a.map f ++ (b.map f ++ c.map f) = (a ++ (b ++ c)).map f := by simp

/-- A successful read in three parts. -/
theorem read_parts {cfg : Cfg} {pre mid post : List Field} (hwf : WellFormed (pre ++ (mid ++ post)))
    {inp rest : List Byte} {vs : List Val}
    (h : (structCast cfg (pre ++ (mid ++ post))).run inp = (.done (.ok vs), rest)) :
    ∃ a b c : List (Field × Val), pre = a.map Prod.fst ∧ mid = b.map Prod.fst ∧ post = c.map Prod.fst ∧
      vs = a.map Prod.snd ++ (b.map Prod.snd ++ c.map Prod.snd) ∧
      WellFormed ((a ++ (b ++ c)).map Prod.fst) ∧
      Valid cfg ((a ++ (b ++ c)).map Prod.fst) ((a ++ (b ++ c)).map Prod.snd) ∧
      inp = wire cfg pre (a.map Prod.snd) ++ (wire cfg mid (b.map Prod.snd) ++
        (wire cfg post (c.map Prod.snd) ++ rest)) ∧
      minFields pre ≤ (wire cfg pre (a.map Prod.snd)).length ∧
      (wire cfg pre (a.map Prod.snd)).length ≤ maxFields cfg pre := by
  obtain ⟨hv, rfl⟩ := (read_iff cfg _ hwf inp rest vs).1 h
  obtain ⟨a, b, c, rfl, rfl, rfl, rfl⟩ := three_parts (fits_length hv.1)
  have hp := wf_prefix hwf
  rw [map_three] at hwf hv ⊢
  have ha : Valid cfg (a.map Prod.fst) (a.map Prod.snd) :=
    valid_part (a := []) (b := a) (c := b ++ c) hwf hp hv
  have hk := wireFields_between cfg cfg.wire _ hp.1 _ ha.1
  refine ⟨a, b, c, rfl, rfl, rfl, by simp, hwf, hv, ?_, hk.1, hk.2⟩
  simp only [wire, wire_each, List.flatMap_append, List.append_assoc]

/-- C138, picking: a part of the list that refers to nothing before it is read on its own from
where it begins, which is between the least and the greatest size of what stands before it. -/
theorem C138_pick (cfg : Cfg) (pre mid post : List Field) (hwf : WellFormed (pre ++ (mid ++ post)))
    (hm : WellFormed mid) (inp rest : List Byte) (vs : List Val)
    (h : (structCast cfg (pre ++ (mid ++ post))).run inp = (.done (.ok vs), rest)) :
    ∃ k rest', minFields pre ≤ k ∧ k ≤ maxFields cfg pre ∧
      (structCast cfg mid).run (inp.drop k) =
        (.done (.ok ((vs.drop pre.length).take mid.length)), rest') := by
  obtain ⟨a, b, c, rfl, rfl, rfl, rfl, hwf, hv, rfl, h1, h2⟩ := read_parts hwf h
  refine ⟨_, wire cfg (c.map Prod.fst) (c.map Prod.snd) ++ rest, h1, h2, ?_⟩
  rw [List.drop_left, read_iff cfg _ hm]
  have e : ((a.map Prod.snd ++ (b.map Prod.snd ++ c.map Prod.snd)).drop (a.map Prod.fst).length).take
      (b.map Prod.fst).length = b.map Prod.snd := by
    rw [List.drop_left' (by simp), List.take_left' (by simp)]
  rw [e]
  exact ⟨valid_part hwf hm hv, rfl⟩

/-- C138, at a fixed offset: if what stands before is always `n` bytes long, the part is read
from the `n`-th byte on. -/
theorem C138_fixed (cfg : Cfg) (pre mid post : List Field) (hwf : WellFormed (pre ++ (mid ++ post)))
    (hm : WellFormed mid) (n : Nat) (h1 : minFields pre = n) (h2 : maxFields cfg pre = n)
    (inp rest : List Byte) (vs : List Val)
    (h : (structCast cfg (pre ++ (mid ++ post))).run inp = (.done (.ok vs), rest)) :
    ∃ rest', (structCast cfg mid).run (inp.drop n) =
        (.done (.ok ((vs.drop pre.length).take mid.length)), rest') := by
  obtain ⟨k, rest', h3, h4, h5⟩ := C138_pick cfg pre mid post hwf hm inp rest vs h
  obtain rfl : k = n := by omega
  exact ⟨rest', h5⟩

/-- C138, from the end: a trailer that refers to nothing before it and is always `m` bytes long is
read from the last `m` bytes of what the whole takes. -/
theorem C138_trailer (cfg : Cfg) (pre post : List Field) (hwf : WellFormed (pre ++ post))
    (hp : WellFormed post) (m : Nat) (h1 : minFields post = m) (h2 : maxFields cfg post = m)
    (inp : List Byte) (vs : List Val)
    (h : (structCast cfg (pre ++ post)).run inp = (.done (.ok vs), [])) :
    (structCast cfg post).run (inp.drop (inp.length - m)) =
        (.done (.ok (vs.drop pre.length)), []) := by
  rw [show pre ++ post = pre ++ (post ++ []) by simp] at hwf h
  obtain ⟨a, b, c, rfl, rfl, hc, rfl, hwf, hv, rfl, -, -⟩ := read_parts hwf h
  obtain rfl : c = [] := by simpa using hc.symm
  have hb := valid_part hwf hp hv
  have hk := wireFields_between cfg cfg.wire _ hp.1 _ hb.1
  rw [List.drop_left' (by simp [wire, wireFields] at hk ⊢; omega), List.drop_left' (by simp), read_iff cfg _ hp]
  simpa [wire, wireFields] using hb

/-- C138, patching: if nothing after the part refers to it, other bytes it is read from may be put
in its place, and the whole is read as before with the other values there. -/
theorem C138_patch (cfg : Cfg) (pre mid post : List Field) (hwf : WellFormed (pre ++ (mid ++ post)))
    (hm : WellFormed mid) (hd : ∀ f ∈ post, ∀ i ∈ fieldDeps f, i ∉ mid.map Field.id)
    (n m : Nat) (h1 : minFields pre = n) (h2 : maxFields cfg pre = n)
    (h3 : minFields mid = m) (h4 : maxFields cfg mid = m)
    (inp rest : List Byte) (vs : List Val)
    (h : (structCast cfg (pre ++ (mid ++ post))).run inp = (.done (.ok vs), rest))
    (new : List Byte) (ns : List Val) (hn : (structCast cfg mid).run new = (.done (.ok ns), [])) :
    new.length = m ∧
    (structCast cfg (pre ++ (mid ++ post))).run (inp.take n ++ (new ++ inp.drop (n + m))) =
      (.done (.ok (vs.take pre.length ++ (ns ++ vs.drop (pre.length + mid.length)))), rest) := by
  obtain ⟨a, b, c, rfl, rfl, rfl, rfl, hwf, hv, rfl, h5, h6⟩ := read_parts hwf h
  obtain ⟨hvn, rfl⟩ := (read_iff cfg _ hm new [] ns).1 hn
  have hb := valid_part hwf hm hv
  have hkb := wireFields_between cfg cfg.wire _ hm.1 _ hb.1
  have hkn := wireFields_between cfg cfg.wire _ hm.1 _ hvn.1
  obtain ⟨e1, e2⟩ := each_of_length (fits_length hvn.1)
  have hw := valid_patch (b' := (b.map Prod.fst).zip ns) hwf hm e1
    (fun p hp => hd p.1 (List.mem_map_of_mem hp)) hv (by rw [e1, e2]; exact hvn)
  refine ⟨by simp only [wire, List.append_nil] at hkn ⊢; omega, ?_⟩
  rw [List.take_left' (by omega), ← List.drop_drop, List.drop_left' (by omega),
    List.drop_left' (by simp only [wire] at hkb ⊢; omega),
    List.take_left' (by simp), ← List.drop_drop, List.drop_left' (by simp), List.drop_left' (by simp)]
  rw [map_three, read_iff cfg _ hwf]
  have e3 : a.map Prod.snd ++ (ns ++ c.map Prod.snd) = (a ++ ((b.map Prod.fst).zip ns ++ c)).map Prod.snd := by
    simp only [List.map_append]; rw [e2]
  have e4 : (a ++ (b ++ c)).map Prod.fst = (a ++ ((b.map Prod.fst).zip ns ++ c)).map Prod.fst := by
    simp only [List.map_append]; rw [e1]
  rw [e3, e4]
  refine ⟨hw, ?_⟩
  have e5 : wire cfg (b.map Prod.fst) ns = wire cfg (((b.map Prod.fst).zip ns).map Prod.fst)
      (((b.map Prod.fst).zip ns).map Prod.snd) := by rw [e1, e2]
  rw [e5]
  simp only [wire, wire_each, List.flatMap_append, List.append_assoc, List.append_nil]

/-- C138, the proviso: bytes that later fields depend on cannot be patched so. The length of the
vector of `packet` replaced by another. -/
theorem C138_fails :
    ∃ (pre mid post : List Field) (inp new : List Byte) (vs ns : List Val),
      WellFormed (pre ++ (mid ++ post)) ∧ WellFormed mid ∧
      minFields pre = 4 ∧ maxFields be64 pre = 4 ∧ minFields mid = 2 ∧ maxFields be64 mid = 2 ∧
      (structCast be64 (pre ++ (mid ++ post))).run inp = (.done (.ok vs), []) ∧
      (structCast be64 mid).run new = (.done (.ok ns), []) ∧
      ∀ us rest, (structCast be64 (pre ++ (mid ++ post))).run (inp.take 4 ++ (new ++ inp.drop 6)) ≠
        (.done (.ok us), rest) := by
  refine ⟨packet.take 1, (packet.drop 1).take 1, packet.drop 2, packetBytes, [0, 65], packetParsed, [.int 65],
    by decide, by decide, by decide, by decide, by decide, by decide, rfl, rfl, ?_⟩
  intro us rest h
  have e : ∃ a r, (structCast be64 (packet.take 1 ++ ((packet.drop 1).take 1 ++ packet.drop 2))).run
      (packetBytes.take 4 ++ ([0, 65] ++ packetBytes.drop 6)) = (.done (.error a), r) := ⟨_, _, rfl⟩
  obtain ⟨a, r, e⟩ := e
  rw [e] at h
  cases h

/-! ### Examples -/

/-- The tag of `packet` stands at offset 6. -/
example : ∃ rest', (structCast be64 [.plain "tag" (.num u8 1) .none]).run (packetBytes.drop 6) =
    (.done (.ok [.int 7]), rest') :=
  C138_fixed be64 (packet.take 2) [.plain "tag" (.num u8 1) .none] (packet.drop 3) (by decide) (by decide) 6
    (by decide) (by decide) packetBytes [] packetParsed rfl

/-- Its checksum stands in the last two bytes, wherever they are. -/
example (inp : List Byte) (vs : List Val)
    (h : (structCast be64 (packet.take 5 ++ packet.drop 5)).run inp = (.done (.ok vs), [])) :
    (structCast be64 (packet.drop 5)).run (inp.drop (inp.length - 2)) = (.done (.ok (vs.drop 5)), []) :=
  C138_trailer be64 (packet.take 5) (packet.drop 5) (by decide) (by decide) 2 (by decide) (by decide) inp vs h

/-- A sequence number between a length and what has that length, patched in place. -/
def numbered : List Field :=
  [.plain "len" (.num u16 2) .none, .plain "seq" (.num u32 4) .none,
   .plain "data" (.vec (.scalar u8) (.fromField "len") (some 9)) .none]

example : (structCast be64 numbered).run [0, 2, 0, 0, 0, 1, 8, 9] =
    (.done (.ok [.int 2, .int 1, .seq [.int 8, .int 9]]), []) := by rfl
example : (structCast be64 numbered).run [0, 2, 0, 0, 1, 0, 8, 9] =
    (.done (.ok [.int 2, .int 256, .seq [.int 8, .int 9]]), []) :=
  (C138_patch be64 (numbered.take 1) ((numbered.drop 1).take 1) (numbered.drop 2) (by decide) (by decide)
    (by decide) 2 4 (by decide) (by decide) (by decide) (by decide) [0, 2, 0, 0, 0, 1, 8, 9] []
    [.int 2, .int 1, .seq [.int 8, .int 9]] rfl [0, 0, 1, 0] [.int 256] rfl).2

/-- The checksum of a packet stands somewhere behind its ninth byte. -/
example : ∃ k rest', 8 ≤ k ∧ (structCast be64 (packet.drop 5)).run (packetBytes.drop k) = (.done (.ok [.int 0xbeef]), rest') := by
  obtain ⟨k, rest', h1, -, h2⟩ := C138_pick be64 (packet.take 5) (packet.drop 5) [] (by decide +kernel) (by decide +kernel)
    packetBytes [] packetParsed (by rfl)
  exact ⟨k, rest', Nat.le_trans (by decide +kernel) h1, h2⟩

end S2S.Props
