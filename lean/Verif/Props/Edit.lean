import Verif.Lemmas.Edit
import Verif.Props.Damage
import Verif.Props.Exact
/-
C126: read, edit, write.
-/
namespace S2S.Props
open Spec Demo

/-- The slots of a valid struct are filled. -/
theorem settle_valid {cfg : Cfg} {fs : List Field} (hsc : SelfConsistent cfg fs)
    (hrw : Rewritable cfg fs) {vs : List Val} (hv : Valid cfg fs vs) : settle fs vs = vs := by
  have hw : (streamCast cfg fs vs).run = (.done (.ok ()), wire cfg fs vs) := by
    rw [Wr.run_eq]; exact streamCast_complete hrw hv
  have h1 := (read_iff cfg fs hsc.1 _ [] vs).2 ⟨hv, rfl⟩
  have h2 := C45_round_trip cfg fs hsc vs (storable_of_fits hv.1) _ hw []
  rw [h1] at h2
  simp only [Prod.mk.injEq, Outcome.done.injEq, Except.ok.injEq, and_true] at h2
  exact h2.symm

/-- C126, what is written: a struct was read, some of its fields (`hit`) were assigned to, the
result is written. If that succeeds, the bytes are those of a struct that differs from the one
read in the fields assigned to and the slots filled from them, and nowhere else; reading them
gives that struct. -/
theorem C126_kept_partial (cfg : Cfg) (fs : List Field) (hsc : SelfConsistent cfg fs)
    (hrw : Rewritable cfg fs) (inp rest : List Byte) (vs : List Val)
    (h : (structCast cfg fs).run inp = (.done (.ok vs), rest)) (hit : Field → Prop)
    (vs' : List Val) (he : SameBut hit fs vs vs') (hst : Storable cfg fs vs') (q : List Byte)
    (hw : (streamCast cfg fs vs').run = (.done (.ok ()), q)) :
    ∃ ws, SameBut (Affected fs hit) fs vs ws ∧ q = wire cfg fs ws ∧
      ∀ tail, (structCast cfg fs).run (q ++ tail) = (.done (.ok ws), tail) := by
  obtain ⟨h1, _⟩ := (read_iff cfg fs hsc.1 _ _ _).1 h
  obtain ⟨h2, rfl⟩ := (C69_exactly_valid cfg fs hsc hrw vs' hst q).1 hw
  refine ⟨settle fs vs', ?_, rfl, fun tail => (read_iff cfg fs hsc.1 _ _ _).2 ⟨h2, rfl⟩⟩
  have := settleFields_sameBut he he
  rw [← settle, settle_valid hsc hrw h1] at this
  exact this

/-- Only the data of the packet of the demo assigned to: the rest of what is written, the
length apart, is what was read. -/
example (q : List Byte) (xs : List Val)
    (hst : Storable be64 packet (packetParsed.set 3 (.seq xs)))
    (hw : (streamCast be64 packet (packetParsed.set 3 (.seq xs))).run = (.done (.ok ()), q)) :
    ∃ ws, SameBut (Affected packet fun g => g.id = "data") packet packetParsed ws ∧
      q = wire be64 packet ws ∧
      ∀ tail, (structCast be64 packet).run (q ++ tail) = (.done (.ok ws), tail) :=
  C126_kept_partial be64 packet (by decide +kernel) (rewritable_of_checked (by decide +kernel)) packetBytes []
    packetParsed (by rfl) (fun g => g.id = "data") _
    (.same (.same (.same (.other rfl (.same (.same .nil)))))) hst q hw

/-- C126, when: the write succeeds exactly if, the slots filled, the fields assigned to, the
slots filled from them and the fields that look at one of those are valid beside the others.
Nothing else is looked at again. -/
theorem C126_rechecked_partial (cfg : Cfg) (fs : List Field) (hsc : SelfConsistent cfg fs)
    (hrw : Rewritable cfg fs) (inp rest : List Byte) (vs : List Val)
    (h : (structCast cfg fs).run inp = (.done (.ok vs), rest)) (hit : Field → Prop)
    (vs' : List Val) (he : SameBut hit fs vs vs') (hst : Storable cfg fs vs') (q : List Byte) :
    (streamCast cfg fs vs').run = (.done (.ok ()), q) ↔
      (∀ g w, (g, w) ∈ fs.zip (settle fs vs') → Rechecked fs hit g →
        IsField cfg (envOf fs (settle fs vs')) g w) ∧ q = wire cfg fs (settle fs vs') := by
  obtain ⟨h1, _⟩ := (read_iff cfg fs hsc.1 _ _ _).1 h
  have h2 : SameBut (Affected fs hit) fs (settle fs vs) (settle fs vs') :=
    settleFields_sameBut he he
  rw [settle_valid hsc hrw h1] at h2
  rw [C69_exactly_valid cfg fs hsc hrw vs' hst q, valid_recheck hsc.1 h1 h2]
  rfl

/-- A number no greater than 9. -/
def digitSchema : List Field :=
  [.plain "len" (.num u8 1) .none, .plain "d" (.vec (.scalar u8) (.fromField "len") none) .none,
   .plain "x" (.num u8 1) (.cmp .lt i32 10)]

/-- Assigning 12 to the number: it is looked at again and not valid, the write fails. -/
example (q : List Byte) : (streamCast be64 digitSchema [.int 1, .seq [.int 4], .int 12]).run ≠
    (.done (.ok ()), q) := fun h => by
  have h1 := ((C126_rechecked_partial be64 digitSchema (by decide +kernel)
    (rewritable_of_checked (by decide +kernel)) [1, 4, 7] [] [.int 1, .seq [.int 4], .int 7] (by rfl)
    (fun g => g.id = "x") [.int 1, .seq [.int 4], .int 12]
    (.same (.same (.other rfl .nil))) (by decide +kernel) q).1 h).1
    (.plain "x" (.num u8 1) (.cmp .lt i32 10)) (.int 12)
  have he : settle digitSchema [.int 1, .seq [.int 4], .int 12] = [.int 1, .seq [.int 4], .int 12] := by
    decide +kernel
  rw [he] at h1
  have h2 := (h1 (by simp [digitSchema]) (.inl (.inl rfl))).2.1
  simp only [OkField] at h2
  exact absurd h2.2 (by decide +kernel)

/-- C126, one field: another value the field could have there is assigned to a field nobody
looks at. The write emits the bytes that were read with those of the field replaced. -/
theorem C126_replaced (cfg : Cfg) (pre post : List Field) (f : Field)
    (hrw : Rewritable cfg (pre ++ f :: post)) (hun : Unseen post f.id) (us ws : List Val)
    (v v' : Val) (hl : us.length = pre.length) (inp rest : List Byte)
    (h : (structCast cfg (pre ++ f :: post)).run inp = (.done (.ok (us ++ v :: ws)), rest))
    (hv : IsField cfg (envOf pre us) f v') :
    inp = wire cfg pre us ++ wireField cfg.wire f v ++ wire cfg post ws ++ rest ∧
    (streamCast cfg (pre ++ f :: post) (us ++ v' :: ws)).run =
      (.done (.ok ()), wire cfg pre us ++ wireField cfg.wire f v' ++ wire cfg post ws) := by
  obtain ⟨h1, rfl⟩ := (read_iff cfg _ hrw.1 _ _ _).1 h
  refine ⟨by rw [wire_split cfg pre post f us ws v hl], ?_⟩
  rw [← wire_split cfg pre post f us ws v' hl, Wr.run_eq]
  exact streamCast_complete hrw (valid_replace hrw.1 hl hun h1 hv)

example : (streamCast be64 packet
      (packetParsed.take 4 ++ .var 1 (.seq [.int 5, .absent]) :: [.int 0xbeef])).run =
    (.done (.ok ()), [0, 0, 0x12, 0x34, 0, 3, 7, 0, 1, 0, 2, 0xab, 0xcd, 5, 0xbe, 0xef]) := by
  have h := (C126_replaced be64 (packet.take 4) (packet.drop 5) (packet.get ⟨4, by decide⟩)
    (rewritable_of_checked (by decide +kernel)) (by decide +kernel) (packetParsed.take 4) [.int 0xbeef]
    (.var 1 (.seq [.int (-1), .present (.int 0x0102)])) (.var 1 (.seq [.int 5, .absent])) rfl
    packetBytes [] (by rfl)
    (valid_split (post := []) (ws := []) (by decide +kernel) rfl (by decide +kernel)).2).2
  have he : wire be64 (packet.take 4) (packetParsed.take 4) ++
      wireField be64.wire (packet.get ⟨4, by decide⟩) (.var 1 (.seq [.int 5, .absent])) ++
      wire be64 (packet.drop 5) [.int 0xbeef] =
      [0, 0, 0x12, 0x34, 0, 3, 7, 0, 1, 0, 2, 0xab, 0xcd, 5, 0xbe, 0xef] := by decide +kernel
  rw [he] at h
  exact h

/-- C126, a field and its slot: a container or a union that nobody looks at is assigned a value
of another length, or of another alternative. The slot `sid` it is written with, which no other
field looks at, need not be assigned to: whatever it holds, the write emits the bytes that were
read with those of the field and of the slot replaced. -/
theorem C126_refilled (cfg : Cfg) (a b post : List Field) (sid : String) (t : ScalarTy) (w : Nat)
    (c : Constraint) (f : Field)
    (hsc : SelfConsistent cfg (a ++ .plain sid (.num t w) c :: (b ++ f :: post)))
    (hrw : Rewritable cfg (a ++ .plain sid (.num t w) c :: (b ++ f :: post)))
    (hsid : sid ∈ fills f)
    (hsole : ∀ g ∈ a ++ .plain sid (.num t w) c :: (b ++ f :: post), sid ∈ fieldDeps g → g = f)
    (hun : Unseen post f.id) (us1 us2 ws : List Val) (n0 v : Val)
    (hl1 : us1.length = a.length) (hl2 : us2.length = b.length) (inp rest : List Byte)
    (h : (structCast cfg (a ++ .plain sid (.num t w) c :: (b ++ f :: post))).run inp =
      (.done (.ok (us1 ++ n0 :: (us2 ++ v :: ws))), rest))
    (n : Int) (v' : Val)
    (hn : IsField cfg (envOf a us1) (.plain sid (.num t w) c) (.int n))
    (hv : IsField cfg (envOf (a ++ .plain sid (.num t w) c :: b) (us1 ++ .int n :: us2)) f v')
    (x : Val) :
    inp = wire cfg a us1 ++ wireField cfg.wire (.plain sid (.num t w) c) n0 ++ wire cfg b us2 ++
      wireField cfg.wire f v ++ wire cfg post ws ++ rest ∧
    (streamCast cfg (a ++ .plain sid (.num t w) c :: (b ++ f :: post))
        (us1 ++ x :: (us2 ++ v' :: ws))).run =
      (.done (.ok ()), wire cfg a us1 ++ wireField cfg.wire (.plain sid (.num t w) c) (.int n) ++
        wire cfg b us2 ++ wireField cfg.wire f v' ++ wire cfg post ws) := by
  obtain ⟨h1, rfl⟩ := (read_iff cfg _ hsc.1 _ _ _).1 h
  have hwire : ∀ m u, wire cfg (a ++ .plain sid (.num t w) c :: (b ++ f :: post))
      (us1 ++ m :: (us2 ++ u :: ws)) =
      wire cfg a us1 ++ wireField cfg.wire (.plain sid (.num t w) c) m ++ wire cfg b us2 ++
      wireField cfg.wire f u ++ wire cfg post ws := by
    intro m u
    rw [wire_split cfg a _ _ us1 _ _ hl1, wire_split cfg b _ _ us2 _ _ hl2]
    simp only [List.append_assoc]
  refine ⟨by rw [hwire], ?_⟩
  rw [← hwire]
  generalize hslot : Field.plain sid (.num t w) c = slot at *
  have hid : slot.id = sid := by rw [← hslot]; rfl
  have hre : ∀ ys zs : List Field, a ++ slot :: (ys ++ f :: zs) = (a ++ slot :: ys) ++ f :: zs := by
    simp
  have hrv : ∀ m u, us1 ++ m :: (us2 ++ u :: ws) = (us1 ++ m :: us2) ++ u :: ws := by simp
  have hlen := fitsFields_length h1.1
  have hlw : ws.length = post.length := by
    simp only [List.length_append, List.length_cons] at hlen; omega
  have hls : (us2 ++ v :: ws).length = (b ++ f :: post).length := by simp; omega
  have hls' : (us2 ++ v' :: ws).length = (b ++ f :: post).length := by simp; omega
  have hlp : (us1 ++ Val.int n :: us2).length = (a ++ slot :: b).length := by simp; omega
  -- the struct with both replaced
  have hsame : SameBut (fun g => g = slot ∨ g = f) (a ++ slot :: (b ++ f :: post))
      (us1 ++ n0 :: (us2 ++ v :: ws)) (us1 ++ .int n :: (us2 ++ v' :: ws)) := by
    refine sameBut_trans (sameBut_at n0 (.int n) hl1 hls (.inl rfl)) ?_
    rw [hre, hrv, hrv]
    exact sameBut_at v v' hlp hlw (.inr rfl)
  have hunAll : Unseen (a ++ slot :: (b ++ f :: post)) f.id := by
    have h2 := earlier_unseen (pre := a ++ slot :: b) (post := post) (f := f) (by
      rw [← hre]; exact hsc.1)
    have h3 : f.id ∉ fieldDeps f := by
      intro hi
      have := hsc.1
      rw [hre] at this
      have h4 := earlier_deps this.2.2 _ hi
      exact not_own_name this.2.1 (by simpa using h4)
    intro g hg
    rw [hre] at hg
    simp only [List.mem_append, List.mem_cons] at hg
    rcases hg with (hg | rfl | hg) | rfl | hg
    · exact h2 g (by simp [hg])
    · exact h2 g (by simp)
    · exact h2 g (by simp [hg])
    · exact h3
    · exact hun g hg
  have hnew : Valid cfg (a ++ slot :: (b ++ f :: post)) (us1 ++ .int n :: (us2 ++ v' :: ws)) := by
    rw [valid_recheck hsc.1 h1 hsame]
    intro g u hm ht
    have hgf : (g = slot) ∨ g = f := by
      rcases ht with ht | ⟨e, _, rfl | rfl, hd⟩
      · exact ht
      · exact .inr (hsole g (List.of_mem_zip hm).1 (hid ▸ hd))
      · exact absurd hd (hunAll g (List.of_mem_zip hm).1)
    have hu := env_zip hsc.1.2.1 hm
    rcases hgf with rfl | rfl
    · have h2 := env_zip (fs := a ++ g :: (b ++ f :: post)) (vs := us1 ++ .int n :: (us2 ++ v' :: ws))
        (f := g) (v := .int n) hsc.1.2.1 (by
          rw [List.zip_append hl1.symm]; simp)
      rw [h2] at hu
      cases hu
      refine ⟨hn.1, hn.2.1, ?_⟩
      rw [← hslot]
      simp [ShapedField, ShapedKind]
    · have h2 := env_zip (fs := a ++ slot :: (b ++ g :: post)) (vs := us1 ++ .int n :: (us2 ++ v' :: ws))
        (f := g) (v := v') hsc.1.2.1 (by
          rw [hre, hrv, List.zip_append hlp.symm]; simp)
      rw [h2] at hu
      cases hu
      have hwf := hsc.1
      rw [hre] at hwf ⊢
      rw [hrv]
      refine ⟨hv.1, hv.2.1, (shapedField_congr cfg g (uniqueField_mem hwf.2.1 g (by simp))
        (earlierField_mem hwf.2.2 g (by simp)) (Agree.mono
          (envOf_append_agree (a ++ slot :: b) (g :: post) (us1 ++ .int n :: us2) (v' :: ws) hlp)
          fun i hi => by simpa using earlier_deps hwf.2.2 i hi) v').mp hv.2.2⟩
  -- what the slot holds does not matter
  have hisSlot : isSlot (a ++ slot :: (b ++ f :: post)) sid = true :=
    isSlot_of_fills (by simp) hsid
  have hset : settle (a ++ slot :: (b ++ f :: post)) (us1 ++ x :: (us2 ++ v' :: ws)) =
      settle (a ++ slot :: (b ++ f :: post)) (us1 ++ .int n :: (us2 ++ v' :: ws)) := by
    unfold settle
    refine settleFields_slot (fun id => ?_)
      (sameBut_at x (.int n) hl1 hls' ⟨sid, .num t w, c, hslot.symm, hisSlot⟩)
    unfold slotValue
    rw [producers_sameBut (sameBut_at (hit := fun g => g = slot) x (.int n) hl1 hls' rfl) fun g _ hg => by
      subst hg; rw [← hslot]; simp [fills, Kind.lenTarget?, Kind.lenSpec?]]
  have h3 := C48_slots_ignored cfg _ hsc.1.2.1 (SelfConsistent.fresh hsc) _ _ hset listOut ([] : List Byte)
  have h4 : (streamCast cfg (a ++ slot :: (b ++ f :: post)) (us1 ++ x :: (us2 ++ v' :: ws))).run =
    (streamCast cfg (a ++ slot :: (b ++ f :: post)) (us1 ++ .int n :: (us2 ++ v' :: ws))).run := h3
  rw [h4, Wr.run_eq]
  exact streamCast_complete hrw hnew


/-- Data of another length assigned to the packet of the demo, its length left at 3. -/
example : (streamCast be64 packet
      (packetParsed.take 1 ++ .int 3 :: ([.int 7] ++ .seq [.int 9] :: packetParsed.drop 4))).run =
    (.done (.ok ()), [0, 0, 0x12, 0x34, 0, 1, 7, 0, 9, 0xff, 1, 2, 0xbe, 0xef]) := by
  have h := (C126_refilled be64 (packet.take 1) [.plain "tag" (.num u8 1) .none] (packet.drop 4) "len"
    u16 2 .none (packet.get ⟨3, by decide⟩) (by decide +kernel)
    (rewritable_of_checked (by decide +kernel)) (by decide +kernel)
    (fun g hg hd => by
      have hg' : g ∈ packet := hg
      simp only [packet, List.mem_cons, List.not_mem_nil, or_false] at hg'
      rcases hg' with rfl | rfl | rfl | rfl | rfl | rfl
      all_goals first | rfl | (exfalso; revert hd; decide +kernel)) (by decide +kernel)
    (packetParsed.take 1) [.int 7] (packetParsed.drop 4) (.int 3)
    (.seq [.int 1, .int 2, .int 0xabcd]) rfl rfl packetBytes [] (by rfl) 1 (.seq [.int 9])
    (valid_split (post := []) (ws := []) (by decide +kernel) rfl (by decide +kernel)).2
    (valid_split (post := []) (ws := []) (by decide +kernel) rfl (by decide +kernel)).2 (.int 3)).2
  have he : wire be64 (packet.take 1) (packetParsed.take 1) ++
      wireField be64.wire (.plain "len" (.num u16 2) .none) (.int 1) ++
      wire be64 [.plain "tag" (.num u8 1) .none] [.int 7] ++
      wireField be64.wire (packet.get ⟨3, by decide⟩) (.seq [.int 9]) ++
      wire be64 (packet.drop 4) (packetParsed.drop 4) =
      [0, 0, 0x12, 0x34, 0, 1, 7, 0, 9, 0xff, 1, 2, 0xbe, 0xef] := by decide +kernel
  rw [he] at h
  exact h

/-- Two containers written with one length. -/
def twinSchema : List Field :=
  [.plain "len" (.num u8 1) .none, .plain "d" (.vec (.scalar u8) (.fromField "len") none) .none,
   .plain "e" (.vec (.scalar u8) (.fromField "len") none) .none]

/-- C126 fails where another container is written with the same length: assigning one of them
a value of another length, the write fails. -/
theorem C126_fails_shared :
    SelfConsistent be64 twinSchema ∧ Rewritable be64 twinSchema ∧
    (structCast be64 twinSchema).run [1, 5, 6] =
      (.done (.ok [.int 1, .seq [.int 5], .seq [.int 6]]), []) ∧
    ∀ x q, (streamCast be64 twinSchema [.int x, .seq [.int 5, .int 5], .seq [.int 6]]).run ≠
      (.done (.ok ()), q) := by
  have hsc : SelfConsistent be64 twinSchema := by decide +kernel
  have hrw : Rewritable be64 twinSchema := rewritable_of_checked (by decide +kernel)
  refine ⟨hsc, hrw, by rfl, fun x q h => ?_⟩
  have h1 := C48_slots_ignored be64 twinSchema hsc.1.2.1 (SelfConsistent.fresh hsc)
    [.int x, .seq [.int 5, .int 5], .seq [.int 6]] [.int 0, .seq [.int 5, .int 5], .seq [.int 6]]
    (by rfl) listOut ([] : List Byte)
  have h2 := ((C69_exactly_valid be64 twinSchema hsc hrw
    [.int 0, .seq [.int 5, .int 5], .seq [.int 6]] (by decide +kernel) q).1 (h1.symm.trans h)).1
  exact absurd h2 (by decide +kernel)

/-- C126 fails where a field looks at the one assigned to: with `a` changed from -1 the number
that was there because of it is one too many. -/
theorem C126_fails_seen :
    SelfConsistent be64 inner ∧ Rewritable be64 inner ∧
    (structCast be64 inner).run [0xff, 0, 3] =
      (.done (.ok [.int (-1), .present (.int 3)]), []) ∧
    IsField be64 (envOf [] []) (.plain "a" (.num i8 1) .none) (.int 5) ∧
    ∀ q, (streamCast be64 inner [.int 5, .present (.int 3)]).run ≠ (.done (.ok ()), q) := by
  have hsc : SelfConsistent be64 inner := by decide +kernel
  have hrw : Rewritable be64 inner := rewritable_of_checked (by decide +kernel)
  refine ⟨hsc, hrw, by rfl,
    (valid_split (pre := []) (us := []) (post := []) (ws := []) (by decide +kernel) rfl
      (by decide +kernel)).2, fun q h => ?_⟩
  have h2 := ((C69_exactly_valid be64 inner hsc hrw _ (by decide +kernel) q).1 h).1
  exact absurd h2 (by decide +kernel)

end S2S.Props
