import Verif.Lemmas.Damage
import Verif.Props.Defined
import Verif.Props.Evolution
import Verif.Props.Refused
/-
C125: overwritten bytes.
-/
namespace S2S.Props
open Spec Demo

/-- The fields before a field, and the field beside them, of a valid struct. -/
theorem valid_split {cfg : Cfg} {pre post : List Field} {f : Field} {us ws : List Val} {v : Val}
    (hwf : WellFormed (pre ++ f :: post)) (hl : us.length = pre.length)
    (h : Valid cfg (pre ++ f :: post) (us ++ v :: ws)) :
    Valid cfg pre us ∧ IsField cfg (envOf pre us) f v := by
  constructor
  · have h1 := (read_iff cfg _ hwf _ [] _).2 ⟨h, rfl⟩
    obtain ⟨us', ws', h2, hl', h3, h4⟩ := C74_old_reader_bytes cfg pre (f :: post) hwf _ _ _ h1
    obtain ⟨rfl, rfl⟩ := List.append_inj h2 (by rw [hl, hl'])
    exact ((read_iff cfg _ (wf_prefix hwf) _ _ _).1 h4).1
  · obtain ⟨h1, h2, h3⟩ := h
    refine ⟨(fits_suffix hl h1).1, ?_, ?_⟩
    · clear h1 h3 hwf
      induction pre generalizing us with
      | nil =>
        have : us = [] := by simpa using hl
        subst this
        simp only [List.nil_append, OkFields] at h2
        exact h2.1
      | cons g gs ih =>
        cases us with
        | nil => simp at hl
        | cons u us =>
          simp only [List.cons_append, OkFields] at h2
          exact ih (by simpa using hl) h2.2
    · have h4 : ShapedField cfg (envOf (pre ++ f :: post) (us ++ v :: ws)) f v := by
        generalize envOf (pre ++ f :: post) (us ++ v :: ws) = env at h3
        clear h1 h2 hwf
        induction pre generalizing us with
        | nil =>
          have : us = [] := by simpa using hl
          subst this
          simp only [List.nil_append, ShapedFields] at h3
          exact h3.1
        | cons g gs ih =>
          cases us with
          | nil => simp at hl
          | cons u us =>
            simp only [List.cons_append, ShapedFields] at h3
            exact ih (by simpa using hl) h3.2
      exact (shapedField_congr cfg f (uniqueField_mem hwf.2.1 f (by simp))
        (earlierField_mem hwf.2.2 f (by simp)) (Agree.mono
          (envOf_append_agree pre (f :: post) us (v :: ws) hl)
          fun i hi => by simpa using earlier_deps hwf.2.2 i hi) v).mpr h4

theorem wire_split (cfg : Cfg) (pre post : List Field) (f : Field) (us ws : List Val) (v : Val)
    (hl : us.length = pre.length) : wire cfg (pre ++ f :: post) (us ++ v :: ws) =
      wire cfg pre us ++ wireField cfg.wire f v ++ wire cfg post ws := by
  rw [wire, wireFields_append _ _ _ _ _ hl, wireFields, List.append_assoc]
  rfl

theorem same_stuck (cfg : Cfg) (pre post : List Field) (hwf : WellFormed (pre ++ post))
    (S : InStream) (s s1 : S.State) (w : Stuck)
    (h : (structCast cfg pre).runOn S s = (.stuck w, s1)) :
    (structCast cfg (pre ++ post)).runOn S s = (.stuck w, s1) := by
  rw [structCast_append cfg pre post hwf, RdE.runOn_andThen, h]

/-- C125. A read that runs out of input has been given less than the longest encoding of the
schema. -/
theorem C125_exhausted (cfg : Cfg) (fs : List Field) (hwf : WellFormed fs) (inp rest : List Byte)
    (id : String) (h : (structCast cfg fs).run inp = (.done (.error ⟨.bufferExhaustion, id⟩), rest)) :
    inp.length < maxFields cfg fs := by
  have := (C118_refused_iff cfg fs hwf inp _ id).1 ⟨rest, h⟩
  rw [← refused_iff_fields cfg fs hwf] at this
  exact fieldsRefused_short cfg fs hwf.1 [] [] inp id this

example (rest : List Byte) : (structCast be64 packet).run (packetBytes ++ List.replicate 59 0) ≠
    (.done (.error ⟨.bufferExhaustion, "crc"⟩), rest) := fun h => by
  have := C125_exhausted be64 packet (by decide) _ _ _ h
  revert this
  decide +kernel

/-- C125, replacing: where the bytes of a field that nobody looks at are replaced by those of
another value the field could have there, the read delivers that value and every other field
as before. -/
theorem C125_replaced (cfg : Cfg) (pre post : List Field) (f : Field)
    (hwf : WellFormed (pre ++ f :: post)) (hun : Unseen post f.id) (us ws : List Val) (v v' : Val)
    (hl : us.length = pre.length) (inp rest : List Byte)
    (h : (structCast cfg (pre ++ f :: post)).run inp = (.done (.ok (us ++ v :: ws)), rest))
    (hv : IsField cfg (envOf pre us) f v') :
    inp = wire cfg pre us ++ wireField cfg.wire f v ++ wire cfg post ws ++ rest ∧
    (structCast cfg (pre ++ f :: post)).run
        (wire cfg pre us ++ wireField cfg.wire f v' ++ wire cfg post ws ++ rest) =
      (.done (.ok (us ++ v' :: ws)), rest) := by
  obtain ⟨h1, rfl⟩ := (read_iff cfg _ hwf _ _ _).1 h
  refine ⟨by rw [wire_split cfg pre post f us ws v hl], ?_⟩
  rw [← wire_split cfg pre post f us ws v' hl]
  exact (read_iff cfg _ hwf _ _ _).2 ⟨valid_replace hwf hl hun h1 hv, rfl⟩

/-- The body of the packet of the demo replaced by a shorter one. -/
example : (structCast be64 packet).run
      [0, 0, 0x12, 0x34, 0, 3, 7, 0, 1, 0, 2, 0xab, 0xcd, 5, 0xbe, 0xef] =
    (.done (.ok (packetParsed.take 4 ++ .var 1 (.seq [.int 5, .absent]) :: [.int 0xbeef])), []) := by
  have h := (C125_replaced be64 (packet.take 4) (packet.drop 5) (packet.get ⟨4, by decide⟩)
    (by decide +kernel) (by decide +kernel) (packetParsed.take 4) [.int 0xbeef]
    (.var 1 (.seq [.int (-1), .present (.int 0x0102)])) (.var 1 (.seq [.int 5, .absent])) rfl
    packetBytes [] (by rfl)
    (valid_split (post := []) (ws := []) (by decide +kernel) rfl (by decide +kernel)).2).2
  have he : wire be64 (packet.take 4) (packetParsed.take 4) ++
      wireField be64.wire (packet.get ⟨4, by decide⟩) (.var 1 (.seq [.int 5, .absent])) ++
      wire be64 (packet.drop 5) [.int 0xbeef] ++ [] =
      [0, 0, 0x12, 0x34, 0, 3, 7, 0, 1, 0, 2, 0xab, 0xcd, 5, 0xbe, 0xef] := by decide +kernel
  rw [he] at h
  exact h

/-- C125, one field: its bytes are overwritten by as many others. Either these are those of a
value and it is read in its place, with all fields before it as before and the stream where it
was; or the read fails at this field, not for want of input; or (`bool`s, constraints that go
wrong) it leaves defined behaviour. -/
theorem C125_field (cfg : Cfg) (pre post : List Field) (f : Field)
    (hwf : WellFormed (pre ++ f :: post)) (hr : rigidField cfg f = true) (us : List Val) (v : Val)
    (hp : Valid cfg pre us) (hf : IsField cfg (envOf pre us) f v) (b q : List Byte)
    (hb : b.length = (wireField cfg.wire f v).length) :
    (∃ v', IsField cfg (envOf pre us) f v' ∧ b = wireField cfg.wire f v' ∧
      (structCast cfg (pre ++ [f])).run (wire cfg pre us ++ b ++ q) =
        (.done (.ok (us ++ [v'])), q)) ∨
    (∃ r rest, r ≠ .bufferExhaustion ∧
      (structCast cfg (pre ++ f :: post)).run (wire cfg pre us ++ b ++ q) =
        (.done (.error ⟨r, f.id⟩), rest)) ∨
    ∃ w rest, (structCast cfg (pre ++ f :: post)).run (wire cfg pre us ++ b ++ q) =
      (.stuck w, rest) := by
  have happ : pre ++ f :: post = (pre ++ [f]) ++ post := by simp
  have hl := fitsFields_length hp.1
  have hwf1 : WellFormed (pre ++ [f]) := wf_prefix (happ ▸ hwf)
  have hwf0 : WellFormed pre := wf_prefix hwf1
  have hs : saneField f = true := by
    have := sane_suffix pre [f] hwf1.1
    simpa [saneFields] using this
  have hpre : (structCast cfg pre).run (wire cfg pre us ++ b ++ q) =
      (.done (.ok us), b ++ q) :=
    (read_iff cfg _ hwf0 _ _ _).2 ⟨hp, by rw [List.append_assoc]⟩
  cases h : (structCast cfg (pre ++ [f])).run (wire cfg pre us ++ b ++ q) with
  | mk o rest =>
    cases o with
    | stuck w =>
      refine .inr (.inr ⟨w, rest, ?_⟩)
      rw [happ]
      exact same_stuck cfg (pre ++ [f]) post (happ ▸ hwf) listIn _ _ w h
    | done o =>
      cases o with
      | error e =>
        refine .inr (.inl ?_)
        have hfull := C74_same_failure cfg (pre ++ [f]) post (happ ▸ hwf) listIn _ _ e h
        have hid : e.failedAt = f.id := by
          rcases C74_new_reader cfg pre [f] hwf1 listIn _ _ us hpre with
            ⟨ws, s', h'⟩ | ⟨e', s', h', g, hg, hg'⟩ | ⟨w, s', h'⟩
          · rw [show (structCast cfg (pre ++ [f])).runOn listIn _ = _ from h] at h'; cases h'
          · rw [show (structCast cfg (pre ++ [f])).runOn listIn _ = _ from h] at h'
            cases h'
            simp only [List.mem_singleton] at hg
            rw [hg', hg]
          · rw [show (structCast cfg (pre ++ [f])).runOn listIn _ = _ from h] at h'; cases h'
        obtain ⟨r, id⟩ := e
        subst hid
        refine ⟨r, rest, ?_, by rw [happ]; exact hfull⟩
        rintro rfl
        obtain ⟨pre0, f0, post0, us0, tail, h1, h2, h3, h4, h5⟩ :=
          (C118_refused_iff cfg _ hwf1 _ _ _).1 ⟨rest, h⟩
        have hnot := not_own_name hwf1.2.1
        have hpost : post0 = [] := by
          false_or_by_contra
          rename_i hne
          obtain ⟨init, last, rfl⟩ : ∃ init last, post0 = init ++ [last] :=
            ⟨post0.dropLast, post0.getLast hne, (List.dropLast_concat_getLast hne).symm⟩
          rw [← List.cons_append, ← List.append_assoc] at h1
          have := List.append_inj_left' h1 rfl
          apply hnot
          rw [this]
          simp [h2]
        subst hpost
        obtain ⟨rfl, h6⟩ := List.append_inj' h1 rfl
        cases h6
        have h7 := (read_iff cfg _ hwf0 (wire cfg pre us ++ b ++ q) tail us0).2 ⟨h3, h4⟩
        rw [hpre] at h7
        cases h7
        have := rigidField_short cfg _ f hs hr v hf _ h5
        rw [List.length_append] at this
        omega
      | ok vs =>
        refine .inl ?_
        obtain ⟨us', ws, s1, rfl, hl', hw, h1, -⟩ :=
          C74_old_reader cfg pre [f] hwf1 listIn _ _ vs h
        have h1' : (structCast cfg pre).run (wire cfg pre us ++ b ++ q) = (.done (.ok us'), s1) := h1
        rw [hpre] at h1'
        cases h1'
        obtain ⟨v', rfl⟩ : ∃ v', ws = [v'] := by
          match ws, hw with
          | [v'], _ => exact ⟨v', rfl⟩
        obtain ⟨h2, h3⟩ := (read_iff cfg _ hwf1 _ _ _).1 h
        have hf' := (valid_split hwf1 hl h2).2
        rw [wire_split cfg pre [] f us [] v' hl, List.append_assoc, List.append_assoc,
          List.append_assoc] at h3
        have h4 := List.append_cancel_left h3
        obtain ⟨rfl, h5⟩ := List.append_inj h4 (by rw [hb, rigidField_length cfg _ f hs hr v v' hf hf'])
        refine ⟨v', hf', rfl, ?_⟩
        rw [h5]
        rfl

/-- The checksum of the packet of the demo, overwritten by any two bytes. -/
example (x y : Byte) (q : List Byte) :
    (∃ v', IsField be64 (envOf (packet.take 5) (packetParsed.take 5)) (packet.get ⟨5, by decide⟩) v' ∧
      [x, y] = wireField .big (packet.get ⟨5, by decide⟩) v' ∧
      (structCast be64 (packet.take 5 ++ [(packet.get ⟨5, by decide⟩)])).run
          (wire be64 (packet.take 5) (packetParsed.take 5) ++ [x, y] ++ q) =
        (.done (.ok (packetParsed.take 5 ++ [v'])), q)) ∨
    (∃ r rest, r ≠ .bufferExhaustion ∧
      (structCast be64 packet).run
          (wire be64 (packet.take 5) (packetParsed.take 5) ++ [x, y] ++ q) =
        (.done (.error ⟨r, "crc"⟩), rest)) ∨
    ∃ w rest, (structCast be64 packet).run
        (wire be64 (packet.take 5) (packetParsed.take 5) ++ [x, y] ++ q) = (.stuck w, rest) :=
  C125_field be64 (packet.take 5) [] (packet.get ⟨5, by decide⟩) (by decide +kernel) (by decide +kernel)
    (packetParsed.take 5) (.int 0xbeef) (by decide +kernel)
    (valid_split (post := []) (ws := []) (by decide +kernel) rfl (by decide +kernel)).2
    [x, y] q rfl

theorem damaged_read (cfg : Cfg) (hit : Field → Prop) (rest : List Byte) {fs : List Field}
    {vs : List Val} {p : List Byte} (hd : Damaged cfg hit fs vs p) :
    ∀ (pre : List Field) (us : List Val), us.length = pre.length → WellFormed (pre ++ fs) →
      Valid cfg (pre ++ fs) (us ++ vs) →
      (∀ f ∈ fs, hit f → rigidField cfg f = true ∧ Unseen (pre ++ fs) f.id) →
      (∃ vs', SameBut hit fs vs vs' ∧ (structCast cfg (pre ++ fs)).run (wire cfg pre us ++ p ++ rest) =
        (.done (.ok (us ++ vs')), rest)) ∨
      (∃ f ∈ fs, hit f ∧ ∃ r rest', r ≠ .bufferExhaustion ∧
        (structCast cfg (pre ++ fs)).run (wire cfg pre us ++ p ++ rest) =
          (.done (.error ⟨r, f.id⟩), rest')) ∨
      ∃ w rest', (structCast cfg (pre ++ fs)).run (wire cfg pre us ++ p ++ rest) =
        (.stuck w, rest') := by
  induction hd with
  | nil =>
    intro pre us hl hwf hv _
    refine .inl ⟨[], .nil, (read_iff cfg _ hwf _ _ _).2 ⟨hv, ?_⟩⟩
    simp
  | @same f fs v vs p hd ih =>
    intro pre us hl hwf hv hh
    have happ : pre ++ f :: fs = (pre ++ [f]) ++ fs := by simp
    have hap : us ++ v :: vs = (us ++ [v]) ++ vs := by simp
    have hwire : wire cfg (pre ++ [f]) (us ++ [v]) = wire cfg pre us ++ wireField cfg.wire f v := by
      rw [wire_split cfg pre [] f us [] v hl]; simp [wire, wireFields]
    rw [happ] at hwf hh
    rw [happ, hap] at hv
    rcases ih (pre ++ [f]) (us ++ [v]) (by simp [hl]) hwf hv
        (fun g hg hi => hh g (by simp [hg]) hi) with
      ⟨vs', h1, h2⟩ | ⟨g, hg, hi, r, rest', hne, h2⟩ | ⟨w, rest', h2⟩
    · rw [hwire, ← happ] at h2
      exact .inl ⟨v :: vs', .same h1, by simpa using h2⟩
    · rw [hwire, ← happ] at h2
      exact .inr (.inl ⟨g, by simp [hg], hi, r, rest', hne, by simpa using h2⟩)
    · rw [hwire, ← happ] at h2
      exact .inr (.inr ⟨w, rest', by simpa using h2⟩)
  | @other f fs v vs p b hitf hb hd ih =>
    intro pre us hl hwf hv hh
    have happ : pre ++ f :: fs = (pre ++ [f]) ++ fs := by simp
    obtain ⟨hr, hun⟩ := hh f (by simp) hitf
    obtain ⟨hp, hf⟩ := valid_split hwf hl hv
    have hrw : wire cfg pre us ++ (b ++ p) ++ rest = wire cfg pre us ++ b ++ (p ++ rest) := by simp
    rw [hrw]
    rcases C125_field cfg pre fs f hwf hr us v hp hf b (p ++ rest) hb with
      ⟨v', hf', rfl, -⟩ | ⟨r, rest', hne, h⟩ | h
    · have hap : us ++ v' :: vs = (us ++ [v']) ++ vs := by simp
      have hwire : wire cfg (pre ++ [f]) (us ++ [v']) =
          wire cfg pre us ++ wireField cfg.wire f v' := by
        rw [wire_split cfg pre [] f us [] v' hl]; simp [wire, wireFields]
      have hv' := valid_replace hwf hl (fun g hg => hun g (by simp [hg])) hv hf'
      rw [happ] at hwf hh
      rw [happ, hap] at hv'
      rcases ih (pre ++ [f]) (us ++ [v']) (by simp [hl]) hwf hv'
          (fun g hg hi => hh g (by simp [hg]) hi) with
        ⟨vs', h1, h2⟩ | ⟨g, hg, hi, r, rest', hne, h2⟩ | ⟨w, rest', h2⟩
      · rw [hwire, ← happ] at h2
        exact .inl ⟨v' :: vs', .other hitf h1, by simpa using h2⟩
      · rw [hwire, ← happ] at h2
        exact .inr (.inl ⟨g, by simp [hg], hi, r, rest', hne, by simpa using h2⟩)
      · rw [hwire, ← happ] at h2
        exact .inr (.inr ⟨w, rest', by simpa using h2⟩)
    · exact .inr (.inl ⟨f, by simp, hitf, r, rest', hne, h⟩)
    · exact .inr (.inr h)

/-- C125. Of a struct that could be read some fields are overwritten, as many bytes by as many
others; nobody looks at these fields, and how many bytes they take is settled by their siblings.
Then the read delivers a struct that has all other fields as before and leaves what it left
before; or it fails at one of the fields that were hit, and not for want of input; or it leaves
defined behaviour. -/
theorem C125_confined (cfg : Cfg) (fs : List Field) (hwf : WellFormed fs) (hit : Field → Prop)
    (hh : ∀ f ∈ fs, hit f → rigidField cfg f = true ∧ Unseen fs f.id) (vs : List Val)
    (inp rest : List Byte) (h : (structCast cfg fs).run inp = (.done (.ok vs), rest)) (p : List Byte)
    (hd : Damaged cfg hit fs vs p) :
    (∃ vs', SameBut hit fs vs vs' ∧
      (structCast cfg fs).run (p ++ rest) = (.done (.ok vs'), rest)) ∨
    (∃ f ∈ fs, hit f ∧ ∃ r rest', r ≠ .bufferExhaustion ∧
      (structCast cfg fs).run (p ++ rest) = (.done (.error ⟨r, f.id⟩), rest')) ∨
    ∃ w rest', (structCast cfg fs).run (p ++ rest) = (.stuck w, rest') := by
  obtain ⟨hv, -⟩ := (read_iff cfg fs hwf inp rest vs).1 h
  exact damaged_read cfg hit rest hd [] [] rfl hwf hv hh

/-- C125, for schemas without the ways out of defined behaviour that C64 lists: the third case
does not arise. -/
theorem C125_defined (cfg : Cfg) (fs : List Field) (hwf : WellFormed fs)
    (hcall : Everywhere (fun gs => Resolves gs ∧ CallableAll gs) fs)
    (hz : hazardsFields cfg fs = []) (hit : Field → Prop)
    (hh : ∀ f ∈ fs, hit f → rigidField cfg f = true ∧ Unseen fs f.id) (vs : List Val)
    (inp rest : List Byte) (h : (structCast cfg fs).run inp = (.done (.ok vs), rest)) (p : List Byte)
    (hd : Damaged cfg hit fs vs p) :
    (∃ vs', SameBut hit fs vs vs' ∧
      (structCast cfg fs).run (p ++ rest) = (.done (.ok vs'), rest)) ∨
    ∃ f ∈ fs, hit f ∧ ∃ r rest', r ≠ .bufferExhaustion ∧
      (structCast cfg fs).run (p ++ rest) = (.done (.error ⟨r, f.id⟩), rest') := by
  rcases C125_confined cfg fs hwf hit hh vs inp rest h p hd with h | h | ⟨w, rest', h⟩
  · exact .inl h
  · exact .inr h
  · have := C64_hazards cfg fs hwf hcall listIn _ _ w h
    rw [hz] at this
    cases this

/-! Of the packet of the demo the vector and the checksum are overwritten: nobody looks at
them. -/

/-- The fields with these names. -/
def named (ids : List String) (f : Field) : Prop := f.id ∈ ids

theorem packet_damaged (a b c d e g x y : Byte) :
    Damaged be64 (named ["data", "crc"]) packet packetParsed
      [0, 0, 0x12, 0x34, 0, 3, 7, a, b, c, d, e, g, 0xff, 1, 2, x, y] :=
  .same (.same (.same (.other [a, b, c, d, e, g] (by simp [named, Field.id]) rfl
    (.same (.other [x, y] (by simp [named, Field.id]) rfl .nil)))))

example (a b c d e g x y : Byte) :
    (∃ vs', SameBut (named ["data", "crc"]) packet packetParsed vs' ∧
      (structCast be64 packet).run
        [0, 0, 0x12, 0x34, 0, 3, 7, a, b, c, d, e, g, 0xff, 1, 2, x, y] = (.done (.ok vs'), [])) ∨
    ∃ f ∈ packet, named ["data", "crc"] f ∧ ∃ r rest', r ≠ .bufferExhaustion ∧
      (structCast be64 packet).run
        [0, 0, 0x12, 0x34, 0, 3, 7, a, b, c, d, e, g, 0xff, 1, 2, x, y] =
          (.done (.error ⟨r, f.id⟩), rest') := by
  have := C125_defined be64 packet (by decide) (by decide +kernel) (by decide +kernel)
    (named ["data", "crc"]) (by simp only [named]; decide +kernel) packetParsed packetBytes [] rfl
    _ (packet_damaged a b c d e g x y)
  simpa using this

/-- Both cases arise. -/
example : (structCast be64 packet).run
    [0, 0, 0x12, 0x34, 0, 3, 7, 9, 9, 9, 9, 9, 9, 0xff, 1, 2, 9, 9] =
      (.done (.ok [.int 0x1234, .int 3, .int 7, .seq [.int 0x909, .int 0x909, .int 0x909],
        .var 1 (.seq [.int (-1), .present (.int 0x0102)]), .int 0x909]), []) ∧
    (structCast be64 packet).run
    [0, 0, 0x12, 0x34, 0, 3, 7, 9, 9, 9, 9, 9, 9, 0xff, 1, 2, 0, 0] =
      (.done (.error ⟨.validationFailure, "crc"⟩), []) := ⟨rfl, rfl⟩

/-! Both conditions are needed. -/

/-- A length, a buffer, a number. -/
def prefixedSchema : List Field :=
  [.plain "n" (.num u8 1) .none, .plain "xs" (.vec (.scalar u8) (.fromField "n") none) .none,
   .plain "y" (.num u8 1) .none]

/-- C125: a field somebody looks at. Overwriting the length moves the boundary of the fields
after it: the number `y`, which was not hit, is another one. -/
theorem C125_fails_seen :
    (structCast be64 prefixedSchema).run [1, 10, 20, 30] =
      (.done (.ok [.int 1, .seq [.int 10], .int 20]), [30]) ∧
    Damaged be64 (named ["n"]) prefixedSchema [.int 1, .seq [.int 10], .int 20] [2, 10, 20] ∧
    (∀ f ∈ prefixedSchema, named ["n"] f → rigidField be64 f = true) ∧
    (structCast be64 prefixedSchema).run [2, 10, 20, 30] =
      (.done (.ok [.int 2, .seq [.int 10, .int 20], .int 30]), []) ∧
    ¬ SameBut (named ["n"]) prefixedSchema [.int 1, .seq [.int 10], .int 20]
      [.int 2, .seq [.int 10, .int 20], .int 30] := by
  refine ⟨rfl, .other [2] (by simp [named, Field.id]) rfl (.same (.same .nil)),
    by simp only [named]; decide +kernel, rfl, ?_⟩
  intro h
  cases h with
  | other _ h =>
    cases h with
    | other h => simp [named, Field.id] at h

/-- The same length and buffer as a record of their own. -/
def framedSchema : List Field :=
  [.plain "r" (.record [.plain "n" (.num u8 1) .none,
     .plain "xs" (.vec (.scalar u8) (.fromField "n") none) .none]) .none,
   .plain "y" (.num u8 1) .none]

/-- C125: a field whose size is its own business. Nobody looks at the record; overwriting it
changes how many bytes it takes. -/
theorem C125_fails_flexible :
    (structCast be64 framedSchema).run [1, 10, 20, 30] =
      (.done (.ok [.seq [.int 1, .seq [.int 10]], .int 20]), [30]) ∧
    Damaged be64 (named ["r"]) framedSchema [.seq [.int 1, .seq [.int 10]], .int 20] [2, 10, 20] ∧
    Unseen framedSchema "r" ∧
    (structCast be64 framedSchema).run [2, 10, 20, 30] =
      (.done (.ok [.seq [.int 2, .seq [.int 10, .int 20]], .int 30]), []) ∧
    ¬ SameBut (named ["r"]) framedSchema [.seq [.int 1, .seq [.int 10]], .int 20]
      [.seq [.int 2, .seq [.int 10, .int 20]], .int 30] := by
  refine ⟨rfl, .other [2, 10] (by simp [named, Field.id]) rfl (.same .nil), by decide, rfl, ?_⟩
  intro h
  cases h with
  | other _ h =>
    cases h with
    | other h => simp [named, Field.id] at h

end S2S.Props
