import Verif.Lemmas.Made
import Verif.Props.Exact
import Verif.Props.Meta
/-
C107, C108: the structs a program can hold, by default construction, parsing and
assignment through `operator[]`.
-/
namespace S2S.Props
open Spec Demo Meta

/-! ## C107 -/

/-- C107. Whatever a program does with default construction, parsing from any streams, and
assignment through `operator[]`, whichever fields that lets through: the struct it holds has
a value of its type in every field. -/
theorem C107_typed (acc : Lookup) (cfg : Cfg) (fs : List Field)
    (hwf : WellFormed fs) (halt : Everywhere SomeAlternative fs) (vs : List Val)
    (h : Made acc (Parsed cfg) cfg fs vs) : Typed cfg fs vs :=
  made_typed (Q := fun gs => WellFormed gs ∧ SomeAlternative gs) (fun _ h => h.2)
    (fun gs ws hq hp => typedFields_of_fits cfg gs ws (parsed_valid hq.1 hp).1) h
    (Everywhere.and.2 ⟨wellFormed_everywhere hwf, halt⟩)

/-- C107. So writing it, on any stream, ends with success or an error. -/
theorem C107_defined (acc : Lookup) (cfg : Cfg) (fs : List Field)
    (hwf : WellFormed fs) (halt : Everywhere SomeAlternative fs)
    (hsafe : Everywhere (fun gs => Resolves gs ∧ WriteSafe cfg gs) fs) (vs : List Val)
    (h : Made acc (Parsed cfg) cfg fs vs) (S : OutStream) (s : S.State) :
    ∃ r s', (streamCast cfg fs vs).runOn S s = (.done r, s') :=
  C50_defined cfg fs hwf hsafe vs (C107_typed acc cfg fs hwf halt vs h) S s

theorem parsed_of_valid {cfg : Cfg} {fs : List Field} (hwf : WellFormed fs) {vs : List Val}
    (h : Valid cfg fs vs) : Parsed cfg fs vs := by
  have := (read_iff cfg fs hwf (wire cfg fs vs ++ []) [] vs).2 ⟨h, rfl⟩
  exact ⟨listIn, _, _, this⟩


theorem valid_at {cfg : Cfg} {env : Env} : {fs : List Field} → {vs : List Val} → FitsFields cfg fs vs →
    OkFields fs vs → ShapedFields cfg env fs vs → ∀ {i : Nat} {f : Field} {v : Val}, fs[i]? = some f →
    vs[i]? = some v → FitsField cfg f v ∧ OkField f v ∧ ShapedField cfg env f v
  | [], _, _, _, _, i, f, v, hf, _ => by simp at hf
  | _ :: _, [], _, _, _, i, f, v, _, hv => by simp at hv
  | g :: fs, u :: vs, h1, h2, h3, i, f, v, hf, hv => by
      rw [FitsFields] at h1; rw [OkFields] at h2; rw [ShapedFields] at h3
      cases i with
      | zero =>
        simp only [List.getElem?_cons_zero, Option.some.injEq] at hf hv
        subst hf hv
        exact ⟨h1.1, h2.1, h3.1⟩
      | succ i => exact valid_at h1.2 h2.2 h3.2 (by simpa using hf) (by simpa using hv)

theorem valid_alts {cfg : Cfg} {env : Env} : {alts : List Alt} → {i : Nat} → {v : Val} → FitsAlts cfg alts i v →
    OkAlts alts i v → ShapedAlts cfg env alts i v →
    ∃ a, alts[i]? = some a ∧ FitsKind cfg a.kind v ∧ OkKind a.kind v ∧ ShapedKind cfg env a.kind v
  | [], _, _, h, _, _ => by simp [FitsAlts] at h
  | .mk k c :: alts, 0, v, h1, h2, h3 => by
      rw [FitsAlts] at h1; rw [OkAlts] at h2; rw [ShapedAlts] at h3
      exact ⟨_, rfl, h1, h2.1, h3⟩
  | .mk k c :: alts, i + 1, v, h1, h2, h3 => by
      rw [FitsAlts] at h1; rw [OkAlts] at h2; rw [ShapedAlts] at h3
      obtain ⟨a, ha, h⟩ := valid_alts h1 h2 h3
      exact ⟨a, by simpa using ha, h⟩

theorem records_of {vs : List Val} {P : List Val → Prop} (h : ∀ v ∈ vs, ∃ ws, v = Val.seq ws ∧ P ws) :
    ∃ uss : List (List Val), vs = uss.map Val.seq ∧ ∀ ws ∈ uss, P ws := by
  induction vs with
  | nil => exact ⟨[], rfl, by simp⟩
  | cons v vs ih =>
    obtain ⟨ws, rfl, hw⟩ := h v (by simp)
    obtain ⟨uss, rfl, hu⟩ := ih fun v hv => h v (by simp [hv])
    exact ⟨ws :: uss, rfl, by simpa using ⟨hw, hu⟩⟩

theorem madeKind_of_valid {acc : Lookup} {cfg : Cfg} {env : Env} {k : Kind} {v : Val} (hwf : EveryKind WellFormed k)
    (h1 : FitsKind cfg k v) (h2 : OkKind k v) (h3 : ShapedKind cfg env k v) :
    MadeKind acc (Parsed cfg) cfg k v := by
  have hrec : ∀ fs (vs : List Val), WellFormed fs → (∀ v ∈ vs, ∃ ws, v = Val.seq ws ∧ FitsFields cfg fs ws) →
      (∀ v ∈ vs, ∃ ws, v = Val.seq ws ∧ OkFields fs ws) →
      (∀ v ∈ vs, ∃ ws, v = Val.seq ws ∧ ShapedFields cfg (envOf fs ws) fs ws) →
      ∃ uss : List (List Val), vs = uss.map Val.seq ∧ ∀ ws ∈ uss, Made acc (Parsed cfg) cfg fs ws := by
    intro fs vs hw ha hb hc
    refine records_of fun v hv => ?_
    obtain ⟨ws, rfl, h1⟩ := ha v hv
    obtain ⟨_, he, h2⟩ := hb _ hv
    cases he
    obtain ⟨_, he, h3⟩ := hc _ hv
    cases he
    exact ⟨ws, rfl, .given (parsed_of_valid hw ⟨h1, h2, h3⟩)⟩
  cases k with
  | num t w =>
    cases v <;> simp only [FitsKind] at h1
    exact .num h1.1
  | fbuf e n =>
    cases v <;> simp only [FitsKind] at h1
    exact .fbuf h1.1 h1.2
  | fstr n =>
    cases v <;> simp only [FitsKind] at h1
    exact .fstr h1.1 h1.2
  | vec e len b =>
    cases v <;> simp only [FitsKind] at h1
    exact .vec h1.1.2 h1.2
  | record fs =>
    cases v <;> simp only [FitsKind] at h1
    rw [OkKind] at h2; rw [ShapedKind] at h3
    exact .record (.given (parsed_of_valid hwf.1 ⟨h1, h2, h3⟩))
  | arrRec fs n =>
    cases v <;> simp only [FitsKind] at h1
    rw [OkKind] at h2; rw [ShapedKind] at h3
    obtain ⟨uss, rfl, hu⟩ := hrec fs _ hwf.1 h1.2 h2 h3
    exact .arrRec (by simpa using h1.1) hu
  | vecRec fs len b sz =>
    cases v <;> simp only [FitsKind] at h1
    rw [OkKind] at h2; rw [ShapedKind] at h3
    obtain ⟨uss, rfl, hu⟩ := hrec fs _ hwf.1 h1.2 h2 h3.2
    exact .vecRec (by simpa using h1.1.2) hu

theorem madeField_of_valid {acc : Lookup} {cfg : Cfg} {env : Env} {f : Field} {v : Val} (hwf : EveryField WellFormed f)
    (h1 : FitsField cfg f v) (h2 : OkField f v) (h3 : ShapedField cfg env f v) :
    MadeField acc (Parsed cfg) cfg f v := by
  cases f with
  | plain id k c =>
    rw [FitsField] at h1; rw [OkField] at h2; rw [ShapedField] at h3
    exact .plain (madeKind_of_valid hwf h1 h2.1 h3)
  | maybe id k p =>
    cases v <;> simp only [FitsField] at h1
    · exact .absent
    · rw [OkField] at h2; rw [ShapedField] at h3
      exact .present (madeKind_of_valid hwf h1 h2 h3.2)
  | union id d alts c =>
    cases v <;> simp only [FitsField] at h1
    rw [OkField] at h2; rw [ShapedField] at h3
    obtain ⟨a, ha, g1, g2, g3⟩ := valid_alts h1 h2.1 h3.2
    exact .alternative ha (madeKind_of_valid (everyAlts_get hwf ha) g1 g2 g3)

/-- C107. The value in every field of such a struct is one that could be assigned to a field
of that type; so changing a part of it in place, through the reference `operator[]` gives
and a further `operator[]`, is an assignment. -/
theorem C107_inside (acc : Lookup) (cfg : Cfg) (fs : List Field)
    (hwf : WellFormed fs) (halt : Everywhere SomeAlternative fs) (vs : List Val)
    (h : Made acc (Parsed cfg) cfg fs vs) (i : Nat) (f : Field) (v : Val)
    (hf : At fs i f) (hv : vs[i]? = some v) : MadeField acc (Parsed cfg) cfg f v := by
  refine made_inside (Q := fun gs => WellFormed gs ∧ SomeAlternative gs) (fun _ h => h.2) ?_ h
    (Everywhere.and.2 ⟨wellFormed_everywhere hwf, halt⟩) i f v hf hv
  intro gs ws hq hp i f v hf hv
  have hw := (Everywhere.and.1 hq).1
  obtain ⟨h1, h2, h3⟩ := parsed_valid hw.1 hp
  obtain ⟨g1, g2, g3⟩ := valid_at h1 h2 h3 hf hv
  exact madeField_of_valid (everyFields_get hw.2 hf) g1 g2 g3

/-- C107. What the library fills keeps what default construction or parsing put there: through
names, a program changes no derived length, no discriminant and no constant. -/
theorem C107_kept (lt : String → String → Bool) (tid : Field → Nat) (cfg : Cfg) (fs : List Field)
    (ha : Addressable tid fs) (hd : Distinct fs) (src : List Field → List Val → Prop) (vs : List Val)
    (h : Made (named lt tid) src cfg fs vs) (i : Nat) (f : Field) (hf : At fs i f)
    (hs : LengthTarget fs f.id ∨ SwitchedOn fs f.id ∨ Frozen f) :
    vs[i]? = some f.dflt ∨ ∃ ws, src fs ws ∧ vs[i]? = ws[i]? := by
  refine made_kept hf ?_ h
  intro g id hg hc
  have hgf : g = f := by
    have h1 : fs[i]? = some f := hf
    rw [h1] at hc; exact (Option.some.inj hc).symm
  subst hgf
  obtain ⟨h1, h2, h3, h4, h5⟩ := ha
  have hgm := List.mem_of_getElem? hf
  rw [named] at hg
  by_cases hid : id = ""
  · rw [if_pos hid] at hg; cases hg
  · rw [if_neg hid] at hg
    obtain ⟨-, he, h6, h7⟩ := (subscript_eq lt tid h1 hd h2 h3 h4 hid _).1 hg
    simp only at he
    rw [← he] at h6 h7
    simp only [reduceCtorEq, false_iff, not_or] at h7
    rcases hs with hs | hs | hs
    · exact h6 hs
    · exact h7.1 hs
    · exact h7.2 hs

/-- Type ids for the packet: fields are told apart by name. -/
def packetTid (f : Field) : Nat := ["magic", "len", "tag", "data", "body", "crc", "a", "b"].idxOf f.id

theorem addressable_of_names {tid : Field → Nat} {fs : List Field} (h1 : fs.length ≤ 256)
    (h2 : (fs.map tid).Nodup) (h3 : (lenDerivedIds fs).length ≤ 64) (h4 : (discDerivedIds fs).length ≤ 64)
    (h5 : ∀ f ∈ fs, f.id ≠ "") : Addressable tid fs := by
  refine ⟨h1, fun f hf g hg he => ?_, h3, h4, h5⟩
  obtain ⟨i, hi⟩ := List.getElem?_of_mem hf
  obtain ⟨j, hj⟩ := List.getElem?_of_mem hg
  have hij : i = j := by
    have hl := (List.getElem?_eq_some_iff.1 hi).1
    refine (List.getElem?_inj (by rw [List.length_map]; exact hl) h2).1 ?_
    rw [List.getElem?_map, List.getElem?_map, hi, hj, Option.map_some, Option.map_some, he]
  subst hij
  rw [hi] at hj
  exact Option.some.inj hj

theorem addressable_packet : Everywhere (Addressable packetTid) packet := by
  have h1 : Addressable packetTid packet :=
    addressable_of_names (by decide) (by decide) (by decide) (by decide) (by decide)
  have h2 : Addressable packetTid inner :=
    addressable_of_names (by decide) (by decide) (by decide) (by decide) (by decide)
  exact ⟨h1, trivial, trivial, trivial, trivial, ⟨trivial, ⟨h2, trivial, trivial, trivial⟩, trivial⟩, trivial, trivial⟩

/-- The packet as a program fills it in: a record made of its own default, `a = -1` and
`b = 0x0102`, then the vector, the union and the checksum. -/
theorem made_packetVal (src : List Field → List Val → Prop) :
    Made (named nameLt packetTid) src be64 packet packetVal := by
  have hr : Everywhere (Reachable packetTid) packet := by
    have := addressable_packet
    have hw : Everywhere Resolves packet := by decide +kernel
    exact (Everywhere.mono (P := fun gs => Addressable packetTid gs ∧ (Resolves gs ∧ WellFormed gs))
      (fun _ h => ⟨h.1, h.2.1, h.2.2.2.1⟩)
      (Everywhere.and.2 ⟨this, Everywhere.and.2 ⟨hw, wellFormed_everywhere (by decide)⟩⟩))
  have hi : Made (named nameLt packetTid) src be64 inner [.int (-1), .present (.int 0x0102)] := by
    have hri : Reachable packetTid inner := hr.2.2.2.2.2.1.2.1.1
    refine made_assemble rfl fun i f u hf hu => ?_
    match i with
    | 0 =>
      obtain rfl := Option.some.inj hf
      obtain rfl := Option.some.inj hu
      exact .inr ⟨⟨"a", (mutable_iff nameLt packetTid hri (List.mem_of_getElem? hf)).2
        ⟨by decide, (not_frozen_iff _).1 (by decide)⟩⟩,
        .plain (.num (by decide))⟩
    | 1 =>
      obtain rfl := Option.some.inj hf
      obtain rfl := Option.some.inj hu
      exact .inr ⟨⟨"b", (mutable_iff nameLt packetTid hri (List.mem_of_getElem? hf)).2
        ⟨by decide, (not_frozen_iff _).1 (by decide)⟩⟩,
        .present (.num (by decide))⟩
    | i + 2 => cases hf
  refine made_assemble rfl fun i f u hf hu => ?_
  match i with
  | 0 => obtain rfl := Option.some.inj hf; obtain rfl := Option.some.inj hu; exact .inl rfl
  | 1 => obtain rfl := Option.some.inj hf; obtain rfl := Option.some.inj hu; exact .inl rfl
  | 2 => obtain rfl := Option.some.inj hf; obtain rfl := Option.some.inj hu; exact .inl rfl
  | 3 =>
    obtain rfl := Option.some.inj hf; obtain rfl := Option.some.inj hu
    exact .inr ⟨⟨"data", (mutable_iff nameLt packetTid hr.1 (List.mem_of_getElem? hf)).2
        ⟨by decide, (not_frozen_iff _).1 (by decide)⟩⟩,
      .plain (.vec (by decide) (by decide))⟩
  | 4 =>
    obtain rfl := Option.some.inj hf; obtain rfl := Option.some.inj hu
    exact .inr ⟨⟨"body", (mutable_iff nameLt packetTid hr.1 (List.mem_of_getElem? hf)).2
        ⟨by decide, (not_frozen_iff _).1 (by decide)⟩⟩,
      .alternative (j := 1) rfl (.record hi)⟩
  | 5 =>
    obtain rfl := Option.some.inj hf; obtain rfl := Option.some.inj hu
    exact .inr ⟨⟨"crc", (mutable_iff nameLt packetTid hr.1 (List.mem_of_getElem? hf)).2
        ⟨by decide, (not_frozen_iff _).1 (by decide)⟩⟩,
      .plain (.num (by decide))⟩
  | i + 6 => cases hf

example : Typed be64 packet packetVal :=
  C107_typed _ be64 packet (by decide) (by decide +kernel) packetVal (made_packetVal _)
example : ∃ r s', (streamCast be64 packet packetVal).runOn memstreamOut (5, [], false) = (.done r, s') :=
  C107_defined _ be64 packet (by decide) (by decide +kernel) (by decide +kernel) packetVal (made_packetVal _) _ _
example : MadeField (named nameLt packetTid) (Parsed be64) be64 (.plain "crc" (.num u16 2) (.user fun v => v != .int 0))
    (.int 0xbeef) :=
  C107_inside _ be64 packet (by decide) (by decide +kernel) packetVal (made_packetVal _) 5 _ _ rfl rfl
example (vs : List Val) (h : Made (named nameLt packetTid) Nowhere be64 packet vs) : vs[1]? = some (.int 0) := by
  rcases C107_kept nameLt packetTid be64 packet addressable_packet.1 (by decide) Nowhere vs h 1 _ rfl
    (.inl ⟨"data", _, _, List.mem_of_getElem? (i := 3) rfl, rfl⟩) with h | ⟨_, h, _⟩
  · exact h
  · exact h.elim

theorem subscript_mem {lt : String → String → Bool} {tid : Field → Nat} {fs : List Field} {id : String}
    {r : Field × Access} (h : subscript lt tid fs id = some r) : r.1 ∈ fs := by
  simp only [subscript, Option.bind_eq_some_iff] at h
  obtain ⟨_, -, _, -, _, -, _, -, f, hf, h⟩ := h
  have := List.mem_of_find?_eq_some hf
  split at h
  · rw [← Option.some.inj h]; exact this
  · split at h
    · rw [← Option.some.inj h]; exact this
    · split at h
      · rw [← Option.some.inj h]; exact this
      · cases h

/-- C107 fails for the empty name: a derived length can be assigned through it. -/
theorem C107_fails_empty_name :
    Made (subscript nameLt (tidOf hiddenSchema)) Nowhere le64 hiddenSchema [.int 7, .seq []] ∧
    LengthTarget hiddenSchema "n" := by
  refine ⟨?_, "data", _, _, List.mem_of_getElem? (i := 1) rfl, rfl⟩
  have h : subscript nameLt (tidOf hiddenSchema) hiddenSchema "" = some (.plain "n" (.num u8 1) .none, .mutable) := by
    have h := C28_fails_empty_name.1
    rw [Option.map_eq_some_iff] at h
    obtain ⟨⟨f, a⟩, h1, h2⟩ := h
    have hm := subscript_mem h1
    rw [h1]
    simp only [hiddenSchema, List.mem_cons, List.not_mem_nil, or_false] at hm
    simp only [Prod.mk.injEq] at h2
    rcases hm with rfl | rfl
    · rw [h2.2]
    · exact absurd h2.1 (by decide)
  exact Made.assign (i := 0) .fresh h rfl (.plain (.num (x := 7) (by decide)))

/-! ## C108 -/

/-- C108. Every struct, whatever its fields hold, agrees, with its slots filled, with one that
a program makes from a default-constructed one by assignments through `operator[]`. -/
theorem C108_reach (lt : String → String → Bool) (tid : Field → Nat) (cfg : Cfg) (fs : List Field)
    (hwf : WellFormed fs) (hres : Everywhere Resolves fs) (ha : Everywhere (Addressable tid) fs)
    (vs : List Val) (hty : Typed cfg fs vs) :
    ∃ us, Made (named lt tid) Nowhere cfg fs us ∧ settle fs us = settle fs vs :=
  reach lt tid cfg
    (Everywhere.mono (P := fun gs => Addressable tid gs ∧ (Resolves gs ∧ WellFormed gs)) (fun _ h => ⟨h.1, h.2.1, h.2.2.2.1⟩)
      (Everywhere.and.2 ⟨ha, Everywhere.and.2 ⟨hres, wellFormed_everywhere hwf⟩⟩)) hty

example : ∃ us, Made (named nameLt packetTid) Nowhere be64 packet us ∧ settle packet us = packetParsed :=
  C108_reach nameLt packetTid be64 packet (by decide) (by decide +kernel) addressable_packet packetParsed
    (by decide +kernel)

/-- C108. So whatever can be written at all can be written without parsing anything: if
nothing user-defined looks at what the library fills, some struct made by assignments is
written, on every stream, just as the given one. -/
theorem C108_writes (lt : String → String → Bool) (tid : Field → Nat) (cfg : Cfg) (fs : List Field)
    (hwf : WellFormed fs) (hfr : Everywhere (fun gs => Resolves gs ∧ NoStale gs) fs)
    (ha : Everywhere (Addressable tid) fs) (vs : List Val) (hty : Typed cfg fs vs) :
    ∃ us, Made (named lt tid) Nowhere cfg fs us ∧ ∀ (S : OutStream) (s : S.State),
      (streamCast cfg fs us).runOn S s = (streamCast cfg fs vs).runOn S s := by
  obtain ⟨us, h1, h2⟩ := C108_reach lt tid cfg fs hwf (Everywhere.mono (fun _ h => h.1) hfr) ha vs hty
  exact ⟨us, h1, fun S s => C48_slots_ignored cfg fs hwf.2.1 hfr us vs h2 S s⟩

example : ∃ us, Made (named nameLt packetTid) Nowhere be64 packet us ∧ ∀ (S : OutStream) (s : S.State),
    (streamCast be64 packet us).runOn S s = (streamCast be64 packet packetParsed).runOn S s :=
  C108_writes nameLt packetTid be64 packet (by decide) (by decide +kernel) addressable_packet packetParsed
    (by decide +kernel)

/-- C108. For a self-consistent and rewritable schema every message the reader accepts is
written by some program: default construction, assignments, `stream_cast`. -/
theorem C108_messages (lt : String → String → Bool) (tid : Field → Nat) (cfg : Cfg) (fs : List Field)
    (hsc : SelfConsistent cfg fs) (hrw : Rewritable cfg fs) (ha : Everywhere (Addressable tid) fs)
    (p : List Byte) (vs : List Val) (h : (structCast cfg fs).run p = (.done (.ok vs), [])) :
    ∃ us, Made (named lt tid) Nowhere cfg fs us ∧ (streamCast cfg fs us).run = (.done (.ok ()), p) := by
  have hv := ((read_iff cfg fs hsc.1 _ _ _).1 h).1
  obtain ⟨us, h1, h2⟩ := C108_writes lt tid cfg fs hsc.1 (SelfConsistent.fresh hsc) ha vs
    (typedFields_of_fits cfg fs vs hv.1)
  obtain ⟨q, hq, hw⟩ := C49_rewrite cfg fs hrw p [] vs h
  rw [List.append_nil] at hq
  subst hq
  refine ⟨us, h1, ?_⟩
  rw [← hw]
  exact h2 listOut ([] : List Byte)

example : ∃ us, Made (named nameLt packetTid) Nowhere be64 packet us ∧
    (streamCast be64 packet us).run = (.done (.ok ()), packetBytes) :=
  C108_messages nameLt packetTid be64 packet (by decide +kernel) (rewritable_of_checked (by decide +kernel))
    addressable_packet packetBytes packetParsed (by rfl)

/-- C108 fails where a callable looks at what the library fills: the reader accepts the
message, but no program writes it unless it parses one, since the constant in the struct
stays zero and the predicate that looks at it stays false. -/
theorem C108_fails_stale (lt : String → String → Bool) (tid : Field → Nat) (ha : Addressable tid staleSchema) :
    WellFormed staleSchema ∧
    (structCast le64 staleSchema).run [1, 5, 0] = (.done (.ok [.int 1, .present (.int 5)]), []) ∧
    (streamCast le64 staleSchema [.int 1, .present (.int 5)]).run = (.done (.ok ()), [1, 5, 0]) ∧
    ∀ us, Made (named lt tid) Nowhere le64 staleSchema us →
      (streamCast le64 staleSchema us).run ≠ (.done (.ok ()), [1, 5, 0]) := by
  refine ⟨by decide, by rfl, by rfl, fun us hm hw => ?_⟩
  have hty := made_typed (Q := fun gs => SomeAlternative gs) (fun _ h => h) (fun _ _ _ h => h.elim) hm (by decide +kernel)
  have hk := C107_kept lt tid le64 staleSchema ha (by decide) Nowhere us hm 0 _ rfl
    (.inr (.inr (by simp [Frozen, typedConst])))
  rcases hk with hk | ⟨_, h, _⟩
  · match us, hty, hk, hw with
    | [u0, u1], hty, hk, hw =>
      simp only [List.getElem?_cons_zero, Option.some.injEq] at hk
      subst hk
      cases u1 with
      | absent =>
        have : (streamCast le64 staleSchema [.int 0, .absent]).run = (.done (.ok ()), [1]) := by rfl
        rw [show (Field.plain "ver" (.num u8 1) (.cmp .eq i32 1)).dflt = .int 0 from rfl, this] at hw
        cases hw
      | present w =>
        have : (streamCast le64 staleSchema [.int 0, .present w]).run =
            (.done (.error ⟨.validationFailure, "x"⟩), [1]) := by rfl
        rw [show (Field.plain "ver" (.num u8 1) (.cmp .eq i32 1)).dflt = .int 0 from rfl, this] at hw
        cases hw
      | int => simp [staleSchema, TypedFields, TypedField] at hty
      | seq => simp [staleSchema, TypedFields, TypedField] at hty
      | var => simp [staleSchema, TypedFields, TypedField] at hty
  · exact h

example := C108_fails_stale nameLt (tidOf staleSchema)
  (addressable_of_names (by decide) (by decide) (by decide) (by decide) (by decide))

end S2S.Props
