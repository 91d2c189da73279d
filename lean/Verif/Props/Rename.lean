import Verif.Lemmas.Rename
import Verif.Props.Meta
import Verif.Lemmas.WriteComplete
/-
C84: names are only names.
-/
namespace S2S.Props
open Spec Demo Meta

/-! The packet with the names of its length and its tag exchanged, and other names in the
nested record. -/

def exchange (s : String) : String := if s = "len" then "tag" else if s = "tag" then "len" else s

theorem exchange_injective : Injective exchange := by
  intro x y h
  simp only [exchange] at h
  by_cases h1 : x = "len" <;> by_cases h2 : x = "tag" <;> by_cases h3 : y = "len" <;> by_cases h4 : y = "tag" <;>
    simp_all

def exchangeInner (s : String) : String := if s = "a" then "b" else if s = "b" then "a" else s

theorem exchangeInner_injective : Injective exchangeInner := by
  intro x y h
  simp only [exchangeInner] at h
  by_cases h1 : x = "a" <;> by_cases h2 : x = "b" <;> by_cases h3 : y = "a" <;> by_cases h4 : y = "b" <;>
    simp_all

def packetEx : List Field :=
  [.plain "magic" (.num u32 4) (.cmp .eq i32 0x1234),
   .plain "tag" (.num u16 2) .none,
   .plain "len" (.num u8 1) .none,
   .plain "data" (.vec (.scalar u16) (.fromField "tag") (some 64)) .none,
   .union "body" (.matchField "len" u8 [(i32, 1), (i32, 7)])
     [.mk (.num u32 4) (.cmp .lt u32 1000),
      .mk (.record [.plain "b" (.num i8 1) .none,
        .maybe "a" (.num u16 2) ⟨["b"], fun vs => vs == [.int (-1)]⟩]) .none] .none,
   .plain "crc" (.num u16 2) (.user fun v => v != .int 0)]

theorem packet_renamed : RenFields exchange packet packetEx :=
  .cons (.plain .num) (.cons (.plain .num) (.cons (.plain .num) (.cons (.plain .vec)
    (.cons (.union (.cons .num (.cons (.record exchangeInner_injective
      (.cons (.plain .num) (.cons (.maybe .num) .nil))) .nil))) (.cons (.plain .num) .nil)))))

/-- C84, reading: the cast of the renamed schema makes the same calls to the stream and the
same allocations, with the same result, except that errors name the renamed field. -/
theorem C84_read (cfg : Cfg) (ρ : String → String) (hρ : Injective ρ) (fs gs : List Field)
    (h : RenFields ρ fs gs) :
    structCast cfg gs = (structCast cfg fs).mapErr (renError ρ) :=
  ren_readFields hρ h (ren_dfltEnv hρ h)

/-- C84, reading, on whatever stream. -/
theorem C84_read_stream (cfg : Cfg) (ρ : String → String) (hρ : Injective ρ) (fs gs : List Field)
    (h : RenFields ρ fs gs) (S : InStream) (s s' : S.State) :
    (∀ vs, (structCast cfg gs).runOn S s = (.done (.ok vs), s') ↔
      (structCast cfg fs).runOn S s = (.done (.ok vs), s')) ∧
    (∀ r name, (structCast cfg gs).runOn S s = (.done (.error ⟨r, ρ name⟩), s') ↔
      (structCast cfg fs).runOn S s = (.done (.error ⟨r, name⟩), s')) ∧
    (∀ w, (structCast cfg gs).runOn S s = (.stuck w, s') ↔
      (structCast cfg fs).runOn S s = (.stuck w, s')) := by
  rw [C84_read cfg ρ hρ fs gs h, RdE.runOn_mapErr]
  rcases (structCast cfg fs).runOn S s with ⟨(e | vs) | w, s1⟩
  · refine ⟨fun vs => by simp, fun r name => ?_, fun w => by simp⟩
    simp only [renError, Prod.mk.injEq, Outcome.done.injEq, Except.error.injEq, CastError.mk.injEq]
    constructor
    · rintro ⟨⟨h1, h2⟩, h3⟩
      exact ⟨by cases e; simp only at h1 h2; rw [h1, hρ _ _ h2], h3⟩
    · rintro ⟨rfl, h3⟩
      exact ⟨⟨rfl, rfl⟩, h3⟩
  · exact ⟨fun vs => by simp, fun r name => by simp, fun w => by simp⟩
  · exact ⟨fun vs => by simp, fun r name => by simp, fun w => by simp⟩

/-- The length is missing: the same error, at the other name. -/
example : (structCast be64 packetEx).runOn listIn [0, 0, 0x12, 0x34, 9] =
    (.done (.error ⟨.bufferExhaustion, exchange "len"⟩), [9]) :=
  ((C84_read_stream be64 exchange exchange_injective packet packetEx packet_renamed listIn _ _).2.1 _ "len").2
    (by rfl)

/-- C84, writing: the same calls to the stream with the same bytes and result, except that
errors name the renamed field. -/
theorem C84_write (cfg : Cfg) (ρ : String → String) (hρ : Injective ρ) (fs gs : List Field)
    (h : RenFields ρ fs gs) (vs : List Val) :
    streamCast cfg gs vs = (streamCast cfg fs vs).mapErr (renError ρ) :=
  ren_writeFields h hρ h vs vs

example : (streamCast be64 packetEx packetVal).run = (.done (.ok ()), packetBytes) := by
  rw [C84_write be64 exchange exchange_injective packet packetEx packet_renamed]
  rfl

/-! ## What is accepted and accessible -/

theorem ren_kindDeps {ρ k k'} (h : RenKind ρ k k') : kindDeps k' = (kindDeps k).map ρ := by
  cases h with
  | vec => rename_i len _; cases len <;> rfl
  | vecRec => rename_i len _ _ _ _; cases len <;> rfl
  | _ => rfl

theorem ren_altDeps {ρ} : ∀ {a b}, RenAlts ρ a b →
    (b.flatMap fun x => kindDeps x.kind) = (a.flatMap fun x => kindDeps x.kind).map ρ
  | _, _, .nil => rfl
  | _, _, .cons h h' => by
    simp only [List.flatMap_cons, List.map_append, ren_altDeps h', ren_kindDeps h]

theorem ren_deducerDeps (ρ : String → String) (d : Deducer) :
    deducerDeps (renDeducer ρ d) = (deducerDeps d).map ρ := by
  cases d with
  | matchField _ _ _ => rfl
  | matchCompute _ _ _ => rfl
  | ladder ps =>
    simp only [renDeducer, deducerDeps]
    induction ps with
    | nil => rfl
    | cons p ps ih => simp only [List.map_cons, List.flatMap_cons, List.map_append, ih]; rfl

theorem ren_fieldDeps {ρ f g} (h : RenField ρ f g) : fieldDeps g = (fieldDeps f).map ρ := by
  cases h with
  | plain hk => exact ren_kindDeps hk
  | maybe hk => simp only [fieldDeps, ren_kindDeps hk, List.map_append]; rfl
  | union ha => simp only [fieldDeps, ren_deducerDeps, ren_altDeps ha, List.map_append]

theorem ren_length {ρ} : ∀ {fs gs}, RenFields ρ fs gs → gs.length = fs.length
  | _, _, .nil => rfl
  | _, _, .cons _ h => by rw [List.length_cons, List.length_cons, ren_length h]

theorem ren_altsLength {ρ} : ∀ {a b}, RenAlts ρ a b → b.length = a.length
  | _, _, .nil => rfl
  | _, _, .cons _ h => by rw [List.length_cons, List.length_cons, ren_altsLength h]

theorem ren_ids {ρ} : ∀ {fs gs}, RenFields ρ fs gs → gs.map Field.id = (fs.map Field.id).map ρ
  | _, _, .nil => rfl
  | _, _, .cons h h' => by rw [List.map_cons, List.map_cons, List.map_cons, h.id_eq, ren_ids h']

theorem ren_at {ρ} : ∀ {fs gs}, RenFields ρ fs gs → ∀ i : Nat,
    (fs[i]? = none ∧ gs[i]? = none) ∨ ∃ f g, fs[i]? = some f ∧ gs[i]? = some g ∧ RenField ρ f g
  | _, _, .nil, i => .inl ⟨by simp, by simp⟩
  | _, _, .cons h _, 0 => .inr ⟨_, _, rfl, rfl, h⟩
  | _, _, .cons _ h, i + 1 => by
    rw [List.getElem?_cons_succ, List.getElem?_cons_succ]
    exact ren_at h i

theorem ren_distinct {ρ fs gs} (hρ : Injective ρ) (h : RenFields ρ fs gs) : Distinct gs ↔ Distinct fs := by
  unfold Distinct List.Nodup
  rw [ren_ids h, List.pairwise_map (f := ρ)]
  exact ⟨fun h => h.imp fun h he => h (by rw [he]), fun h => h.imp fun h he => h (hρ _ _ he)⟩

theorem ren_withinLimits {ρ f g} (h : RenField ρ f g) : WithinLimits g ↔ WithinLimits f := by
  cases h with
  | plain hk => rw [WithinLimits, WithinLimits, ren_kindDeps hk, List.length_map]
  | maybe hk =>
    rw [WithinLimits, WithinLimits, ren_kindDeps hk, List.length_map, renPred, List.length_map]
    have hb : ∀ {k k'}, RenKind ρ k k' → declaresBound k' = declaresBound k := by
      intro k k' h
      cases h with
      | @vec _ _ _ b => cases b <;> rfl
      | @vecRec _ _ _ _ _ b => cases b <;> rfl
      | _ => rfl
    rw [hb hk]
  | union ha =>
    rename_i d _ _ _
    cases d <;> simp [WithinLimits, ren_altsLength ha, ren_altDeps ha, deducerDeps, renDeducer, renCalc,
      renPred, List.length_flatMap, List.map_map, Function.comp_def]

theorem ren_declared {ρ fs gs} (hρ : Injective ρ) (h : RenFields ρ fs gs) (i : Nat) (d : String) :
    DeclaredUpTo gs i (ρ d) ↔ DeclaredUpTo fs i d := by
  constructor
  · rintro ⟨j, g, hj, hg, he⟩
    rcases ren_at h j with ⟨_, h2⟩ | ⟨f, g', h1, h2, h3⟩
    · rw [At, h2] at hg; cases hg
    · rw [At, h2] at hg
      cases hg
      exact ⟨j, f, hj, h1, hρ _ _ (by rw [← h3.id_eq, he])⟩
  · rintro ⟨j, f, hj, hf, he⟩
    rcases ren_at h j with ⟨h1, _⟩ | ⟨f', g, h1, h2, h3⟩
    · rw [At, h1] at hf; cases hf
    · rw [At, h1] at hf
      cases hf
      exact ⟨j, g, hj, h2, by rw [h3.id_eq, he]⟩

/-- Names are not empty. -/
def NoEmptyNames (fs : List Field) : Prop := ∀ f ∈ fs, f.id ≠ "" ∧ "" ∉ fieldDeps f

instance (fs : List Field) : Decidable (NoEmptyNames fs) := by unfold NoEmptyNames; infer_instance

theorem accepts_noEmpty {lt : String → String → Bool} {tid : Field → Nat} {fs : List Field}
    (hn : NoEmptyNames fs) : accepts lt tid fs = true ↔
      fs ≠ [] ∧ Distinct fs ∧ fs.length ≤ 256 ∧ (∀ f ∈ fs, WithinLimits f) ∧
      ∀ i f, At fs i f → ∀ d ∈ fieldDeps f, DeclaredUpTo fs i d := by
  rw [C102_accepts lt tid fs fun f hf => (hn f hf).1]
  refine and_congr_right fun _ => and_congr_right fun _ => and_congr_right fun _ => and_congr_right fun _ => ?_
  refine ⟨fun h i f hf d hd => ?_, fun h i f hf d hd => .inr (h i f hf d hd)⟩
  rcases h i f hf d hd with ⟨rfl, _⟩ | h
  · exact absurd hd (hn f (List.mem_of_getElem? hf)).2
  · exact h

theorem ren_mem_right {ρ} : ∀ {fs gs}, RenFields ρ fs gs → ∀ g ∈ gs, ∃ f ∈ fs, RenField ρ f g
  | _, _, .nil, _, hg => by cases hg
  | _, _, .cons h h', g, hg => by
    rcases List.mem_cons.1 hg with rfl | hg
    · exact ⟨_, List.mem_cons_self, h⟩
    · obtain ⟨f, hf, hr⟩ := ren_mem_right h' g hg
      exact ⟨f, List.mem_cons_of_mem _ hf, hr⟩

theorem ren_mem_left {ρ} : ∀ {fs gs}, RenFields ρ fs gs → ∀ f ∈ fs, ∃ g ∈ gs, RenField ρ f g
  | _, _, .nil, _, hg => by cases hg
  | _, _, .cons h h', f, hf => by
    rcases List.mem_cons.1 hf with rfl | hf
    · exact ⟨_, List.mem_cons_self, h⟩
    · obtain ⟨g, hg, hr⟩ := ren_mem_left h' f hf
      exact ⟨g, List.mem_cons_of_mem _ hg, hr⟩

/-- C84, acceptance: `struct_field_list` accepts the renamed list if and only if it accepts
the list, whatever the order of the names in its tables. -/
theorem C84_accepts (lt lt' : String → String → Bool) (tid tid' : Field → Nat) (ρ : String → String)
    (hρ : Injective ρ) (fs gs : List Field) (h : RenFields ρ fs gs) (hf : NoEmptyNames fs)
    (hg : NoEmptyNames gs) : accepts lt' tid' gs = true ↔ accepts lt tid fs = true := by
  rw [accepts_noEmpty hf, accepts_noEmpty hg, ren_distinct hρ h, ren_length h, ← List.length_pos_iff,
    ← List.length_pos_iff, ren_length h]
  refine and_congr_right fun _ => and_congr_right fun _ => and_congr_right fun _ => and_congr ?_ ?_
  · constructor
    · intro h1 f hf
      obtain ⟨g, hg, hr⟩ := ren_mem_left h f hf
      exact (ren_withinLimits hr).1 (h1 g hg)
    · intro h1 g hg
      obtain ⟨f, hf, hr⟩ := ren_mem_right h g hg
      exact (ren_withinLimits hr).2 (h1 f hf)
  · constructor
    · intro h1 i f hf d hd
      rcases ren_at h i with ⟨h2, _⟩ | ⟨f', g, h2, h3, h4⟩
      · rw [At, h2] at hf; cases hf
      · rw [At, h2] at hf
        cases hf
        exact (ren_declared hρ h i d).1 (h1 i g h3 (ρ d) (by rw [ren_fieldDeps h4]; exact List.mem_map_of_mem hd))
    · intro h1 i g hg d hd
      rcases ren_at h i with ⟨_, h2⟩ | ⟨f, g', h2, h3, h4⟩
      · rw [At, h2] at hg; cases hg
      · rw [At, h3] at hg
        cases hg
        rw [ren_fieldDeps h4] at hd
        obtain ⟨d', hd', rfl⟩ := List.mem_map.1 hd
        exact (ren_declared hρ h i d').2 (h1 i f h2 d' hd')

example (lt lt' : String → String → Bool) (tid tid' : Field → Nat) :
    accepts lt' tid' packetEx = true ↔ accepts lt tid packet = true :=
  C84_accepts lt lt' tid tid' exchange exchange_injective packet packetEx packet_renamed (by decide) (by decide)

theorem ren_lengthTarget {ρ fs gs} (hρ : Injective ρ) (h : RenFields ρ fs gs) (id : String) :
    LengthTarget gs (ρ id) ↔ LengthTarget fs id := by
  constructor
  · rintro ⟨j, k, c, hm, ht⟩
    obtain ⟨f, hf, hr⟩ := ren_mem_right h _ hm
    cases hr with
    | plain hk => exact ⟨_, _, _, hf, (lenTarget_iff hρ hk id).1 ht⟩
  · rintro ⟨j, k, c, hm, ht⟩
    obtain ⟨g, hg, hr⟩ := ren_mem_left h _ hm
    cases hr with
    | plain hk => exact ⟨_, _, _, hg, (lenTarget_iff hρ hk id).2 ht⟩

theorem ren_switchedOn {ρ fs gs} (hρ : Injective ρ) (h : RenFields ρ fs gs) (id : String) :
    SwitchedOn gs (ρ id) ↔ SwitchedOn fs id := by
  constructor
  · rintro ⟨j, t, ls, alts, c, hm⟩
    obtain ⟨f, hf, hr⟩ := ren_mem_right h _ hm
    generalize hd : Deducer.matchField (ρ id) t ls = d at hr
    cases hr with
    | union ha =>
      rename_i id' d' _
      cases d' with
      | matchField x _ _ =>
        simp only [renDeducer, Deducer.matchField.injEq] at hd
        rw [← hρ _ _ hd.1] at hf
        exact ⟨_, _, _, _, _, hf⟩
      | matchCompute _ _ _ => cases hd
      | ladder _ => cases hd
  · rintro ⟨j, t, ls, alts, c, hm⟩
    obtain ⟨g, hg, hr⟩ := ren_mem_left h _ hm
    cases hr with
    | union ha => exact ⟨_, _, _, _, _, hg⟩

theorem ren_frozen {ρ f g} (h : RenField ρ f g) : Frozen g ↔ Frozen f := by
  cases h with
  | plain hk =>
    rw [Frozen, Frozen, typedConst_eq, typedConst_eq, ren_frozenVal hk]
  | maybe _ => exact Iff.rfl
  | union _ => exact Iff.rfl

/-- C84, access: `operator[]` gives the renamed field where it gave the field, with the same
access. -/
theorem C84_access (lt lt' : String → String → Bool) (tid tid' : Field → Nat) (ρ : String → String)
    (hρ : Injective ρ) (fs gs : List Field) (h : RenFields ρ fs gs)
    (hn : fs.length ≤ 256) (hd : Distinct fs)
    (htid : ∀ f ∈ fs, ∀ g ∈ fs, tid f = tid g → f = g)
    (htid' : ∀ f ∈ gs, ∀ g ∈ gs, tid' f = tid' g → f = g)
    (hl : (lenDerivedIds fs).length ≤ 64) (hs : (discDerivedIds fs).length ≤ 64)
    (id : String) (hid : id ≠ "") (hid' : ρ id ≠ "") (a : Access) :
    (∃ g, subscript lt' tid' gs (ρ id) = some (g, a)) ↔ ∃ f, subscript lt tid fs id = some (f, a) := by
  have hd' := (ren_distinct hρ h).2 hd
  have key := C67_access lt tid fs hn hd htid hl hs id hid
  have key' := C67_access lt' tid' gs (by rw [ren_length h]; exact hn) hd' htid'
    (by rw [ren_lenDerived h, List.length_map]; exact hl)
    (by rw [ren_discDerived h, List.length_map]; exact hs) (ρ id) hid'
  constructor
  · rintro ⟨g, hg⟩
    obtain ⟨h1, h2, h3, h4⟩ := (key' g a).1 hg
    obtain ⟨f, hf, hr⟩ := ren_mem_right h g h1
    refine ⟨f, (key f a).2 ⟨hf, hρ _ _ (by rw [← hr.id_eq, h2]), ?_, ?_⟩⟩
    · rwa [← ren_lengthTarget hρ h]
    · rwa [← ren_switchedOn hρ h, ← ren_frozen hr]
  · rintro ⟨f, hf⟩
    obtain ⟨h1, h2, h3, h4⟩ := (key f a).1 hf
    obtain ⟨g, hg, hr⟩ := ren_mem_left h f h1
    refine ⟨g, (key' g a).2 ⟨hg, by rw [hr.id_eq, h2], ?_, ?_⟩⟩
    · rwa [ren_lengthTarget hρ h]
    · rwa [ren_switchedOn hρ h, ren_frozen hr]

example : ∃ g, subscript nameLt (tidOf packetEx) packetEx (exchange "crc") = some (g, .mutable) :=
  (C84_access nameLt nameLt (tidOf packet) (tidOf packetEx) exchange exchange_injective packet packetEx
    packet_renamed (by decide) (by decide) tidOf_packet (tidOf_inj (by decide)) (by decide) (by decide) "crc"
    (by decide) (by decide) .mutable).2 ⟨_, crc_mutable⟩

example : structCast be64 packetEx = (structCast be64 packet).mapErr (renError exchange) :=
  C84_read be64 exchange exchange_injective packet packetEx packet_renamed

end S2S.Props
