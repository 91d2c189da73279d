import Verif.Spec.Part
import Verif.Lemmas.Edit
import Verif.Lemmas.Made
import Verif.Props.Damage
/-
Places inside structs: encodings, validity, refusal, settling.
-/
namespace S2S
open Spec Props

/-! ### Encodings -/

theorem inKind_wire (o : Endian) {k : Kind} {gs : List Field} {plug : List Val → Val}
    (h : InKind k gs plug) : ∃ l r, ∀ ps, wireKind o k (plug ps) = l ++ wireFields o gs ps ++ r := by
  cases h with
  | record => exact ⟨[], [], fun ps => by simp [wireKind]⟩
  | array _ n l r =>
    exact ⟨_, _, fun ps => by
      simp only [wireKind, List.flatMap_append, List.flatMap_cons, recordBytes, List.append_assoc]; rfl⟩
  | vector _ len b sz l r =>
    exact ⟨_, _, fun ps => by
      simp only [wireKind, List.flatMap_append, List.flatMap_cons, recordBytes, List.append_assoc]; rfl⟩

theorem wireAlts_at (o : Endian) {alts : List Alt} {i : Nat} {k : Kind} {c : Constraint}
    (h : alts[i]? = some (.mk k c)) (v : Val) : wireAlts o alts i v = wireKind o k v := by
  induction alts generalizing i with
  | nil => cases h
  | cons a alts ih =>
    cases i with
    | zero => cases h; rw [wireAlts]
    | succ i => obtain ⟨k', c'⟩ := a; rw [wireAlts]; exact ih h

theorem inField_wire (o : Endian) {f : Field} {gs : List Field} {plug : List Val → Val}
    {cs : List Val → List (Constraint × Val)} (h : InField f gs plug cs) :
    ∃ l r, ∀ ps, wireField o f (plug ps) = l ++ wireFields o gs ps ++ r := by
  cases h with
  | plain id c h => obtain ⟨l, r, h⟩ := inKind_wire o h; exact ⟨l, r, fun ps => by rw [wireField, h]⟩
  | maybe id p h => obtain ⟨l, r, h⟩ := inKind_wire o h; exact ⟨l, r, fun ps => by rw [wireField, h]⟩
  | union id d c ha h =>
    obtain ⟨l, r, h⟩ := inKind_wire o h
    exact ⟨l, r, fun ps => by rw [wireField, wireAlts_at o ha, h]⟩

theorem place_wire (cfg : Cfg) {fs gs : List Field} {top : Option String} {plug : List Val → List Val}
    {cs : List Val → List (Constraint × Val)} (h : Place fs gs top plug cs) :
    ∃ l r, ∀ ps, wire cfg fs (plug ps) = l ++ wire cfg gs ps ++ r := by
  induction h with
  | whole fs => exact ⟨[], [], fun ps => by simp⟩
  | @inside f hs gs top plug plug' cs cs' pre post us ws hl _ hf _ ih =>
    obtain ⟨l, r, h1⟩ := ih
    obtain ⟨l', r', h2⟩ := inField_wire cfg.wire hf
    refine ⟨wire cfg pre us ++ l' ++ l, r ++ r' ++ wire cfg post ws, fun ps => ?_⟩
    rw [wire_split cfg pre post f us ws _ hl, h2]
    simp only [wire] at h1 ⊢
    rw [h1]
    simp only [List.append_assoc]

/-! ### Validity -/

theorem inKind_valid (cfg : Cfg) (env : Env) {k : Kind} {gs : List Field} {plug : List Val → Val}
    (h : InKind k gs plug) {ps : List Val} (hv : IsKind cfg env k (plug ps)) (qs : List Val) :
    IsKind cfg env k (plug qs) ↔ Valid cfg gs qs := by
  cases h with
  | record => simp only [IsKind, FitsKind, OkKind, ShapedKind, Valid]
  | array _ n l r =>
    obtain ⟨h1, h2, h3⟩ := hv
    simp only [FitsKind, OkKind, ShapedKind, List.mem_append, List.mem_cons] at h1 h2 h3
    simp only [IsKind, FitsKind, OkKind, ShapedKind, List.mem_append, List.mem_cons, Valid]
    constructor
    · rintro ⟨⟨_, a⟩, b, c⟩
      obtain ⟨_, e, a⟩ := a (.seq qs) (by simp); cases e
      obtain ⟨_, e, b⟩ := b (.seq qs) (by simp); cases e
      obtain ⟨_, e, c⟩ := c (.seq qs) (by simp); cases e
      exact ⟨a, b, c⟩
    · rintro ⟨a, b, c⟩
      refine ⟨⟨by simpa using h1.1, ?_⟩, ?_, ?_⟩
      · rintro v (hm | rfl | hm)
        · exact h1.2 v (.inl hm)
        · exact ⟨qs, rfl, a⟩
        · exact h1.2 v (.inr (.inr hm))
      · rintro v (hm | rfl | hm)
        · exact h2 v (.inl hm)
        · exact ⟨qs, rfl, b⟩
        · exact h2 v (.inr (.inr hm))
      · rintro v (hm | rfl | hm)
        · exact h3 v (.inl hm)
        · exact ⟨qs, rfl, c⟩
        · exact h3 v (.inr (.inr hm))
  | vector _ len b' sz l r =>
    obtain ⟨h1, h2, h3⟩ := hv
    simp only [FitsKind, OkKind, ShapedKind, List.mem_append, List.mem_cons] at h1 h2 h3
    simp only [IsKind, FitsKind, OkKind, ShapedKind, List.mem_append, List.mem_cons, Valid]
    constructor
    · rintro ⟨⟨_, a⟩, b, _, c⟩
      obtain ⟨_, e, a⟩ := a (.seq qs) (by simp); cases e
      obtain ⟨_, e, b⟩ := b (.seq qs) (by simp); cases e
      obtain ⟨_, e, c⟩ := c (.seq qs) (by simp); cases e
      exact ⟨a, b, c⟩
    · rintro ⟨a, b, c⟩
      refine ⟨⟨by simpa using h1.1, ?_⟩, ?_, by simpa using h3.1, ?_⟩
      · rintro v (hm | rfl | hm)
        · exact h1.2 v (.inl hm)
        · exact ⟨qs, rfl, a⟩
        · exact h1.2 v (.inr (.inr hm))
      · rintro v (hm | rfl | hm)
        · exact h2 v (.inl hm)
        · exact ⟨qs, rfl, b⟩
        · exact h2 v (.inr (.inr hm))
      · rintro v (hm | rfl | hm)
        · exact h3.2 v (.inl hm)
        · exact ⟨qs, rfl, c⟩
        · exact h3.2 v (.inr (.inr hm))

theorem alts_at (cfg : Cfg) (env : Env) {alts : List Alt} {i : Nat} {k : Kind} {c : Constraint}
    (h : alts[i]? = some (.mk k c)) (v : Val) :
    (FitsAlts cfg alts i v ↔ FitsKind cfg k v) ∧ (OkAlts alts i v ↔ OkKind k v ∧ Holds c v) ∧
      (ShapedAlts cfg env alts i v ↔ ShapedKind cfg env k v) := by
  induction alts generalizing i with
  | nil => cases h
  | cons a alts ih =>
    cases i with
    | zero => cases h; simp only [FitsAlts, OkAlts, ShapedAlts, and_self]
    | succ i => obtain ⟨k', c'⟩ := a; simp only [FitsAlts, OkAlts, ShapedAlts]; exact ih h

theorem inField_valid (cfg : Cfg) (env : Env) {f : Field} {gs : List Field} {plug : List Val → Val}
    {cs : List Val → List (Constraint × Val)} (h : InField f gs plug cs) {ps : List Val}
    (hv : IsField cfg env f (plug ps)) (qs : List Val) :
    IsField cfg env f (plug qs) ↔ Valid cfg gs qs ∧ ∀ p ∈ cs qs, Holds p.1 p.2 := by
  cases h with
  | plain id c h =>
    obtain ⟨a, b, e⟩ := hv
    simp only [FitsField, OkField, ShapedField] at a b e
    rw [← inKind_valid cfg env h ⟨a, b.1, e⟩]
    simp only [IsField, IsKind, FitsField, OkField, ShapedField, List.mem_singleton, forall_eq]
    exact ⟨fun ⟨x, y, z⟩ => ⟨⟨x, y.1, z⟩, y.2⟩, fun ⟨⟨x, y, z⟩, w⟩ => ⟨x, ⟨y, w⟩, z⟩⟩
  | maybe id p h =>
    obtain ⟨a, b, e⟩ := hv
    simp only [FitsField, OkField, ShapedField] at a b e
    rw [← inKind_valid cfg env h ⟨a, b, e.2⟩]
    simp only [IsField, IsKind, FitsField, OkField, ShapedField, List.not_mem_nil, false_implies, implies_true,
      and_true]
    exact ⟨fun ⟨x, y, z⟩ => ⟨x, y, z.2⟩, fun ⟨x, y, z⟩ => ⟨x, y, e.1, z⟩⟩
  | @union k gs plug i alts ca id d c ha h =>
    obtain ⟨a, b, e⟩ := hv
    simp only [FitsField, OkField, ShapedField, alts_at cfg env ha] at a b e
    rw [← inKind_valid cfg env h ⟨a, b.1.1, e.2⟩]
    simp only [IsField, IsKind, FitsField, OkField, ShapedField, alts_at cfg env ha, List.mem_cons, List.not_mem_nil,
      or_false, forall_eq_or_imp, forall_eq]
    exact ⟨fun ⟨x, y, z⟩ => ⟨⟨x, y.1.1, z.2⟩, y.1.2, y.2⟩,
      fun ⟨⟨x, y, z⟩, w, u⟩ => ⟨x, ⟨⟨y, w⟩, u⟩, e.1, z⟩⟩

/-- Conditions on all lists of a schema hold of the one at the place. -/
theorem inField_every {P : List Field → Prop} {f : Field} {gs : List Field} {plug : List Val → Val}
    {cs : List Val → List (Constraint × Val)} (h : InField f gs plug cs) (he : EveryField P f) :
    Everywhere P gs := by
  have key : ∀ {k : Kind} {plug : List Val → Val}, InKind k gs plug → EveryKind P k → Everywhere P gs := by
    intro k plug hk he
    cases hk <;> exact he
  cases h with
  | plain id c h => exact key h (by simpa only [EveryField] using he)
  | maybe id p h => exact key h (by simpa only [EveryField] using he)
  | union id d c ha h =>
    refine key h ?_
    simp only [EveryField] at he
    rename_i k plug i alts ca
    clear h
    induction alts generalizing i with
    | nil => cases ha
    | cons a alts ih =>
      obtain ⟨k', c'⟩ := a
      rw [EveryAlts] at he
      cases i with
      | zero => cases ha; exact he.1
      | succ i => exact ih ha he.2

theorem every_mem {P : List Field → Prop} {fs : List Field} (h : EveryFields P fs) {f : Field} (hf : f ∈ fs) :
    EveryField P f := by
  induction fs with
  | nil => cases hf
  | cons g fs ih =>
    rw [EveryFields] at h
    rcases List.mem_cons.1 hf with rfl | hf
    · exact h.1
    · exact ih h.2 hf

theorem place_every {P : List Field → Prop} {fs gs : List Field} {top : Option String}
    {plug : List Val → List Val} {cs : List Val → List (Constraint × Val)}
    (h : Place fs gs top plug cs) (he : Everywhere P fs) : Everywhere P gs := by
  induction h with
  | whole => exact he
  | inside pre post us ws _ _ hf _ ih => exact ih (inField_every hf (every_mem he.2 (by simp)))

theorem valid_at {cfg : Cfg} {pre post : List Field} {f : Field} {us ws : List Val} {v : Val}
    (hwf : WellFormed (pre ++ f :: post)) (hl : us.length = pre.length) (hun : Unseen post f.id)
    (h : Valid cfg (pre ++ f :: post) (us ++ v :: ws)) (v' : Val) :
    Valid cfg (pre ++ f :: post) (us ++ v' :: ws) ↔ IsField cfg (envOf pre us) f v' :=
  ⟨fun h' => (valid_split hwf hl h').2, fun h' => valid_replace hwf hl hun h h'⟩

theorem place_valid (cfg : Cfg) {fs gs : List Field} {top : Option String} {plug : List Val → List Val}
    {cs : List Val → List (Constraint × Val)} (h : Place fs gs top plug cs)
    (hwf : Everywhere WellFormed fs) {ps : List Val} (hv : Valid cfg fs (plug ps)) (qs : List Val) :
    Valid cfg fs (plug qs) ↔ Valid cfg gs qs ∧ ∀ p ∈ cs qs, Holds p.1 p.2 := by
  induction h with
  | whole fs => simp
  | @inside f hs gs top plug plug' cs cs' pre post us ws hl hun hf _ ih =>
    have hwf' := inField_every hf (every_mem hwf.2 (by simp))
    have h1 := (valid_at hwf.1 hl hun hv _).1 hv
    have h2 := ((inField_valid cfg (envOf pre us) hf h1 _).1 h1).1
    rw [valid_at hwf.1 hl hun hv, inField_valid cfg _ hf h1, ih hwf' h2]
    simp only [List.mem_append, or_imp, forall_and]
    exact ⟨fun ⟨⟨a, b⟩, c⟩ => ⟨a, b, c⟩, fun ⟨a, b, c⟩ => ⟨⟨a, b⟩, c⟩⟩

/-! ### Refusal -/

theorem inKind_refused (cfg : Cfg) {k : Kind} {gs : List Field} {plug : List Val → Val}
    (h : InKind k gs plug) : ∃ l r, (∀ ps, wireKind cfg.wire k (plug ps) = l ++ wireFields cfg.wire gs ps ++ r) ∧
      ∀ env ps, IsKind cfg env k (plug ps) → ∀ q e id, FieldsRefused cfg [] [] gs q e id →
        KindRefused cfg env k (l ++ q) e := by
  cases h with
  | record => exact ⟨[], [], fun ps => by simp [wireKind], fun env ps _ q e id h => ⟨id, h⟩⟩
  | array _ n l r =>
    refine ⟨l.flatMap (recordBytes fun ws => wireFields cfg.wire gs ws),
      r.flatMap (recordBytes fun ws => wireFields cfg.wire gs ws), fun ps => by
      simp only [wireKind, List.flatMap_append, List.flatMap_cons, recordBytes, List.append_assoc],
      fun env ps hv q e id h => ?_⟩
    obtain ⟨h1, h2, h3⟩ := hv
    simp only [FitsKind, OkKind, ShapedKind, List.mem_append, List.mem_cons] at h1 h2 h3
    have hlen := h1.1
    simp only [List.length_append, List.length_cons] at hlen
    refine ⟨l, q, rfl, by omega, fun v hm => ?_, id, h⟩
    obtain ⟨ws, rfl, a⟩ := h1.2 v (.inl hm)
    obtain ⟨_, e, b⟩ := h2 _ (.inl hm); cases e
    obtain ⟨_, e, c⟩ := h3 _ (.inl hm); cases e
    exact ⟨ws, rfl, a, b, c⟩
  | vector _ len b' sz l r =>
    refine ⟨l.flatMap (recordBytes fun ws => wireFields cfg.wire gs ws),
      r.flatMap (recordBytes fun ws => wireFields cfg.wire gs ws), fun ps => by
      simp only [wireKind, List.flatMap_append, List.flatMap_cons, recordBytes, List.append_assoc],
      fun env ps hv q e id h => ?_⟩
    obtain ⟨h1, h2, h3⟩ := hv
    simp only [FitsKind, OkKind, ShapedKind, List.mem_append, List.mem_cons] at h1 h2 h3
    refine ⟨_, h3.1, .inr ⟨h1.1, l, q, rfl, by simp, fun v hm => ?_, id, h⟩⟩
    obtain ⟨ws, rfl, a⟩ := h1.2 v (.inl hm)
    obtain ⟨_, e, b⟩ := h2 _ (.inl hm); cases e
    obtain ⟨_, e, c⟩ := h3.2 _ (.inl hm); cases e
    exact ⟨ws, rfl, a, b, c⟩

theorem altsRefused_at (cfg : Cfg) (env : Env) {alts : List Alt} {i : Nat} {k : Kind} {c : Constraint}
    (h : alts[i]? = some (.mk k c)) (inp : List Byte) (e : Reason) :
    AltsRefused cfg env alts i inp e ↔ (KindRefused cfg env k inp e ∨
      e = .validationFailure ∧ ∃ v tail, inp = wireKind cfg.wire k v ++ tail ∧ IsKind cfg env k v ∧
        c.check v = .ok false) := by
  induction alts generalizing i with
  | nil => cases h
  | cons a alts ih =>
    cases i with
    | zero => cases h; simp only [AltsRefused]
    | succ i => obtain ⟨k', c'⟩ := a; simp only [AltsRefused]; exact ih h

theorem inField_refused (cfg : Cfg) {f : Field} {gs : List Field} {plug : List Val → Val}
    {cs : List Val → List (Constraint × Val)} (h : InField f gs plug cs) :
    ∃ l r, (∀ ps, wireField cfg.wire f (plug ps) = l ++ wireFields cfg.wire gs ps ++ r) ∧
      ∀ env ps, IsField cfg env f (plug ps) →
        (∀ q e id, FieldsRefused cfg [] [] gs q e id → FieldRefused cfg env f (l ++ q) e) ∧
        ∀ qs, Valid cfg gs qs → ∀ a c v b, cs qs = a ++ (c, v) :: b → (∀ p ∈ a, Holds p.1 p.2) →
          c.check v = .ok false → ∀ tail,
          FieldRefused cfg env f (l ++ wireFields cfg.wire gs qs ++ r ++ tail) .validationFailure := by
  cases h with
  | plain id c h =>
    obtain ⟨l, r, h1, h2⟩ := inKind_refused cfg h
    refine ⟨l, r, fun ps => by rw [wireField, h1], fun env ps hv => ?_⟩
    obtain ⟨x, y, z⟩ := hv
    simp only [FitsField, OkField, ShapedField] at x y z
    have hk : IsKind cfg env _ (plug ps) := ⟨x, y.1, z⟩
    refine ⟨fun q e id hr => ?_, fun qs hq a c' v b hc ha hf tail => ?_⟩
    · simp only [FieldRefused]; exact .inl (h2 env ps hk q e id hr)
    · simp only [FieldRefused]
      have hq' := (inKind_valid cfg env h hk qs).2 hq
      cases a with
      | cons p a => simp at hc
      | nil =>
        simp only [List.nil_append, List.cons.injEq, Prod.mk.injEq] at hc
        obtain ⟨⟨rfl, rfl⟩, _⟩ := hc
        exact .inr ⟨trivial, _, tail, by rw [h1], hq', hf⟩
  | maybe id p h =>
    obtain ⟨l, r, h1, h2⟩ := inKind_refused cfg h
    refine ⟨l, r, fun ps => by rw [wireField, h1], fun env ps hv => ?_⟩
    obtain ⟨x, y, z⟩ := hv
    simp only [FitsField, OkField, ShapedField] at x y z
    refine ⟨fun q e id hr => ?_, fun qs hq a c' v b hc => ?_⟩
    · simp only [FieldRefused]; exact ⟨z.1, h2 env ps ⟨x, y, z.2⟩ q e id hr⟩
    · simp at hc
  | @union k gs plug i alts ca id d c hat h =>
    obtain ⟨l, r, h1, h2⟩ := inKind_refused cfg h
    refine ⟨l, r, fun ps => by rw [wireField, wireAlts_at _ hat, h1], fun env ps hv => ?_⟩
    obtain ⟨x, y, z⟩ := hv
    simp only [FitsField, OkField, ShapedField, alts_at cfg env hat] at x y z
    have hk : IsKind cfg env _ (plug ps) := ⟨x, y.1.1, z.2⟩
    refine ⟨fun q e id hr => ?_, fun qs hq a c' v b hc ha hf tail => ?_⟩
    · simp only [FieldRefused]
      exact .inr ⟨i, z.1, .inl ((altsRefused_at cfg env hat _ _).2 (.inl (h2 env ps hk q e id hr)))⟩
    · simp only [FieldRefused]
      have hq' := (inKind_valid cfg env h hk qs).2 hq
      refine .inr ⟨i, z.1, ?_⟩
      cases a with
      | nil =>
        simp only [List.nil_append, List.cons.injEq, Prod.mk.injEq] at hc
        obtain ⟨⟨rfl, rfl⟩, _⟩ := hc
        exact .inl ((altsRefused_at cfg env hat _ _).2 (.inr ⟨rfl, _, tail, by rw [h1], hq', hf⟩))
      | cons p a =>
        simp only [List.cons_append, List.cons.injEq] at hc
        obtain ⟨rfl, hc⟩ := hc
        have hca := ha (ca, plug qs) (by simp)
        cases a with
        | cons p a => have := congrArg List.length hc; simp at this
        | nil =>
          simp only [List.nil_append, List.cons.injEq, Prod.mk.injEq] at hc
          obtain ⟨⟨rfl, rfl⟩, _⟩ := hc
          refine .inr ⟨trivial, plug qs, tail, by rw [wireAlts_at _ hat, h1], ?_, hf⟩
          simp only [alts_at cfg env hat]
          exact ⟨hq'.1, ⟨hq'.2.1, hca⟩, hq'.2.2⟩

theorem place_refused (cfg : Cfg) {fs gs : List Field} {top : Option String} {plug : List Val → List Val}
    {cs : List Val → List (Constraint × Val)} (h : Place fs gs top plug cs)
    (hwf : Everywhere WellFormed fs) :
    ∃ l r, (∀ ps, wire cfg fs (plug ps) = l ++ wire cfg gs ps ++ r) ∧
      ∀ ps, Valid cfg fs (plug ps) →
        (∀ q e id, Refused cfg gs q e id → Refused cfg fs (l ++ q) e (top.getD id)) ∧
        ∀ qs, Valid cfg gs qs → ∀ a c v b, cs qs = a ++ (c, v) :: b → (∀ p ∈ a, Holds p.1 p.2) →
          c.check v = .ok false → ∀ tail id,
          Refused cfg fs (l ++ wire cfg gs qs ++ r ++ tail) .validationFailure (top.getD id) := by
  induction h with
  | whole fs =>
    refine ⟨[], [], fun ps => by simp, fun ps _ => ⟨fun q e id h => h, fun qs _ a c v b h => ?_⟩⟩
    simp at h
  | @inside f hs gs top plug plug' cs cs' pre post us ws hl hun hf hp ih =>
    have hwf' := inField_every hf (every_mem hwf.2 (by simp))
    obtain ⟨l, r, h1, h2⟩ := ih hwf'
    obtain ⟨l', r', h3, h4⟩ := inField_refused cfg hf
    refine ⟨wire cfg pre us ++ l' ++ l, r ++ r' ++ wire cfg post ws, fun ps => ?_, fun ps hv => ?_⟩
    · rw [wire_split cfg pre post f us ws _ hl, h3]
      simp only [wire] at h1 ⊢
      rw [h1]
      simp only [List.append_assoc]
    have hvp := (valid_split hwf.1 hl hv).1
    have hvf := (valid_at hwf.1 hl hun hv _).1 hv
    have hvi := ((inField_valid cfg (envOf pre us) hf hvf _).1 hvf).1
    obtain ⟨h5, h6⟩ := h2 ps hvi
    obtain ⟨h7, h8⟩ := h4 (envOf pre us) _ hvf
    have lift : ∀ q e id, Refused cfg hs q e id → ∀ id', Refused cfg (pre ++ f :: post)
        (wire cfg pre us ++ (l' ++ q)) e ((some f.id).getD id') := fun q e id hq id' =>
      ⟨pre, f, post, us, _, rfl, rfl, hvp, rfl, h7 q e id ((refused_iff_fields cfg hs hwf'.1 q e id).2 hq)⟩
    refine ⟨fun q e id hq => ?_, fun qs hq a c v b hc ha hf' tail id => ?_⟩
    · have := lift _ _ _ (h5 q e id hq) id
      simpa only [List.append_assoc] using this
    · rcases List.append_eq_append_iff.1 hc with ⟨a', rfl, hc'⟩ | ⟨c', hc1, hc'⟩
      · have hin : Valid cfg hs (plug' qs) := (place_valid cfg hp hwf' hvi qs).2
          ⟨hq, fun p hp => ha p (by simp [hp])⟩
        have := h8 (plug' qs) hin a' c v b hc' (fun p hp => ha p (by simp [hp])) hf'
          (wire cfg post ws ++ tail)
        refine ⟨pre, f, post, us, _, rfl, rfl, hvp, ?_, this⟩
        simp only [wire] at h1 ⊢
        rw [h1]
        simp only [List.append_assoc]
      · cases c' with
        | nil =>
          simp only [List.append_nil, List.nil_append] at hc1 hc'
          have hin : Valid cfg hs (plug' qs) := (place_valid cfg hp hwf' hvi qs).2
            ⟨hq, fun p hp => ha p (by rw [← hc1]; exact hp)⟩
          have := h8 (plug' qs) hin [] c v b hc'.symm (by simp) hf' (wire cfg post ws ++ tail)
          refine ⟨pre, f, post, us, _, rfl, rfl, hvp, ?_, this⟩
          simp only [wire] at h1 ⊢
          rw [h1]
          simp only [List.append_assoc]
        | cons p c' =>
          simp only [List.cons_append, List.cons.injEq] at hc'
          obtain ⟨rfl, _⟩ := hc'
          have := lift _ _ _ (h6 qs hq a c v c' hc1 ha hf' (r' ++ wire cfg post ws ++ tail) id) id
          simpa only [List.append_assoc] using this

/-! ### Settling -/

theorem inKind_settle {k : Kind} {gs : List Field} {plug : List Val → Val} (h : InKind k gs plug)
    {ps : List Val} (hs : settleKind k (plug ps) = plug ps) (qs : List Val) :
    settleKind k (plug qs) = plug (settle gs qs) := by
  cases h with
  | record => simp only [settleKind, settle]
  | array _ n l r =>
    simp only [settleKind, List.map_append, List.map_cons, Val.seq.injEq] at hs ⊢
    have hl := List.append_inj hs (by simp)
    rw [hl.1, (List.cons.inj hl.2).2]
    rfl
  | vector _ len b sz l r =>
    simp only [settleKind, List.map_append, List.map_cons, Val.seq.injEq] at hs ⊢
    have hl := List.append_inj hs (by simp)
    rw [hl.1, (List.cons.inj hl.2).2]
    rfl

theorem settleAlts_at {alts : List Alt} {i : Nat} {k : Kind} {c : Constraint}
    (h : alts[i]? = some (.mk k c)) (v : Val) : settleAlts alts i v = settleKind k v := by
  induction alts generalizing i with
  | nil => cases h
  | cons a alts ih =>
    cases i with
    | zero => cases h; rw [settleAlts]
    | succ i => obtain ⟨k', c'⟩ := a; rw [settleAlts]; exact ih h

theorem inField_settle {all : List Field} {vals vals' : List Val} {f : Field} {gs : List Field}
    {plug : List Val → Val} {cs : List Val → List (Constraint × Val)} (h : InField f gs plug cs)
    (hslot : isSlot all f.id = false) {ps : List Val} (hs : settleField all vals f (plug ps) = plug ps)
    (qs : List Val) : settleField all vals' f (plug qs) = plug (settle gs qs) := by
  cases h with
  | plain id c h =>
    simp only [Field.id] at hslot
    rw [settleField, if_neg (by simp [hslot])] at hs ⊢
    rename_i k
    have hc : constOf k c = none := by
      cases h <;> simp [constOf]
    rw [hc] at hs ⊢
    exact inKind_settle h hs qs
  | maybe id p h =>
    simp only [settleField, Val.present.injEq] at hs ⊢
    exact inKind_settle h hs qs
  | union id d c ha h =>
    simp only [settleField, Val.var.injEq, settleAlts_at ha, true_and] at hs ⊢
    exact inKind_settle h hs qs

theorem inField_produced {f : Field} {gs : List Field} {plug : List Val → Val}
    {cs : List Val → List (Constraint × Val)} (h : InField f gs plug cs) (target : String) (ps qs : List Val) :
    produced target f (plug ps) = produced target f (plug qs) := by
  cases h with
  | plain id c h =>
    cases h with
    | record => simp [produced, Kind.lenTarget?, Kind.lenSpec?]
    | array => simp [produced, Kind.lenTarget?, Kind.lenSpec?]
    | vector => simp [produced]
  | maybe id p h => simp [produced]
  | union id d c ha h => cases d <;> simp [produced]

theorem producers_at {target : String} {pre post : List Field} {f : Field} {us ws : List Val} {v v' : Val}
    (hl : us.length = pre.length) (h : produced target f v = produced target f v') :
    producers target (pre ++ f :: post) (us ++ v :: ws) = producers target (pre ++ f :: post) (us ++ v' :: ws) := by
  induction pre generalizing us with
  | nil =>
    have : us = [] := by simpa using hl
    subst this
    simp only [List.nil_append, producers, h]
  | cons g gs ih =>
    cases us with
    | nil => simp at hl
    | cons u us =>
      simp only [List.cons_append, producers]
      rw [ih (by simpa using hl)]

theorem settleFields_at {all : List Field} {vals : List Val} {pre post : List Field} {f : Field}
    {us ws : List Val} {v : Val} (hl : us.length = pre.length) :
    settleFields all vals (pre ++ f :: post) (us ++ v :: ws) =
      settleFields all vals pre us ++ settleField all vals f v :: settleFields all vals post ws := by
  induction pre generalizing us with
  | nil =>
    have : us = [] := by simpa using hl
    subst this
    simp only [List.nil_append, settleFields]
  | cons g gs ih =>
    cases us with
    | nil => simp at hl
    | cons u us =>
      simp only [List.cons_append, settleFields]
      rw [ih (by simpa using hl)]

theorem settleFields_length' {all : List Field} {vals : List Val} {fs : List Field} {vs : List Val} :
    (settleFields all vals fs vs).length = vs.length := by
  induction fs generalizing vs with
  | nil => cases vs <;> simp [settleFields]
  | cons f fs ih =>
    cases vs with
    | nil => simp [settleFields]
    | cons v vs => simp [settleFields, ih]

theorem settleFields_vals {all : List Field} {vals vals' : List Val}
    (h : ∀ id, slotValue all vals id = slotValue all vals' id) (fs : List Field) (vs : List Val) :
    settleFields all vals fs vs = settleFields all vals' fs vs := by
  induction fs generalizing vs with
  | nil => cases vs <;> simp [settleFields]
  | cons f fs ih =>
    cases vs with
    | nil => simp [settleFields]
    | cons v vs => rw [settleFields, settleFields, ih, settleField_same (h _)]

/-- The fields with records inside are no slots. -/
theorem inField_not_slot {fs : List Field} (hr : Resolves fs) (hu : uniqueFields [] fs = true) {f : Field}
    {gs : List Field} {plug : List Val → Val} {cs : List Val → List (Constraint × Val)}
    (h : InField f gs plug cs) (hf : f ∈ fs) : isSlot fs f.id = false := by
  rw [Bool.eq_false_iff]
  intro hi
  obtain ⟨t, w, c, this⟩ := slot_plain hu hr hf hi
  rw [this] at h
  cases h with
  | plain _ _ h => cases h

theorem place_settle {fs gs : List Field} {top : Option String} {plug : List Val → List Val}
    {cs : List Val → List (Constraint × Val)} (h : Place fs gs top plug cs)
    (hr : Everywhere (fun fs => Resolves fs ∧ uniqueFields [] fs = true) fs) {ps : List Val}
    (hs : settle fs (plug ps) = plug ps) (qs : List Val) : settle fs (plug qs) = plug (settle gs qs) := by
  induction h with
  | whole => rfl
  | @inside f hs' gs top plug plug' cs cs' pre post us ws hl hun hf hp ih =>
    have hns := inField_not_slot hr.1.1 hr.1.2 hf (by simp)
    simp only [settle] at hs ⊢
    rw [settleFields_at hl] at hs ⊢
    have h1 := List.append_inj hs (by rw [settleFields_length'])
    have h2 := List.cons.inj h1.2
    have hsv : ∀ id, slotValue (pre ++ f :: post) (us ++ plug (plug' qs) :: ws) id =
        slotValue (pre ++ f :: post) (us ++ plug (plug' ps) :: ws) id := fun id => by
      unfold slotValue
      rw [producers_at hl (inField_produced hf id _ _)]
    rw [settleFields_vals hsv, settleFields_vals hsv, h1.1, h2.2, inField_settle hf hns h2.1]
    have h3 : plug (settle hs' (plug' ps)) = plug (plug' ps) :=
      (inField_settle hf hns h2.1 (plug' ps)).symm.trans h2.1
    have h4 : settle hs' (plug' ps) = plug' ps := by
      clear ih hs h1 h2 hsv hns hp
      cases hf with
      | plain _ _ h => cases h <;> simpa using h3
      | maybe _ _ h => cases h <;> simpa using h3
      | union _ _ _ _ h => cases h <;> simpa using h3
    rw [ih (inField_every hf (every_mem hr.2 (by simp))) h4]
    rfl

/-! ### Storable structs -/

theorem inKind_storable {cfg : Cfg} {k : Kind} {gs : List Field} {plug : List Val → Val}
    (h : InKind k gs plug) {ps qs : List Val} (hs : StorableKind cfg k (plug ps))
    (hq : Storable cfg gs qs) : StorableKind cfg k (plug qs) := by
  cases h with
  | record => simp only [StorableKind]; exact hq
  | array _ n l r =>
    simp only [StorableKind, List.mem_append, List.mem_cons] at hs ⊢
    refine ⟨by simpa using hs.1, ?_⟩
    rintro v (hm | rfl | hm)
    · exact hs.2 v (.inl hm)
    · exact ⟨qs, rfl, hq⟩
    · exact hs.2 v (.inr (.inr hm))
  | vector _ len b sz l r =>
    simp only [StorableKind, List.mem_append, List.mem_cons] at hs ⊢
    refine ⟨by simpa using hs.1, ?_⟩
    rintro v (hm | rfl | hm)
    · exact hs.2 v (.inl hm)
    · exact ⟨qs, rfl, hq⟩
    · exact hs.2 v (.inr (.inr hm))

theorem storableAlts_at (cfg : Cfg) {alts : List Alt} {i : Nat} {k : Kind} {c : Constraint}
    (h : alts[i]? = some (.mk k c)) (v : Val) : StorableAlts cfg alts i v ↔ StorableKind cfg k v := by
  induction alts generalizing i with
  | nil => cases h
  | cons a alts ih =>
    cases i with
    | zero => cases h; rw [StorableAlts]
    | succ i => obtain ⟨k', c'⟩ := a; rw [StorableAlts]; exact ih h

theorem inField_storable {cfg : Cfg} {all : List Field} {f : Field} {gs : List Field}
    {plug : List Val → Val} {cs : List Val → List (Constraint × Val)} (h : InField f gs plug cs)
    {ps qs : List Val} (hs : StorableField cfg all f (plug ps)) (hq : Storable cfg gs qs) :
    StorableField cfg all f (plug qs) := by
  cases h with
  | plain id c h =>
    rw [StorableField] at hs ⊢
    exact hs.imp (fun hs => hs) fun hs => hs.imp (fun hs => hs) fun hs => inKind_storable h hs hq
  | maybe id p h =>
    rw [StorableField] at hs ⊢
    exact inKind_storable h hs hq
  | union id d c ha h =>
    rw [StorableField, storableAlts_at cfg ha] at hs ⊢
    exact inKind_storable h hs hq

theorem storableFields_at {cfg : Cfg} {all pre post : List Field} {f : Field} {us ws : List Val} {v : Val}
    (hl : us.length = pre.length) : StorableFields cfg all (pre ++ f :: post) (us ++ v :: ws) ↔
      StorableFields cfg all pre us ∧ StorableField cfg all f v ∧ StorableFields cfg all post ws := by
  induction pre generalizing us with
  | nil =>
    have : us = [] := by simpa using hl
    subst this
    simp only [List.nil_append, StorableFields, true_and]
  | cons g gs ih =>
    cases us with
    | nil => simp at hl
    | cons u us =>
      simp only [List.cons_append, StorableFields]
      rw [ih (by simpa using hl), and_assoc]

theorem inField_storable_part {cfg : Cfg} {all : List Field} {f : Field} {gs : List Field}
    {plug : List Val → Val} {cs : List Val → List (Constraint × Val)} (h : InField f gs plug cs)
    (hns : isSlot all f.id = false) {ps : List Val} (hs : StorableField cfg all f (plug ps)) :
    Storable cfg gs ps := by
  have key : ∀ {k : Kind} {plug : List Val → Val}, InKind k gs plug → StorableKind cfg k (plug ps) →
      Storable cfg gs ps := by
    intro k plug hk hs
    cases hk with
    | record => simp only [StorableKind] at hs; exact hs
    | array _ n l r =>
      simp only [StorableKind] at hs
      obtain ⟨_, e, h⟩ := hs.2 (.seq ps) (by simp); cases e
      exact h
    | vector _ len b sz l r =>
      simp only [StorableKind] at hs
      obtain ⟨_, e, h⟩ := hs.2 (.seq ps) (by simp); cases e
      exact h
  cases h with
  | plain id c h =>
    simp only [Field.id] at hns
    rw [StorableField, hns] at hs
    rcases hs with hs | hs | hs
    · cases hs
    · cases h <;> simp [constOf] at hs
    · exact key h hs
  | maybe id p h => rw [StorableField] at hs; exact key h hs
  | union id d c ha h => rw [StorableField, storableAlts_at cfg ha] at hs; exact key h hs

theorem place_storable {cfg : Cfg} {fs gs : List Field} {top : Option String} {plug : List Val → List Val}
    {cs : List Val → List (Constraint × Val)} (h : Place fs gs top plug cs)
    (hr : Everywhere (fun fs => Resolves fs ∧ uniqueFields [] fs = true) fs) {ps qs : List Val}
    (hs : Storable cfg fs (plug ps)) (hq : Storable cfg gs qs) : Storable cfg fs (plug qs) := by
  induction h with
  | whole => exact hq
  | @inside f hs' gs top plug plug' cs cs' pre post us ws hl hun hf hp ih =>
    have hns := inField_not_slot hr.1.1 hr.1.2 hf (by simp)
    simp only [Storable] at hs ⊢
    rw [storableFields_at hl] at hs ⊢
    have h1 := inField_storable_part hf hns hs.2.1
    exact ⟨hs.1, inField_storable hf hs.2.1
      (ih (inField_every hf (every_mem hr.2 (by simp))) h1 hq), hs.2.2⟩

end S2S
