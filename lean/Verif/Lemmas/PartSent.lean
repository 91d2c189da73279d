import Verif.Lemmas.Part
import Verif.Lemmas.Unsent
import Verif.Lemmas.Room
/-
Places inside structs: what is sent.
-/
namespace S2S
open Spec Props

/-! ### Types -/

theorem typed_at {cfg : Cfg} {pre post : List Field} {f : Field} {us ws : List Val} {v : Val}
    (hl : us.length = pre.length) : TypedFields cfg (pre ++ f :: post) (us ++ v :: ws) ↔
      TypedFields cfg pre us ∧ TypedField cfg f v ∧ TypedFields cfg post ws := by
  induction pre generalizing us with
  | nil =>
    have : us = [] := by simpa using hl
    subst this
    simp [TypedFields]
  | cons g gs ih =>
    cases us with
    | nil => simp at hl
    | cons u us =>
      simp only [List.cons_append, TypedFields]
      rw [ih (by simpa using hl), and_assoc]

theorem inKind_typed {cfg : Cfg} {k : Kind} {gs : List Field} {plug : List Val → Val}
    (h : InKind k gs plug) {ps : List Val} (ht : TypedKind cfg k (plug ps)) (qs : List Val) :
    TypedKind cfg k (plug qs) ↔ Typed cfg gs qs := by
  cases h with
  | record => rw [TypedKind]
  | array _ n l r =>
    simp only [TypedKind, List.mem_append, List.mem_cons, List.length_append, List.length_cons] at ht ⊢
    constructor
    · rintro ⟨-, h⟩
      obtain ⟨_, e, h⟩ := h (.seq qs) (by simp); cases e
      exact h
    · intro h
      refine ⟨ht.1, ?_⟩
      rintro v (hm | rfl | hm)
      · exact ht.2 v (.inl hm)
      · exact ⟨qs, rfl, h⟩
      · exact ht.2 v (.inr (.inr hm))
  | vector _ len b sz l r =>
    simp only [TypedKind, List.mem_append, List.mem_cons, List.length_append, List.length_cons] at ht ⊢
    constructor
    · rintro ⟨-, h⟩
      obtain ⟨_, e, h⟩ := h (.seq qs) (by simp); cases e
      exact h
    · intro h
      refine ⟨ht.1, ?_⟩
      rintro v (hm | rfl | hm)
      · exact ht.2 v (.inl hm)
      · exact ⟨qs, rfl, h⟩
      · exact ht.2 v (.inr (.inr hm))

theorem inField_typed {cfg : Cfg} {f : Field} {gs : List Field} {plug : List Val → Val}
    {cs : List Val → List (Constraint × Val)} (h : InField f gs plug cs) {ps : List Val}
    (ht : TypedField cfg f (plug ps)) (qs : List Val) : TypedField cfg f (plug qs) ↔ Typed cfg gs qs := by
  cases h with
  | plain id c h => rw [TypedField] at ht ⊢; exact inKind_typed h ht qs
  | maybe id p h => rw [TypedField] at ht ⊢; exact inKind_typed h ht qs
  | union id d c ha h =>
    rw [TypedField, typedAlts_at ha] at ht ⊢
    exact inKind_typed h ht qs

theorem place_typed {cfg : Cfg} {fs gs : List Field} {top : Option String} {plug : List Val → List Val}
    {cs : List Val → List (Constraint × Val)} (h : Place fs gs top plug cs) {ps : List Val}
    (ht : Typed cfg fs (plug ps)) (qs : List Val) : Typed cfg fs (plug qs) ↔ Typed cfg gs qs := by
  induction h with
  | whole => exact Iff.rfl
  | @inside f hs gs top plug plug' cs cs' pre post us ws hl _ hf _ ih =>
    have h1 := (typed_at hl).1 ht
    have h2 := (inField_typed hf h1.2.1 _).1 h1.2.1
    refine (typed_at hl).trans ?_
    rw [inField_typed hf h1.2.1, ih h2]
    exact ⟨fun h => h.2.1, fun h => ⟨h1.1, h, h1.2.2⟩⟩

/-! ### What the siblings send -/

theorem sentKind_context {cfg : Cfg} {all : List Field} {vals vals' : List Val} {id : String}
    (hp : producers id all vals = producers id all vals')
    (ha : ∀ y, ActiveAgree cfg all vals id y ↔ ActiveAgree cfg all vals' id y) {k : Kind}
    (he : Agree (kindDeps k) (envOf all vals) (envOf all vals')) (c : Constraint) (v u : Val) :
    SentKind cfg all vals id c k v u ↔ SentKind cfg all vals' id c k v u := by
  cases k with
  | num t w => simp only [SentKind, SlotGets, hp, ha]
  | fbuf => simp only [SentKind]
  | fstr => simp only [SentKind]
  | vec e len b => simp only [SentKind, LenSpec.eval_congr (cfg := cfg) (len := len) he]
  | record => simp only [SentKind]
  | arrRec => simp only [SentKind]
  | vecRec fs len b sz => simp only [SentKind, LenSpec.eval_congr (cfg := cfg) (len := len) he]

theorem sentAlts_at {cfg : Cfg} {all : List Field} {vals : List Val} {id : String} {alts : List Alt} {i : Nat}
    {k : Kind} {c : Constraint} (h : alts[i]? = some (.mk k c)) (v u : Val) :
    SentAlts cfg all vals id alts i v u ↔ Holds c v ∧ SentKind cfg all vals id c k v u := by
  induction alts generalizing i with
  | nil => cases h
  | cons a alts ih =>
    cases i with
    | zero => cases h; rw [SentAlts]
    | succ i => obtain ⟨k', c'⟩ := a; rw [SentAlts]; exact ih h

theorem sentAlts_context {cfg : Cfg} {all : List Field} {vals vals' : List Val} {id : String}
    (hp : producers id all vals = producers id all vals')
    (ha : ∀ y, ActiveAgree cfg all vals id y ↔ ActiveAgree cfg all vals' id y) {alts : List Alt}
    (he : Agree (alts.flatMap fun a => kindDeps a.kind) (envOf all vals) (envOf all vals'))
    (i : Nat) (v u : Val) :
    SentAlts cfg all vals id alts i v u ↔ SentAlts cfg all vals' id alts i v u := by
  induction alts generalizing i with
  | nil => simp only [SentAlts]
  | cons a alts ih =>
    obtain ⟨k, c⟩ := a
    cases i with
    | zero =>
      simp only [SentAlts]
      rw [sentKind_context hp ha (he.mono (by simp +contextual [Alt.kind]))]
    | succ i =>
      simp only [SentAlts]
      exact ih (he.mono (by simp +contextual)) i

theorem sentField_context {cfg : Cfg} {all : List Field} {vals vals' : List Val} {f : Field}
    (hp : producers f.id all vals = producers f.id all vals')
    (ha : ∀ y, ActiveAgree cfg all vals f.id y ↔ ActiveAgree cfg all vals' f.id y)
    (he : Agree (fieldDeps f) (envOf all vals) (envOf all vals')) (v u : Val) :
    SentField cfg all vals f v u ↔ SentField cfg all vals' f v u := by
  cases f with
  | plain id k c =>
    simp only [Field.id] at hp ha
    have h := sentKind_context hp ha (k := k) (he.mono (by simp [fieldDeps])) c
    simp only [SentField, h]
  | maybe id k p =>
    simp only [Field.id] at hp ha
    have h := sentKind_context hp ha (k := k) (he.mono (by simp +contextual [fieldDeps])) .none
    simp only [SentField, h, Pred.eval_congr (p := p) (he.mono (by simp +contextual [fieldDeps]))]
  | union id d alts c =>
    simp only [Field.id] at hp ha
    have h := sentAlts_context hp ha (alts := alts) (he.mono (fun i hi => by
      simp only [fieldDeps, List.mem_append]; exact .inr hi))
    have h' : ∀ i, Chosen (envOf all vals) i d ↔ Chosen (envOf all vals') i d := fun i => by
      have h2 := Deducer.eval_congr (d := d) (he.mono (fun i hi => by
        simp only [fieldDeps, List.mem_append]; exact .inl hi))
      cases d <;> simp only [Chosen, h2]
    simp only [SentField, h, h']

theorem sentFields_context {cfg : Cfg} {all : List Field} {vals vals' : List Val}
    (hp : ∀ id, producers id all vals = producers id all vals')
    (ha : ∀ id y, ActiveAgree cfg all vals id y ↔ ActiveAgree cfg all vals' id y) {fs : List Field}
    (he : ∀ f ∈ fs, Agree (fieldDeps f) (envOf all vals) (envOf all vals')) (vs us : List Val) :
    SentFields cfg all vals fs vs us ↔ SentFields cfg all vals' fs vs us := by
  induction fs generalizing vs us with
  | nil => simp only [SentFields]
  | cons f fs ih =>
    simp only [SentFields, ih fun g hg => he g (by simp [hg]), sentField_context (hp f.id) (ha f.id) (he f (by simp))]

theorem sent_at {cfg : Cfg} {all : List Field} {vals : List Val} {pre post : List Field} {f : Field}
    {us ws : List Val} {v : Val} (hl : us.length = pre.length) (xs : List Val) :
    SentFields cfg all vals (pre ++ f :: post) (us ++ v :: ws) xs ↔
      ∃ us' x ws', xs = us' ++ x :: ws' ∧ SentFields cfg all vals pre us us' ∧
        SentField cfg all vals f v x ∧ SentFields cfg all vals post ws ws' := by
  induction pre generalizing us xs with
  | nil =>
    have : us = [] := by simpa using hl
    subst this
    simp only [List.nil_append, SentFields]
    constructor
    · rintro ⟨_, _, u, us', e, rfl, h1, h2⟩
      cases e
      exact ⟨[], u, us', rfl, ⟨trivial, rfl⟩, h1, h2⟩
    · rintro ⟨_, x, ws', rfl, ⟨-, rfl⟩, h1, h2⟩
      exact ⟨_, _, _, _, rfl, rfl, h1, h2⟩
  | cons g gs ih =>
    cases us with
    | nil => simp at hl
    | cons u us =>
      simp only [List.cons_append, SentFields]
      constructor
      · rintro ⟨_, _, y, ys, e, rfl, h1, h2⟩
        cases e
        obtain ⟨us', x, ws', rfl, h3, h4, h5⟩ := (ih (by simpa using hl) _).1 h2
        exact ⟨y :: us', x, ws', rfl, ⟨_, _, _, _, rfl, rfl, h1, h3⟩, h4, h5⟩
      · rintro ⟨_, x, ws', rfl, ⟨_, _, y, us', e, rfl, h1, h3⟩, h4, h5⟩
        cases e
        exact ⟨_, _, y, us' ++ x :: ws', rfl, rfl, h1, (ih (by simpa using hl) _).2 ⟨_, _, _, rfl, h3, h4, h5⟩⟩

theorem sentFields_length_out {cfg : Cfg} {all : List Field} {vals : List Val} {fs : List Field}
    {vs us : List Val} (h : SentFields cfg all vals fs vs us) : us.length = fs.length := by
  induction fs generalizing vs us with
  | nil => simp only [SentFields] at h; simp [h.2]
  | cons f fs ih =>
    simp only [SentFields] at h
    obtain ⟨v, vs', u, us', rfl, rfl, -, h⟩ := h
    simp [ih h]

theorem oneByOne_at {R : List Val → List Val → Prop} {l r qs : List Val} (us : List Val) :
    OneByOne R (l ++ .seq qs :: r) us ↔
      ∃ l' xs r', us = l' ++ .seq xs :: r' ∧ OneByOne R l l' ∧ R qs xs ∧ OneByOne R r r' := by
  induction l generalizing us with
  | nil =>
    simp only [List.nil_append, OneByOne]
    constructor
    · rintro ⟨_, xs, r', e, rfl, h1, h2⟩
      cases e
      exact ⟨[], xs, r', rfl, rfl, h1, h2⟩
    · rintro ⟨_, xs, r', rfl, rfl, h1, h2⟩
      exact ⟨_, _, _, rfl, rfl, h1, h2⟩
  | cons v l ih =>
    simp only [List.cons_append, OneByOne, ih]
    constructor
    · rintro ⟨ws, ys, _, rfl, rfl, h1, l', xs, r', rfl, h2, h3, h4⟩
      exact ⟨.seq ys :: l', xs, r', rfl, ⟨_, _, _, rfl, rfl, h1, h2⟩, h3, h4⟩
    · rintro ⟨_, xs, r', rfl, ⟨ws, ys, l', rfl, rfl, h1, h2⟩, h3, h4⟩
      exact ⟨_, _, _, rfl, rfl, h1, _, _, _, rfl, h2, h3, h4⟩

/-! ### What stands at a place -/

theorem inKind_sent {cfg : Cfg} {all : List Field} {vals : List Val} {id : String} {c : Constraint} {k : Kind}
    {gs : List Field} (hwf : Acceptable gs) {plug : List Val → Val} (h : InKind k gs plug) {ps : List Val}
    (ht : TypedKind cfg k (plug ps)) {u₀ : Val} (hs : SentKind cfg all vals id c k (plug ps) u₀) :
    ∃ plug₀ a b, InKind k gs plug₀ ∧
      (∀ qs', wireKind cfg.wire k (plug₀ qs') = a ++ wireFields cfg.wire gs qs' ++ b) ∧
      (∀ qs u, SentKind cfg all vals id c k (plug qs) u ↔ ∃ qs', u = plug₀ qs' ∧ Sent cfg gs qs qs') ∧
      ∀ vals', SentKind cfg all vals' id c k (plug ps) u₀ → ∀ qs r id' q,
        FieldsUnsent cfg gs qs r id' gs qs q → KindUnsent cfg all vals' id c r k (plug qs) (a ++ q) := by
  cases h with
  | record =>
    refine ⟨_, [], [], .record gs, fun qs' => by simp [wireKind], fun qs u => ?_, fun vals' _ qs r id' q h => by
      simp only [KindUnsent]; exact ⟨_, id', rfl, h⟩⟩
    simp only [SentKind]
    constructor
    · rintro ⟨_, us, e, rfl, h⟩
      cases e
      exact ⟨us, rfl, h⟩
    · rintro ⟨us, rfl, h⟩
      exact ⟨_, _, rfl, rfl, h⟩
  | array _ n l r =>
    simp only [SentKind] at hs
    obtain ⟨_, us, e, rfl, hn, hs⟩ := hs
    cases e
    obtain ⟨l₀, xs₀, r₀, rfl, h1, h2, h3⟩ := (oneByOne_at _).1 hs
    refine ⟨_, l₀.flatMap (recordBytes fun ws => wireFields cfg.wire gs ws),
      r₀.flatMap (recordBytes fun ws => wireFields cfg.wire gs ws), .array gs n l₀ r₀, fun qs' => by
        simp only [wireKind, List.flatMap_append, List.flatMap_cons, recordBytes, List.append_assoc],
      fun qs u => ?_, fun vals' hs' qs r' id' q h => ?_⟩
    rotate_left
    · simp only [KindUnsent]
      exact ⟨_, rfl, _, _, _, _, _, rfl, h1, ⟨id', h⟩, rfl⟩
    simp only [TypedKind, List.mem_append, List.mem_cons] at ht
    have hl : ∀ {l' : List Val}, OneByOne (fun ws xs => SentFields cfg gs ws gs ws xs) l l' → l' = l₀ :=
      fun h' => oneByOne_unique (fun ws hm xs xs' a b => by
        obtain ⟨_, e, t⟩ := ht.2 _ (.inl hm); cases e
        exact sent_unique hwf t a b) h' h1
    have hr : ∀ {r' : List Val}, OneByOne (fun ws xs => SentFields cfg gs ws gs ws xs) r r' → r' = r₀ :=
      fun h' => oneByOne_unique (fun ws hm xs xs' a b => by
        obtain ⟨_, e, t⟩ := ht.2 _ (.inr (.inr hm)); cases e
        exact sent_unique hwf t a b) h' h3
    simp only [SentKind]
    constructor
    · rintro ⟨_, us, e, rfl, -, h⟩
      cases e
      obtain ⟨l', xs, r', rfl, a, b, d⟩ := (oneByOne_at _).1 h
      exact ⟨xs, by rw [hl a, hr d], b⟩
    · rintro ⟨qs', rfl, h⟩
      exact ⟨_, _, rfl, rfl, by simpa using hn, (oneByOne_at _).2 ⟨_, _, _, rfl, h1, h, h3⟩⟩
  | vector _ len b sz l r =>
    simp only [SentKind] at hs
    obtain ⟨_, us, e, rfl, hn, hs⟩ := hs
    cases e
    obtain ⟨l₀, xs₀, r₀, rfl, h1, h2, h3⟩ := (oneByOne_at _).1 hs
    refine ⟨_, l₀.flatMap (recordBytes fun ws => wireFields cfg.wire gs ws),
      r₀.flatMap (recordBytes fun ws => wireFields cfg.wire gs ws), .vector gs len b sz l₀ r₀, fun qs' => by
        simp only [wireKind, List.flatMap_append, List.flatMap_cons, recordBytes, List.append_assoc],
      fun qs u => ?_, fun vals' hs' qs r' id' q h => ?_⟩
    rotate_left
    · simp only [KindUnsent]
      simp only [SentKind] at hs'
      obtain ⟨_, _, e, -, hn', -⟩ := hs'
      cases e
      exact ⟨_, rfl, .inr ⟨fun g hg => by simpa using hn' g hg,
        _, _, _, _, _, rfl, h1, ⟨id', h⟩, rfl⟩⟩
    simp only [TypedKind, List.mem_append, List.mem_cons] at ht
    have hl : ∀ {l' : List Val}, OneByOne (fun ws xs => SentFields cfg gs ws gs ws xs) l l' → l' = l₀ :=
      fun h' => oneByOne_unique (fun ws hm xs xs' a b => by
        obtain ⟨_, e, t⟩ := ht.2 _ (.inl hm); cases e
        exact sent_unique hwf t a b) h' h1
    have hr : ∀ {r' : List Val}, OneByOne (fun ws xs => SentFields cfg gs ws gs ws xs) r r' → r' = r₀ :=
      fun h' => oneByOne_unique (fun ws hm xs xs' a b => by
        obtain ⟨_, e, t⟩ := ht.2 _ (.inr (.inr hm)); cases e
        exact sent_unique hwf t a b) h' h3
    simp only [SentKind]
    constructor
    · rintro ⟨_, us, e, rfl, -, h⟩
      cases e
      obtain ⟨l', xs, r', rfl, a, b, d⟩ := (oneByOne_at _).1 h
      exact ⟨xs, by rw [hl a, hr d], b⟩
    · rintro ⟨qs', rfl, h⟩
      exact ⟨_, _, rfl, rfl, by simpa using hn, (oneByOne_at _).2 ⟨_, _, _, rfl, h1, h, h3⟩⟩

theorem inKind_no_const {k : Kind} {gs : List Field} {plug : List Val → Val} (h : InKind k gs plug)
    (c : Constraint) : typedConst k c = none := by
  cases h <;> cases c <;> simp [typedConst]

theorem altsUnsent_at {cfg : Cfg} {all : List Field} {vals : List Val} {id : String} {r : Reason} {alts : List Alt}
    {i : Nat} {k : Kind} {c : Constraint} (h : alts[i]? = some (.mk k c)) (v : Val) (q : List Byte) :
    AltsUnsent cfg all vals id r alts i v q ↔ (q = [] ∧ r = .validationFailure ∧ Violates c v) ∨
      (Holds c v ∧ KindUnsent cfg all vals id c r k v q) := by
  induction alts generalizing i with
  | nil => cases h
  | cons a alts ih =>
    cases i with
    | zero => cases h; rw [AltsUnsent]
    | succ i => obtain ⟨k', c'⟩ := a; rw [AltsUnsent]; exact ih h

theorem inField_sent {cfg : Cfg} {all : List Field} {vals : List Val} {f : Field} (hns : isSlot all f.id = false)
    {gs : List Field} (hwf : Acceptable gs) {plug : List Val → Val} {cs : List Val → List (Constraint × Val)}
    (h : InField f gs plug cs) {ps : List Val}
    (ht : TypedField cfg f (plug ps)) {u₀ : Val} (hs : SentField cfg all vals f (plug ps) u₀) :
    ∃ plug₀ cs₀ a b, InField f gs plug₀ cs₀ ∧
      (∀ qs', wireField cfg.wire f (plug₀ qs') = a ++ wireFields cfg.wire gs qs' ++ b) ∧
      (∀ qs u, SentField cfg all vals f (plug qs) u ↔
        (∃ qs', u = plug₀ qs' ∧ Sent cfg gs qs qs') ∧ ∀ x ∈ cs qs, Holds x.1 x.2) ∧
      ∀ vals', SentField cfg all vals' f (plug ps) u₀ → ∀ qs r id' q,
        FieldsUnsent cfg gs qs r id' gs qs q → (∀ x ∈ cs qs, Holds x.1 x.2) →
        FieldUnsent cfg all vals' r f (plug qs) (a ++ q) := by
  cases h with
  | plain id c h =>
    have hns : isSlot all id = false := hns
    simp only [SentField, FieldUnsent, hns, Bool.false_eq_true, if_false, inKind_no_const h] at hs ⊢
    rw [TypedField] at ht
    obtain ⟨plug₀, a, b, h0, hw, h1, h2⟩ := inKind_sent hwf h ht hs.2
    refine ⟨plug₀, _, a, b, .plain id c h0, fun qs' => by rw [wireField, hw], fun qs u => ?_,
      fun vals' hs' qs r id' q hq hc => .inr ⟨hc (c, _) (by simp), h2 vals' hs'.2 qs r id' q hq⟩⟩
    rw [h1]
    simp [and_comm]
  | maybe id p h =>
    simp only [SentField, reduceCtorEq, false_and, false_or, Val.present.injEq] at hs ⊢
    obtain ⟨w, x, rfl, rfl, hp, hs⟩ := hs
    rw [TypedField] at ht
    obtain ⟨plug₀, a, b, h0, hw, h1, h2⟩ := inKind_sent hwf h ht hs
    refine ⟨_, _, a, b, .maybe id p h0, fun qs' => by rw [wireField, hw], fun qs u => ?_,
      fun vals' hs' qs r id' q hq hc => ?_⟩
    rotate_left
    · obtain ⟨_, _, rfl, e, hp', hs'⟩ := hs'
      cases e
      simp only [FieldUnsent]
      exact .inr (.inr ⟨_, rfl, hp', h2 vals' hs' qs r id' q hq⟩)
    constructor
    · rintro ⟨_, x, rfl, rfl, -, h⟩
      obtain ⟨qs', rfl, h2⟩ := (h1 qs x).1 h
      exact ⟨⟨qs', rfl, h2⟩, by simp⟩
    · rintro ⟨⟨qs', rfl, h⟩, -⟩
      exact ⟨_, _, rfl, rfl, hp, (h1 _ _).2 ⟨qs', rfl, h⟩⟩
  | @union k gs plug i alts ca id d c ha h =>
    have hns : isSlot all id = false := hns
    simp only [SentField, hns, forall_const] at hs ⊢
    obtain ⟨j, w, x, e, rfl, hc, hch, hs⟩ := hs
    cases e
    rw [sentAlts_at ha] at hs
    rw [TypedField, typedAlts_at ha] at ht
    obtain ⟨plug₀, a, b, h0, hw, h1, h2⟩ := inKind_sent hwf h ht hs.2
    refine ⟨_, _, a, b, .union id d c ha h0, fun qs' => by rw [wireField, wireAlts_at _ ha, hw], fun qs u => ?_,
      fun vals' hs' qs r id' q hq hh => ?_⟩
    rotate_left
    · obtain ⟨_, _, _, e, e', -, hch', hs'⟩ := hs'
      cases e
      cases e'
      rw [sentAlts_at ha] at hs'
      simp only [FieldUnsent, hns, forall_const]
      refine .inr ⟨hh (c, _) (by simp), _, _, rfl, .inr ⟨hch', (altsUnsent_at ha _ _).2 (.inr
        ⟨hh (ca, _) (by simp), h2 vals' hs'.2 qs r id' q hq⟩)⟩⟩
    constructor
    · rintro ⟨_, _, x, e, rfl, hc, -, h⟩
      cases e
      rw [sentAlts_at ha] at h
      obtain ⟨qs', rfl, h2⟩ := (h1 qs x).1 h.2
      exact ⟨⟨qs', rfl, h2⟩, by simp [hc, h.1]⟩
    · rintro ⟨⟨qs', rfl, h⟩, hh⟩
      refine ⟨_, _, _, rfl, rfl, hh (c, _) (by simp), hch, (sentAlts_at ha _ _).2
        ⟨hh (ca, _) (by simp), (h1 _ _).2 ⟨qs', rfl, h⟩⟩⟩

theorem unseen_list {pre post : List Field} {f : Field} (hwf : WellFormed (pre ++ f :: post))
    (hun : Unseen post f.id) : Unseen (pre ++ f :: post) f.id := by
  intro g hg
  simp only [List.mem_append, List.mem_cons] at hg
  rcases hg with hg | rfl | hg
  · exact earlier_unseen hwf g hg
  · intro hi
    have := earlier_deps hwf.2.2 _ hi
    exact not_own_name hwf.2.1 (by simpa using this)
  · exact hun g hg

theorem unseen_no_slot {fs : List Field} {id : String} (h : Unseen fs id) : isSlot fs id = false := by
  rw [Bool.eq_false_iff]
  intro hs
  simp only [isSlot, List.any_eq_true] at hs
  obtain ⟨g, hg, hs⟩ := hs
  refine h g hg ?_
  cases g with
  | plain i k c =>
    cases k with
    | vec e len b => cases len <;> simp_all [fieldDeps, kindDeps, lenDeps, Kind.lenTarget?, Kind.lenSpec?]
    | vecRec gs len b sz => cases len <;> simp_all [fieldDeps, kindDeps, lenDeps, Kind.lenTarget?, Kind.lenSpec?]
    | num => simp [Kind.lenTarget?, Kind.lenSpec?] at hs
    | fbuf => simp [Kind.lenTarget?, Kind.lenSpec?] at hs
    | fstr => simp [Kind.lenTarget?, Kind.lenSpec?] at hs
    | record => simp [Kind.lenTarget?, Kind.lenSpec?] at hs
    | arrRec => simp [Kind.lenTarget?, Kind.lenSpec?] at hs
  | maybe i k p => simp at hs
  | union i d alts c => cases d <;> simp_all [fieldDeps, deducerDeps]

theorem activeLen_maybe {env : Env} {id i : String} {k : Kind} {p : Pred} {x : Val} {m : Nat}
    (h : ActiveLen env id (.maybe i k p) x m) : ∃ us, x = .present (.seq us) ∧ m = us.length ∧
      k.lenTarget? = some id ∧ p.eval env = .ok true := by
  cases h with
  | optional h1 h2 => exact ⟨_, rfl, rfl, h1, h2⟩

theorem activeLen_union {env : Env} {id i : String} {d : Deducer} {alts : List Alt} {c : Constraint} {x : Val}
    {m : Nat} (h : ActiveLen env id (.union i d alts c) x m) : ∃ j a us, x = .var j (.seq us) ∧ m = us.length ∧
      alts[j]? = some a ∧ a.kind.lenTarget? = some id := by
  cases h with
  | alternative h1 h2 => exact ⟨_, _, _, rfl, rfl, h1, h2⟩

theorem inField_active {f : Field} {gs : List Field} {plug : List Val → Val}
    {cs : List Val → List (Constraint × Val)} (h : InField f gs plug cs) {env env' : Env}
    (he : Agree (fieldDeps f) env env') {id : String} {ps qs : List Val} {m : Nat}
    (ha : ActiveLen env id f (plug ps) m) : ActiveLen env' id f (plug qs) m := by
  have key : ∀ {k : Kind} {plug : List Val → Val}, InKind k gs plug → k.lenTarget? = some id → ∀ {us : List Val},
      plug ps = .seq us → ∃ us', plug qs = .seq us' ∧ us'.length = us.length := by
    intro k plug hk hl us e
    cases hk with
    | record => simp [Kind.lenTarget?, Kind.lenSpec?] at hl
    | array => simp [Kind.lenTarget?, Kind.lenSpec?] at hl
    | vector => cases e; exact ⟨_, rfl, by simp⟩
  cases h with
  | plain => cases ha
  | maybe i p h =>
    obtain ⟨us, hx, rfl, h1, h2⟩ := activeLen_maybe ha
    obtain ⟨us', e, hl⟩ := key h h1 (Val.present.inj hx)
    simp only [e]
    rw [← hl]
    exact .optional h1 (by rw [← Pred.eval_congr (he.mono (by simp +contextual [fieldDeps]))]; exact h2)
  | @union k _ plug j alts ca i d c hk h =>
    obtain ⟨j', a, us, hx, rfl, h1, h2⟩ := activeLen_union ha
    obtain ⟨rfl, hx'⟩ := Val.var.inj hx
    rw [hk] at h1
    cases h1
    obtain ⟨us', e, hl⟩ := key h h2 hx'
    simp only [e]
    rw [← hl]
    exact .alternative hk h2

theorem activeLen_context {env env' : Env} {id : String} {f : Field} {v : Val} {m : Nat}
    (he : Agree (fieldDeps f) env env') (h : ActiveLen env id f v m) : ActiveLen env' id f v m := by
  cases h with
  | optional h1 h2 =>
    exact .optional h1 (by rw [← Pred.eval_congr (he.mono (by simp +contextual [fieldDeps]))]; exact h2)
  | alternative h1 h2 => exact .alternative h1 h2

theorem mem_zip_at {pre post : List Field} {f : Field} {us ws : List Val} {v : Val} (hl : us.length = pre.length)
    (g : Field) (w : Val) : (g, w) ∈ (pre ++ f :: post).zip (us ++ v :: ws) ↔
      (g, w) ∈ pre.zip us ∨ (g = f ∧ w = v) ∨ (g, w) ∈ post.zip ws := by
  rw [List.zip_append hl.symm]
  simp

theorem activeAgree_at {cfg : Cfg} {pre post : List Field} {f : Field} {us ws : List Val}
    (hwf : WellFormed (pre ++ f :: post)) (hun : Unseen post f.id) (hl : us.length = pre.length)
    {gs : List Field} {plug : List Val → Val} {cs : List Val → List (Constraint × Val)} (h : InField f gs plug cs)
    (id : String) (y : Int) (ps qs : List Val) :
    ActiveAgree cfg (pre ++ f :: post) (us ++ plug ps :: ws) id y →
      ActiveAgree cfg (pre ++ f :: post) (us ++ plug qs :: ws) id y := by
  intro hA g v m hm ha
  have hag : ∀ g ∈ pre ++ f :: post, Agree (fieldDeps g) (envOf (pre ++ f :: post) (us ++ plug qs :: ws))
      (envOf (pre ++ f :: post) (us ++ plug ps :: ws)) := fun g hg i hi =>
    envOf_replace pre post f us ws _ _ hl i (by rintro rfl; exact unseen_list hwf hun g hg hi)
  have hg : g ∈ pre ++ f :: post := (List.of_mem_zip hm).1
  rcases (mem_zip_at hl g v).1 hm with hm | ⟨rfl, rfl⟩ | hm
  · exact hA g v m ((mem_zip_at hl g v).2 (.inl hm)) (activeLen_context (hag g hg) ha)
  · exact hA g (plug ps) m ((mem_zip_at hl g _).2 (.inr (.inl ⟨rfl, rfl⟩)))
      (inField_active h (hag g hg) ha)
  · exact hA g v m ((mem_zip_at hl g v).2 (.inr (.inr hm))) (activeLen_context (hag g hg) ha)

theorem place_sent {cfg : Cfg} {fs gs : List Field} {top : Option String} {plug : List Val → List Val}
    {cs : List Val → List (Constraint × Val)} (h : Place fs gs top plug cs) (hwf : Everywhere WellFormed fs)
    {ps : List Val} (ht : Typed cfg fs (plug ps)) {u₀ : List Val} (hs : Sent cfg fs (plug ps) u₀) :
    ∃ plug₀ cs₀ a b, Place fs gs top plug₀ cs₀ ∧
      (∀ qs', wire cfg fs (plug₀ qs') = a ++ wire cfg gs qs' ++ b) ∧
      (∀ qs u, Sent cfg fs (plug qs) u ↔
        (∃ qs', u = plug₀ qs' ∧ Sent cfg gs qs qs') ∧ ∀ x ∈ cs qs, Holds x.1 x.2) ∧
      ∀ qs r id q, Unsent cfg gs qs r id q → (∀ x ∈ cs qs, Holds x.1 x.2) →
        Unsent cfg fs (plug qs) r (top.getD id) (a ++ q) := by
  induction h generalizing u₀ with
  | whole fs =>
    exact ⟨_, _, [], [], .whole fs, fun qs' => by simp, fun qs u => by simp, fun qs r id q h _ => h⟩
  | @inside f hs' gs top plug plug' cs cs' pre post us ws hl hun hf hp ih =>
    have hw := inField_every hf (every_mem hwf.2 (by simp))
    have t1 := (typed_at hl).1 ht
    have t2 := (inField_typed hf t1.2.1 _).1 t1.2.1
    have hns := unseen_no_slot (unseen_list hwf.1 hun)
    obtain ⟨us₀, x₀, ws₀, rfl, s1, s2, s3⟩ := (sent_at hl _).1 hs
    obtain ⟨plug₁, cs₁, a₁, b₁, hf₁, hw₁, h1, hx₁⟩ := inField_sent hns hw.1.acceptable hf t1.2.1 s2
    obtain ⟨qs₀, rfl, s4⟩ := ((h1 _ _).1 s2).1
    obtain ⟨plug₂, cs₂, a₂, b₂, hp₂, hw₂, h2, hx₂⟩ := ih hw t2 s4
    have hag : ∀ (qs : List Val), ∀ g ∈ pre ++ f :: post,
        Agree (fieldDeps g) (envOf (pre ++ f :: post) (us ++ plug (plug' qs) :: ws))
          (envOf (pre ++ f :: post) (us ++ plug (plug' ps) :: ws)) := fun qs g hg i hi =>
      envOf_replace pre post f us ws _ _ hl i (by rintro rfl; exact unseen_list hwf.1 hun g hg hi)
    have hpr : ∀ (qs : List Val) id, producers id (pre ++ f :: post) (us ++ plug (plug' qs) :: ws) =
        producers id (pre ++ f :: post) (us ++ plug (plug' ps) :: ws) := fun qs id =>
      producers_at hl (inField_produced hf id _ _)
    have hac : ∀ (qs : List Val) id y, ActiveAgree cfg (pre ++ f :: post) (us ++ plug (plug' qs) :: ws) id y ↔
        ActiveAgree cfg (pre ++ f :: post) (us ++ plug (plug' ps) :: ws) id y := fun qs id y =>
      ⟨activeAgree_at hwf.1 hun hl hf id y _ _, activeAgree_at hwf.1 hun hl hf id y _ _⟩
    have hcount := counted_of_typed hwf.1.1 ht
    have hsane : ∀ {l : List Field}, (∀ g ∈ l, g ∈ pre ++ f :: post) → saneFields l = true := by
      intro l
      induction l with
      | nil => intro _; rfl
      | cons g l ih =>
        intro hm
        rw [saneFields, Bool.and_eq_true]
        exact ⟨sane_mem hwf.1.1 (hm g (by simp)), ih fun x hx => hm x (by simp [hx])⟩
    refine ⟨_, _, wire cfg pre us₀ ++ a₁ ++ a₂, b₂ ++ b₁ ++ wire cfg post ws₀,
      .inside pre post us₀ ws₀ (sentFields_length_out s1) hun hf₁ hp₂, fun qs' => ?_, fun qs u => ?_,
      fun qs r id q hq hc => ?_⟩
    · rw [wire_split cfg pre post f us₀ ws₀ _ (sentFields_length_out s1), hw₁]
      simp only [wire] at hw₂ ⊢
      rw [hw₂]
      simp only [List.append_assoc]
    rotate_left
    · have e1 := hx₂ qs r id q hq fun x hx => hc x (by simp [hx])
      have e2 := hx₁ (us ++ plug (plug' qs) :: ws)
        ((sentField_context (hpr qs f.id) (hac qs f.id) (hag qs f (by simp)) _ _).2 s2) (plug' qs) r _ _
        (fieldsUnsent_split.2 e1) fun x hx => hc x (by simp [hx])
      refine ⟨pre, f, post, us, _, ws, us₀, _, rfl, rfl, rfl,
        (sentFields_context (hpr qs) (hac qs) (fun g hg => hag qs g (by simp [hg])) _ _).2 s1, e2, ?_⟩
      simp only [wire, List.append_assoc]
    have e : Sent cfg (pre ++ f :: post) (us ++ plug (plug' qs) :: ws) u ↔
        SentFields cfg (pre ++ f :: post) (us ++ plug (plug' ps) :: ws) (pre ++ f :: post)
          (us ++ plug (plug' qs) :: ws) u := sentFields_context (hpr qs) (hac qs) (hag qs) _ _
    rw [e, sent_at hl]
    constructor
    · rintro ⟨us', x, ws', rfl, a, b, d⟩
      obtain rfl := sentFields_unique cfg pre (hsane (by simp +contextual)) _ _ _ _ _ hcount t1.1 a s1
      obtain rfl := sentFields_unique cfg post (hsane (by simp +contextual)) _ _ _ _ _ hcount t1.2.2 d s3
      obtain ⟨⟨qs', rfl, b1⟩, b2⟩ := (h1 _ _).1 b
      obtain ⟨⟨qs'', rfl, b3⟩, b4⟩ := (h2 _ _).1 b1
      refine ⟨⟨qs'', rfl, b3⟩, fun x hx => ?_⟩
      rcases List.mem_append.1 hx with hx | hx
      · exact b4 x hx
      · exact b2 x hx
    · rintro ⟨⟨qs', rfl, b⟩, hc⟩
      refine ⟨us₀, _, ws₀, rfl, s1, (h1 _ _).2 ⟨⟨_, rfl, (h2 _ _).2 ⟨⟨qs', rfl, b⟩, fun x hx => ?_⟩⟩,
        fun x hx => ?_⟩, s3⟩
      · exact hc x (by simp [hx])
      · exact hc x (by simp [hx])

end S2S
