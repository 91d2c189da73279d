import Verif.Props.Decl
import Verif.Lemmas.Options
/-
C80: what each descriptor and type tag accepts, and the field it stands for.
-/
namespace S2S.Props
open Spec Demo

/-- An option pack with at most one option of each kind, in one of its orders. -/
def pack (s : Option Decl.Size) (c : Option Constraint) (b : Option (Option Nat)) : List Decl.Opt :=
  s.toList.map .size ++ (c.toList.map .constraint ++ b.toList.map .bound)

/-- The constraint, if one is given, can be called on values of the type. -/
def Callable (I : Decl.Impl) (t : Decl.Ty) (c : Option Constraint) : Prop :=
  ∀ x, c = some x → I.callable x t = true

section Packs
variable {I : Decl.Impl} {t : Decl.Ty}

private theorem split_kinds (opts : List Decl.Opt)
    (h : ∀ o ∈ opts, Decl.boundableOption (Decl.kinds I t) o = true) :
    opts.Perm (opts.filter (Decl.kinds I t).isSize ++
      (opts.filter (Decl.kinds I t).isConstraint ++ opts.filter (Decl.kinds I t).isBound)) := by
  refine (List.filter_append_perm (Decl.kinds I t).isSize opts).symm.trans (List.Perm.append_left _ ?_)
  refine (List.filter_append_perm (Decl.kinds I t).isConstraint _).symm.trans ?_
  rw [List.filter_filter, List.filter_filter]
  have h1 : opts.filter (fun a => (Decl.kinds I t).isConstraint a && !(Decl.kinds I t).isSize a) =
      opts.filter (Decl.kinds I t).isConstraint := by
    refine List.filter_congr fun o ho => ?_
    cases o <;> simp [Decl.kinds]
  have h2 : opts.filter (fun a => (!(Decl.kinds I t).isConstraint a) && !(Decl.kinds I t).isSize a) =
      opts.filter (Decl.kinds I t).isBound := by
    refine List.filter_congr fun o ho => ?_
    have := h o ho
    cases o <;> simp_all [Decl.kinds, Decl.boundableOption]
  rw [h1, h2]

private theorem resolve_iff {admits : Meta.OptKinds Decl.Opt → Decl.Opt → Bool} {fine : Decl.Size → Bool}
    {opts : List Decl.Opt} {s : Decl.Size} {c : Constraint} {b : Option Nat}
    (hadm : ∀ o, admits (Decl.kinds I t) o = true → Decl.boundableOption (Decl.kinds I t) o = true) :
    Decl.resolve I t admits fine opts = some (s, c, b) ↔
      (∀ o ∈ opts, admits (Decl.kinds I t) o = true) ∧ fine s = true ∧
      ∃ so co bo, opts.Perm (pack so co bo) ∧ Callable I t co ∧
        s = so.getD (.bytes (t.sizeof I)) ∧ c = co.getD .none ∧ b = bo.getD none := by
  rw [Decl.resolve, Option.bind_eq_some_iff]
  constructor
  · rintro ⟨r, h1, h2⟩
    rw [Meta.describe_iff] at h1
    obtain ⟨ha, hfine, hs, hc, hb⟩ := h1
    obtain ⟨rs, rc, rb⟩ := r
    split at h2
    · rename_i s' c' b' e1 e2 e3
      cases h2
      subst e1 e2 e3
      refine ⟨ha, hfine, ?_⟩
      have hperm := split_kinds opts fun o ho => hadm o (ha o ho)
      have k1 : ∃ so : Option Decl.Size, opts.filter (Decl.kinds I t).isSize = so.toList.map .size ∧
          s = so.getD (.bytes (t.sizeof I)) := by
        rcases hs with h | ⟨h, e⟩
        · exact ⟨some s, h, rfl⟩
        · refine ⟨none, h, ?_⟩
          cases e; rfl
      have k2 : ∃ co : Option Constraint, opts.filter (Decl.kinds I t).isConstraint = co.toList.map .constraint ∧
          c = co.getD .none ∧ Callable I t co := by
        rcases hc with h | ⟨h, e⟩
        · refine ⟨some c, h, rfl, fun x hx => ?_⟩
          cases hx
          have : Decl.Opt.constraint c ∈ opts.filter (Decl.kinds I t).isConstraint := by
            rw [h]; exact List.mem_singleton.2 rfl
          exact (List.mem_filter.1 this).2
        · refine ⟨none, h, ?_, fun x hx => by cases hx⟩
          cases e; rfl
      have k3 : ∃ bo : Option (Option Nat), opts.filter (Decl.kinds I t).isBound = bo.toList.map .bound ∧
          b = bo.getD none := by
        rcases hb with h | ⟨h, e⟩
        · exact ⟨some b, h, rfl⟩
        · refine ⟨none, h, ?_⟩
          cases e; rfl
      obtain ⟨so, e1, e1'⟩ := k1
      obtain ⟨co, e2, e2', hcall⟩ := k2
      obtain ⟨bo, e3, e3'⟩ := k3
      rw [e1, e2, e3] at hperm
      exact ⟨so, co, bo, hperm, hcall, e1', e2', e3'⟩
    · cases h2
  · rintro ⟨ha, hfine, so, co, bo, hperm, hcall, rfl, rfl, rfl⟩
    refine ⟨⟨.size (so.getD (.bytes (t.sizeof I))), .constraint (co.getD .none), .bound (bo.getD none)⟩, ?_, rfl⟩
    rw [Meta.describe_iff]
    refine ⟨ha, hfine, ?_, ?_, ?_⟩
    · rw [Meta.provides_perm hperm]
      cases so <;> cases co <;> cases bo <;> simp [pack, Provides, Decl.kinds]
    · rw [Meta.provides_perm hperm]
      cases co with
      | none => cases so <;> cases bo <;> simp [pack, Provides, Decl.kinds]
      | some x =>
        have := hcall x rfl
        cases so <;> cases bo <;> simp [pack, Provides, Decl.kinds, this]
    · rw [Meta.provides_perm hperm]
      cases so <;> cases co <;> cases bo <;> simp [pack, Provides, Decl.kinds]

private theorem admits_pack {admits : Meta.OptKinds Decl.Opt → Decl.Opt → Bool} {opts : List Decl.Opt}
    {so : Option Decl.Size} {co : Option Constraint} {bo : Option (Option Nat)} (hp : opts.Perm (pack so co bo)) :
    (∀ o ∈ opts, admits (Decl.kinds I t) o = true) ↔
      (∀ s, so = some s → admits (Decl.kinds I t) (.size s) = true) ∧
      (∀ c, co = some c → admits (Decl.kinds I t) (.constraint c) = true) ∧
      (∀ b, bo = some b → admits (Decl.kinds I t) (.bound b) = true) := by
  have : (∀ o ∈ opts, admits (Decl.kinds I t) o = true) ↔
      ∀ o ∈ pack so co bo, admits (Decl.kinds I t) o = true := by
    simp only [hp.mem_iff]
  rw [this]
  cases so <;> cases co <;> cases bo <;> simp [pack]

/-- Descriptors that take a constraint only. -/
private theorem only_constraint {opts : List Decl.Opt} {s : Decl.Size} {c : Constraint} {b : Option Nat} :
    Decl.resolve I t Decl.onlyConstraint (fun _ => true) opts = some (s, c, b) ↔
      s = .bytes (t.sizeof I) ∧ b = none ∧
      ∃ co : Option Constraint, opts = co.toList.map .constraint ∧ Callable I t co ∧ c = co.getD .none := by
  rw [resolve_iff (fun o ho => by
    simp only [Decl.onlyConstraint] at ho; simp [Decl.boundableOption, ho])]
  constructor
  · rintro ⟨ha, -, so, co, bo, hperm, hcall, rfl, rfl, rfl⟩
    rw [admits_pack hperm] at ha
    obtain ⟨h1, -, h3⟩ := ha
    obtain rfl : so = none := by
      cases so with
      | none => rfl
      | some s => exact absurd (h1 s rfl) (by simp [Decl.onlyConstraint, Decl.kinds])
    obtain rfl : bo = none := by
      cases bo with
      | none => rfl
      | some s => exact absurd (h3 s rfl) (by simp [Decl.onlyConstraint, Decl.kinds])
    refine ⟨rfl, rfl, co, ?_, hcall, rfl⟩
    cases co with
    | none => exact List.perm_nil.1 hperm
    | some x => exact List.perm_singleton.1 hperm
  · rintro ⟨rfl, rfl, co, rfl, hcall, rfl⟩
    have hp : (co.toList.map Decl.Opt.constraint).Perm (pack none co none) := by simp [pack]
    refine ⟨(admits_pack hp).2 ⟨by simp, fun c hc => hcall c hc, by simp⟩, rfl, none, co, none, hp, hcall, rfl, rfl, rfl⟩

end Packs

/-- C80: `basic_field`, `as_trivial`. At most one size and one constraint, in either
order; a size is a number of bytes, no more than the type has. -/
theorem C80_scalar (I : Decl.Impl) (t : Decl.Ty) (opts : List Decl.Opt) (g : Decl.Tag) :
    Decl.scalarTag I t opts = some g ↔
      ∃ (w : Option Nat) (c : Option Constraint),
        opts.Perm (pack (w.map .bytes) c none) ∧ Callable I t c ∧ w.getD (t.sizeof I) ≤ t.sizeof I ∧
        g = ⟨t, .bytes (w.getD (t.sizeof I)), c.getD .none, none⟩ := by
  rw [Decl.scalarTag, Option.map_eq_some_iff]
  constructor
  · rintro ⟨⟨s, c, b⟩, h, rfl⟩
    rw [resolve_iff (fun o ho => by
      simp only [Decl.fieldOption, Bool.or_eq_true] at ho
      simp only [Decl.boundableOption, Bool.or_eq_true]; exact .inl ho)] at h
    obtain ⟨ha, hfine, so, co, bo, hperm, hcall, rfl, rfl, rfl⟩ := h
    obtain ⟨-, -, h3⟩ := (admits_pack hperm).1 ha
    obtain rfl : bo = none := by
      cases bo with
      | none => rfl
      | some s => exact absurd (h3 s rfl) (by simp [Decl.fieldOption, Decl.kinds])
    cases so with
    | none => exact ⟨none, co, hperm, hcall, Nat.le_refl _, rfl⟩
    | some s =>
      cases s with
      | bytes w => exact ⟨some w, co, hperm, hcall, of_decide_eq_true hfine, rfl⟩
      | _ => cases hfine
  · rintro ⟨w, c, hperm, hcall, hw, rfl⟩
    refine ⟨(.bytes (w.getD (t.sizeof I)), c.getD .none, none), ?_, rfl⟩
    rw [resolve_iff (fun o ho => by
      simp only [Decl.fieldOption, Bool.or_eq_true] at ho
      simp only [Decl.boundableOption, Bool.or_eq_true]; exact .inl ho)]
    refine ⟨(admits_pack hperm).2 ⟨by simp [Decl.fieldOption, Decl.kinds], fun x hx => ?_, by simp⟩, ?_,
      w.map .bytes, c, none, hperm, hcall, ?_, rfl, rfl⟩
    · simp [Decl.fieldOption, Decl.kinds, hcall x hx]
    · exact decide_eq_true hw
    · cases w <;> rfl

/-- C80: `vec_field`, `str_field`, `vector_of_records`, `as_vec`, `as_string`,
`as_vec_of_records`. A length, at most one constraint and at most one bound, in any
order. -/
theorem C80_container (I : Decl.Impl) (t : Decl.Ty) (opts : List Decl.Opt) (g : Decl.Tag) :
    Decl.containerTag I t opts = some g ↔
      ∃ (l : LenSpec) (c : Option Constraint) (b : Option (Option Nat)),
        opts.Perm (pack (some (.var l)) c b) ∧ Callable I t c ∧
        g = ⟨t, .var l, c.getD .none, b.getD none⟩ := by
  rw [Decl.containerTag, Option.map_eq_some_iff]
  constructor
  · rintro ⟨⟨s, c, b⟩, h, rfl⟩
    rw [resolve_iff (fun o ho => ho)] at h
    obtain ⟨ha, hfine, so, co, bo, hperm, hcall, rfl, rfl, rfl⟩ := h
    cases so with
    | none => cases hfine
    | some s =>
      cases s with
      | var l => exact ⟨l, co, bo, hperm, hcall, rfl⟩
      | _ => cases hfine
  · rintro ⟨l, c, b, hperm, hcall, rfl⟩
    refine ⟨(.var l, c.getD .none, b.getD none), ?_, rfl⟩
    rw [resolve_iff (fun o ho => ho)]
    refine ⟨(admits_pack hperm).2 ⟨?_, fun x hx => ?_, ?_⟩, rfl, _, c, b, hperm, hcall, rfl, rfl, rfl⟩
    · intro s hs; cases hs; simp [Decl.boundableOption, Decl.kinds]
    · simp [Decl.boundableOption, Decl.kinds, hcall x hx]
    · intro x hx; simp [Decl.boundableOption, Decl.kinds]

/-- C80: the descriptors and tags of fixed-sized buffers and of records. They take at most
one constraint and nothing else; the size is not the user's to choose. -/
theorem C80_fixed (I : Decl.Impl) (opts : List Decl.Opt) (g : Decl.Tag) :
    (∀ e n, Decl.fixedArrayTag I e n opts = some g ↔
      ∃ c : Option Constraint, opts = c.toList.map .constraint ∧ Callable I (.array e n) c ∧
        g = ⟨.array e n, .bytes (n * e.sizeof I), c.getD .none, none⟩) ∧
    (∀ ds n, Decl.arrayOfRecordsTag I ds n opts = some g ↔
      ∃ c : Option Constraint, opts = c.toList.map .constraint ∧ Callable I (.array (.fieldList ds) n) c ∧
        g = ⟨.array (.fieldList ds) n, .dontCare, c.getD .none, none⟩) ∧
    (∀ n, Decl.fixedStringTag I n opts = some g ↔
      ∃ c : Option Constraint, opts = c.toList.map .constraint ∧ Callable I (.fixedString n) c ∧
        g = ⟨.fixedString n, .bytes (n + 1), c.getD .none, none⟩) ∧
    (∀ e n, Decl.cArrTag I e n opts = some g ↔
      0 < n ∧ ∃ c : Option Constraint, opts = c.toList.map .constraint ∧ Callable I (.carray e n) c ∧
        g = ⟨.carray e n, .bytes (n * e.sizeof I), c.getD .none, none⟩) ∧
    (∀ n, Decl.cStrTag I n opts = some g ↔
      ∃ c : Option Constraint, opts = c.toList.map .constraint ∧ Callable I (.carray (.int u8) (n + 1)) c ∧
        g = ⟨.carray (.int u8) (n + 1), .bytes (n + 1), c.getD .none, none⟩) ∧
    (∀ ds, Decl.structTag I ds opts = some g ↔
      ∃ c : Option Constraint, opts = c.toList.map .constraint ∧ Callable I (.fieldList ds) c ∧
        g = ⟨.fieldList ds, .dontCare, c.getD .none, none⟩) := by
  have key : ∀ (t : Decl.Ty) (mk : Constraint → Decl.Tag)
      (F : Decl.Size × Constraint × Option Nat → Decl.Tag), (∀ s c b, F (s, c, b) = mk c) →
      ((Decl.resolve I t Decl.onlyConstraint (fun _ => true) opts).map F = some g ↔
      ∃ c : Option Constraint, opts = c.toList.map .constraint ∧ Callable I t c ∧ g = mk (c.getD .none)) := by
    intro t mk F hF
    rw [Option.map_eq_some_iff]
    constructor
    · rintro ⟨⟨s, c, b⟩, h, rfl⟩
      rw [only_constraint] at h
      obtain ⟨-, -, co, h1, h2, rfl⟩ := h
      exact ⟨co, h1, h2, hF _ _ _⟩
    · rintro ⟨co, h1, h2, rfl⟩
      exact ⟨(_, co.getD .none, none), only_constraint.2 ⟨rfl, rfl, co, h1, h2, rfl⟩, hF _ _ _⟩
  refine ⟨fun e n => ?_, fun ds n => ?_, fun n => ?_, fun e n => ?_, fun n => ?_, fun ds => ?_⟩
  · rw [Decl.fixedArrayTag]
    exact key (.array e n) (⟨.array e n, .bytes (n * e.sizeof I), ·, none⟩) _ fun _ _ _ => rfl
  · rw [Decl.arrayOfRecordsTag]
    exact key (.array (.fieldList ds) n) (⟨.array (.fieldList ds) n, .dontCare, ·, none⟩) _ fun _ _ _ => rfl
  · rw [Decl.fixedStringTag]
    exact key (.fixedString n) (⟨.fixedString n, .bytes (n + 1), ·, none⟩) _ fun _ _ _ => by simp
  · rw [Decl.cArrTag]
    split
    · subst_vars; simp
    · rename_i hn
      rw [and_iff_right (by omega : 0 < n)]
      exact key (.carray e n) (⟨.carray e n, .bytes (n * e.sizeof I), ·, none⟩) _ fun _ _ _ => rfl
  · rw [Decl.cStrTag]
    exact key (.carray (.int u8) (n + 1)) (⟨.carray (.int u8) (n + 1), .bytes (n + 1), ·, none⟩) _
      fun _ _ _ => by simp
  · rw [Decl.structTag]
    exact key (.fieldList ds) (⟨.fieldList ds, .dontCare, ·, none⟩) _ fun _ _ _ => rfl

/-- C80: `magic_number` is a field that has to equal its constant, in as many bytes as
the user says, which need not fit the type. -/
theorem C80_magic_number (t : ScalarTy) (s : Decl.Size) (et : ScalarTy) (v : Int) (g : Decl.Tag) :
    Decl.magicNumberTag t s et v = some g ↔
      ∃ w, s = .bytes w ∧ g = ⟨.int t, .bytes w, .cmp .eq et v, none⟩ := by
  cases s <;> simp [Decl.magicNumberTag, Decl.Size.isFixed, eq_comm]

/-- C80: `maybe` is for fields without a constraint, and keeps everything else of them. -/
theorem C80_maybe (base : Decl.Decl) (p : Pred) (d : Decl.Decl) :
    Decl.maybeOf base p = some d ↔
      ∃ id t s b, base = .field id t s .none b ∧ d = .maybe id t s .none b p := by
  constructor
  · exact Decl.maybeOf_eq
  · rintro ⟨id, t, s, b, rfl, rfl⟩
    rfl

/-- C80. The field each of them stands for. A buffer, a string and a vector of numbers are
those of the model, in order of declaration of the list of fields a record has. -/
theorem C80_stands_for (I : Decl.Impl) (ctx : List Decl.Decl) (id : String) (c : Constraint)
    (b : Option Nat) :
    (∀ t w, Decl.elabDecl I ctx (.field id (.int t) (.bytes w) c b) = some (.plain id (.num t w) c)) ∧
    (∀ n w, Decl.elabDecl I ctx (.field id (.float n) (.bytes w) c b) =
      some (.plain id (.num (.int n false) w) c)) ∧
    (∀ e n x, Decl.elabElem e = some x →
      Decl.elabDecl I ctx (.field id (.array e n) (.bytes (n * e.sizeof I)) c b) = some (.plain id (.fbuf x n) c) ∧
      Decl.elabDecl I ctx (.field id (.carray e n) (.bytes (n * e.sizeof I)) c b) = some (.plain id (.fbuf x n) c)) ∧
    (∀ n, Decl.elabDecl I ctx (.field id (.carray (.int u8) (n + 1)) (.bytes (n + 1)) c b) =
      some (.plain id (.fbuf (.scalar u8) (n + 1)) c)) ∧
    (∀ n, Decl.elabDecl I ctx (.field id (.fixedString n) (.bytes (n + 1)) c b) = some (.plain id (.fstr n) c)) ∧
    (∀ e l x, Decl.elabElem e = some x →
      Decl.elabDecl I ctx (.field id (.vector e) (.var l) c b) = some (.plain id (.vec x l b) c)) ∧
    (∀ l, Decl.elabDecl I ctx (.field id .string (.var l) c b) =
      some (.plain id (.vec (.scalar u8) l b) c)) ∧
    (∀ ds fs, Decl.elabList I ds = some fs →
      Decl.elabDecl I ctx (.field id (.fieldList ds) .dontCare c b) = some (.plain id (.record fs) c) ∧
      (∀ n, Decl.elabDecl I ctx (.field id (.array (.fieldList ds) n) .dontCare c b) =
        some (.plain id (.arrRec fs n) c)) ∧
      (∀ l, Decl.elabDecl I ctx (.field id (.vector (.fieldList ds)) (.var l) c b) =
        some (.plain id (.vecRec fs l b (I.recordSize ds)) c))) := by
  have notList : ∀ {e x}, Decl.elabElem e = some x → ∀ ds, e = .fieldList ds → False := by
    rintro e x h ds rfl; cases h
  refine ⟨fun t w => ?_, fun n w => ?_, fun e n x h => ⟨?_, ?_⟩, fun n => ?_, fun n => ?_, fun e l x h => ?_,
    fun l => ?_, fun ds fs h => ⟨?_, fun n => ?_, fun l => ?_⟩⟩
  · simp only [Decl.elabDecl, Decl.elabKind, Option.map_some]
  · simp only [Decl.elabDecl, Decl.elabKind, Option.map_some, Decl.bitsOf]
  · rw [Decl.elabDecl, Decl.elabKind, if_pos rfl, h]
    · rfl
    · exact notList h
  · rw [Decl.elabDecl, Decl.elabKind, if_pos rfl, h]; rfl
  · rw [Decl.elabDecl, Decl.elabKind, if_pos (by rw [Decl.Ty.sizeof]; show n + 1 = (n + 1) * 1; omega)]; rfl
  · rw [Decl.elabDecl, Decl.elabKind, if_pos rfl]; rfl
  · rw [Decl.elabDecl, Decl.elabKind, h]
    · rfl
    · exact notList h
  · simp only [Decl.elabDecl, Decl.elabKind, Option.map_some]
  · rw [Decl.elabDecl, Decl.elabKind, (Decl.elabList_eq.1 h).2]; rfl
  · rw [Decl.elabDecl, Decl.elabKind, (Decl.elabList_eq.1 h).2]; rfl
  · rw [Decl.elabDecl, Decl.elabKind, (Decl.elabList_eq.1 h).2]; rfl

/-- C80. An optional is the field it is made from, behind its predicate. -/
theorem C80_maybe_stands_for (I : Decl.Impl) (ctx : List Decl.Decl) (base d : Decl.Decl) (p : Pred)
    (id : String) (k : Kind) (c : Constraint) (h : Decl.maybeOf base p = some d)
    (hb : Decl.elabDecl I ctx base = some (.plain id k c)) :
    c = .none ∧ Decl.elabDecl I ctx d = some (.maybe id k p) := by
  obtain ⟨id', t, s, b, rfl, rfl⟩ := Decl.maybeOf_eq h
  rw [Decl.elabDecl, Option.map_eq_some_iff] at hb
  obtain ⟨k', hk, hb⟩ := hb
  cases hb
  rw [Decl.elabDecl, hk]
  exact ⟨rfl, rfl⟩

/-- C80. A union is the one of its guide and cases; the constraint is on the variant. -/
theorem C80_variance (I : Decl.Impl) (cfg : Cfg) (tid : Decl.Ty → Nat) (v : Decl.Ty) (id : String)
    (g : Decl.Guide) (ks : List Decl.Case) (opts : List Decl.Opt) (d : Decl.Decl)
    (h : Decl.variance I cfg tid v id g ks opts = some d) :
    ∃ c : Option Constraint, opts = c.toList.map .constraint ∧ Callable I v c ∧
      d = .union id g ks (c.getD .none) := by
  rw [Decl.variance] at h
  split at h
  · rw [Option.map_eq_some_iff] at h
    obtain ⟨⟨s, c, b⟩, h, rfl⟩ := h
    obtain ⟨-, -, co, h1, h2, rfl⟩ := only_constraint.1 h
    exact ⟨co, h1, h2, rfl⟩
  · cases h

private theorem labelsOf_cond : ∀ (ks : List Decl.Case) (ls : List (ScalarTy × Int)),
    Decl.labelsOf ks = some ls ↔ ks.map Decl.Case.cond = ls.map fun l => .label l.1 l.2
  | [], ls => by rw [Decl.labelsOf]; cases ls <;> simp
  | .mk (.when p) _ _ _ _ :: ks, ls => by
    rw [Decl.labelsOf]; cases ls <;> simp [Decl.Case.cond]
  | .mk (.label t v) _ _ _ _ :: ks, ls => by
    rw [Decl.labelsOf, Option.map_eq_some_iff]
    cases ls with
    | nil => simp
    | cons l ls =>
      simp only [labelsOf_cond ks, List.map_cons, Decl.Case.cond, List.cons.injEq, Decl.Cond.label.injEq]
      constructor
      · rintro ⟨a, h, rfl, rfl⟩; exact ⟨⟨rfl, rfl⟩, h⟩
      · rintro ⟨⟨rfl, rfl⟩, h⟩; exact ⟨ls, h, rfl, rfl⟩

private theorem predsOf_cond : ∀ (ks : List Decl.Case) (ps : List Pred),
    Decl.predsOf ks = some ps ↔ ks.map Decl.Case.cond = ps.map .when
  | [], ls => by rw [Decl.predsOf]; cases ls <;> simp
  | .mk (.label _ _) _ _ _ _ :: ks, ls => by
    rw [Decl.predsOf]; cases ls <;> simp [Decl.Case.cond]
  | .mk (.when p) _ _ _ _ :: ks, ls => by
    rw [Decl.predsOf, Option.map_eq_some_iff]
    cases ls with
    | nil => simp
    | cons l ls =>
      simp only [predsOf_cond ks, List.map_cons, Decl.Case.cond, List.cons.injEq, Decl.Cond.when.injEq]
      constructor
      · rintro ⟨a, h, rfl, rfl⟩; exact ⟨rfl, h⟩
      · rintro ⟨rfl, h⟩; exact ⟨ls, h, rfl, rfl⟩

private theorem elabCases_get (I : Decl.Impl) (ctx : List Decl.Decl) (id : String) (ks : List Decl.Case)
    (alts : List Alt) (ha : Decl.elabCases I ks = some alts) :
    alts.length = ks.length ∧
      ∀ (i : Nat) cond t s c' b, ks[i]? = some (.mk cond t s c' b) →
        ∃ k, alts[i]? = some (.mk k c') ∧
          Decl.elabDecl I ctx (.field id t s c' b) = some (.plain id k c') := by
  induction ks generalizing alts with
  | nil =>
    rw [Decl.elabCases] at ha
    cases ha
    simp
  | cons k ks ih =>
    obtain ⟨cond, t, s, c', b⟩ := k
    rw [Decl.elabCases, Option.bind_eq_some_iff] at ha
    obtain ⟨kk, hk, ha⟩ := ha
    rw [Option.map_eq_some_iff] at ha
    obtain ⟨alts', ha, rfl⟩ := ha
    obtain ⟨hl, hi⟩ := ih alts' ha
    refine ⟨by simp [hl], fun i => ?_⟩
    cases i with
    | zero =>
      rintro cond t s c' b h
      simp only [List.length_cons, Nat.zero_lt_succ, List.getElem?_eq_getElem, List.getElem_cons_zero,
        Option.some.injEq] at h
      cases h
      exact ⟨kk, rfl, by rw [Decl.elabDecl, hk]; rfl⟩
    | succ i => simpa using hi i

/-- C80. What a union stands for: its alternatives are those of its cases, each as the
field of that type, size, constraint and bound would be; it goes by the labels, or the
predicates, of its cases, in their order. -/
theorem C80_union_stands_for (I : Decl.Impl) (ctx : List Decl.Decl) (id : String) (g : Decl.Guide)
    (ks : List Decl.Case) (c : Constraint) (f : Field)
    (h : Decl.elabDecl I ctx (.union id g ks c) = some f) :
    ∃ dd alts, f = .union id dd alts c ∧
      (match g with
        | .matchField j => ∃ t labels, dd = .matchField j t labels ∧
            ks.map Decl.Case.cond = labels.map fun l => .label l.1 l.2
        | .matchCompute cc r => ∃ labels, dd = .matchCompute cc r labels ∧
            ks.map Decl.Case.cond = labels.map fun l => .label l.1 l.2
        | .ladder => ∃ ps, dd = .ladder ps ∧ ks.map Decl.Case.cond = ps.map .when) ∧
      alts.length = ks.length ∧
      ∀ (i : Nat) cond t s c' b, ks[i]? = some (.mk cond t s c' b) →
        ∃ k, alts[i]? = some (.mk k c') ∧
          Decl.elabDecl I ctx (.field id t s c' b) = some (.plain id k c') := by
  rw [Decl.elabDecl, Option.bind_eq_some_iff] at h
  obtain ⟨dd, hg, h⟩ := h
  rw [Option.map_eq_some_iff] at h
  obtain ⟨alts, ha, rfl⟩ := h
  refine ⟨dd, alts, rfl, ?_, ?_⟩
  · cases g with
    | matchField j =>
      rw [Decl.elabGuide, Option.bind_eq_some_iff] at hg
      obtain ⟨t', -, hg⟩ := hg
      rw [Option.map_eq_some_iff] at hg
      obtain ⟨ls, hls, rfl⟩ := hg
      exact ⟨t', ls, rfl, (labelsOf_cond _ _).1 hls⟩
    | matchCompute cc r =>
      rw [Decl.elabGuide, Option.map_eq_some_iff] at hg
      obtain ⟨ls, hls, rfl⟩ := hg
      exact ⟨ls, rfl, (labelsOf_cond _ _).1 hls⟩
    | ladder =>
      rw [Decl.elabGuide, Option.map_eq_some_iff] at hg
      obtain ⟨ls, hls, rfl⟩ := hg
      exact ⟨ls, rfl, (predsOf_cond _ _).1 hls⟩
  · exact elabCases_get I ctx id ks alts ha

/-- C80: `magic_byte_array` and `magic_string`. -/
theorem C80_magic (I : Decl.Impl) (ctx : List Decl.Decl) (id : String) :
    (∀ n x, Decl.elabDecl I ctx ((Decl.magicByteArrayTag n x).field id) =
      some (.plain id (.fbuf (.scalar u8) n) (.arrCmp true x))) ∧
    (∀ x, Decl.elabDecl I ctx ((Decl.magicStringTag x).field id) =
      some (.plain id (.fstr x.length) (.strCmp true (x ++ [0])))) := by
  refine ⟨fun n x => ?_, fun x => ?_⟩
  · rw [Decl.magicByteArrayTag, Decl.Tag.field, Decl.elabDecl, Decl.elabKind,
      if_pos (by rw [Decl.Ty.sizeof]; show n = n * 1; omega)]
    · rfl
    · nofun
  · rw [Decl.magicStringTag, Decl.Tag.field, Decl.elabDecl, Decl.elabKind, if_pos rfl]; rfl

/-! ### Examples -/

example : Decl.scalarTag impl64 (.int u32) [.constraint (.cmp .lt u32 1000), .size (.bytes 3)] =
    some ⟨.int u32, .bytes 3, .cmp .lt u32 1000, none⟩ :=
  (C80_scalar _ _ _ _).2 ⟨some 3, some (.cmp .lt u32 1000), .swap _ _ _, fun _ _ => rfl, by decide, rfl⟩
example : ∀ g, Decl.scalarTag impl64 (.int u32) [.size (.bytes 5)] ≠ some g := by
  intro g h
  obtain ⟨w, c, hp, -, hw, -⟩ := (C80_scalar _ _ _ _).1 h
  cases w with
  | none => cases c with
    | none => exact absurd hp.length_eq (by simp [pack])
    | some c => exact absurd (List.perm_singleton.1 hp.symm) (by simp [pack])
  | some w =>
    cases c with
    | some c => exact absurd hp.length_eq (by simp [pack])
    | none =>
      have := List.perm_singleton.1 hp.symm
      simp [pack] at this
      subst this
      exact absurd hw (by decide)
example : Decl.containerTag impl64 .string [.bound (some 64), .size (.var (.fromField "len"))] =
    some ⟨.string, .var (.fromField "len"), .none, some 64⟩ :=
  (C80_container _ _ _ _).2 ⟨.fromField "len", none, some (some 64), .swap _ _ _, fun _ h => (by cases h), rfl⟩
example : Decl.cStrTag impl64 7 [] = some ⟨.carray (.int u8) 8, .bytes 8, .none, none⟩ :=
  ((C80_fixed impl64 [] _).2.2.2.2.1 7).2 ⟨none, rfl, fun _ h => (by cases h), rfl⟩
example := (C80_magic_number u16 (.bytes 4) i32 7 ⟨.int u16, .bytes 4, .cmp .eq i32 7, none⟩).2 ⟨4, rfl, rfl⟩
example := (C80_maybe (.field "b" (.int u16) (.bytes 2) .none none) ⟨["a"], fun _ => true⟩ _).2
  ⟨_, _, _, _, rfl, rfl⟩
example := ((C80_stands_for impl64 packetDecls "hdr" .none none).2.2.2.2.2.2.2 innerDecls inner rfl).1
example := C80_maybe_stands_for impl64 innerDecls (.field "b" (.int u16) (.bytes 2) .none none) _
  ⟨["a"], fun vs => vs == [.int (-1)]⟩ "b" (.num u16 2) .none rfl rfl
example := C80_union_stands_for impl64 packetDecls "body" (.matchField "tag") bodyCases .none _ rfl

example (d : Decl.Decl) (h : Decl.variance impl64 be64 tyId (.other 0) "body" (.matchField "tag") bodyCases [] = some d) :
    d = .union "body" (.matchField "tag") bodyCases .none := by
  obtain ⟨c, hc, -, rfl⟩ := C80_variance impl64 be64 tyId _ _ _ _ _ d h
  cases c with
  | none => rfl
  | some c => cases hc

example : Decl.elabDecl impl64 [] ((Decl.magicStringTag [71, 73, 70]).field "m") =
    some (.plain "m" (.fstr 3) (.strCmp true [71, 73, 70, 0])) :=
  (C80_magic impl64 [] "m").2 [71, 73, 70]
example : Decl.elabDecl impl64 [] ((Decl.magicByteArrayTag 2 (.seq [.int 1, .int 2])).field "m") =
    some (.plain "m" (.fbuf (.scalar u8) 2) (.arrCmp true (.seq [.int 1, .int 2]))) :=
  (C80_magic impl64 [] "m").1 2 (.seq [.int 1, .int 2])

end S2S.Props
