import Verif.Spec.Bounds
import Verif.Props.Decl
import Verif.Props.Defined
/-
C142: the sizes that descriptors give.
-/
namespace S2S.Props
open Spec Demo

/-- The size given for the type: that of the type, less for a number, none for an array without
elements. -/
def SizeFor (I : Decl.Impl) (t : Decl.Ty) (w : Nat) : Prop :=
  w = t.sizeof I ∨ (t.isArithmetic = true ∧ w ≤ t.sizeof I) ∨ ∃ e, t = .array e 0 ∧ w = 0

theorem sizeFor_array (I : Decl.Impl) (e : Decl.Ty) (n : Nat) : SizeFor I (.array e n) (n * e.sizeof I) := by
  by_cases h : n = 0
  · subst h; exact .inr (.inr ⟨e, rfl, by simp⟩)
  · exact .inl (by simp [Decl.Ty.sizeof, h])

theorem sizeFor_scalar {I : Decl.Impl} {t : Decl.Ty} (ht : t.isArithmetic = true) {w : Nat}
    (h : Decl.fits (t.sizeof I) (.bytes w) = true) : SizeFor I t w :=
  .inr (.inl ⟨ht, by simpa [Decl.fits] using h⟩)

/-- C142. A number of bytes that a descriptor gives a field is the size of its type, or less if it is
a number, or 0 for an array without elements; `magic_number` alone may give any. -/
theorem C142_field (I : Decl.Impl) (cfg : Cfg) (tid : Decl.Ty → Nat) (id : String) (t : Decl.Ty) (w : Nat)
    (c : Constraint) (b : Option Nat) (h : Decl.Spelled I cfg tid (.field id t (.bytes w) c b)) :
    SizeFor I t w ∨ ∃ x et v, t = .int x ∧ c = .cmp .eq et v := by
  generalize hd : Decl.Decl.field id t (.bytes w) c b = d at h
  cases h with
  | basicField h =>
    obtain ⟨s, c, rfl, hs⟩ := Decl.scalarTag_eq h
    cases hd
    exact .inl (sizeFor_scalar rfl hs)
  | fixedArrayField _ h => obtain ⟨c, rfl⟩ := Decl.fixedArrayTag_eq h; cases hd; exact .inl (sizeFor_array I _ _)
  | arrayOfRecords _ h => obtain ⟨c, rfl⟩ := Decl.arrayOfRecordsTag_eq h; cases hd
  | fixedStringField h => obtain ⟨c, rfl⟩ := Decl.fixedStringTag_eq h; cases hd; exact .inl (.inl rfl)
  | cArrField _ h => obtain ⟨-, c, rfl⟩ := Decl.cArrTag_eq h; cases hd; exact .inl (.inl rfl)
  | cStrField h =>
    obtain ⟨c, rfl⟩ := Decl.cStrTag_eq h
    cases hd
    exact .inl (.inl (by simp [Decl.Ty.sizeof, ScalarTy.size]))
  | magicByteArray =>
    cases hd
    have := sizeFor_array I (.int u8) w
    rw [show w * (Decl.Ty.int u8).sizeof I = w from Nat.mul_one w] at this
    exact .inl this
  | magicString => cases hd; exact .inl (.inl rfl)
  | magicNumber h => obtain ⟨-, rfl⟩ := Decl.magicNumberTag_eq h; cases hd; exact .inr ⟨_, _, _, rfl, rfl⟩
  | vecField _ h => obtain ⟨s, c, b, rfl, hs⟩ := Decl.containerTag_eq h; cases hd; cases hs
  | strField h => obtain ⟨s, c, b, rfl, hs⟩ := Decl.containerTag_eq h; cases hd; cases hs
  | structField _ h => obtain ⟨c, rfl⟩ := Decl.structTag_eq h; cases hd
  | maybe _ h => obtain ⟨_, _, _, _, -, rfl⟩ := Decl.maybeOf_eq h; cases hd
  | variance _ h => obtain ⟨-, -, -, c, rfl⟩ := Decl.variance_eq h; cases hd

example (c : Constraint) (h : Decl.Spelled impl64 be64 tyId (.field "s" (.fixedString 7) (.bytes 9) c none)) :
    False := by
  rcases C142_field _ _ _ _ _ _ _ _ h with (h | ⟨h, -⟩ | ⟨e, h, -⟩) | ⟨x, et, v, h, -⟩
  · cases h
  · cases h
  · cases h
  · cases h

/-- C142, inside an optional: `magic_number` cannot be. -/
theorem C142_maybe (I : Decl.Impl) (cfg : Cfg) (tid : Decl.Ty → Nat) (id : String) (t : Decl.Ty) (w : Nat)
    (c : Constraint) (b : Option Nat) (p : Pred)
    (h : Decl.Spelled I cfg tid (.maybe id t (.bytes w) c b p)) : SizeFor I t w := by
  generalize hd : Decl.Decl.maybe id t (.bytes w) c b p = d at h
  cases h with
  | basicField h => cases hd
  | fixedArrayField _ h => cases hd
  | arrayOfRecords _ h => cases hd
  | fixedStringField h => cases hd
  | cArrField _ h => cases hd
  | cStrField h => cases hd
  | magicByteArray => cases hd
  | magicString => cases hd
  | magicNumber h => cases hd
  | vecField _ h => cases hd
  | strField h => cases hd
  | structField _ h => cases hd
  | maybe hb h =>
    obtain ⟨_, _, _, _, rfl, rfl⟩ := Decl.maybeOf_eq h
    cases hd
    rcases C142_field _ _ _ _ _ _ _ _ hb with h | ⟨_, _, _, -, h⟩
    · exact h
    · cases h
  | variance _ h => obtain ⟨-, -, -, c, rfl⟩ := Decl.variance_eq h; cases hd

/-- C142, in a case of a union. -/
theorem C142_case (I : Decl.Impl) (cfg : Cfg) (tid : Decl.Ty → Nat) (k : Decl.Cond) (t : Decl.Ty) (w : Nat)
    (c : Constraint) (b : Option Nat) (h : Decl.SpelledCase I cfg tid (.mk k t (.bytes w) c b)) :
    SizeFor I t w := by
  generalize hd : Decl.Case.mk k t (.bytes w) c b = d at h
  cases h with
  | asTrivial ht h =>
    obtain ⟨s, c, rfl, hs⟩ := Decl.scalarTag_eq h
    cases hd
    exact sizeFor_scalar ht hs
  | asStruct _ h => obtain ⟨c, rfl⟩ := Decl.structTag_eq h; cases hd
  | asFixedArr _ h => obtain ⟨c, rfl⟩ := Decl.fixedArrayTag_eq h; cases hd; exact sizeFor_array I _ _
  | asFixedString h => obtain ⟨c, rfl⟩ := Decl.fixedStringTag_eq h; cases hd; exact .inl rfl
  | asVec _ h => obtain ⟨s, c, b, rfl, hs⟩ := Decl.containerTag_eq h; cases hd; cases hs
  | asString h => obtain ⟨s, c, b, rfl, hs⟩ := Decl.containerTag_eq h; cases hd; cases hs
  | asArrOfRecords _ h => obtain ⟨c, rfl⟩ := Decl.arrayOfRecordsTag_eq h; cases hd
  | asVecOfRecords _ h => obtain ⟨s, c, b, rfl, hs⟩ := Decl.containerTag_eq h; cases hd; cases hs

theorem inBounds_of {I : Decl.Impl} {t : Decl.Ty} {s : Decl.Size} {b : Option Nat} {k : Kind}
    (he : Decl.elabKind I t s b = some k) (h : ∀ w, s = .bytes w → SizeFor I t w) : InBounds k := by
  cases k with
  | num x w =>
    unfold Decl.elabKind at he
    split at he <;> simp [Option.map_eq_some_iff] at he
    · obtain ⟨rfl, rfl⟩ := he
      rcases h _ rfl with h | ⟨-, h⟩ | ⟨e, h, -⟩
      · exact Nat.le_of_eq h
      · exact h
      · cases h
    · obtain ⟨rfl, rfl⟩ := he
      rcases h _ rfl with h | ⟨-, h⟩ | ⟨e, h, -⟩
      · exact Nat.le_of_eq h
      · exact h
      · cases h
  | _ => trivial

theorem elabCases_mem {I : Decl.Impl} : ∀ {ks : List Decl.Case} {alts : List Alt},
    Decl.elabCases I ks = some alts → ∀ a ∈ alts, ∃ x ∈ ks, ∃ k t s c b, x = .mk k t s c b ∧
      Decl.elabKind I t s b = some a.kind
  | [], _, h, a, ha => by cases h; cases ha
  | .mk k t s c b :: ks, alts, h, a, ha => by
    simp only [Decl.elabCases, Option.bind_eq_some_iff, Option.map_eq_some_iff] at h
    obtain ⟨kd, h1, as, h2, rfl⟩ := h
    rcases List.mem_cons.1 ha with rfl | ha
    · exact ⟨_, List.mem_cons_self .., k, t, s, c, b, rfl, h1⟩
    · obtain ⟨x, hx, r⟩ := elabCases_mem h2 a ha
      exact ⟨x, List.mem_cons_of_mem _ hx, r⟩

theorem spelled_cases {I : Decl.Impl} {cfg : Cfg} {tid : Decl.Ty → Nat} {id : String} {g : Decl.Guide}
    {ks : List Decl.Case} {c : Constraint} (h : Decl.Spelled I cfg tid (.union id g ks c)) :
    ∀ k ∈ ks, Decl.SpelledCase I cfg tid k := by
  generalize hd : Decl.Decl.union id g ks c = d at h
  cases h with
  | maybe _ h => obtain ⟨_, _, _, _, -, rfl⟩ := Decl.maybeOf_eq h; cases hd
  | variance hk h => obtain ⟨-, -, -, c, rfl⟩ := Decl.variance_eq h; cases hd; exact hk
  | _ => cases hd

/-- C142. In a list spelled with the descriptors no number, at any level, takes more bytes than its
type has, except fields that have to be equal to a number. -/
theorem C142_in_bounds (I : Decl.Impl) (cfg : Cfg) (tid : Decl.Ty → Nat) (ds : List Decl.Decl)
    (fs : List Field) (h : Decl.SpelledList I cfg tid ds) (he : Decl.elabList I ds = some fs) :
    Everywhere (fun gs => ∀ f ∈ gs, InBoundsField f) fs := by
  refine (Decl.everywhere_spelled h (Decl.elabList_eq.1 he).2).mono ?_
  rintro gs ⟨ds, hsp, he⟩ f hf
  obtain ⟨d, hd, hx⟩ := Decl.elabDecls_mem he f hf
  cases hsp with | mk hsp _ =>
  have hs := hsp d hd
  cases d with
  | field id t s c b =>
    simp only [Decl.elabDecl, Option.map_eq_some_iff] at hx
    obtain ⟨k, hk, rfl⟩ := hx
    by_cases hc : ∃ et v, c = .cmp .eq et v
    · obtain ⟨et, v, rfl⟩ := hc; trivial
    · have : InBounds k := inBounds_of hk fun w hw => by
        subst hw
        rcases C142_field _ _ _ _ _ _ _ _ hs with h | ⟨_, et, v, -, h⟩
        · exact h
        · exact absurd ⟨et, v, h⟩ hc
      unfold InBoundsField
      split
      · trivial
      · rename_i heq; cases heq; exact this
      · trivial
      · trivial
  | maybe id t s c b p =>
    simp only [Decl.elabDecl, Option.map_eq_some_iff] at hx
    obtain ⟨k, hk, rfl⟩ := hx
    exact inBounds_of hk fun w hw => by subst hw; exact C142_maybe _ _ _ _ _ _ _ _ _ hs
  | union id g ks c =>
    simp only [Decl.elabDecl, Option.bind_eq_some_iff, Option.map_eq_some_iff] at hx
    obtain ⟨dd, -, alts, ha, rfl⟩ := hx
    intro a haa
    obtain ⟨x, hxk, k, t, s, c', b, rfl, hk⟩ := elabCases_mem ha a haa
    exact inBounds_of hk fun w hw => by subst hw; exact C142_case _ _ _ _ _ _ _ _ (spelled_cases hs _ hxk)
  | other k => cases hx

example : Everywhere (fun gs => ∀ f ∈ gs, InBoundsField f) packet :=
  C142_in_bounds impl64 be64 tyId packetDecls packet spelled_packet rfl

/-- `magic_number<"m", u16, 4_B, 7>` is a spelled, accepted list; the read is out of bounds on every
stream. -/
theorem C142_magic : ∃ ds fs, Decl.SpelledList impl64 be64 tyId ds ∧ Decl.elabList impl64 ds = some fs ∧
    ∀ (cfg : Cfg) (S : InStream) (s : S.State), (structCast cfg fs).runOn S s = (.stuck .outOfBounds, s) :=
  ⟨[.field "m" (.int u16) (.bytes 4) (.cmp .eq i32 7) none],
   [.plain "m" (.num u16 4) (.cmp .eq i32 7)],
   .mk (fun d hd => by
    rw [List.mem_singleton] at hd; subst hd
    exact .magicNumber (t := u16) (s := .bytes 4) (et := i32) (v := 7)
      (g := ⟨.int u16, .bytes 4, .cmp .eq i32 7, none⟩) rfl) rfl,
   rfl, fun _ _ _ => rfl⟩

/-- `maybe<basic_field<"x", u16, 3_B>, …>` is not a type. -/
example (c : Constraint) (p : Pred) (h : Decl.Spelled impl64 be64 tyId (.maybe "s" (.fixedString 7) (.bytes 9) c none p)) : False := by
  rcases C142_maybe _ _ _ _ _ _ _ _ _ h with h | ⟨h, -⟩ | ⟨e, h, -⟩ <;> cases h
example (c : Constraint) (h : Decl.SpelledCase impl64 be64 tyId (.mk (.label i32 1) (.fixedString 7) (.bytes 9) c none)) : False := by
  rcases C142_case _ _ _ _ _ _ _ _ h with h | ⟨h, -⟩ | ⟨e, h, -⟩ <;> cases h

end S2S.Props
