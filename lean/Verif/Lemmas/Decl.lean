import Verif.Spec.Decl
import Verif.Spec.Settle
import Verif.Lemmas.Tables
/-
From declarations to schemas.
-/
namespace S2S.Decl
open S2S.Spec

theorem OkDecls_iff {I : Impl} {ds : List Decl} : OkDecls I ds ↔ ∀ d ∈ ds, OkDecl I d := by
  induction ds with
  | nil => simp [OkDecls]
  | cons d ds ih => simp [OkDecls, ih]

theorem OkCases_iff {I : Impl} {ks : List Case} :
    OkCases I ks ↔ ∀ k ∈ ks, match k with | .mk _ t s _ _ => OkTy I t s := by
  induction ks with
  | nil => simp [OkCases]
  | cons k ks ih => cases k; simp [OkCases, ih]

/-! ### Descriptors -/

theorem resolve_fine {I : Impl} {t : Ty} {admits fine opts s c b}
    (h : resolve I t admits fine opts = some (s, c, b)) : fine s = true := by
  unfold resolve Meta.describe at h
  rw [Option.bind_eq_some_iff] at h
  obtain ⟨r, h1, h2⟩ := h
  split at h1
  · rw [Option.filter_eq_some_iff] at h1
    obtain ⟨-, h1⟩ := h1
    split at h2
    · rename_i s' c' b' hs hc hb
      cases h2
      rw [hs] at h1
      exact h1
    · cases h2
  · cases h1

theorem scalarTag_eq {I : Impl} {t opts g} (h : scalarTag I t opts = some g) :
    ∃ s c, g = ⟨t, s, c, none⟩ ∧ fits (t.sizeof I) s = true := by
  unfold scalarTag at h
  rw [Option.map_eq_some_iff] at h
  obtain ⟨⟨s, c, b⟩, h1, rfl⟩ := h
  exact ⟨s, c, rfl, resolve_fine h1⟩

theorem fixedArrayTag_eq {I : Impl} {e n opts g} (h : fixedArrayTag I e n opts = some g) :
    ∃ c, g = ⟨.array e n, .bytes (n * e.sizeof I), c, none⟩ := by
  unfold fixedArrayTag at h
  rw [Option.map_eq_some_iff] at h
  obtain ⟨⟨_, c, _⟩, -, rfl⟩ := h
  exact ⟨c, rfl⟩

theorem arrayOfRecordsTag_eq {I : Impl} {ds n opts g} (h : arrayOfRecordsTag I ds n opts = some g) :
    ∃ c, g = ⟨.array (.fieldList ds) n, .dontCare, c, none⟩ := by
  unfold arrayOfRecordsTag at h
  rw [Option.map_eq_some_iff] at h
  obtain ⟨⟨_, c, _⟩, -, rfl⟩ := h
  exact ⟨c, rfl⟩

theorem fixedStringTag_eq {I : Impl} {n opts g} (h : fixedStringTag I n opts = some g) :
    ∃ c, g = ⟨.fixedString n, .bytes (n + 1), c, none⟩ := by
  unfold fixedStringTag at h
  rw [Option.map_eq_some_iff] at h
  obtain ⟨⟨_, c, _⟩, -, rfl⟩ := h
  exact ⟨c, rfl⟩

theorem cArrTag_eq {I : Impl} {e n opts g} (h : cArrTag I e n opts = some g) :
    n ≠ 0 ∧ ∃ c, g = ⟨.carray e n, .bytes (n * e.sizeof I), c, none⟩ := by
  unfold cArrTag at h
  split at h
  · cases h
  · rename_i hn
    rw [Option.map_eq_some_iff] at h
    obtain ⟨⟨_, c, _⟩, -, rfl⟩ := h
    exact ⟨hn, c, rfl⟩

theorem cStrTag_eq {I : Impl} {n opts g} (h : cStrTag I n opts = some g) :
    ∃ c, g = ⟨.carray (.int u8) (n + 1), .bytes (n * 1 + 1), c, none⟩ := by
  unfold cStrTag at h
  rw [Option.map_eq_some_iff] at h
  obtain ⟨⟨_, c, _⟩, -, rfl⟩ := h
  exact ⟨c, rfl⟩

theorem magicNumberTag_eq {t s et v g} (h : magicNumberTag t s et v = some g) :
    s.isFixed = true ∧ g = ⟨.int t, s, .cmp .eq et v, none⟩ := by
  unfold magicNumberTag at h
  split at h
  · rename_i hs
    cases h
    exact ⟨hs, rfl⟩
  · cases h

theorem containerTag_eq {I : Impl} {t opts g} (h : containerTag I t opts = some g) :
    ∃ s c b, g = ⟨t, s, c, b⟩ ∧ s.isVariable = true := by
  unfold containerTag at h
  rw [Option.map_eq_some_iff] at h
  obtain ⟨⟨s, c, b⟩, h1, rfl⟩ := h
  exact ⟨s, c, b, rfl, resolve_fine h1⟩

theorem structTag_eq {I : Impl} {ds opts g} (h : structTag I ds opts = some g) :
    ∃ c, g = ⟨.fieldList ds, .dontCare, c, none⟩ := by
  unfold structTag at h
  rw [Option.map_eq_some_iff] at h
  obtain ⟨⟨_, c, _⟩, -, rfl⟩ := h
  exact ⟨c, rfl⟩

theorem maybeOf_eq {base p d} (h : maybeOf base p = some d) :
    ∃ id t s b, base = .field id t s .none b ∧ d = .maybe id t s .none b p := by
  unfold maybeOf at h
  split at h
  · rename_i id t s c b
    split at h
    · cases h
      rename_i hc
      cases c <;> first | exact ⟨id, t, s, b, rfl, rfl⟩ | cases hc
    · cases h
  · cases h

theorem variance_eq {I cfg tid v id g ks opts d} (h : variance I cfg tid v id g ks opts = some d) :
    typeDeductionLike g ks = true ∧ uniqueFieldChoices tid ks = some true ∧
    uniqueMatchValues cfg g ks = some true ∧ ∃ c, d = .union id g ks c := by
  unfold variance at h
  split at h
  · rename_i hc
    simp only [Bool.and_eq_true, beq_iff_eq] at hc
    rw [Option.map_eq_some_iff] at h
    obtain ⟨⟨_, c, _⟩, -, rfl⟩ := h
    exact ⟨hc.1.1, hc.1.2, hc.2, c, rfl⟩
  · cases h

theorem okTy_array {I : Impl} {e : Ty} {n : Nat} (he : e.fieldListLike = false) :
    OkTy I (.array e n) (.bytes (n * e.sizeof I)) := by
  cases e <;> first | (simp only [OkTy]; intro w hw; cases hw; rfl) | cases he

theorem okTy_vector {I : Impl} {e : Ty} {s : Size} (he : ∀ ds, e = .fieldList ds → OkDecls I ds) :
    OkTy I (.vector e) s := by
  cases e <;> simp only [OkTy]
  exact he _ rfl

theorem containable_notList {e : Ty} (h : e.fieldContainable = true) : e.fieldListLike = false := by
  cases e <;> first | rfl | cases h

theorem arithmetic_notList {e : Ty} (h : e.isArithmetic = true) : e.fieldListLike = false := by
  cases e <;> first | rfl | cases h

mutual
theorem ok_spelled {I cfg tid} : ∀ {d}, Spelled I cfg tid d → OkDecl I d
  | _, .basicField h => by
      obtain ⟨s, c, rfl, -⟩ := scalarTag_eq h
      simp only [Tag.field, OkDecl, OkTy]
  | _, .fixedArrayField he h => by
      obtain ⟨c, rfl⟩ := fixedArrayTag_eq h
      simp only [Tag.field, OkDecl]
      exact okTy_array (containable_notList he)
  | _, .arrayOfRecords hl h => by
      obtain ⟨c, rfl⟩ := arrayOfRecordsTag_eq h
      simp only [Tag.field, OkDecl, OkTy]
      exact ok_spelledList hl
  | _, .fixedStringField h => by
      obtain ⟨c, rfl⟩ := fixedStringTag_eq h
      simp only [Tag.field, OkDecl, OkTy]
      intro w hw; cases hw; rfl
  | _, .cArrField _ h => by
      obtain ⟨-, c, rfl⟩ := cArrTag_eq h
      simp only [Tag.field, OkDecl, OkTy]
      intro w hw; cases hw; rfl
  | _, .cStrField h => by
      obtain ⟨c, rfl⟩ := cStrTag_eq h
      simp only [Tag.field, OkDecl, OkTy]
      intro w hw; cases hw
      simp only [Ty.sizeof]
      show _ = (_ + 1) * 1
      omega
  | _, .magicByteArray => by
      simp only [Tag.field, magicByteArrayTag, OkDecl, OkTy]
      intro w hw
      obtain rfl := Size.bytes.inj hw
      show _ = _ * 1
      omega
  | _, .magicString => by
      simp only [Tag.field, magicStringTag, OkDecl, OkTy]
      intro w hw; cases hw; rfl
  | _, .magicNumber h => by
      obtain ⟨-, rfl⟩ := magicNumberTag_eq h
      simp only [Tag.field, OkDecl, OkTy]
  | _, .vecField hl h => by
      obtain ⟨s, c, b, rfl, -⟩ := containerTag_eq h
      simp only [Tag.field, OkDecl]
      exact okTy_vector fun ds hds => ok_spelledList (hl ds hds)
  | _, .strField h => by
      obtain ⟨s, c, b, rfl, -⟩ := containerTag_eq h
      simp only [Tag.field, OkDecl, OkTy]
  | _, .structField hl h => by
      obtain ⟨c, rfl⟩ := structTag_eq h
      simp only [Tag.field, OkDecl, OkTy]
      exact ok_spelledList hl
  | _, .maybe hb h => by
      have := ok_spelled hb
      obtain ⟨id, t, s, b, rfl, rfl⟩ := maybeOf_eq h
      simp only [OkDecl] at this ⊢
      exact this
  | _, .variance hk h => by
      obtain ⟨h1, -, -, c, rfl⟩ := variance_eq h
      simp only [OkDecl]
      exact ⟨h1, OkCases_iff.2 fun k hm => ok_spelledCase (hk k hm)⟩
theorem ok_spelledCase {I cfg tid} :
    ∀ {k}, SpelledCase I cfg tid k → match k with | .mk _ t s _ _ => OkTy I t s
  | _, .asTrivial (t := t) ht h => by
      obtain ⟨s, c, rfl, -⟩ := scalarTag_eq h
      simp only [Tag.case]
      cases t <;> first | simp only [OkTy]; done | cases ht
  | _, .asStruct hl h => by
      obtain ⟨c, rfl⟩ := structTag_eq h
      simp only [Tag.case, OkTy]
      exact ok_spelledList hl
  | _, .asFixedArr he h => by
      obtain ⟨c, rfl⟩ := fixedArrayTag_eq h
      simp only [Tag.case]
      exact okTy_array (arithmetic_notList he)
  | _, .asFixedString h => by
      obtain ⟨c, rfl⟩ := fixedStringTag_eq h
      simp only [Tag.case, OkTy]
      intro w hw; cases hw; rfl
  | _, .asVec he h => by
      obtain ⟨s, c, b, rfl, -⟩ := containerTag_eq h
      simp only [Tag.case]
      exact okTy_vector fun ds hds => by subst hds; cases he
  | _, .asString h => by
      obtain ⟨s, c, b, rfl, -⟩ := containerTag_eq h
      simp only [Tag.case, OkTy]
  | _, .asArrOfRecords hl h => by
      obtain ⟨c, rfl⟩ := arrayOfRecordsTag_eq h
      simp only [Tag.case, OkTy]
      exact ok_spelledList hl
  | _, .asVecOfRecords hl h => by
      obtain ⟨s, c, b, rfl, -⟩ := containerTag_eq h
      simp only [Tag.case, OkTy]
      exact ok_spelledList hl
theorem ok_spelledList {I cfg tid} : ∀ {ds}, SpelledList I cfg tid ds → OkDecls I ds
  | _, .mk h _ => OkDecls_iff.2 fun d hd => ok_spelled (h d hd)
end

/-! ### The schema exists -/

theorem elabElem_some : ∀ {e : Ty}, e.isArithmetic = true ∨ e.isFixedArray = true ∨ e.isCArray = true →
    solidElem e = true → ∃ x, elabElem e = some x ∧ 0 < x.size
  | .int t, _, h => ⟨.scalar t, rfl, of_decide_eq_true h⟩
  | .float n, _, h => ⟨.scalar (bitsOf n), rfl, of_decide_eq_true h⟩
  | .fixedString _, h, _ => by rcases h with h | h | h <;> cases h
  | .vector _, h, _ => by rcases h with h | h | h <;> cases h
  | .string, h, _ => by rcases h with h | h | h <;> cases h
  | .fieldList _, h, _ => by rcases h with h | h | h <;> cases h
  | .other _, h, _ => by rcases h with h | h | h <;> cases h
  | .array e n, h, h2 => by
      have he : e.isArithmetic = true ∨ e.isFixedArray = true ∨ e.isCArray = true := by
        rcases h with h | h | h
        · cases h
        · rw [Ty.isFixedArray, Bool.or_eq_true] at h
          exact h.imp_right .inl
        · cases h
      rw [solidElem, Bool.and_eq_true, decide_eq_true_iff] at h2
      obtain ⟨x, hx, hpos⟩ := elabElem_some he h2.2
      refine ⟨.arr x n, ?_, ?_⟩
      · rw [elabElem, if_neg (by omega), hx]; rfl
      · exact Nat.mul_pos h2.1 hpos
  | .carray e n, h, h2 => by
      have he : e.isArithmetic = true ∨ e.isFixedArray = true ∨ e.isCArray = true := by
        rcases h with h | h | h
        · cases h
        · cases h
        · rw [Ty.isCArray, Bool.or_eq_true] at h
          exact h.imp_right .inr
      rw [solidElem, Bool.and_eq_true, decide_eq_true_iff] at h2
      obtain ⟨x, hx, hpos⟩ := elabElem_some he h2.2
      refine ⟨.arr x n, ?_, ?_⟩
      · rw [elabElem, if_neg (by omega), hx]; rfl
      · exact Nat.mul_pos h2.1 hpos

theorem labelsOf_some {ks : List Case} (h : ks.all (fun k => k.cond.isLabel) = true) :
    ∃ ls, labelsOf ks = some ls ∧ ls.length = ks.length := by
  induction ks with
  | nil => exact ⟨[], rfl, rfl⟩
  | cons k ks ih =>
    rw [List.all_cons, Bool.and_eq_true] at h
    obtain ⟨ls, h1, h2⟩ := ih h.2
    obtain ⟨k, t, s, c, b⟩ := k
    cases k with
    | label t v => exact ⟨(t, v) :: ls, by simp [labelsOf, h1], by simp [h2]⟩
    | when p => cases h.1

theorem predsOf_some {ks : List Case} (h : ks.all (fun k => !k.cond.isLabel) = true) :
    ∃ ps, predsOf ks = some ps ∧ ps.length = ks.length := by
  induction ks with
  | nil => exact ⟨[], rfl, rfl⟩
  | cons k ks ih =>
    rw [List.all_cons, Bool.and_eq_true] at h
    obtain ⟨ls, h1, h2⟩ := ih h.2
    obtain ⟨k, t, s, c, b⟩ := k
    cases k with
    | label t v => cases h.1
    | when p => exact ⟨p :: ls, by simp [predsOf, h1], by simp [h2]⟩

theorem matchable_of_int {ctx : List Decl} {id : String} {t : ScalarTy}
    (h : intField? ctx id = some t) : matchable? ctx id = some t := by
  unfold intField? at h
  unfold matchable?
  split at h
  · rename_i h'
    rw [h']
    exact h
  · cases h

/-- A number that is an integer or an optional one is an integer. -/
theorem int_of_number {ctx : List Decl} {id : String} {t : ScalarTy}
    (h : isNumber ctx id = true) (hm : matchable? ctx id = some t) : intField? ctx id = some t := by
  unfold isNumber at h
  unfold matchable? at hm
  unfold intField?
  cases hf : ctx.find? fun d => d.id == id with
  | none => rw [hf] at h; cases h
  | some d =>
    rw [hf] at h hm
    cases d with
    | field i t s c b => cases t <;> first | exact hm | cases hm
    | _ => cases h

theorem elabGuide_some {ctx : List Decl} {g : Guide} {ks : List Case}
    (h : wholeGuide ctx g = true) (hk : typeDeductionLike g ks = true) :
    ∃ d, elabGuide ctx ks g = some d ∧ arity d = ks.length := by
  cases g with
  | matchField id =>
    simp only [typeDeductionLike, Bool.and_eq_true] at hk
    obtain ⟨ls, h1, h2⟩ := labelsOf_some hk.2
    rw [wholeGuide, Option.isSome_iff_exists] at h
    obtain ⟨t, ht⟩ := h
    exact ⟨.matchField id t ls, by simp [elabGuide, ht, h1], h2⟩
  | matchCompute c r =>
    simp only [typeDeductionLike, Bool.and_eq_true] at hk
    obtain ⟨ls, h1, h2⟩ := labelsOf_some hk.2
    exact ⟨.matchCompute c r ls, by simp [elabGuide, h1], h2⟩
  | ladder =>
    simp only [typeDeductionLike, Bool.and_eq_true] at hk
    obtain ⟨ls, h1, h2⟩ := predsOf_some hk.2
    exact ⟨.ladder ls, by simp [elabGuide, h1], h2⟩

theorem elabCArray_some {I : Impl} {use : Use} {e : Ty} {n : Nat} {s : Size}
    {b : Option Nat} (ho : OkTy I (.carray e n) s) (hc : castsTy use (.carray e n) s = true)
    (hs : solidTy (.carray e n) = true) :
    ∃ k, elabKind I (.carray e n) s b = some k ∧ saneKind k = true := by
  rw [castsTy] at hc
  rw [solidTy] at hs
  rw [OkTy] at ho
  simp only [Bool.and_eq_true, Bool.or_eq_true] at hc
  obtain ⟨x, hx, -⟩ := elabElem_some (hc.1.1.2.imp_right .inr) hs
  cases s with
  | bytes w => exact ⟨.fbuf x n, by rw [elabKind, if_pos (ho w rfl), hx]; rfl, by simp only [saneKind]⟩
  | _ => cases hc.1.1.1

theorem elabArray_some {I : Impl} {use : Use} {e : Ty} {n : Nat} {s : Size}
    {b : Option Nat} (he : e.fieldListLike = false)
    (ho : OkTy I (.array e n) s) (hc : castsTy use (.array e n) s = true)
    (hs : solidTy (.array e n) = true) :
    ∃ k, elabKind I (.array e n) s b = some k ∧ saneKind k = true := by
  have hn : ∀ ds, e = .fieldList ds → False := fun ds h => by subst h; cases he
  rw [castsTy] at hc
  rw [solidTy] at hs
  rw [OkTy] at ho
  all_goals first | exact hn | skip
  simp only [Bool.and_eq_true, Bool.or_eq_true] at hc
  obtain ⟨x, hx, -⟩ := elabElem_some (hc.1.2.imp_right .inl) hs
  cases s with
  | bytes w =>
    exact ⟨.fbuf x n, by rw [elabKind, if_pos (ho w rfl), hx]; rfl; exact hn, by simp only [saneKind]⟩
  | _ => cases hc.1.1

theorem elabVector_some {I : Impl} {use : Use} {e : Ty} {s : Size}
    {b : Option Nat} (he : e.fieldListLike = false) (hc : castsTy use (.vector e) s = true)
    (hs : solidTy (.vector e) = true) :
    ∃ k, elabKind I (.vector e) s b = some k ∧ saneKind k = true := by
  have hn : ∀ ds, e = .fieldList ds → False := fun ds h => by subst h; cases he
  by_cases hb : e = .int .bool
  · subst hb
    rw [castsTy, Bool.and_eq_true] at hc
    cases s with
    | var l => exact ⟨.vec (.scalar .bool) l b, by simp [elabKind, elabElem], by simp [saneKind, ElemTy.size, ScalarTy.size]⟩
    | _ => cases hc.1
  rw [castsTy] at hc
  rw [solidTy] at hs
  all_goals first | exact hn | exact hb | skip
  simp only [Bool.and_eq_true, Bool.or_eq_true] at hc
  obtain ⟨x, hx, hpos⟩ := elabElem_some (hc.1.2.imp_right .inl) hs
  cases s with
  | var l =>
    exact ⟨.vec x l b, by rw [elabKind, hx]; rfl; exact hn, by
      simp only [saneKind, decide_eq_true_iff]; exact hpos⟩
  | _ => cases hc.1.1

mutual
theorem elabTy_some {I : Impl} (hI : I.Sound) {use : Use} :
    (t : Ty) → (s : Size) → (b : Option Nat) → OkTy I t s → castsTy use t s = true →
    solidTy t = true → wholeTy t = true → ∃ k, elabKind I t s b = some k ∧ saneKind k = true
  | .fieldList ds, s, b, ho, hc, hs, hw => by
      rw [OkTy] at ho
      rw [castsTy] at hc
      rw [solidTy] at hs
      rw [wholeTy] at hw
      obtain ⟨fs, h1, h2⟩ := elabDecls_some hI ds ds ho hc hs hw
      exact ⟨.record fs, by rw [elabKind, h1]; rfl, by rw [saneKind]; exact h2⟩
  | .array (.fieldList ds) n, s, b, ho, hc, hs, hw => by
      rw [OkTy] at ho
      rw [castsTy] at hc
      rw [solidTy] at hs
      rw [wholeTy] at hw
      obtain ⟨fs, h1, h2⟩ := elabDecls_some hI ds ds ho hc hs hw
      exact ⟨.arrRec fs n, by rw [elabKind, h1]; rfl, by rw [saneKind]; exact h2⟩
  | .vector (.fieldList ds), s, b, ho, hc, hs, hw => by
      rw [OkTy] at ho
      rw [castsTy, Bool.and_eq_true] at hc
      rw [solidTy] at hs
      rw [wholeTy] at hw
      obtain ⟨fs, h1, h2⟩ := elabDecls_some hI ds ds ho hc.2 hs hw
      cases s with
      | var l =>
        exact ⟨.vecRec fs l b (I.recordSize ds), by rw [elabKind, h1]; rfl, by
          rw [saneKind, Bool.and_eq_true, decide_eq_true_iff]; exact ⟨hI.record ds, h2⟩⟩
      | _ => cases hc.1
  | .int t, s, b, _, hc, _, hw => by
      rw [castsTy] at hc
      cases s with
      | bytes w => exact ⟨.num t w, by rw [elabKind], rfl⟩
      | _ => cases hc
  | .float n, s, b, _, hc, _, hw => by
      rw [castsTy, Bool.and_eq_true] at hc
      cases s with
      | bytes w => exact ⟨.num (bitsOf n) w, by rw [elabKind], rfl⟩
      | _ => cases hc.1
  | .fixedString n, s, b, ho, hc, _, hw => by
      rw [castsTy] at hc
      rw [OkTy] at ho
      cases s with
      | bytes w => exact ⟨.fstr n, by rw [elabKind, if_pos (ho w rfl)], rfl⟩
      | _ => cases hc
  | .string, s, b, _, hc, _, hw => by
      rw [castsTy] at hc
      cases s with
      | var l => exact ⟨.vec (.scalar u8) l b, by rw [elabKind], rfl⟩
      | _ => cases hc
  | .other _, s, b, _, hc, _, hw => by
      rw [castsTy] at hc; cases hc
  | .carray e n, s, b, ho, hc, hs, hw => elabCArray_some ho hc hs
  | .array (.int t) n, s, b, ho, hc, hs, hw => elabArray_some rfl ho hc hs
  | .array (.float m) n, s, b, ho, hc, hs, hw => elabArray_some rfl ho hc hs
  | .array (.fixedString m) n, s, b, ho, hc, hs, hw => elabArray_some rfl ho hc hs
  | .array (.array e m) n, s, b, ho, hc, hs, hw => elabArray_some rfl ho hc hs
  | .array (.carray e m) n, s, b, ho, hc, hs, hw => elabArray_some rfl ho hc hs
  | .array (.vector e) n, s, b, ho, hc, hs, hw => elabArray_some rfl ho hc hs
  | .array .string n, s, b, ho, hc, hs, hw => elabArray_some rfl ho hc hs
  | .array (.other m) n, s, b, ho, hc, hs, hw => elabArray_some rfl ho hc hs
  | .vector (.int t), s, b, ho, hc, hs, hw => elabVector_some rfl hc hs
  | .vector (.float m), s, b, ho, hc, hs, hw => elabVector_some rfl hc hs
  | .vector (.fixedString m), s, b, ho, hc, hs, hw => elabVector_some rfl hc hs
  | .vector (.array e m), s, b, ho, hc, hs, hw => elabVector_some rfl hc hs
  | .vector (.carray e m), s, b, ho, hc, hs, hw => elabVector_some rfl hc hs
  | .vector (.vector e), s, b, ho, hc, hs, hw => elabVector_some rfl hc hs
  | .vector .string, s, b, ho, hc, hs, hw => elabVector_some rfl hc hs
  | .vector (.other m), s, b, ho, hc, hs, hw => elabVector_some rfl hc hs
termination_by structural t => t
theorem elabDecl_some {I : Impl} (hI : I.Sound) {use : Use} (ctx : List Decl) :
    (d : Decl) → OkDecl I d → castsDecl use ctx d = true → solidDecl d = true → wholeDecl ctx d = true →
    ∃ f, elabDecl I ctx d = some f ∧ saneField f = true
  | .field id t s c b, ho, hc, hs, hw => by
      rw [OkDecl] at ho
      rw [castsDecl, Bool.and_eq_true] at hc
      rw [solidDecl] at hs
      rw [wholeDecl, Bool.and_eq_true] at hw
      obtain ⟨k, h1, h2⟩ := elabTy_some hI t s b ho hc.1 hs hw.1
      exact ⟨.plain id k c, by rw [elabDecl, h1]; rfl, by rw [saneField]; exact h2⟩
  | .maybe id t s c b p, ho, hc, hs, hw => by
      rw [OkDecl] at ho
      simp only [castsDecl, Bool.and_eq_true] at hc
      rw [solidDecl] at hs
      rw [wholeDecl, Bool.and_eq_true] at hw
      obtain ⟨k, h1, h2⟩ := elabTy_some hI t s b ho hc.1.1 hs hw.1
      exact ⟨.maybe id k p, by rw [elabDecl, h1]; rfl, by rw [saneField]; exact h2⟩
  | .union id g ks c, ho, hc, hs, hw => by
      rw [OkDecl] at ho
      rw [castsDecl, Bool.and_eq_true] at hc
      rw [solidDecl] at hs
      rw [wholeDecl, Bool.and_eq_true] at hw
      obtain ⟨d, h1, h2⟩ := elabGuide_some hw.1 ho.1
      obtain ⟨alts, h3, h4, h5⟩ := elabCases_some hI ctx ks ho.2 hc.2 hs hw.2
      exact ⟨.union id d alts c, by rw [elabDecl, h1, Option.bind_some, h3]; rfl, by
        rw [saneField, Bool.and_eq_true, decide_eq_true_iff]; exact ⟨h2.trans h5.symm, h4⟩⟩
  | .other _, _, hc, _, _ => by rw [castsDecl] at hc; cases hc
termination_by structural d => d
theorem elabCases_some {I : Impl} (hI : I.Sound) {use : Use} (ctx : List Decl) :
    (ks : List Case) → OkCases I ks → castsCases use ctx ks = true → solidCases ks = true →
    wholeCases ctx ks = true →
    ∃ alts, elabCases I ks = some alts ∧ saneAlts alts = true ∧ alts.length = ks.length
  | [], _, _, _, _ => ⟨[], by rw [elabCases], by rw [saneAlts], rfl⟩
  | .mk k t s c b :: ks, ho, hc, hs, hw => by
      rw [OkCases] at ho
      simp only [castsCases, Bool.and_eq_true] at hc
      rw [solidCases, Bool.and_eq_true] at hs
      simp only [wholeCases, Bool.and_eq_true] at hw
      obtain ⟨x, h1, h2⟩ := elabTy_some hI t s b ho.1 hc.1.1.1 hs.1 hw.1.1
      obtain ⟨alts, h3, h4, h5⟩ := elabCases_some hI ctx ks ho.2 hc.2 hs.2 hw.2
      exact ⟨.mk x c :: alts, by rw [elabCases, h1, Option.bind_some, h3]; rfl, by
        rw [saneAlts, Bool.and_eq_true]; exact ⟨h2, h4⟩, by simp [h5]⟩
termination_by structural ks => ks
theorem elabDecls_some {I : Impl} (hI : I.Sound) {use : Use} (ctx : List Decl) :
    (ds : List Decl) → OkDecls I ds → castsDecls use ctx ds = true → solidDecls ds = true →
    wholeDecls ctx ds = true →
    ∃ fs, elabDecls I ctx ds = some fs ∧ saneFields fs = true
  | [], _, _, _, _ => ⟨[], by rw [elabDecls], by rw [saneFields]⟩
  | d :: ds, ho, hc, hs, hw => by
      rw [OkDecls] at ho
      rw [castsDecls, Bool.and_eq_true] at hc
      rw [solidDecls, Bool.and_eq_true] at hs
      rw [wholeDecls, Bool.and_eq_true] at hw
      obtain ⟨f, h1, h2⟩ := elabDecl_some hI ctx d ho.1 hc.1 hs.1 hw.1
      obtain ⟨fs, h3, h4⟩ := elabDecls_some hI ctx ds ho.2 hc.2 hs.2 hw.2
      exact ⟨f :: fs, by rw [elabDecls, h1, Option.bind_some, h3]; rfl, by
        rw [saneFields, Bool.and_eq_true]; exact ⟨h2, h4⟩⟩
termination_by structural ds => ds
end

/-! ### Names -/

theorem elabDecl_id {I : Impl} {ctx : List Decl} {d : Decl} {f : Field}
    (h : elabDecl I ctx d = some f) : f.id = d.id := by
  cases d with
  | field id t s c b =>
    rw [elabDecl, Option.map_eq_some_iff] at h
    obtain ⟨k, -, rfl⟩ := h; rfl
  | maybe id t s c b p =>
    rw [elabDecl, Option.map_eq_some_iff] at h
    obtain ⟨k, -, rfl⟩ := h; rfl
  | union id g ks c =>
    rw [elabDecl, Option.bind_eq_some_iff] at h
    obtain ⟨d, -, h⟩ := h
    rw [Option.map_eq_some_iff] at h
    obtain ⟨k, -, rfl⟩ := h; rfl
  | other t => rw [elabDecl] at h; cases h

theorem elabDecls_cons {I : Impl} {ctx ds : List Decl} {d : Decl} {fs : List Field}
    (h : elabDecls I ctx (d :: ds) = some fs) :
    ∃ f gs, fs = f :: gs ∧ elabDecl I ctx d = some f ∧ elabDecls I ctx ds = some gs := by
  rw [elabDecls, Option.bind_eq_some_iff] at h
  obtain ⟨f, h1, h⟩ := h
  rw [Option.map_eq_some_iff] at h
  obtain ⟨gs, h2, rfl⟩ := h
  exact ⟨f, gs, rfl, h1, h2⟩

theorem elabDecls_ids {I : Impl} {ctx ds : List Decl} {fs : List Field}
    (h : elabDecls I ctx ds = some fs) : fs.map Field.id = ds.map Decl.id := by
  induction ds generalizing fs with
  | nil => rw [elabDecls] at h; cases h; rfl
  | cons d ds ih =>
    obtain ⟨f, gs, rfl, h1, h2⟩ := elabDecls_cons h
    rw [List.map_cons, List.map_cons, elabDecl_id h1, ih h2]

theorem elabDecls_mem {I : Impl} {ctx ds : List Decl} {fs : List Field}
    (h : elabDecls I ctx ds = some fs) : ∀ f ∈ fs, ∃ d ∈ ds, elabDecl I ctx d = some f := by
  induction ds generalizing fs with
  | nil => rw [elabDecls] at h; cases h; simp
  | cons d ds ih =>
    obtain ⟨f, gs, rfl, h1, h2⟩ := elabDecls_cons h
    intro g hg
    rcases List.mem_cons.1 hg with rfl | hg
    · exact ⟨d, .head _, h1⟩
    · obtain ⟨d', hd, h'⟩ := ih h2 g hg
      exact ⟨d', .tail _ hd, h'⟩

theorem elabDecls_has {I : Impl} {ctx ds : List Decl} {fs : List Field}
    (h : elabDecls I ctx ds = some fs) : ∀ d ∈ ds, ∃ f ∈ fs, elabDecl I ctx d = some f := by
  induction ds generalizing fs with
  | nil => simp
  | cons d ds ih =>
    obtain ⟨f, gs, rfl, h1, h2⟩ := elabDecls_cons h
    intro g hg
    rcases List.mem_cons.1 hg with rfl | hg
    · exact ⟨f, .head _, h1⟩
    · obtain ⟨d', hd, h'⟩ := ih h2 g hg
      exact ⟨d', .tail _ hd, h'⟩

theorem castsDecls_iff {use : Use} {ctx ds : List Decl} :
    castsDecls use ctx ds = true ↔ ∀ d ∈ ds, castsDecl use ctx d = true := by
  induction ds with
  | nil => simp [castsDecls]
  | cons d ds ih => simp [castsDecls, ih]

theorem wholeDecls_iff {ctx ds : List Decl} :
    wholeDecls ctx ds = true ↔ ∀ d ∈ ds, wholeDecl ctx d = true := by
  induction ds with
  | nil => simp [wholeDecls]
  | cons d ds ih => simp [wholeDecls, ih]

theorem hasScalar_of_int {I : Impl} {ctx : List Decl} {fs : List Field} {id : String} {t : ScalarTy}
    (h : elabDecls I ctx ctx = some fs) (hi : intField? ctx id = some t) :
    HasScalar fs id fun t' _ => t' = t := by
  unfold intField? at hi
  split at hi
  · rename_i id' t' s c b hfind
    cases hi
    obtain ⟨f, hf, he⟩ := elabDecls_has h _ (List.mem_of_find?_eq_some hfind)
    have hid := List.find?_some hfind
    rw [elabDecl, Option.map_eq_some_iff] at he
    obtain ⟨k, hk, rfl⟩ := he
    refine ⟨_, hf, ?_⟩
    cases s with
    | bytes w =>
      simp only [elabKind] at hk
      cases hk
      exact ⟨by simpa [Decl.id] using hid, rfl⟩
    | _ => simp only [elabKind] at hk; cases hk
  · cases hi

theorem HasScalar.mono {fs : List Field} {id : String} {p q : ScalarTy → Nat → Prop}
    (h : HasScalar fs id p) (hpq : ∀ t w, p t w → q t w) : HasScalar fs id q := by
  obtain ⟨f, hf, h⟩ := h
  refine ⟨f, hf, ?_⟩
  split at h
  · exact ⟨h.1, hpq _ _ h.2⟩
  · exact h

theorem elabKind_lenTarget {I : Impl} {t : Ty} {s : Size} {b : Option Nat} {k : Kind} {id : String}
    (h : elabKind I t s b = some k) (ht : k.lenTarget? = some id) : s = .var (.fromField id) := by
  have key : ∀ l, k.lenSpec? = some l → s = .var l := by
    intro l hl
    unfold elabKind at h
    split at h
    all_goals (try simp only [Option.map_eq_some_iff] at h)
    all_goals (try split at h)
    all_goals (try simp only [Option.map_eq_some_iff] at h)
    all_goals (try (obtain ⟨x, -, rfl⟩ := h))
    all_goals (try cases h)
    all_goals (first | (simp only [Kind.lenSpec?, Option.some.injEq] at hl; rw [hl]) | cases hl)
  cases hs : k.lenSpec? with
  | none => simp [Kind.lenTarget?, hs] at ht
  | some l =>
    rw [key l hs]
    cases l <;> simp [Kind.lenTarget?, hs] at ht
    rw [ht]

theorem hasScalar_of_len {I : Impl} {ctx : List Decl} {fs : List Field} {t : Ty} {s : Size}
    {b : Option Nat} {k : Kind} {id : String} (h : elabDecls I ctx ctx = some fs)
    (hk : elabKind I t s b = some k) (hl : wholeLen ctx s = true) (ht : k.lenTarget? = some id) :
    HasScalar fs id fun _ _ => True := by
  have := elabKind_lenTarget hk ht
  subst this
  rw [wholeLen, Option.isSome_iff_exists] at hl
  obtain ⟨t', ht'⟩ := hl
  exact HasScalar.mono (hasScalar_of_int h ht') fun _ _ _ => trivial

theorem elabCases_cons {I : Impl} {k : Cond} {t : Ty} {s : Size} {c : Constraint} {b : Option Nat}
    {ks : List Case} {alts : List Alt} (h : elabCases I (.mk k t s c b :: ks) = some alts) :
    ∃ x as, alts = .mk x c :: as ∧ elabKind I t s b = some x ∧ elabCases I ks = some as := by
  rw [elabCases, Option.bind_eq_some_iff] at h
  obtain ⟨x, h1, h⟩ := h
  rw [Option.map_eq_some_iff] at h
  obtain ⟨gs, h2, rfl⟩ := h
  exact ⟨x, gs, rfl, h1, h2⟩

theorem hasScalar_of_cases {I : Impl} {ctx : List Decl} {fs : List Field}
    {ks : List Case} {alts : List Alt} {id : String} (h : elabDecls I ctx ctx = some fs)
    (hk : elabCases I ks = some alts) (hc : wholeCases ctx ks = true)
    (hid : id ∈ alts.flatMap fun a => a.kind.lenTarget?.toList) :
    HasScalar fs id fun _ _ => True := by
  induction ks generalizing alts with
  | nil => rw [elabCases] at hk; cases hk; simp at hid
  | cons k ks ih =>
    obtain ⟨k, t, s, c, b⟩ := k
    obtain ⟨x, as, rfl, h1, h2⟩ := elabCases_cons hk
    simp only [wholeCases, Bool.and_eq_true] at hc
    rw [List.flatMap_cons, List.mem_append] at hid
    rcases hid with hid | hid
    · exact hasScalar_of_len h h1 hc.1.2 (by simpa [Alt.kind] using hid)
    · exact ih h2 hc.2 hid

theorem resolves_of_casts {I : Impl} {use : Use} (hw : use.write = true) {ds : List Decl}
    {fs : List Field} (h : elabDecls I ds ds = some fs) (hc : castsDecls use ds ds = true)
    (hx : wholeDecls ds ds = true) :
    Resolves fs := by
  intro f hf
  obtain ⟨d, hd, he⟩ := elabDecls_mem h f hf
  have hcd := castsDecls_iff.1 hc d hd
  have hxd := wholeDecls_iff.1 hx d hd
  cases d with
  | field id t s c b =>
    rw [elabDecl, Option.map_eq_some_iff] at he
    obtain ⟨k, hk, rfl⟩ := he
    rw [wholeDecl, Bool.and_eq_true] at hxd
    exact ⟨fun id hid => hasScalar_of_len h hk hxd.2 (by simpa [lengthTargets] using hid), trivial⟩
  | maybe id t s c b p =>
    rw [elabDecl, Option.map_eq_some_iff] at he
    obtain ⟨k, hk, rfl⟩ := he
    rw [wholeDecl, Bool.and_eq_true] at hxd
    exact ⟨fun id hid => hasScalar_of_len h hk hxd.2 (by simpa [lengthTargets] using hid), trivial⟩
  | union id g ks c =>
    rw [elabDecl, Option.bind_eq_some_iff] at he
    obtain ⟨d, hg, he⟩ := he
    rw [Option.map_eq_some_iff] at he
    obtain ⟨alts, hk, rfl⟩ := he
    rw [castsDecl, Bool.and_eq_true] at hcd
    rw [wholeDecl, Bool.and_eq_true] at hxd
    refine ⟨fun id hid => hasScalar_of_cases h hk hxd.2 hid, ?_⟩
    cases g with
    | matchField i =>
      rw [guideOk, if_pos hw] at hcd
      rw [wholeGuide, Option.isSome_iff_exists] at hxd
      obtain ⟨t, hm⟩ := hxd.1
      have ht := int_of_number hcd.1 hm
      rw [elabGuide, hm, Option.bind_some, Option.map_eq_some_iff] at hg
      obtain ⟨ls, -, rfl⟩ := hg
      exact hasScalar_of_int h ht
    | matchCompute c r =>
      rw [elabGuide, Option.map_eq_some_iff] at hg
      obtain ⟨ls, -, rfl⟩ := hg
      trivial
    | ladder =>
      rw [elabGuide, Option.map_eq_some_iff] at hg
      obtain ⟨ls, -, rfl⟩ := hg
      trivial
  | other t => rw [castsDecl] at hcd; cases hcd

/-- No list of fields inside, as far as the casts go. -/
def Ty.flat : Ty → Bool
  | .fieldList _ => false
  | .array (.fieldList _) _ => false
  | .vector (.fieldList _) => false
  | _ => true

theorem everyKind_flat {I : Impl} {P : List Field → Prop} {t : Ty} {s : Size} {b : Option Nat} {k : Kind}
    (hf : t.flat = true) (h : elabKind I t s b = some k) :
    EveryKind P k := by
  unfold elabKind at h
  split at h
  · cases hf
  · cases hf
  · cases hf
  all_goals (try split at h)
  all_goals (try simp only [Option.map_eq_some_iff] at h)
  all_goals (try (obtain ⟨x, -, rfl⟩ := h))
  all_goals (try cases h)
  all_goals (rw [EveryKind]; trivial)

mutual
theorem everyTy_resolves {I : Impl} {use : Use} (hw : use.write = true) :
    (t : Ty) → (s : Size) → (b : Option Nat) → (k : Kind) → elabKind I t s b = some k →
    castsTy use t s = true → wholeTy t = true → EveryKind Resolves k
  | .fieldList ds, s, b, k, hk, hc, hx => by
      rw [elabKind, Option.map_eq_some_iff] at hk
      obtain ⟨fs, hk, rfl⟩ := hk
      rw [castsTy] at hc
      rw [wholeTy] at hx
      rw [EveryKind]
      exact ⟨resolves_of_casts hw hk hc hx, everyDecls_resolves hw ds ds fs hk hc hx⟩
  | .array (.fieldList ds) n, s, b, k, hk, hc, hx => by
      rw [elabKind, Option.map_eq_some_iff] at hk
      obtain ⟨fs, hk, rfl⟩ := hk
      rw [castsTy] at hc
      rw [wholeTy] at hx
      rw [EveryKind]
      exact ⟨resolves_of_casts hw hk hc hx, everyDecls_resolves hw ds ds fs hk hc hx⟩
  | .vector (.fieldList ds), s, b, k, hk, hc, hx => by
      cases s with
      | var l =>
        rw [elabKind, Option.map_eq_some_iff] at hk
        obtain ⟨fs, hk, rfl⟩ := hk
        rw [castsTy, Bool.and_eq_true] at hc
        rw [wholeTy] at hx
        rw [EveryKind]
        exact ⟨resolves_of_casts hw hk hc.2 hx, everyDecls_resolves hw ds ds fs hk hc.2 hx⟩
      | _ => simp only [elabKind] at hk; cases hk
  | .int t, s, b, k, hk, _, hx => everyKind_flat rfl hk
  | .float n, s, b, k, hk, _, hx => everyKind_flat rfl hk
  | .fixedString n, s, b, k, hk, _, hx => everyKind_flat rfl hk
  | .string, s, b, k, hk, _, hx => everyKind_flat rfl hk
  | .other _, s, b, k, hk, _, hx => everyKind_flat rfl hk
  | .carray _ _, s, b, k, hk, _, hx => everyKind_flat rfl hk
  | .array (.int t) n, s, b, k, hk, hc, hx => everyKind_flat rfl hk
  | .vector (.int t), s, b, k, hk, hc, hx => everyKind_flat rfl hk
  | .array (.float m) n, s, b, k, hk, hc, hx => everyKind_flat rfl hk
  | .vector (.float m), s, b, k, hk, hc, hx => everyKind_flat rfl hk
  | .array (.fixedString m) n, s, b, k, hk, hc, hx => everyKind_flat rfl hk
  | .vector (.fixedString m), s, b, k, hk, hc, hx => everyKind_flat rfl hk
  | .array (.array e m) n, s, b, k, hk, hc, hx => everyKind_flat rfl hk
  | .vector (.array e m), s, b, k, hk, hc, hx => everyKind_flat rfl hk
  | .array (.carray e m) n, s, b, k, hk, hc, hx => everyKind_flat rfl hk
  | .vector (.carray e m), s, b, k, hk, hc, hx => everyKind_flat rfl hk
  | .array (.vector e) n, s, b, k, hk, hc, hx => everyKind_flat rfl hk
  | .vector (.vector e), s, b, k, hk, hc, hx => everyKind_flat rfl hk
  | .array .string n, s, b, k, hk, hc, hx => everyKind_flat rfl hk
  | .vector .string, s, b, k, hk, hc, hx => everyKind_flat rfl hk
  | .array (.other m) n, s, b, k, hk, hc, hx => everyKind_flat rfl hk
  | .vector (.other m), s, b, k, hk, hc, hx => everyKind_flat rfl hk
termination_by structural t => t
theorem everyDecl_resolves {I : Impl} {use : Use} (hw : use.write = true) (ctx : List Decl) :
    (d : Decl) → (f : Field) → elabDecl I ctx d = some f → castsDecl use ctx d = true →
    wholeDecl ctx d = true →
    EveryField Resolves f
  | .field id t s c b, f, h, hc, hx => by
      rw [elabDecl, Option.map_eq_some_iff] at h
      obtain ⟨k, hk, rfl⟩ := h
      rw [castsDecl, Bool.and_eq_true] at hc
      rw [wholeDecl, Bool.and_eq_true] at hx
      rw [EveryField]
      exact everyTy_resolves hw t s b k hk hc.1 hx.1
  | .maybe id t s c b p, f, h, hc, hx => by
      rw [elabDecl, Option.map_eq_some_iff] at h
      obtain ⟨k, hk, rfl⟩ := h
      simp only [castsDecl, Bool.and_eq_true] at hc
      rw [wholeDecl, Bool.and_eq_true] at hx
      rw [EveryField]
      exact everyTy_resolves hw t s b k hk hc.1.1 hx.1
  | .union id g ks c, f, h, hc, hx => by
      rw [elabDecl, Option.bind_eq_some_iff] at h
      obtain ⟨d, hg, h⟩ := h
      rw [Option.map_eq_some_iff] at h
      obtain ⟨alts, hk, rfl⟩ := h
      rw [castsDecl, Bool.and_eq_true] at hc
      rw [wholeDecl, Bool.and_eq_true] at hx
      rw [EveryField]
      exact everyCases_resolves hw ctx ks alts hk hc.2 hx.2
  | .other _, f, h, hc, hx => by rw [castsDecl] at hc; cases hc
termination_by structural d => d
theorem everyCases_resolves {I : Impl} {use : Use} (hw : use.write = true) (ctx : List Decl) :
    (ks : List Case) → (alts : List Alt) → elabCases I ks = some alts →
    castsCases use ctx ks = true → wholeCases ctx ks = true → EveryAlts Resolves alts
  | [], alts, h, _, hx => by rw [elabCases] at h; cases h; rw [EveryAlts]; trivial
  | .mk k t s c b :: ks, alts, h, hc, hx => by
      obtain ⟨x, as, rfl, h1, h2⟩ := elabCases_cons h
      simp only [castsCases, Bool.and_eq_true] at hc
      simp only [wholeCases, Bool.and_eq_true] at hx
      rw [EveryAlts]
      exact ⟨everyTy_resolves hw t s b x h1 hc.1.1.1 hx.1.1, everyCases_resolves hw ctx ks as h2 hc.2 hx.2⟩
termination_by structural ks => ks
theorem everyDecls_resolves {I : Impl} {use : Use} (hw : use.write = true) (ctx : List Decl) :
    (ds : List Decl) → (fs : List Field) → elabDecls I ctx ds = some fs →
    castsDecls use ctx ds = true → wholeDecls ctx ds = true → EveryFields Resolves fs
  | [], fs, h, _, hx => by rw [elabDecls] at h; cases h; rw [EveryFields]; trivial
  | d :: ds, fs, h, hc, hx => by
      obtain ⟨f, gs, rfl, h1, h2⟩ := elabDecls_cons h
      rw [castsDecls, Bool.and_eq_true] at hc
      rw [wholeDecls, Bool.and_eq_true] at hx
      rw [EveryFields]
      exact ⟨everyDecl_resolves hw ctx d f h1 hc.1 hx.1, everyDecls_resolves hw ctx ds gs h2 hc.2 hx.2⟩
termination_by structural ds => ds
end

theorem eq_of_id {ds : List Decl} (hn : (ds.map Decl.id).Nodup) {d e : Decl} (hd : d ∈ ds)
    (he : e ∈ ds) (h : d.id = e.id) : d = e := by
  induction ds with
  | nil => cases hd
  | cons a ds ih =>
    rw [List.map_cons, List.nodup_cons] at hn
    rcases List.mem_cons.1 hd with rfl | hd' <;> rcases List.mem_cons.1 he with rfl | he'
    · rfl
    · exact absurd (List.mem_map.2 ⟨_, he', h.symm⟩) hn.1
    · exact absurd (List.mem_map.2 ⟨_, hd', h⟩) hn.1
    · exact ih hn.2 hd' he'

/-! ### Nested lists -/

theorem everyField_flat {I : Impl} {ctx : List Decl} {P : List Field → Prop} {id : String} {g : Tag}
    {f : Field} (hf : g.t.flat = true) (h : elabDecl I ctx (g.field id) = some f) : EveryField P f := by
  rw [Tag.field, elabDecl, Option.map_eq_some_iff] at h
  obtain ⟨k, hk, rfl⟩ := h
  rw [EveryField]
  exact everyKind_flat hf hk

theorem everyAlts_of_mem {P : List Field → Prop} {alts : List Alt}
    (h : ∀ a ∈ alts, EveryKind P a.kind) : EveryAlts P alts := by
  induction alts with
  | nil => rw [EveryAlts]; trivial
  | cons a alts ih =>
    obtain ⟨k, c⟩ := a
    rw [EveryAlts]
    exact ⟨h _ (.head _), ih fun a ha => h a (.tail _ ha)⟩

theorem everyFields_of_mem {P : List Field → Prop} {fs : List Field}
    (h : ∀ f ∈ fs, EveryField P f) : EveryFields P fs := by
  induction fs with
  | nil => rw [EveryFields]; trivial
  | cons a alts ih =>
    rw [EveryFields]
    exact ⟨h _ (.head _), ih fun a ha => h a (.tail _ ha)⟩

/-- The kind of a case. -/
def caseKind (I : Impl) : Case → Option Kind
  | .mk _ t s _ b => elabKind I t s b

theorem elabCases_mem {I : Impl} {ks : List Case} {alts : List Alt} (h : elabCases I ks = some alts) :
    ∀ a ∈ alts, ∃ k ∈ ks, caseKind I k = some a.kind := by
  induction ks generalizing alts with
  | nil => rw [elabCases] at h; cases h; simp
  | cons k ks ih =>
    obtain ⟨k, t, s, c, b⟩ := k
    obtain ⟨x, as, rfl, h1, h2⟩ := elabCases_cons h
    intro a ha
    rcases List.mem_cons.1 ha with rfl | ha
    · exact ⟨_, .head _, h1⟩
    · obtain ⟨k', hk, h'⟩ := ih h2 a ha
      exact ⟨k', .tail _ hk, h'⟩

mutual
theorem every_spelled {I cfg tid ctx} : ∀ {d}, Spelled I cfg tid d → ∀ f, elabDecl I ctx d = some f →
    EveryField (fun fs => ∃ ds, SpelledList I cfg tid ds ∧ elabDecls I ds ds = some fs) f
  | _, .basicField h, _, he => by
      obtain ⟨s, c, rfl, -⟩ := scalarTag_eq h
      exact everyField_flat rfl he
  | _, .fixedArrayField (e := e) hc h, _, he => by
      obtain ⟨c, rfl⟩ := fixedArrayTag_eq h
      exact everyField_flat (by cases e <;> first | rfl | cases hc) he
  | _, .arrayOfRecords hl h, _, he => by
      obtain ⟨c, rfl⟩ := arrayOfRecordsTag_eq h
      simp only [Tag.field, elabDecl, elabKind, Option.map_eq_some_iff] at he
      obtain ⟨k, ⟨fs, hk, rfl⟩, rfl⟩ := he
      rw [EveryField, EveryKind]
      exact ⟨⟨_, hl, hk⟩, every_spelledList hl _ hk⟩
  | _, .fixedStringField h, _, he => by
      obtain ⟨c, rfl⟩ := fixedStringTag_eq h
      exact everyField_flat rfl he
  | _, .cArrField _ h, _, he => by
      obtain ⟨-, c, rfl⟩ := cArrTag_eq h
      exact everyField_flat rfl he
  | _, .cStrField h, _, he => by
      obtain ⟨c, rfl⟩ := cStrTag_eq h
      exact everyField_flat rfl he
  | _, .magicByteArray, _, he => everyField_flat rfl he
  | _, .magicString, _, he => everyField_flat rfl he
  | _, .magicNumber h, _, he => by
      obtain ⟨-, rfl⟩ := magicNumberTag_eq h
      exact everyField_flat rfl he
  | _, .vecField (e := e) hl h, _, he => by
      have hrec := fun ds hds => every_spelledList (hl ds hds)
      obtain ⟨s, c, b, rfl, hs⟩ := containerTag_eq h
      cases hc : e.fieldListLike with
      | false => exact everyField_flat (by cases e <;> first | rfl | cases hc) he
      | true =>
        obtain ⟨ds, hds⟩ : ∃ ds, e = .fieldList ds := by
          cases e <;> first | exact ⟨_, rfl⟩ | cases hc
        have hl' := hl ds hds
        have hrec' := hrec ds hds
        subst hds
        cases s with
        | var l =>
          simp only [Tag.field, elabDecl, elabKind, Option.map_eq_some_iff] at he
          obtain ⟨k, ⟨fs, hk, rfl⟩, rfl⟩ := he
          rw [EveryField, EveryKind]
          exact ⟨⟨_, hl', hk⟩, hrec' _ hk⟩
        | _ => cases hs
  | _, .strField h, _, he => by
      obtain ⟨s, c, b, rfl, -⟩ := containerTag_eq h
      exact everyField_flat rfl he
  | _, .structField hl h, _, he => by
      obtain ⟨c, rfl⟩ := structTag_eq h
      simp only [Tag.field, elabDecl, elabKind, Option.map_eq_some_iff] at he
      obtain ⟨k, ⟨fs, hk, rfl⟩, rfl⟩ := he
      rw [EveryField, EveryKind]
      exact ⟨⟨_, hl, hk⟩, every_spelledList hl _ hk⟩
  | _, .maybe hb h, _, he => by
      have := every_spelled (ctx := ctx) hb
      obtain ⟨id, t, s, b, rfl, rfl⟩ := maybeOf_eq h
      rw [elabDecl, Option.map_eq_some_iff] at he
      obtain ⟨k, hk, rfl⟩ := he
      have h2 := this (.plain id k .none) (by rw [elabDecl, hk]; rfl)
      simp only [EveryField] at h2 ⊢
      exact h2
  | _, .variance hk h, _, he => by
      obtain ⟨-, -, -, c, rfl⟩ := variance_eq h
      rw [elabDecl, Option.bind_eq_some_iff] at he
      obtain ⟨d, -, he⟩ := he
      rw [Option.map_eq_some_iff] at he
      obtain ⟨alts, ha, rfl⟩ := he
      rw [EveryField]
      exact everyAlts_of_mem fun a ha' => by
        obtain ⟨k, hm, hx⟩ := elabCases_mem ha a ha'
        exact every_spelledCase (hk k hm) _ hx
theorem every_spelledCase {I cfg tid} : ∀ {k}, SpelledCase I cfg tid k → ∀ x, caseKind I k = some x →
    EveryKind (fun fs => ∃ ds, SpelledList I cfg tid ds ∧ elabDecls I ds ds = some fs) x
  | _, .asTrivial (t := t) ht h, _, he => by
      obtain ⟨s, c, rfl, -⟩ := scalarTag_eq h
      exact everyKind_flat (by cases t <;> first | rfl | cases ht) he
  | _, .asStruct hl h, _, he => by
      obtain ⟨c, rfl⟩ := structTag_eq h
      simp only [caseKind, Tag.case, elabKind, Option.map_eq_some_iff] at he
      obtain ⟨fs, hk, rfl⟩ := he
      rw [EveryKind]
      exact ⟨⟨_, hl, hk⟩, every_spelledList hl _ hk⟩
  | _, .asFixedArr (e := e) hc h, _, he => by
      obtain ⟨c, rfl⟩ := fixedArrayTag_eq h
      exact everyKind_flat (by cases e <;> first | rfl | cases hc) he
  | _, .asFixedString h, _, he => by
      obtain ⟨c, rfl⟩ := fixedStringTag_eq h
      exact everyKind_flat rfl he
  | _, .asVec (e := e) hc h, _, he => by
      obtain ⟨s, c, b, rfl, -⟩ := containerTag_eq h
      exact everyKind_flat (by cases e <;> first | rfl | cases hc) he
  | _, .asString h, _, he => by
      obtain ⟨s, c, b, rfl, -⟩ := containerTag_eq h
      exact everyKind_flat rfl he
  | _, .asArrOfRecords hl h, _, he => by
      obtain ⟨c, rfl⟩ := arrayOfRecordsTag_eq h
      simp only [caseKind, Tag.case, elabKind, Option.map_eq_some_iff] at he
      obtain ⟨fs, hk, rfl⟩ := he
      rw [EveryKind]
      exact ⟨⟨_, hl, hk⟩, every_spelledList hl _ hk⟩
  | _, .asVecOfRecords hl h, _, he => by
      obtain ⟨s, c, b, rfl, hs⟩ := containerTag_eq h
      cases s with
      | var l =>
        simp only [caseKind, Tag.case, elabKind, Option.map_eq_some_iff] at he
        obtain ⟨fs, hk, rfl⟩ := he
        rw [EveryKind]
        exact ⟨⟨_, hl, hk⟩, every_spelledList hl _ hk⟩
      | _ => cases hs
theorem every_spelledList {I cfg tid} : ∀ {ds}, SpelledList I cfg tid ds → ∀ fs, elabDecls I ds ds = some fs →
    EveryFields (fun fs => ∃ ds, SpelledList I cfg tid ds ∧ elabDecls I ds ds = some fs) fs
  | _, .mk h _, _, he => everyFields_of_mem fun f hf => by
      obtain ⟨d, hd, hx⟩ := elabDecls_mem he f hf
      exact every_spelled (h d hd) _ hx
end

theorem everywhere_spelled {I cfg tid ds fs} (h : SpelledList I cfg tid ds)
    (he : elabDecls I ds ds = some fs) :
    Everywhere (fun fs => ∃ ds, SpelledList I cfg tid ds ∧ elabDecls I ds ds = some fs) fs :=
  ⟨⟨ds, h, he⟩, every_spelledList h _ he⟩

/-! ### Labels -/

theorem distinct_eq {α : Type} [DecidableEq α] (n : Nat) (l : List α) (h : l.length ≤ n) :
    (Meta.setOf n [] l).bind (Meta.equalRanges l) = some (decide l.Nodup) := by
  rw [Meta.setOf_eq _ _ _ (by simpa using h), Option.bind_some, Meta.equalRanges_eq]
  congr 1
  rw [decide_eq_decide]
  constructor
  · intro h; rw [h]; exact Meta.nodup_addNew .nil l
  · intro h; exact (Meta.addNew_nodup (s := []) h).symm

theorem uniqueFieldChoices_eq (tid : Ty → Nat) (ks : List Case) :
    uniqueFieldChoices tid ks = some (decide (ks.map fun k => tid k.ty).Nodup) :=
  distinct_eq _ _ (Nat.le_refl _)

theorem matchValues_length (cfg : Cfg) (g : Guide) (ks : List Case) :
    (matchValues cfg g ks).length ≤ matchCapacity g ks := by
  cases g <;> simp only [matchValues, matchCapacity, List.length_nil, Nat.zero_le]
  all_goals exact List.length_filterMap_le _ _

theorem uniqueMatchValues_eq (cfg : Cfg) (g : Guide) (ks : List Case) :
    uniqueMatchValues cfg g ks = some (decide (matchValues cfg g ks).Nodup) :=
  distinct_eq _ _ (matchValues_length cfg g ks)

/-! ### Instantiation -/

/-! ### What can be instantiated, taken apart -/

theorem swappable_eq : ∀ {e : Ty}, e.isArithmetic = true ∨ e.isFixedArray = true ∨ e.isCArray = true →
    e.swappable = !floatTy e
  | .int _, _ => by simp only [Ty.swappable, floatTy, Bool.not_false]
  | .float _, _ => by simp only [Ty.swappable, floatTy, Bool.not_true]
  | .fixedString _, h => by rcases h with h | h | h <;> cases h
  | .vector _, h => by rcases h with h | h | h <;> cases h
  | .string, h => by rcases h with h | h | h <;> cases h
  | .fieldList _, h => by rcases h with h | h | h <;> cases h
  | .other _, h => by rcases h with h | h | h <;> cases h
  | .array e n, h => by
      have he : e.isArithmetic = true ∨ e.isFixedArray = true ∨ e.isCArray = true := by
        rcases h with h | h | h
        · cases h
        · rw [Ty.isFixedArray, Bool.or_eq_true] at h
          exact h.imp_right .inl
        · cases h
      rw [Ty.swappable, floatTy, swappable_eq he]
  | .carray e n, h => by
      have he : e.isArithmetic = true ∨ e.isFixedArray = true ∨ e.isCArray = true := by
        rcases h with h | h | h
        · cases h
        · cases h
        · rw [Ty.isCArray, Bool.or_eq_true] at h
          exact h.imp_right .inr
      rw [Ty.swappable, floatTy, swappable_eq he]

/-- The types that may be in the way of some casts, and of which. -/
def fitsTy (use : Use) (t : Ty) : Bool :=
  (!use.foreign || !floatTy t) &&
  (!t.boolVector || use.write && (use.foreign || use.constexprStream)) &&
  (!t.nestedCArray || use.write || !use.constexprStream)

mutual
/-- What every cast asks for, as far as types and sizes go. -/
def formTy : Ty → Size → Bool
  | .fieldList ds, _ => form ds
  | .array (.fieldList ds) _, _ => form ds
  | .vector (.fieldList ds), s => s.isVariable && form ds
  | .vector e, s => s.isVariable && (e.isArithmetic || e.isFixedArray)
  | .string, s => s.isVariable
  | .int _, s => s.isFixed
  | .float _, s => s.isFixed
  | .fixedString _, s => s.isFixed
  | .array e _, s => s.isFixed && (e.isArithmetic || e.isFixedArray)
  | .carray e _, s => s.isFixed && (e.isArithmetic || e.isCArray)
  | .other _, _ => false
def formDecl : Decl → Bool
  | .field _ t s _ _ => formTy t s
  | .maybe _ t s _ _ _ => formTy t s && t.isStorable
  | .union _ _ ks _ => formCases ks
  | .other _ => false
def formCases : List Case → Bool
  | [] => true
  | .mk _ t s _ _ :: ks => formTy t s && t.isStorable && formCases ks
def form : List Decl → Bool
  | [] => true
  | d :: ds => formDecl d && form ds
end

theorem form_array {use : Use} {e : Ty} {n : Nat} {s : Size} (he : e.fieldListLike = false) :
    castsTy use (.array e n) s = (formTy (.array e n) s && fitsTy use (.array e n)) := by
  have hn : ∀ ds, e = .fieldList ds → False := fun ds h => by subst h; cases he
  rw [castsTy, formTy]
  · cases hp : e.isArithmetic || e.isFixedArray with
    | false => simp
    | true =>
      rw [Bool.or_eq_true] at hp
      simp [fitsTy, floatTy, Ty.boolVector, Ty.nestedCArray, swappable_eq (hp.imp_right .inl)]
  all_goals exact hn

theorem form_vector {use : Use} {e : Ty} {s : Size} (he : e.fieldListLike = false) (hb : e ≠ .int .bool) :
    castsTy use (.vector e) s = (formTy (.vector e) s && fitsTy use (.vector e)) := by
  have hn : ∀ ds, e = .fieldList ds → False := fun ds h => by subst h; cases he
  have hv : (Ty.vector e).boolVector = false := by
    unfold Ty.boolVector
    split
    · rename_i h; cases h; exact absurd rfl hb
    · rfl
  rw [castsTy, formTy]
  · cases hp : e.isArithmetic || e.isFixedArray with
    | false => simp
    | true =>
      rw [Bool.or_eq_true] at hp
      simp [fitsTy, floatTy, hv, Ty.nestedCArray, swappable_eq (hp.imp_right .inl)]
  all_goals first | exact hn | exact hb

theorem form_carray {use : Use} {e : Ty} {n : Nat} {s : Size} :
    castsTy use (.carray e n) s = (formTy (.carray e n) s && fitsTy use (.carray e n)) := by
  rw [castsTy, formTy]
  cases hp : e.isArithmetic || e.isCArray with
  | false => simp
  | true =>
    rw [Bool.or_eq_true] at hp
    have hc : (Ty.carray e n).nestedCArray = e.isCArray := by
      cases e <;> simp [Ty.nestedCArray, Ty.isCArray, Ty.isArithmetic] at hp ⊢
      exact hp
    simp [fitsTy, floatTy, Ty.boolVector, hc, swappable_eq (hp.imp_right .inr), Bool.and_assoc]
    simp only [Bool.or_assoc, Bool.or_comm, Bool.or_left_comm]

theorem case_size (k : Cond) (t : Ty) (s : Size) (c : Constraint) (b : Option Nat) :
    (Case.mk k t s c b).size = s := rfl

/-- The lengths of a declaration, in a list. -/
def lenAt (use : Use) (ctx : List Decl) (d : Decl) : Bool :=
  d.lenIs fun inside id => lenOk use inside ctx (.var (.fromField id))

theorem lenOk_eq (use : Use) (inside : Bool) (ctx : List Decl) (s : Size) :
    lenOk use inside ctx s = s.lenIs fun id => lenOk use inside ctx (.var (.fromField id)) := by
  cases s with
  | var l => cases l <;> rfl
  | _ => rfl

mutual
/-- What can be instantiated: the form is right, every type fits, and lengths and
discriminants are suitable. -/
theorem factor_ty (use : Use) : (t : Ty) → (s : Size) →
    castsTy use t s = (formTy t s && leavesTy (fitsTy use) t &&
      switchesTy (fun c i => guideOk use c (.matchField i)) t &&
      belowTy (fun c => c.all (lenAt use c)) t)
  | .fieldList ds, s => by
      simp only [castsTy, formTy, leavesTy, switchesTy, belowTy]; exact factor use ds ds
  | .array (.fieldList ds) n, s => by
      simp only [castsTy, formTy, leavesTy, switchesTy, belowTy]; exact factor use ds ds
  | .vector (.fieldList ds), s => by
      simp only [castsTy, formTy, leavesTy, switchesTy, belowTy]
      rw [factor use ds ds]
      simp only [Bool.and_assoc]
  | .array (.int _) _, s => by
      simp only [leavesTy, switchesTy, belowTy, Bool.and_true]; exact form_array rfl
  | .array (.float _) _, s => by
      simp only [leavesTy, switchesTy, belowTy, Bool.and_true]; exact form_array rfl
  | .array (.fixedString _) _, s => by
      simp only [leavesTy, switchesTy, belowTy, Bool.and_true]; exact form_array rfl
  | .array (.array _ _) _, s => by
      simp only [leavesTy, switchesTy, belowTy, Bool.and_true]; exact form_array rfl
  | .array (.carray _ _) _, s => by
      simp only [leavesTy, switchesTy, belowTy, Bool.and_true]; exact form_array rfl
  | .array (.vector _) _, s => by
      simp only [leavesTy, switchesTy, belowTy, Bool.and_true]; exact form_array rfl
  | .array .string _, s => by
      simp only [leavesTy, switchesTy, belowTy, Bool.and_true]; exact form_array rfl
  | .array (.other _) _, s => by
      simp only [leavesTy, switchesTy, belowTy, Bool.and_true]; exact form_array rfl
  | .vector (.int (.int _ _)), s => by
      simp only [leavesTy, switchesTy, belowTy, Bool.and_true]; exact form_vector rfl (by simp)
  | .vector (.int .bool), s => by
      simp [castsTy, formTy, leavesTy, switchesTy, belowTy, fitsTy, floatTy, Ty.boolVector, Ty.nestedCArray,
        Ty.isArithmetic]
  | .vector (.float _), s => by
      simp only [leavesTy, switchesTy, belowTy, Bool.and_true]; exact form_vector rfl (by simp)
  | .vector (.fixedString _), s => by
      simp only [leavesTy, switchesTy, belowTy, Bool.and_true]; exact form_vector rfl (by simp)
  | .vector (.array _ _), s => by
      simp only [leavesTy, switchesTy, belowTy, Bool.and_true]; exact form_vector rfl (by simp)
  | .vector (.carray _ _), s => by
      simp only [leavesTy, switchesTy, belowTy, Bool.and_true]; exact form_vector rfl (by simp)
  | .vector (.vector _), s => by
      simp only [leavesTy, switchesTy, belowTy, Bool.and_true]; exact form_vector rfl (by simp)
  | .vector .string, s => by
      simp only [leavesTy, switchesTy, belowTy, Bool.and_true]; exact form_vector rfl (by simp)
  | .vector (.other _), s => by
      simp only [leavesTy, switchesTy, belowTy, Bool.and_true]; exact form_vector rfl (by simp)
  | .string, s => by
      simp [castsTy, formTy, leavesTy, switchesTy, belowTy, fitsTy, floatTy, Ty.boolVector, Ty.nestedCArray]
  | .int _, s => by
      simp [castsTy, formTy, leavesTy, switchesTy, belowTy, fitsTy, floatTy, Ty.boolVector, Ty.nestedCArray]
  | .float _, s => by
      simp [castsTy, formTy, leavesTy, switchesTy, belowTy, fitsTy, floatTy, Ty.boolVector, Ty.nestedCArray]
  | .fixedString _, s => by
      simp [castsTy, formTy, leavesTy, switchesTy, belowTy, fitsTy, floatTy, Ty.boolVector, Ty.nestedCArray]
  | .carray _ _, s => by
      simp only [leavesTy, switchesTy, belowTy, Bool.and_true]; exact form_carray
  | .other _, s => by
      simp only [castsTy, formTy, Bool.false_and]
termination_by structural t => t
theorem factor_decl (use : Use) (ctx : List Decl) : (d : Decl) →
    castsDecl use ctx d = (formDecl d && leavesDecl (fitsTy use) d &&
      switchesDecl (fun c i => guideOk use c (.matchField i)) ctx d &&
      (lenAt use ctx d && belowDecl (fun c => c.all (lenAt use c)) d))
  | .field id t s c b => by
      simp only [castsDecl, formDecl, leavesDecl, switchesDecl, belowDecl, lenAt, Decl.lenIs]
      rw [factor_ty use t s, lenOk_eq use false ctx s]
      simp only [Bool.and_assoc, Bool.and_comm, Bool.and_left_comm]
  | .maybe id t s c b p => by
      simp only [castsDecl, formDecl, leavesDecl, switchesDecl, belowDecl, lenAt, Decl.lenIs]
      rw [factor_ty use t s, lenOk_eq use true ctx s]
      simp only [Bool.and_assoc, Bool.and_comm, Bool.and_left_comm]
  | .union id (.matchField i) ks c => by
      simp only [castsDecl, formDecl, leavesDecl, switchesDecl, belowDecl, lenAt, Decl.lenIs]
      rw [factor_cases use ctx ks]
      simp only [Bool.and_assoc, Bool.and_left_comm]
  | .union id (.matchCompute _ _) ks c => by
      simp only [castsDecl, formDecl, leavesDecl, switchesDecl, belowDecl, lenAt, Decl.lenIs, guideOk, Bool.true_and]
      exact factor_cases use ctx ks
  | .union id .ladder ks c => by
      simp only [castsDecl, formDecl, leavesDecl, switchesDecl, belowDecl, lenAt, Decl.lenIs, guideOk, Bool.true_and]
      exact factor_cases use ctx ks
  | .other k => by simp only [castsDecl, formDecl, Bool.false_and]
termination_by structural d => d
theorem factor_cases (use : Use) (ctx : List Decl) : (ks : List Case) →
    castsCases use ctx ks = (formCases ks && leavesCases (fitsTy use) ks &&
      switchesCases (fun c i => guideOk use c (.matchField i)) ks &&
      ((ks.all fun k => k.size.lenIs fun id => lenOk use true ctx (.var (.fromField id))) &&
        belowCases (fun c => c.all (lenAt use c)) ks))
  | [] => by simp only [castsCases, formCases, leavesCases, switchesCases, belowCases, List.all_nil, Bool.and_true]
  | .mk k t s c b :: ks => by
      simp only [castsCases, formCases, leavesCases, switchesCases, belowCases, List.all_cons, case_size]
      rw [factor_ty use t s, factor_cases use ctx ks, lenOk_eq use true ctx s]
      simp only [Bool.and_assoc, Bool.and_comm, Bool.and_left_comm]
termination_by structural ks => ks
theorem factor (use : Use) (ctx : List Decl) : (ds : List Decl) →
    castsDecls use ctx ds = (form ds && leaves (fitsTy use) ds &&
      switches (fun c i => guideOk use c (.matchField i)) ctx ds &&
      (ds.all (lenAt use ctx) && below (fun c => c.all (lenAt use c)) ds))
  | [] => by simp only [castsDecls, form, leaves, switches, below, List.all_nil, Bool.and_true]
  | d :: ds => by
      simp only [castsDecls, form, leaves, switches, below, List.all_cons]
      rw [factor_decl use ctx d, factor use ctx ds]
      simp only [Bool.and_assoc, Bool.and_comm, Bool.and_left_comm]
termination_by structural ds => ds
end

mutual
theorem leaves_and_ty (P Q : Ty → Bool) : (t : Ty) →
    leavesTy (fun t => P t && Q t) t = (leavesTy P t && leavesTy Q t)
  | .fieldList ds => by simp only [leavesTy]; exact leaves_and P Q ds
  | .array (.fieldList ds) n => by simp only [leavesTy]; exact leaves_and P Q ds
  | .vector (.fieldList ds) => by simp only [leavesTy]; exact leaves_and P Q ds
  | .array (.int _) n => by simp only [leavesTy]
  | .array (.float _) n => by simp only [leavesTy]
  | .array (.fixedString _) n => by simp only [leavesTy]
  | .array (.array _ _) n => by simp only [leavesTy]
  | .array (.carray _ _) n => by simp only [leavesTy]
  | .array (.vector _) n => by simp only [leavesTy]
  | .array .string n => by simp only [leavesTy]
  | .array (.other _) n => by simp only [leavesTy]
  | .vector (.int _) => by simp only [leavesTy]
  | .vector (.float _) => by simp only [leavesTy]
  | .vector (.fixedString _) => by simp only [leavesTy]
  | .vector (.array _ _) => by simp only [leavesTy]
  | .vector (.carray _ _) => by simp only [leavesTy]
  | .vector (.vector _) => by simp only [leavesTy]
  | .vector .string => by simp only [leavesTy]
  | .vector (.other _) => by simp only [leavesTy]
  | .string => by simp only [leavesTy]
  | .int _ => by simp only [leavesTy]
  | .float _ => by simp only [leavesTy]
  | .fixedString _ => by simp only [leavesTy]
  | .carray _ _ => by simp only [leavesTy]
  | .other _ => by simp only [leavesTy]
termination_by structural t => t
theorem leaves_and_decl (P Q : Ty → Bool) : (d : Decl) →
    leavesDecl (fun t => P t && Q t) d = (leavesDecl P d && leavesDecl Q d)
  | .field id t s c b => by simp only [leavesDecl]; exact leaves_and_ty P Q t
  | .maybe id t s c b p => by simp only [leavesDecl]; exact leaves_and_ty P Q t
  | .union id g ks c => by simp only [leavesDecl]; exact leaves_and_cases P Q ks
  | .other k => by simp only [leavesDecl, Bool.and_true]
termination_by structural d => d
theorem leaves_and_cases (P Q : Ty → Bool) : (ks : List Case) →
    leavesCases (fun t => P t && Q t) ks = (leavesCases P ks && leavesCases Q ks)
  | [] => by simp only [leavesCases, Bool.and_true]
  | .mk k t s c b :: ks => by
      simp only [leavesCases]
      rw [leaves_and_ty P Q t, leaves_and_cases P Q ks]
      simp only [Bool.and_assoc, Bool.and_left_comm]
termination_by structural ks => ks
theorem leaves_and (P Q : Ty → Bool) : (ds : List Decl) →
    leaves (fun t => P t && Q t) ds = (leaves P ds && leaves Q ds)
  | [] => by simp only [leaves, Bool.and_true]
  | d :: ds => by
      simp only [leaves]
      rw [leaves_and_decl P Q d, leaves_and P Q ds]
      simp only [Bool.and_assoc, Bool.and_left_comm]
termination_by structural ds => ds
end

mutual
theorem leaves_float_ty : (t : Ty) → leavesTy (fun t => !floatTy t) t = !floatTy t
  | .fieldList ds => by simp only [leavesTy, floatTy]; exact leaves_float ds
  | .array (.fieldList ds) n => by simp only [leavesTy, floatTy]; exact leaves_float ds
  | .vector (.fieldList ds) => by simp only [leavesTy, floatTy]; exact leaves_float ds
  | .array (.int _) n => by simp only [leavesTy]
  | .array (.float _) n => by simp only [leavesTy]
  | .array (.fixedString _) n => by simp only [leavesTy]
  | .array (.array _ _) n => by simp only [leavesTy]
  | .array (.carray _ _) n => by simp only [leavesTy]
  | .array (.vector _) n => by simp only [leavesTy]
  | .array .string n => by simp only [leavesTy]
  | .array (.other _) n => by simp only [leavesTy]
  | .vector (.int _) => by simp only [leavesTy]
  | .vector (.float _) => by simp only [leavesTy]
  | .vector (.fixedString _) => by simp only [leavesTy]
  | .vector (.array _ _) => by simp only [leavesTy]
  | .vector (.carray _ _) => by simp only [leavesTy]
  | .vector (.vector _) => by simp only [leavesTy]
  | .vector .string => by simp only [leavesTy]
  | .vector (.other _) => by simp only [leavesTy]
  | .string => by simp only [leavesTy]
  | .int _ => by simp only [leavesTy]
  | .float _ => by simp only [leavesTy]
  | .fixedString _ => by simp only [leavesTy]
  | .carray _ _ => by simp only [leavesTy]
  | .other _ => by simp only [leavesTy]
termination_by structural t => t
theorem leaves_float_decl : (d : Decl) → leavesDecl (fun t => !floatTy t) d = !floatDecl d
  | .field id t s c b => by simp only [leavesDecl, floatDecl]; exact leaves_float_ty t
  | .maybe id t s c b p => by simp only [leavesDecl, floatDecl]; exact leaves_float_ty t
  | .union id g ks c => by simp only [leavesDecl, floatDecl]; exact leaves_float_cases ks
  | .other k => by simp only [leavesDecl, floatDecl, Bool.not_false]
termination_by structural d => d
theorem leaves_float_cases : (ks : List Case) → leavesCases (fun t => !floatTy t) ks = !floatCases ks
  | [] => by simp only [leavesCases, floatCases, Bool.not_false]
  | .mk k t s c b :: ks => by
      simp only [leavesCases, floatCases, Bool.not_or]
      rw [leaves_float_ty t, leaves_float_cases ks]
termination_by structural ks => ks
theorem leaves_float : (ds : List Decl) → leaves (fun t => !floatTy t) ds = !floatDecls ds
  | [] => by simp only [leaves, floatDecls, Bool.not_false]
  | d :: ds => by
      simp only [leaves, floatDecls, Bool.not_or]
      rw [leaves_float_decl d, leaves_float ds]
termination_by structural ds => ds
end

mutual
theorem leaves_const_ty {P : Ty → Bool} (h : ∀ t, P t = true) : (t : Ty) → leavesTy P t = true
  | .fieldList ds => by simp only [leavesTy]; exact leaves_const h ds
  | .array (.fieldList ds) n => by simp only [leavesTy]; exact leaves_const h ds
  | .vector (.fieldList ds) => by simp only [leavesTy]; exact leaves_const h ds
  | .array (.int _) n => by simp only [leavesTy]; exact h _
  | .array (.float _) n => by simp only [leavesTy]; exact h _
  | .array (.fixedString _) n => by simp only [leavesTy]; exact h _
  | .array (.array _ _) n => by simp only [leavesTy]; exact h _
  | .array (.carray _ _) n => by simp only [leavesTy]; exact h _
  | .array (.vector _) n => by simp only [leavesTy]; exact h _
  | .array .string n => by simp only [leavesTy]; exact h _
  | .array (.other _) n => by simp only [leavesTy]; exact h _
  | .vector (.int _) => by simp only [leavesTy]; exact h _
  | .vector (.float _) => by simp only [leavesTy]; exact h _
  | .vector (.fixedString _) => by simp only [leavesTy]; exact h _
  | .vector (.array _ _) => by simp only [leavesTy]; exact h _
  | .vector (.carray _ _) => by simp only [leavesTy]; exact h _
  | .vector (.vector _) => by simp only [leavesTy]; exact h _
  | .vector .string => by simp only [leavesTy]; exact h _
  | .vector (.other _) => by simp only [leavesTy]; exact h _
  | .string => by simp only [leavesTy]; exact h _
  | .int _ => by simp only [leavesTy]; exact h _
  | .float _ => by simp only [leavesTy]; exact h _
  | .fixedString _ => by simp only [leavesTy]; exact h _
  | .carray _ _ => by simp only [leavesTy]; exact h _
  | .other _ => by simp only [leavesTy]; exact h _
termination_by structural t => t
theorem leaves_const_decl {P : Ty → Bool} (h : ∀ t, P t = true) : (d : Decl) → leavesDecl P d = true
  | .field id t s c b => by simp only [leavesDecl]; exact leaves_const_ty h t
  | .maybe id t s c b p => by simp only [leavesDecl]; exact leaves_const_ty h t
  | .union id g ks c => by simp only [leavesDecl]; exact leaves_const_cases h ks
  | .other k => by simp only [leavesDecl]
termination_by structural d => d
theorem leaves_const_cases {P : Ty → Bool} (h : ∀ t, P t = true) : (ks : List Case) → leavesCases P ks = true
  | [] => by simp only [leavesCases]
  | .mk k t s c b :: ks => by
      simp only [leavesCases, leaves_const_ty h t, leaves_const_cases h ks, Bool.and_true]
termination_by structural ks => ks
theorem leaves_const {P : Ty → Bool} (h : ∀ t, P t = true) : (ds : List Decl) → leaves P ds = true
  | [] => by simp only [leaves]
  | d :: ds => by simp only [leaves, leaves_const_decl h d, leaves_const h ds, Bool.and_true]
termination_by structural ds => ds
end

/-- Whether the types fit, by what is in the way. -/
theorem leaves_fits (use : Use) (ds : List Decl) :
    leaves (fitsTy use) ds =
      ((!use.foreign || !floatDecls ds) &&
       (noBoolVector ds || use.write && (use.foreign || use.constexprStream)) &&
       (noNestedCArray ds || use.write || !use.constexprStream)) := by
  have h1 : ∀ b : Bool, leaves (fun t => !b || !floatTy t) ds = (!b || !floatDecls ds) := fun b => by
    cases b
    · exact leaves_const (fun _ => rfl) ds
    · simpa using leaves_float ds
  have h2 : ∀ (P : Ty → Bool) (b : Bool), leaves (fun t => P t || b) ds = (leaves P ds || b) := fun P b => by
    cases b
    · simp
    · rw [Bool.or_true]; exact leaves_const (fun _ => Bool.or_true _) ds
  have h3 := leaves_and (fun t => (!use.foreign || !floatTy t) &&
      (!t.boolVector || use.write && (use.foreign || use.constexprStream)))
    (fun t => !t.nestedCArray || use.write || !use.constexprStream) ds
  have h4 := leaves_and (fun t => !use.foreign || !floatTy t)
    (fun t => !t.boolVector || use.write && (use.foreign || use.constexprStream)) ds
  have h5 := h2 (fun t => !t.boolVector) (use.write && (use.foreign || use.constexprStream))
  have h6 := h2 (fun t => !t.nestedCArray || use.write) (!use.constexprStream)
  have h7 := h2 (fun t => !t.nestedCArray) use.write
  exact h3.trans (by rw [h4, h1, h5, h6, h7]; rfl)

/-- What can be instantiated, taken apart. -/
theorem casts_eq (use : Use) (ds : List Decl) :
    casts use ds = (form ds &&
      ((!use.foreign || !floatDecls ds) &&
       (noBoolVector ds || use.write && (use.foreign || use.constexprStream)) &&
       (noNestedCArray ds || use.write || !use.constexprStream)) &&
      switches (fun c i => guideOk use c (.matchField i)) ds ds &&
      lengths (fun inside c i => lenOk use inside c (.var (.fromField i))) ds) := by
  rw [casts, factor, leaves_fits]
  rfl

/-! ### ... for what is spelled with the descriptors -/

/-- Only what could be a field is read or written. -/
theorem fieldLike_of_form {id : String} {t : Ty} {s : Size} {c : Constraint} {b : Option Nat}
    (h : formTy t s = true) : (Decl.field id t s c b).fieldLike = true := by
  cases t with
  | fieldList ds => rfl
  | array e n =>
    cases e with
    | fieldList ds => rfl
    | _ =>
      simp only [formTy, Bool.and_eq_true] at h
      simp only [Decl.fieldLike, Decl.fixedSized, Ty.fieldContainable, Ty.fixedBufferLike, h.1,
        Ty.isFixedArray] at h ⊢
      simp [h.2]
  | vector e =>
    cases e with
    | fieldList ds => rfl
    | _ =>
      simp only [formTy, Bool.and_eq_true] at h
      simp [Decl.fieldLike, Decl.variableSized, Ty.variableSizedBufferLike, Ty.isVectorLike, h.1,
        h.2]
  | carray e n =>
    simp only [formTy, Bool.and_eq_true] at h
    simp [Decl.fieldLike, Decl.fixedSized, Ty.fieldContainable, Ty.fixedBufferLike, Ty.isCArray,
      h.1, h.2]
  | int t =>
    simp only [formTy] at h
    simp [Decl.fieldLike, Decl.fixedSized, Ty.fieldContainable, Ty.isArithmetic, h]
  | float n =>
    simp only [formTy] at h
    simp [Decl.fieldLike, Decl.fixedSized, Ty.fieldContainable, Ty.isArithmetic, h]
  | fixedString n =>
    simp only [formTy] at h
    simp [Decl.fieldLike, Decl.fixedSized, Ty.fieldContainable, Ty.fixedBufferLike, Ty.isFixedString, h]
  | string =>
    simp only [formTy] at h
    simp [Decl.fieldLike, Decl.variableSized, Ty.variableSizedBufferLike, Ty.isStringLike, h]
  | other k => simp only [formTy] at h; cases h

/-- The concepts, as far as a type's constructors decide them. -/
macro "concepts" "at" h:ident : tactic =>
  `(tactic| simp [Decl.fieldLike, Decl.fixedSized, Decl.variableSized, Decl.arrayOfRecord,
      Decl.vectorOfRecord, Decl.structLike, Decl.optionalLike, Decl.unionLike, Ty.fieldContainable,
      Ty.fixedBufferLike, Ty.isFixedArray, Ty.isCArray, Ty.isFixedString, Ty.isArithmetic,
      Ty.fieldListLike, Ty.variableSizedBufferLike, Ty.isVectorLike, Ty.isStringLike] at $h:ident)

/-- A field without a list of fields inside: what is accepted can be read and written,
unless the type stands in the way. -/
theorem castsTy_flat {use : Use} {id : String} {t : Ty} {s : Size} {c : Constraint} {b : Option Nat}
    (hf : t.flat = true) (h : (Decl.field id t s c b).fieldLike = true) :
    castsTy use t s = clearTy use t := by
  cases t with
  | fieldList ds => cases hf
  | array e n =>
    cases e <;> first
      | (cases hf; done)
      | (concepts at h; done)
      | (concepts at h
         simp [castsTy, clearTy, Ty.swappable, Ty.isArithmetic, Ty.isFixedArray, h]; done)
  | carray e n =>
    have h' : (e.isArithmetic || e.isCArray) = true ∧ s.isFixed = true := by
      simpa [Decl.fieldLike, Decl.fixedSized, Decl.variableSized, Decl.arrayOfRecord,
        Decl.vectorOfRecord, Decl.structLike, Decl.optionalLike, Decl.unionLike, Ty.fieldContainable,
        Ty.fixedBufferLike, Ty.isFixedArray, Ty.isCArray, Ty.isFixedString, Ty.isArithmetic,
        Ty.fieldListLike, Ty.variableSizedBufferLike, Ty.isVectorLike, Ty.isStringLike] using h
    rw [castsTy, clearTy, h'.1, h'.2, Bool.true_and, Bool.true_and]
  | vector e =>
    cases e with
    | int t =>
      cases t
      · concepts at h
        simp [castsTy, clearTy, Ty.swappable, Ty.isArithmetic, Ty.isFixedArray, h]
      · concepts at h
        simp [castsTy, clearTy, h]
    | _ =>
      first
      | (cases hf; done)
      | (concepts at h; done)
      | (concepts at h
         simp [castsTy, clearTy, Ty.swappable, Ty.isArithmetic, Ty.isFixedArray, h]; done)
  | _ =>
    first
    | (concepts at h; done)
    | (concepts at h
       simp [castsTy, clearTy, Ty.swappable, h])

theorem clear_flat {use : Use} {id : String} {t : Ty} {s : Size} {c : Constraint} {b : Option Nat}
    (hf : t.flat = true) (h : (Decl.field id t s c b).fieldLike = true) :
    (formTy t s && leavesTy (fitsTy use) t) = clearTy use t := by
  have h1 : switchesTy (fun c i => guideOk use c (.matchField i)) t = true := by
    cases t with
    | fieldList ds => cases hf
    | array e n => cases e <;> first | (cases hf; done) | simp only [switchesTy]
    | vector e => cases e <;> first | (cases hf; done) | simp only [switchesTy]
    | _ => simp only [switchesTy]
  have h2 : belowTy (fun c => c.all (lenAt use c)) t = true := by
    cases t with
    | fieldList ds => cases hf
    | array e n => cases e <;> first | (cases hf; done) | simp only [belowTy]
    | vector e => cases e <;> first | (cases hf; done) | simp only [belowTy]
    | _ => simp only [belowTy]
  rw [← castsTy_flat hf h, factor_ty, h1, h2, Bool.and_true, Bool.and_true]

theorem clearField_flat {use : Use} {id : String} {g : Tag} (hf : g.t.flat = true)
    (h : (g.field id).fieldLike = true) :
    (formDecl (g.field id) && leavesDecl (fitsTy use) (g.field id)) = clearDecl use (g.field id) := by
  rw [Tag.field] at h ⊢
  rw [formDecl, leavesDecl, clearDecl, clear_flat hf h]

theorem clearDecls_congr {use : Use} {ds : List Decl}
    (h : ∀ d ∈ ds, (formDecl d && leavesDecl (fitsTy use) d) = clearDecl use d) :
    (form ds && leaves (fitsTy use) ds) = clearDecls use ds := by
  induction ds with
  | nil => simp [clearDecls, form, leaves]
  | cons d ds ih =>
    rw [form, leaves, clearDecls, ← h d (.head _), ← ih fun d hd => h d (.tail _ hd)]
    simp only [Bool.and_assoc, Bool.and_left_comm]

/-- A case can be read and written, unless its type stands in the way. -/
def CaseAgrees (use : Use) : Case → Prop
  | .mk _ t s _ _ =>
      (formTy t s && leavesTy (fitsTy use) t) = clearTy use t ∧ t.isStorable = true

theorem clearCases_congr {use : Use} {ks : List Case}
    (h : ∀ k ∈ ks, CaseAgrees use k) : (formCases ks && leavesCases (fitsTy use) ks) = clearCases use ks := by
  induction ks with
  | nil => simp [formCases, leavesCases, clearCases]
  | cons k ks ih =>
    obtain ⟨k, t, s, c, b⟩ := k
    have := h _ (.head _)
    simp only [CaseAgrees] at this
    rw [formCases, leavesCases, clearCases, ← this.1, this.2, ← ih fun k hk => h k (.tail _ hk), Bool.and_true]
    simp only [Bool.and_assoc, Bool.and_left_comm]

mutual
theorem clear_spelled {I cfg tid use} : ∀ {d}, Spelled I cfg tid d → d.fieldLike = true →
    (formDecl d && leavesDecl (fitsTy use) d) = clearDecl use d
  | _, .basicField h, hl => by
      obtain ⟨s, c, rfl, -⟩ := scalarTag_eq h
      exact clearField_flat rfl hl
  | _, .fixedArrayField (e := e) hc h, hl => by
      obtain ⟨c, rfl⟩ := fixedArrayTag_eq h
      exact clearField_flat (by cases e <;> first | rfl | cases hc) hl
  | _, .arrayOfRecords hds h, _ => by
      obtain ⟨c, rfl⟩ := arrayOfRecordsTag_eq h
      simp only [Tag.field, formDecl, leavesDecl, clearDecl, formTy, leavesTy, clearTy, clear_spelledList hds]
  | _, .fixedStringField h, hl => by
      obtain ⟨c, rfl⟩ := fixedStringTag_eq h
      exact clearField_flat rfl hl
  | _, .cArrField _ h, hl => by
      obtain ⟨-, c, rfl⟩ := cArrTag_eq h
      exact clearField_flat rfl hl
  | _, .cStrField h, hl => by
      obtain ⟨c, rfl⟩ := cStrTag_eq h
      exact clearField_flat rfl hl
  | _, .magicByteArray, hl => clearField_flat rfl hl
  | _, .magicString, hl => clearField_flat rfl hl
  | _, .magicNumber h, hl => by
      obtain ⟨-, rfl⟩ := magicNumberTag_eq h
      exact clearField_flat rfl hl
  | _, .vecField (e := e) hds h, hl => by
      have hrec := fun ds hds' => clear_spelledList (use := use) (hds ds hds')
      obtain ⟨s, c, b, rfl, hs⟩ := containerTag_eq h
      cases hc : e.fieldListLike with
      | false => exact clearField_flat (by cases e <;> first | rfl | cases hc) hl
      | true =>
        obtain ⟨ds, hds⟩ : ∃ ds, e = .fieldList ds := by
          cases e <;> first | exact ⟨_, rfl⟩ | cases hc
        have hrec' := hrec ds hds
        subst hds
        simp only [Tag.field, formDecl, leavesDecl, clearDecl, formTy, leavesTy, clearTy, hrec', hs, Bool.true_and]
  | _, .strField h, hl => by
      obtain ⟨s, c, b, rfl, -⟩ := containerTag_eq h
      exact clearField_flat rfl hl
  | _, .structField hds h, _ => by
      obtain ⟨c, rfl⟩ := structTag_eq h
      simp only [Tag.field, formDecl, leavesDecl, clearDecl, formTy, leavesTy, clearTy, clear_spelledList hds]
  | _, .maybe hb h, _ => by
      have hrec := clear_spelled (use := use) hb
      obtain ⟨id, t, s, b, rfl, rfl⟩ := maybeOf_eq h
      simp only [formDecl, leavesDecl, clearDecl] at hrec ⊢
      cases hfl : (Decl.field id t s .none b).fieldLike with
      | false =>
        cases hcs : formTy t s with
        | false => simp
        | true => rw [fieldLike_of_form hcs] at hfl; cases hfl
      | true =>
        rw [← hrec hfl]
        simp only [Bool.true_and, Bool.and_assoc, Bool.and_left_comm]
  | _, .variance (ks := ks) hk h, _ => by
      obtain ⟨-, -, -, c, rfl⟩ := variance_eq h
      rw [formDecl, leavesDecl, clearDecl]
      rw [clearCases_congr fun k hm => clear_spelledCase (hk k hm)]
theorem clear_spelledCase {I cfg tid use} : ∀ {k}, SpelledCase I cfg tid k → CaseAgrees use k
  | _, .asTrivial (t := t) ht h => by
      obtain ⟨s, c, rfl, hs⟩ := scalarTag_eq h
      have hs' : s.isFixed = true := by cases s <;> first | rfl | cases hs
      refine ⟨clear_flat (id := "") (c := .none) (b := none) (by cases t <;> first | rfl | cases ht) ?_, by
        cases t <;> first | rfl | cases ht⟩
      simp [Decl.fieldLike, Decl.fixedSized, Ty.fieldContainable, ht, hs']
  | _, .asStruct hl h => by
      obtain ⟨c, rfl⟩ := structTag_eq h
      simp only [CaseAgrees, Tag.case, Ty.isStorable, formTy, leavesTy, clearTy, clear_spelledList hl, and_self]
  | _, .asFixedArr (e := e) hc h => by
      obtain ⟨c, rfl⟩ := fixedArrayTag_eq h
      refine ⟨clear_flat (id := "") (c := .none) (b := none) (by cases e <;> first | rfl | cases hc) ?_, rfl⟩
      simp [Decl.fieldLike, Decl.fixedSized, Ty.fieldContainable, Ty.fixedBufferLike, Ty.isFixedArray, hc, Size.isFixed]
  | _, .asFixedString h => by
      obtain ⟨c, rfl⟩ := fixedStringTag_eq h
      exact ⟨clear_flat (id := "") (c := .none) (b := none) rfl rfl, rfl⟩
  | _, .asVec (e := e) hc h => by
      obtain ⟨s, c, b, rfl, hs⟩ := containerTag_eq h
      refine ⟨clear_flat (id := "") (c := .none) (b := none) (by cases e <;> first | rfl | cases hc) ?_, rfl⟩
      simp [Decl.fieldLike, Decl.variableSized, Ty.variableSizedBufferLike, Ty.isVectorLike, hc, hs]
  | _, .asString h => by
      obtain ⟨s, c, b, rfl, hs⟩ := containerTag_eq h
      refine ⟨clear_flat (id := "") (c := .none) (b := none) rfl ?_, rfl⟩
      simp [Decl.fieldLike, Decl.variableSized, Ty.variableSizedBufferLike, Ty.isStringLike, hs]
  | _, .asArrOfRecords hl h => by
      obtain ⟨c, rfl⟩ := arrayOfRecordsTag_eq h
      simp only [CaseAgrees, Tag.case, Ty.isStorable, formTy, leavesTy, clearTy, clear_spelledList hl, and_self]
  | _, .asVecOfRecords hl h => by
      obtain ⟨s, c, b, rfl, hs⟩ := containerTag_eq h
      simp only [CaseAgrees, Tag.case, Ty.isStorable, formTy, leavesTy, clearTy, clear_spelledList hl, hs, Bool.true_and, and_self]
theorem clear_spelledList {I cfg tid use} : ∀ {ds}, SpelledList I cfg tid ds →
    (form ds && leaves (fitsTy use) ds) = clearDecls use ds
  | ds, .mk h hl => clearDecls_congr fun d hd => by
      rw [List.all_eq_true] at hl
      exact clear_spelled (h d hd) (hl d hd)
end

/-- What can be instantiated, of what is spelled with the descriptors. -/
theorem casts_spelledList {I cfg tid use ds} (h : SpelledList I cfg tid ds) :
    casts use ds = (clearDecls use ds &&
      switches (fun c i => guideOk use c (.matchField i)) ds ds &&
      lengths (fun inside c i => lenOk use inside c (.var (.fromField i))) ds) := by
  rw [casts, factor, clear_spelledList h]
  rfl

/-- Unions come from `variance`. -/
theorem union_spelled {I cfg tid id g ks c} (h : Spelled I cfg tid (.union id g ks c)) :
    typeDeductionLike g ks = true ∧ uniqueMatchValues cfg g ks = some true := by
  generalize hd : Decl.union id g ks c = d at h
  cases h with
  | variance hk h =>
    obtain ⟨h1, -, h3, c, rfl⟩ := variance_eq h
    cases hd
    exact ⟨h1, h3⟩
  | maybe hb h =>
    obtain ⟨id, t, s, b, rfl, rfl⟩ := maybeOf_eq h
    cases hd
  | _ => cases hd

/-! ### Nesting levels -/

mutual
theorem below_and_ty (M N : List Decl → Bool) : (t : Ty) →
    belowTy (fun c => M c && N c) t = (belowTy M t && belowTy N t)
  | .fieldList ds => by
      simp only [belowTy]; rw [below_and M N ds]
      simp only [Bool.and_assoc, Bool.and_left_comm]
  | .array (.fieldList ds) n => by
      simp only [belowTy]; rw [below_and M N ds]
      simp only [Bool.and_assoc, Bool.and_left_comm]
  | .vector (.fieldList ds) => by
      simp only [belowTy]; rw [below_and M N ds]
      simp only [Bool.and_assoc, Bool.and_left_comm]
  | .array (.int _) _ => by simp only [belowTy, Bool.and_true]
  | .array (.float _) _ => by simp only [belowTy, Bool.and_true]
  | .array (.fixedString _) _ => by simp only [belowTy, Bool.and_true]
  | .array (.array _ _) _ => by simp only [belowTy, Bool.and_true]
  | .array (.carray _ _) _ => by simp only [belowTy, Bool.and_true]
  | .array (.vector _) _ => by simp only [belowTy, Bool.and_true]
  | .array .string _ => by simp only [belowTy, Bool.and_true]
  | .array (.other _) _ => by simp only [belowTy, Bool.and_true]
  | .vector (.int _) => by simp only [belowTy, Bool.and_true]
  | .vector (.float _) => by simp only [belowTy, Bool.and_true]
  | .vector (.fixedString _) => by simp only [belowTy, Bool.and_true]
  | .vector (.array _ _) => by simp only [belowTy, Bool.and_true]
  | .vector (.carray _ _) => by simp only [belowTy, Bool.and_true]
  | .vector (.vector _) => by simp only [belowTy, Bool.and_true]
  | .vector .string => by simp only [belowTy, Bool.and_true]
  | .vector (.other _) => by simp only [belowTy, Bool.and_true]
  | .string => by simp only [belowTy, Bool.and_true]
  | .int _ => by simp only [belowTy, Bool.and_true]
  | .float _ => by simp only [belowTy, Bool.and_true]
  | .fixedString _ => by simp only [belowTy, Bool.and_true]
  | .carray _ _ => by simp only [belowTy, Bool.and_true]
  | .other _ => by simp only [belowTy, Bool.and_true]
termination_by structural t => t
theorem below_and_decl (M N : List Decl → Bool) : (d : Decl) →
    belowDecl (fun c => M c && N c) d = (belowDecl M d && belowDecl N d)
  | .field id t s c b => by simp only [belowDecl]; exact below_and_ty M N t
  | .maybe id t s c b p => by simp only [belowDecl]; exact below_and_ty M N t
  | .union id g ks c => by simp only [belowDecl]; exact below_and_cases M N ks
  | .other k => by simp only [belowDecl, Bool.and_true]
termination_by structural d => d
theorem below_and_cases (M N : List Decl → Bool) : (ks : List Case) →
    belowCases (fun c => M c && N c) ks = (belowCases M ks && belowCases N ks)
  | [] => by simp only [belowCases, Bool.and_true]
  | .mk k t s c b :: ks => by
      simp only [belowCases]
      rw [below_and_ty M N t, below_and_cases M N ks]
      simp only [Bool.and_assoc, Bool.and_left_comm]
termination_by structural ks => ks
theorem below_and (M N : List Decl → Bool) : (ds : List Decl) →
    below (fun c => M c && N c) ds = (below M ds && below N ds)
  | [] => by simp only [below, Bool.and_true]
  | d :: ds => by
      simp only [below]
      rw [below_and_decl M N d, below_and M N ds]
      simp only [Bool.and_assoc, Bool.and_left_comm]
termination_by structural ds => ds
end

theorem levels_and (M N : List Decl → Bool) (ds : List Decl) :
    levels (fun c => M c && N c) ds = (levels M ds && levels N ds) := by
  rw [levels, levels, levels, below_and]
  simp only [Bool.and_assoc, Bool.and_left_comm]

section
set_option linter.unusedSectionVars false
variable {M N : List Decl → Bool} (hmn : ∀ c, M c = true → N c = true)
include hmn
mutual
theorem below_mono_ty : (t : Ty) → belowTy M t = true → belowTy N t = true
  | .fieldList ds => by
      simp only [belowTy, Bool.and_eq_true]; exact fun h => ⟨hmn ds h.1, below_mono ds h.2⟩
  | .array (.fieldList ds) n => by
      simp only [belowTy, Bool.and_eq_true]; exact fun h => ⟨hmn ds h.1, below_mono ds h.2⟩
  | .vector (.fieldList ds) => by
      simp only [belowTy, Bool.and_eq_true]; exact fun h => ⟨hmn ds h.1, below_mono ds h.2⟩
  | .array (.int _) _ => fun _ => by simp only [belowTy]
  | .array (.float _) _ => fun _ => by simp only [belowTy]
  | .array (.fixedString _) _ => fun _ => by simp only [belowTy]
  | .array (.array _ _) _ => fun _ => by simp only [belowTy]
  | .array (.carray _ _) _ => fun _ => by simp only [belowTy]
  | .array (.vector _) _ => fun _ => by simp only [belowTy]
  | .array .string _ => fun _ => by simp only [belowTy]
  | .array (.other _) _ => fun _ => by simp only [belowTy]
  | .vector (.int _) => fun _ => by simp only [belowTy]
  | .vector (.float _) => fun _ => by simp only [belowTy]
  | .vector (.fixedString _) => fun _ => by simp only [belowTy]
  | .vector (.array _ _) => fun _ => by simp only [belowTy]
  | .vector (.carray _ _) => fun _ => by simp only [belowTy]
  | .vector (.vector _) => fun _ => by simp only [belowTy]
  | .vector .string => fun _ => by simp only [belowTy]
  | .vector (.other _) => fun _ => by simp only [belowTy]
  | .string => fun _ => by simp only [belowTy]
  | .int _ => fun _ => by simp only [belowTy]
  | .float _ => fun _ => by simp only [belowTy]
  | .fixedString _ => fun _ => by simp only [belowTy]
  | .carray _ _ => fun _ => by simp only [belowTy]
  | .other _ => fun _ => by simp only [belowTy]
termination_by structural t => t
theorem below_mono_decl : (d : Decl) → belowDecl M d = true → belowDecl N d = true
  | .field id t s c b => by simp only [belowDecl]; exact below_mono_ty t
  | .maybe id t s c b p => by simp only [belowDecl]; exact below_mono_ty t
  | .union id g ks c => by simp only [belowDecl]; exact below_mono_cases ks
  | .other k => fun _ => by simp only [belowDecl]
termination_by structural d => d
theorem below_mono_cases : (ks : List Case) → belowCases M ks = true → belowCases N ks = true
  | [] => fun _ => by simp only [belowCases]
  | .mk k t s c b :: ks => by
      simp only [belowCases, Bool.and_eq_true]
      exact fun h => ⟨below_mono_ty t h.1, below_mono_cases ks h.2⟩
termination_by structural ks => ks
theorem below_mono : (ds : List Decl) → below M ds = true → below N ds = true
  | [] => fun _ => by simp only [below]
  | d :: ds => by
      simp only [below, Bool.and_eq_true]
      exact fun h => ⟨below_mono_decl d h.1, below_mono ds h.2⟩
termination_by structural ds => ds
end

theorem levels_mono {ds : List Decl} (h : levels M ds = true) : levels N ds = true := by
  rw [levels, Bool.and_eq_true] at h ⊢
  exact ⟨hmn ds h.1, below_mono hmn ds h.2⟩
end

theorem levels_mono_at {L M N : List Decl → Bool} (h : ∀ c, L c = true → M c = true → N c = true)
    {ds : List Decl} (hl : levels L ds = true) (hm : levels M ds = true) : levels N ds = true := by
  have := levels_and L M ds
  rw [hl, hm] at this
  exact levels_mono (fun c hc => by rw [Bool.and_eq_true] at hc; exact h c hc.1 hc.2) this

theorem Size.lenIs_mono {P Q : String → Bool} (h : ∀ i, P i = true → Q i = true) {s : Size}
    (hs : s.lenIs P = true) : s.lenIs Q = true := by
  cases s with
  | var l =>
    cases l with
    | fromField i => exact h i hs
    | _ => rfl
  | _ => rfl

theorem Decl.lenIs_mono {P Q : Bool → String → Bool} (h : ∀ b i, P b i = true → Q b i = true) {d : Decl}
    (hd : d.lenIs P = true) : d.lenIs Q = true := by
  cases d with
  | field id t s c b => exact Size.lenIs_mono (h false) hd
  | maybe id t s c b p => exact Size.lenIs_mono (h true) hd
  | union id g ks c =>
    rw [Decl.lenIs, List.all_eq_true] at hd ⊢
    exact fun k hk => Size.lenIs_mono (h true) (hd k hk)
  | other k => rfl

theorem lengths_mono_at {L : List Decl → Bool} {P Q : Bool → List Decl → String → Bool}
    (h : ∀ c, L c = true → ∀ b i, P b c i = true → Q b c i = true) {ds : List Decl}
    (hl : levels L ds = true) (hp : lengths P ds = true) : lengths Q ds = true := by
  refine levels_mono_at (fun c hc hm => ?_) hl hp
  rw [lensHere, List.all_eq_true] at hm ⊢
  exact fun d hd => Decl.lenIs_mono (h c hc) (hm d hd)

theorem lengths_mono {P Q : Bool → List Decl → String → Bool}
    (h : ∀ c b i, P b c i = true → Q b c i = true) {ds : List Decl}
    (hp : lengths P ds = true) : lengths Q ds = true :=
  levels_mono (fun c hm => by
    rw [lensHere, List.all_eq_true] at hm ⊢
    exact fun d hd => Decl.lenIs_mono (h c) (hm d hd)) hp

theorem Size.lenIs_and (P Q : String → Bool) (s : Size) :
    s.lenIs (fun i => P i && Q i) = (s.lenIs P && s.lenIs Q) := by
  cases s with
  | var l => cases l <;> rfl
  | _ => rfl

theorem Decl.lenIs_and (P Q : Bool → String → Bool) (d : Decl) :
    d.lenIs (fun b i => P b i && Q b i) = (d.lenIs P && d.lenIs Q) := by
  cases d with
  | field id t s c b => exact Size.lenIs_and _ _ s
  | maybe id t s c b p => exact Size.lenIs_and _ _ s
  | union id g ks c =>
    simp only [Decl.lenIs, Size.lenIs_and]
    induction ks with
    | nil => rfl
    | cons k ks ih =>
      simp only [List.all_cons, ih]
      simp only [Bool.and_assoc, Bool.and_left_comm]
  | other k => rfl

theorem all_and {α : Type} (p q : α → Bool) (l : List α) :
    (l.all fun x => p x && q x) = (l.all p && l.all q) := by
  induction l with
  | nil => rfl
  | cons x l ih =>
    simp only [List.all_cons, ih]
    simp only [Bool.and_assoc, Bool.and_left_comm]

theorem lengths_and (P Q : Bool → List Decl → String → Bool) (ds : List Decl) :
    lengths (fun b c i => P b c i && Q b c i) ds = (lengths P ds && lengths Q ds) := by
  rw [lengths, lengths, lengths, ← levels_and]
  congr 1
  funext c
  unfold lensHere
  simp only [Decl.lenIs_and]
  exact all_and _ _ c

/-- The discriminant of a declaration. -/
def Decl.guideIs (P : String → Bool) : Decl → Bool
  | .union _ (.matchField id) _ _ => P id
  | _ => true

/-- The discriminants of a list. -/
def guidesHere (P : List Decl → String → Bool) (ctx : List Decl) : Bool :=
  ctx.all fun d => d.guideIs (P ctx)

mutual
theorem switches_eq_ty (P : List Decl → String → Bool) : (t : Ty) →
    switchesTy P t = belowTy (guidesHere P) t
  | .fieldList ds => by
      simp only [switchesTy, belowTy]; exact switches_eq P ds ds
  | .array (.fieldList ds) n => by
      simp only [switchesTy, belowTy]; exact switches_eq P ds ds
  | .vector (.fieldList ds) => by
      simp only [switchesTy, belowTy]; exact switches_eq P ds ds
  | .array (.int _) _ => by simp only [belowTy, switchesTy]
  | .array (.float _) _ => by simp only [belowTy, switchesTy]
  | .array (.fixedString _) _ => by simp only [belowTy, switchesTy]
  | .array (.array _ _) _ => by simp only [belowTy, switchesTy]
  | .array (.carray _ _) _ => by simp only [belowTy, switchesTy]
  | .array (.vector _) _ => by simp only [belowTy, switchesTy]
  | .array .string _ => by simp only [belowTy, switchesTy]
  | .array (.other _) _ => by simp only [belowTy, switchesTy]
  | .vector (.int _) => by simp only [belowTy, switchesTy]
  | .vector (.float _) => by simp only [belowTy, switchesTy]
  | .vector (.fixedString _) => by simp only [belowTy, switchesTy]
  | .vector (.array _ _) => by simp only [belowTy, switchesTy]
  | .vector (.carray _ _) => by simp only [belowTy, switchesTy]
  | .vector (.vector _) => by simp only [belowTy, switchesTy]
  | .vector .string => by simp only [belowTy, switchesTy]
  | .vector (.other _) => by simp only [belowTy, switchesTy]
  | .string => by simp only [belowTy, switchesTy]
  | .int _ => by simp only [belowTy, switchesTy]
  | .float _ => by simp only [belowTy, switchesTy]
  | .fixedString _ => by simp only [belowTy, switchesTy]
  | .carray _ _ => by simp only [belowTy, switchesTy]
  | .other _ => by simp only [belowTy, switchesTy]
termination_by structural t => t
theorem switches_eq_decl (P : List Decl → String → Bool) (ctx : List Decl) : (d : Decl) →
    switchesDecl P ctx d = (d.guideIs (P ctx) && belowDecl (guidesHere P) d)
  | .field id t s c b => by
      simp only [switchesDecl, belowDecl, Decl.guideIs, Bool.true_and]; exact switches_eq_ty P t
  | .maybe id t s c b p => by
      simp only [switchesDecl, belowDecl, Decl.guideIs, Bool.true_and]; exact switches_eq_ty P t
  | .union id (.matchField i) ks c => by
      simp only [switchesDecl, belowDecl, Decl.guideIs]; rw [switches_eq_cases P ks]
  | .union id (.matchCompute _ _) ks c => by
      simp only [switchesDecl, belowDecl, Decl.guideIs, Bool.true_and]; exact switches_eq_cases P ks
  | .union id .ladder ks c => by
      simp only [switchesDecl, belowDecl, Decl.guideIs, Bool.true_and]; exact switches_eq_cases P ks
  | .other k => by simp only [switchesDecl, belowDecl, Decl.guideIs, Bool.true_and]
termination_by structural d => d
theorem switches_eq_cases (P : List Decl → String → Bool) : (ks : List Case) →
    switchesCases P ks = belowCases (guidesHere P) ks
  | [] => by simp only [switchesCases, belowCases]
  | .mk k t s c b :: ks => by
      simp only [switchesCases, belowCases]
      rw [switches_eq_ty P t, switches_eq_cases P ks]
termination_by structural ks => ks
theorem switches_eq (P : List Decl → String → Bool) (ctx : List Decl) : (ds : List Decl) →
    switches P ctx ds = ((ds.all fun d => d.guideIs (P ctx)) &&
      below (guidesHere P) ds)
  | [] => by simp only [switches, below, List.all_nil, Bool.and_true]
  | d :: ds => by
      simp only [switches, below, List.all_cons]
      rw [switches_eq_decl P ctx d, switches_eq P ctx ds]
      simp only [Bool.and_assoc, Bool.and_left_comm]
termination_by structural ds => ds
end

theorem switches_levels (P : List Decl → String → Bool) (ds : List Decl) :
    switches P ds ds = levels (guidesHere P) ds :=
  switches_eq P ds ds

theorem switches_mono_at {L : List Decl → Bool} {P Q : List Decl → String → Bool}
    (h : ∀ c, L c = true → ∀ i, P c i = true → Q c i = true) {ds : List Decl}
    (hl : levels L ds = true) (hp : switches P ds ds = true) : switches Q ds ds = true := by
  rw [switches_levels] at hp ⊢
  refine levels_mono_at (fun c hc hm => ?_) hl hp
  rw [guidesHere, List.all_eq_true] at hm ⊢
  intro d hd
  have := hm d hd
  unfold Decl.guideIs at this ⊢
  split at this
  · exact h c hc _ this
  · rfl

theorem switches_mono {P Q : List Decl → String → Bool} (hpq : ∀ c i, P c i = true → Q c i = true)
    {ds : List Decl} (h : switches P ds ds = true) : switches Q ds ds = true :=
  switches_mono_at (L := guidesHere P) (fun c _ i => hpq c i) (switches_levels P ds ▸ h) h

theorem switches_and (P Q : List Decl → String → Bool) (ds : List Decl) :
    switches (fun c i => P c i && Q c i) ds ds = (switches P ds ds && switches Q ds ds) := by
  rw [switches_levels, switches_levels, switches_levels, ← levels_and]
  congr 1
  funext c
  unfold guidesHere
  rw [← all_and]
  congr 1
  funext d
  unfold Decl.guideIs
  split <;> rfl

theorem wholeLen_eq (ctx : List Decl) (s : Size) : wholeLen ctx s = s.lenIs (isInt ctx) := by
  cases s with
  | var l => cases l <;> rfl
  | _ => rfl

mutual
theorem whole_eq_ty : (t : Ty) →
    wholeTy t = (belowTy (lensHere fun _ c i => isInt c i) t && switchesTy isOptInt t)
  | .fieldList ds => by
      simp only [wholeTy, switchesTy, belowTy]; exact whole_eq ds ds
  | .array (.fieldList ds) n => by
      simp only [wholeTy, switchesTy, belowTy]; exact whole_eq ds ds
  | .vector (.fieldList ds) => by
      simp only [wholeTy, switchesTy, belowTy]; exact whole_eq ds ds
  | .array (.int _) _ => by simp only [wholeTy, belowTy, switchesTy, Bool.and_true]
  | .array (.float _) _ => by simp only [wholeTy, belowTy, switchesTy, Bool.and_true]
  | .array (.fixedString _) _ => by simp only [wholeTy, belowTy, switchesTy, Bool.and_true]
  | .array (.array _ _) _ => by simp only [wholeTy, belowTy, switchesTy, Bool.and_true]
  | .array (.carray _ _) _ => by simp only [wholeTy, belowTy, switchesTy, Bool.and_true]
  | .array (.vector _) _ => by simp only [wholeTy, belowTy, switchesTy, Bool.and_true]
  | .array .string _ => by simp only [wholeTy, belowTy, switchesTy, Bool.and_true]
  | .array (.other _) _ => by simp only [wholeTy, belowTy, switchesTy, Bool.and_true]
  | .vector (.int _) => by simp only [wholeTy, belowTy, switchesTy, Bool.and_true]
  | .vector (.float _) => by simp only [wholeTy, belowTy, switchesTy, Bool.and_true]
  | .vector (.fixedString _) => by simp only [wholeTy, belowTy, switchesTy, Bool.and_true]
  | .vector (.array _ _) => by simp only [wholeTy, belowTy, switchesTy, Bool.and_true]
  | .vector (.carray _ _) => by simp only [wholeTy, belowTy, switchesTy, Bool.and_true]
  | .vector (.vector _) => by simp only [wholeTy, belowTy, switchesTy, Bool.and_true]
  | .vector .string => by simp only [wholeTy, belowTy, switchesTy, Bool.and_true]
  | .vector (.other _) => by simp only [wholeTy, belowTy, switchesTy, Bool.and_true]
  | .string => by simp only [wholeTy, belowTy, switchesTy, Bool.and_true]
  | .int _ => by simp only [wholeTy, belowTy, switchesTy, Bool.and_true]
  | .float _ => by simp only [wholeTy, belowTy, switchesTy, Bool.and_true]
  | .fixedString _ => by simp only [wholeTy, belowTy, switchesTy, Bool.and_true]
  | .carray _ _ => by simp only [wholeTy, belowTy, switchesTy, Bool.and_true]
  | .other _ => by simp only [wholeTy, belowTy, switchesTy, Bool.and_true]
termination_by structural t => t
theorem whole_eq_decl (ctx : List Decl) : (d : Decl) →
    wholeDecl ctx d = ((d.lenIs fun _ i => isInt ctx i) &&
      belowDecl (lensHere fun _ c i => isInt c i) d && switchesDecl isOptInt ctx d)
  | .field id t s c b => by
      simp only [wholeDecl, switchesDecl, belowDecl, Decl.lenIs]
      rw [whole_eq_ty t, wholeLen_eq]
      simp only [Bool.and_comm, Bool.and_left_comm]
  | .maybe id t s c b p => by
      simp only [wholeDecl, switchesDecl, belowDecl, Decl.lenIs]
      rw [whole_eq_ty t, wholeLen_eq]
      simp only [Bool.and_comm, Bool.and_left_comm]
  | .union id (.matchField i) ks c => by
      simp only [wholeDecl, switchesDecl, belowDecl, Decl.lenIs, wholeGuide]
      rw [whole_eq_cases ctx ks]
      simp only [isOptInt, Bool.and_assoc, Bool.and_left_comm]
  | .union id (.matchCompute _ _) ks c => by
      simp only [wholeDecl, switchesDecl, belowDecl, Decl.lenIs, wholeGuide, Bool.true_and]
      exact whole_eq_cases ctx ks
  | .union id .ladder ks c => by
      simp only [wholeDecl, switchesDecl, belowDecl, Decl.lenIs, wholeGuide, Bool.true_and]
      exact whole_eq_cases ctx ks
  | .other k => by simp only [wholeDecl, switchesDecl, belowDecl, Decl.lenIs, Bool.true_and]
termination_by structural d => d
theorem whole_eq_cases (ctx : List Decl) : (ks : List Case) →
    wholeCases ctx ks = ((ks.all fun k => k.size.lenIs (isInt ctx)) &&
      belowCases (lensHere fun _ c i => isInt c i) ks && switchesCases isOptInt ks)
  | [] => by simp only [wholeCases, switchesCases, belowCases, List.all_nil, Bool.and_true]
  | .mk k t s c b :: ks => by
      simp only [wholeCases, switchesCases, belowCases, List.all_cons, case_size]
      rw [whole_eq_ty t, wholeLen_eq, whole_eq_cases ctx ks]
      simp only [Bool.and_assoc, Bool.and_comm, Bool.and_left_comm]
termination_by structural ks => ks
theorem whole_eq (ctx : List Decl) : (ds : List Decl) →
    wholeDecls ctx ds = ((ds.all fun d => d.lenIs fun _ i => isInt ctx i) &&
      below (lensHere fun _ c i => isInt c i) ds && switches isOptInt ctx ds)
  | [] => by simp only [wholeDecls, switches, below, List.all_nil, Bool.and_true]
  | d :: ds => by
      simp only [wholeDecls, switches, below, List.all_cons]
      rw [whole_eq_decl ctx d, whole_eq ctx ds]
      simp only [Bool.and_assoc, Bool.and_comm, Bool.and_left_comm]
termination_by structural ds => ds
end

/-- Lengths and discriminants are integers, taken apart. -/
theorem wholeDecls_eq (ds : List Decl) :
    wholeDecls ds ds = (lengths (fun _ c i => isInt c i) ds && switches isOptInt ds ds) :=
  whole_eq ds ds

/-! ### Floating-point slots -/

/-- No field of the list is a floating-point number, or an optional one. -/
def noFloat (ctx : List Decl) : Bool :=
  ctx.all fun
    | .field _ (.float _) _ _ _ => false
    | .maybe _ (.float _) _ _ _ _ => false
    | _ => true

theorem int_of_noFloat {ctx : List Decl} (hc : noFloat ctx = true)
    {id : String} (h : isNumber ctx id = true) : (intField? ctx id).isSome = true := by
  unfold isNumber at h
  unfold intField?
  cases hf : ctx.find? fun d => d.id == id with
  | none => rw [hf] at h; cases h
  | some d =>
    rw [hf] at h
    have hd := List.all_eq_true.1 hc d (List.mem_of_find?_eq_some hf)
    cases d with
    | field i t s c b =>
      cases t with
      | int t => rfl
      | float n => cases hd
      | _ => cases h
    | _ => cases h

theorem matchable_of_noFloat {ctx : List Decl} (hc : noFloat ctx = true)
    {id : String} (h : isComparable ctx id = true) : (matchable? ctx id).isSome = true := by
  unfold isComparable at h
  unfold matchable?
  cases hf : ctx.find? fun d => d.id == id with
  | none => rw [hf] at h; cases h
  | some d =>
    rw [hf] at h
    have hd := List.all_eq_true.1 hc d (List.mem_of_find?_eq_some hf)
    cases d with
    | field i t s c b =>
      cases t with
      | int t => rfl
      | float n => cases hd
      | _ => cases h
    | maybe i t s c b p =>
      cases t with
      | int t => rfl
      | float n => cases hd
      | _ => cases h
    | _ => cases h

theorem comparable_of_number {ctx : List Decl} {id : String} (h : isNumber ctx id = true) :
    isComparable ctx id = true := by
  unfold isNumber at h
  unfold isComparable
  cases hf : ctx.find? fun d => d.id == id with
  | none => rw [hf] at h; cases h
  | some d =>
    rw [hf] at h
    cases d with
    | field i t s c b => exact h
    | _ => cases h

theorem noFloat_here {ds : List Decl} (h : floatDecls ds = false) : noFloat ds = true := by
  induction ds with
  | nil => rfl
  | cons d ds ih =>
    rw [floatDecls, Bool.or_eq_false_iff] at h
    rw [noFloat, List.all_cons, Bool.and_eq_true]
    refine ⟨?_, ih h.2⟩
    split
    · simp [floatDecl, floatTy] at h
    · simp [floatDecl, floatTy] at h
    · rfl

mutual
theorem noFloat_ty : (t : Ty) → floatTy t = false → belowTy noFloat t = true
  | .fieldList ds => by
      simp only [floatTy, belowTy, Bool.and_eq_true]
      exact fun h => ⟨noFloat_here h, noFloat_below ds h⟩
  | .array (.fieldList ds) n => by
      simp only [floatTy, belowTy, Bool.and_eq_true]
      exact fun h => ⟨noFloat_here h, noFloat_below ds h⟩
  | .vector (.fieldList ds) => by
      simp only [floatTy, belowTy, Bool.and_eq_true]
      exact fun h => ⟨noFloat_here h, noFloat_below ds h⟩
  | .array (.int _) _ => fun _ => by simp only [belowTy]
  | .array (.float _) _ => fun _ => by simp only [belowTy]
  | .array (.fixedString _) _ => fun _ => by simp only [belowTy]
  | .array (.array _ _) _ => fun _ => by simp only [belowTy]
  | .array (.carray _ _) _ => fun _ => by simp only [belowTy]
  | .array (.vector _) _ => fun _ => by simp only [belowTy]
  | .array .string _ => fun _ => by simp only [belowTy]
  | .array (.other _) _ => fun _ => by simp only [belowTy]
  | .vector (.int _) => fun _ => by simp only [belowTy]
  | .vector (.float _) => fun _ => by simp only [belowTy]
  | .vector (.fixedString _) => fun _ => by simp only [belowTy]
  | .vector (.array _ _) => fun _ => by simp only [belowTy]
  | .vector (.carray _ _) => fun _ => by simp only [belowTy]
  | .vector (.vector _) => fun _ => by simp only [belowTy]
  | .vector .string => fun _ => by simp only [belowTy]
  | .vector (.other _) => fun _ => by simp only [belowTy]
  | .string => fun _ => by simp only [belowTy]
  | .int _ => fun _ => by simp only [belowTy]
  | .float _ => fun _ => by simp only [belowTy]
  | .fixedString _ => fun _ => by simp only [belowTy]
  | .carray _ _ => fun _ => by simp only [belowTy]
  | .other _ => fun _ => by simp only [belowTy]
termination_by structural t => t
theorem noFloat_decl : (d : Decl) → floatDecl d = false → belowDecl noFloat d = true
  | .field id t s c b => by simp only [floatDecl, belowDecl]; exact noFloat_ty t
  | .maybe id t s c b p => by simp only [floatDecl, belowDecl]; exact noFloat_ty t
  | .union id g ks c => by simp only [floatDecl, belowDecl]; exact noFloat_cases ks
  | .other k => fun _ => by simp only [belowDecl]
termination_by structural d => d
theorem noFloat_cases : (ks : List Case) → floatCases ks = false → belowCases noFloat ks = true
  | [] => fun _ => by simp only [belowCases]
  | .mk k t s c b :: ks => by
      simp only [floatCases, belowCases, Bool.or_eq_false_iff, Bool.and_eq_true]
      exact fun h => ⟨noFloat_ty t h.1, noFloat_cases ks h.2⟩
termination_by structural ks => ks
theorem noFloat_below : (ds : List Decl) → floatDecls ds = false → below noFloat ds = true
  | [] => fun _ => by simp only [below]
  | d :: ds => by
      simp only [floatDecls, below, Bool.or_eq_false_iff, Bool.and_eq_true]
      exact fun h => ⟨noFloat_decl d h.1, noFloat_below ds h.2⟩
termination_by structural ds => ds
end

/-- In the foreign byte order they do not compile. -/
theorem noFloat_of_foreign {use : Use} (hf : use.foreign = true) {ds : List Decl} (h : casts use ds = true) :
    levels noFloat ds = true := by
  rw [casts_eq] at h
  simp only [Bool.and_eq_true, hf] at h
  have h : floatDecls ds = false := by simpa using h.1.1.2.1.1
  rw [levels, Bool.and_eq_true]
  exact ⟨noFloat_here h, noFloat_below ds h⟩

/-- The type of a field, or of an optional. -/
def Decl.ty? : Decl → Option Ty
  | .field _ t _ _ _ => some t
  | .maybe _ t _ _ _ _ => some t
  | _ => none

/-- The descriptors are for integers, arrays, strings and lists. -/
theorem ty_spelled {I cfg tid} : ∀ {d}, Spelled I cfg tid d → ∀ n, d.ty? ≠ some (.float n)
  | _, .basicField h, n => by obtain ⟨s, c, rfl, -⟩ := scalarTag_eq h; simp [Tag.field, Decl.ty?]
  | _, .fixedArrayField _ h, n => by obtain ⟨c, rfl⟩ := fixedArrayTag_eq h; simp [Tag.field, Decl.ty?]
  | _, .arrayOfRecords _ h, n => by obtain ⟨c, rfl⟩ := arrayOfRecordsTag_eq h; simp [Tag.field, Decl.ty?]
  | _, .fixedStringField h, n => by obtain ⟨c, rfl⟩ := fixedStringTag_eq h; simp [Tag.field, Decl.ty?]
  | _, .cArrField _ h, n => by obtain ⟨-, c, rfl⟩ := cArrTag_eq h; simp [Tag.field, Decl.ty?]
  | _, .cStrField h, n => by obtain ⟨c, rfl⟩ := cStrTag_eq h; simp [Tag.field, Decl.ty?]
  | _, .magicByteArray, n => by simp [magicByteArrayTag, Tag.field, Decl.ty?]
  | _, .magicString, n => by simp [magicStringTag, Tag.field, Decl.ty?]
  | _, .magicNumber h, n => by obtain ⟨-, rfl⟩ := magicNumberTag_eq h; simp [Tag.field, Decl.ty?]
  | _, .vecField _ h, n => by obtain ⟨s, c, b, rfl, -⟩ := containerTag_eq h; simp [Tag.field, Decl.ty?]
  | _, .strField h, n => by obtain ⟨s, c, b, rfl, -⟩ := containerTag_eq h; simp [Tag.field, Decl.ty?]
  | _, .structField _ h, n => by obtain ⟨c, rfl⟩ := structTag_eq h; simp [Tag.field, Decl.ty?]
  | _, .maybe hb h, n => by
      have := ty_spelled hb n
      obtain ⟨id, t, s, b, rfl, rfl⟩ := maybeOf_eq h
      exact this
  | _, .variance _ h, n => by obtain ⟨-, -, -, c, rfl⟩ := variance_eq h; simp [Decl.ty?]

theorem noFloat_spelled {I cfg tid} {ds : List Decl} (h : ∀ d ∈ ds, Spelled I cfg tid d) : noFloat ds = true := by
  refine List.all_eq_true.2 fun d hd => ?_
  have := ty_spelled (h d hd)
  split
  · exact absurd rfl (this _)
  · exact absurd rfl (this _)
  · rfl

theorem belowTy_flat {N : List Decl → Bool} {t : Ty} (h : t.flat = true) : belowTy N t = true := by
  cases t with
  | fieldList ds => cases h
  | array e n => cases e <;> first | (cases h; done) | simp only [belowTy]
  | vector e => cases e <;> first | (cases h; done) | simp only [belowTy]
  | _ => simp only [belowTy]

theorem below_iff {N : List Decl → Bool} {ds : List Decl} :
    below N ds = true ↔ ∀ d ∈ ds, belowDecl N d = true := by
  induction ds with
  | nil => simp [below]
  | cons d ds ih => simp [below, ih]

theorem belowCases_iff {N : List Decl → Bool} {ks : List Case} :
    belowCases N ks = true ↔ ∀ k ∈ ks, belowTy N k.ty = true := by
  induction ks with
  | nil => simp [belowCases]
  | cons k ks ih =>
    obtain ⟨k, t, s, c, b⟩ := k
    simp [belowCases, ih, Case.ty]

theorem belowField_flat {N : List Decl → Bool} {id : String} {g : Tag} (h : g.t.flat = true) :
    belowDecl N (g.field id) = true := by
  rw [Tag.field, belowDecl]
  exact belowTy_flat h

mutual
theorem noFloat_spelledDecl {I cfg tid} : ∀ {d}, Spelled I cfg tid d → belowDecl noFloat d = true
  | _, .basicField h => by
      obtain ⟨s, c, rfl, -⟩ := scalarTag_eq h
      exact belowField_flat rfl
  | _, .fixedArrayField (e := e) hl h => by
      obtain ⟨c, rfl⟩ := fixedArrayTag_eq h
      exact belowField_flat (by cases e <;> first | rfl | cases hl)
  | _, .arrayOfRecords hl h => by
      obtain ⟨c, rfl⟩ := arrayOfRecordsTag_eq h
      simp only [Tag.field, belowDecl, belowTy]
      exact noFloat_spelledList hl
  | _, .fixedStringField h => by
      obtain ⟨c, rfl⟩ := fixedStringTag_eq h
      exact belowField_flat rfl
  | _, .cArrField _ h => by
      obtain ⟨-, c, rfl⟩ := cArrTag_eq h
      exact belowField_flat rfl
  | _, .cStrField h => by
      obtain ⟨c, rfl⟩ := cStrTag_eq h
      exact belowField_flat rfl
  | _, .magicByteArray => belowField_flat rfl
  | _, .magicString => belowField_flat rfl
  | _, .magicNumber h => by
      obtain ⟨-, rfl⟩ := magicNumberTag_eq h
      exact belowField_flat rfl
  | _, .vecField (e := e) hds h => by
      have hrec := fun ds hds' => noFloat_spelledList (hds ds hds')
      obtain ⟨s, c, b, rfl, hs⟩ := containerTag_eq h
      cases hl : e.fieldListLike with
      | false => exact belowField_flat (by cases e <;> first | rfl | cases hl)
      | true =>
        obtain ⟨ds, hds⟩ : ∃ ds, e = .fieldList ds := by
          cases e <;> first | exact ⟨_, rfl⟩ | cases hl
        have hrec' := hrec ds hds
        subst hds
        simp only [Tag.field, belowDecl, belowTy]
        exact hrec'
  | _, .strField h => by
      obtain ⟨s, c, b, rfl, -⟩ := containerTag_eq h
      exact belowField_flat rfl
  | _, .structField hl h => by
      obtain ⟨c, rfl⟩ := structTag_eq h
      simp only [Tag.field, belowDecl, belowTy]
      exact noFloat_spelledList hl
  | _, .maybe hb h => by
      have hrec := noFloat_spelledDecl hb
      obtain ⟨id, t, s, b, rfl, rfl⟩ := maybeOf_eq h
      simp only [belowDecl] at hrec ⊢
      exact hrec
  | _, .variance (ks := ks) hk h => by
      obtain ⟨-, -, -, c, rfl⟩ := variance_eq h
      rw [belowDecl]
      exact belowCases_iff.2 fun k hm => noFloat_spelledCase (hk k hm)
theorem noFloat_spelledCase {I cfg tid} : ∀ {k}, SpelledCase I cfg tid k → belowTy noFloat k.ty = true
  | _, .asTrivial (t := t) ht h => by
      obtain ⟨s, c, rfl, hs⟩ := scalarTag_eq h
      exact belowTy_flat (by cases t <;> first | rfl | cases ht)
  | _, .asStruct hl h => by
      obtain ⟨c, rfl⟩ := structTag_eq h
      simp only [Tag.case, Case.ty, belowTy]
      exact noFloat_spelledList hl
  | _, .asFixedArr (e := e) hc h => by
      obtain ⟨c, rfl⟩ := fixedArrayTag_eq h
      exact belowTy_flat (by cases e <;> first | rfl | cases hc)
  | _, .asFixedString h => by
      obtain ⟨c, rfl⟩ := fixedStringTag_eq h
      exact belowTy_flat rfl
  | _, .asVec (e := e) hc h => by
      obtain ⟨s, c, b, rfl, hs⟩ := containerTag_eq h
      exact belowTy_flat (by cases e <;> first | rfl | cases hc)
  | _, .asString h => by
      obtain ⟨s, c, b, rfl, hs⟩ := containerTag_eq h
      exact belowTy_flat rfl
  | _, .asArrOfRecords hl h => by
      obtain ⟨c, rfl⟩ := arrayOfRecordsTag_eq h
      simp only [Tag.case, Case.ty, belowTy]
      exact noFloat_spelledList hl
  | _, .asVecOfRecords hl h => by
      obtain ⟨s, c, b, rfl, hs⟩ := containerTag_eq h
      simp only [Tag.case, Case.ty, belowTy]
      exact noFloat_spelledList hl
/-- The descriptors make no floating-point fields, at any level. -/
theorem noFloat_spelledList {I cfg tid} : ∀ {ds}, SpelledList I cfg tid ds → levels noFloat ds = true
  | _, .mk h _ => by
      rw [levels, Bool.and_eq_true]
      exact ⟨noFloat_spelled h, below_iff.2 fun d hd => noFloat_spelledDecl (h d hd)⟩
end

theorem number_of_int {ctx : List Decl} {id : String} (h : isInt ctx id = true) : isNumber ctx id = true := by
  unfold isInt intField? at h
  unfold isNumber
  split at h
  · rename_i hf; rw [hf]; rfl
  · cases h

theorem comparable_of_int {ctx : List Decl} {id : String} (h : isOptInt ctx id = true) :
    isComparable ctx id = true := by
  unfold isOptInt matchable? at h
  unfold isComparable
  split at h
  · rename_i hf; rw [hf]; rfl
  · rename_i hf; rw [hf]; rfl
  · cases h

theorem fixedBuffer_eq (t : Ty) (s : Size) : fixedBuffer t s = (t.fixedBufferLike && s.isFixed) := by
  cases t <;> simp [fixedBuffer, Ty.fieldContainable, Ty.fixedBufferLike, Ty.isFixedArray, Ty.isCArray,
    Ty.isFixedString, Ty.isArithmetic]

theorem noFixedBuffer_eq (ctx : List Decl) (id : String) : noFixedBuffer ctx id = notBuffer ctx id := by
  unfold noFixedBuffer notBuffer
  simp only [fixedBuffer_eq]
  cases ctx.find? fun d => d.id == id with
  | none => rfl
  | some d => cases d <;> rfl

theorem notBuffer_of_number {ctx : List Decl} {id : String} (h : isNumber ctx id = true) :
    notBuffer ctx id = true := by
  unfold isNumber at h
  unfold notBuffer
  split at h
  · rename_i t s c b hf
    rw [hf]
    cases t <;> first | (cases h; done) | rfl
  · cases h

theorem lengthTarget_eq (ctx : List Decl) (id : String) : (!lengthTarget ctx id) = notLength ctx id := by
  unfold lengthTarget notLength
  induction ctx with
  | nil => rfl
  | cons d ds ih =>
    rw [List.any_cons, List.all_cons, Bool.not_or, ih]
    congr 1
    cases d with
    | field i t s c b =>
      cases s with
      | var l => cases l <;> rfl
      | _ => rfl
    | maybe i t s c b p =>
      cases s with
      | var l => cases l <;> rfl
      | _ => rfl
    | union i g ks c =>
      symm
      rw [Decl.lenIs, Bool.not_false, List.all_eq_true]
      intro k _
      cases k.size with
      | var l => cases l <;> rfl
      | _ => rfl
    | other k => rfl

theorem number_eq (ctx : List Decl) (id : String) :
    isNumber ctx id = (isComparable ctx id && notOptional ctx id) := by
  unfold isNumber isComparable notOptional
  cases ctx.find? fun d => d.id == id with
  | none => rfl
  | some d => cases d <;> simp

theorem int_eq {ctx : List Decl} (hc : noFloat ctx = true) (id : String) : isNumber ctx id = isInt ctx id :=
  Bool.eq_iff_iff.2 ⟨int_of_noFloat hc, number_of_int⟩

theorem optInt_eq {ctx : List Decl} (hc : noFloat ctx = true) (id : String) :
    isComparable ctx id = isOptInt ctx id :=
  Bool.eq_iff_iff.2 ⟨matchable_of_noFloat hc, comparable_of_int⟩

/-- Where there are no floating-point fields, what a length has to be. -/
theorem lengths_eq {ds : List Decl} (h : levels noFloat ds = true) (use : Use) :
    lengths (fun inside c i => lenOk use inside c (.var (.fromField i))) ds =
      lengths (fun inside c i => if use.write && inside then notBuffer c i else isInt c i) ds := by
  refine Bool.eq_iff_iff.2 ⟨lengths_mono_at (fun c hc b i hi => ?_) h, lengths_mono_at (fun c hc b i hi => ?_) h⟩
  · simp only [lenOk, noFixedBuffer_eq, int_eq hc] at hi
    exact hi
  · simp only [lenOk, noFixedBuffer_eq, int_eq hc]
    exact hi

/-- ... and a discriminant. -/
theorem guides_eq {ds : List Decl} (h : levels noFloat ds = true) (use : Use) :
    switches (fun c i => guideOk use c (.matchField i)) ds ds =
      switches (fun c i => if use.write then isInt c i else isOptInt c i && notLength c i) ds ds := by
  refine Bool.eq_iff_iff.2 ⟨switches_mono_at (fun c hc i hi => ?_) h, switches_mono_at (fun c hc i hi => ?_) h⟩
  · simp only [guideOk, lengthTarget_eq, int_eq hc, optInt_eq hc] at hi
    exact hi
  · simp only [guideOk, lengthTarget_eq, int_eq hc, optInt_eq hc]
    exact hi

theorem optInt_of_int {ctx : List Decl} {id : String} (h : isInt ctx id = true) : isOptInt ctx id = true := by
  unfold isInt intField? at h
  unfold isOptInt matchable?
  split at h
  · rename_i hf; rw [hf]; rfl
  · cases h

theorem elabList_eq {I : Impl} {ds : List Decl} {fs : List Field} :
    elabList I ds = some fs ↔ wholeDecls ds ds = true ∧ elabDecls I ds ds = some fs := by
  unfold elabList
  split <;> simp_all

end S2S.Decl
