import Verif.Lemmas.Decl
import Verif.Spec.Inst
/-
Which casts can be instantiated with sizes of any kind, taken apart.
-/
namespace S2S.Decl

mutual
/-- `formTy` without the sizes of vectors of records. -/
def shapeTy : Ty → Size → Bool
  | .fieldList ds, _ => shape ds
  | .array (.fieldList ds) _, _ => shape ds
  | .vector (.fieldList ds), _ => shape ds
  | t, s => formTy t s
def shapeDecl : Decl → Bool
  | .field _ t s _ _ => shapeTy t s
  | .maybe _ t s _ _ _ => shapeTy t s && t.isStorable
  | .union _ _ ks _ => shapeCases ks
  | .other _ => false
def shapeCases : List Case → Bool
  | [] => true
  | .mk _ t s _ _ :: ks => shapeTy t s && t.isStorable && shapeCases ks
def shape : List Decl → Bool
  | [] => true
  | d :: ds => shapeDecl d && shape ds
end

theorem instTy_flat {use : Use} {t : Ty} {s : Size} (h : t.flat = true) : instTy use t s = castsTy use t s := by
  cases t with
  | fieldList ds => cases h
  | array e n => cases e <;> first | (cases h; done) | simp only [instTy]
  | vector e => cases e <;> first | (cases h; done) | simp only [instTy]
  | _ => simp only [instTy]

theorem shapeTy_flat {t : Ty} {s : Size} (h : t.flat = true) : shapeTy t s = formTy t s := by
  cases t with
  | fieldList ds => cases h
  | array e n => cases e <;> first | (cases h; done) | simp only [shapeTy]
  | vector e => cases e <;> first | (cases h; done) | simp only [shapeTy]
  | _ => simp only [shapeTy]

/-- The sizes of a list. -/
def sizesOk (use : Use) (c : List Decl) : Bool :=
  partsHere (fun inside c t s => sizeOk use inside c t s) c

theorem instTy_factor_flat {use : Use} {t : Ty} {s : Size} (h : t.flat = true) :
    instTy use t s = (shapeTy t s && leavesTy (fitsTy use) t &&
      switchesTy (fun c i => guideOk use c (.matchField i)) t && belowTy (sizesOk use) t) := by
  rw [instTy_flat h, shapeTy_flat h, factor_ty, belowTy_flat h, belowTy_flat h]

theorem case_ty (k : Cond) (t : Ty) (s : Size) (c : Constraint) (b : Option Nat) :
    (Case.mk k t s c b).ty = t := rfl

mutual
theorem ifactor_ty (use : Use) : (t : Ty) → (s : Size) →
    instTy use t s = (shapeTy t s && leavesTy (fitsTy use) t &&
      switchesTy (fun c i => guideOk use c (.matchField i)) t && belowTy (sizesOk use) t)
  | .fieldList ds, s => by
      simp only [instTy, shapeTy, leavesTy, switchesTy, belowTy]; exact ifactor use ds ds
  | .array (.fieldList ds) n, s => by
      simp only [instTy, shapeTy, leavesTy, switchesTy, belowTy]; exact ifactor use ds ds
  | .vector (.fieldList ds), s => by
      simp only [instTy, shapeTy, leavesTy, switchesTy, belowTy]; exact ifactor use ds ds
  | .array (.int _) _, s => instTy_factor_flat rfl
  | .array (.float _) _, s => instTy_factor_flat rfl
  | .array (.fixedString _) _, s => instTy_factor_flat rfl
  | .array (.array _ _) _, s => instTy_factor_flat rfl
  | .array (.carray _ _) _, s => instTy_factor_flat rfl
  | .array (.vector _) _, s => instTy_factor_flat rfl
  | .array .string _, s => instTy_factor_flat rfl
  | .array (.other _) _, s => instTy_factor_flat rfl
  | .vector (.int _), s => instTy_factor_flat rfl
  | .vector (.float _), s => instTy_factor_flat rfl
  | .vector (.fixedString _), s => instTy_factor_flat rfl
  | .vector (.array _ _), s => instTy_factor_flat rfl
  | .vector (.carray _ _), s => instTy_factor_flat rfl
  | .vector (.vector _), s => instTy_factor_flat rfl
  | .vector .string, s => instTy_factor_flat rfl
  | .vector (.other _), s => instTy_factor_flat rfl
  | .string, s => instTy_factor_flat rfl
  | .int _, s => instTy_factor_flat rfl
  | .float _, s => instTy_factor_flat rfl
  | .fixedString _, s => instTy_factor_flat rfl
  | .carray _ _, s => instTy_factor_flat rfl
  | .other _, s => instTy_factor_flat rfl
termination_by structural t => t
theorem ifactor_decl (use : Use) (ctx : List Decl) : (d : Decl) →
    instDecl use ctx d = (shapeDecl d && leavesDecl (fitsTy use) d &&
      switchesDecl (fun c i => guideOk use c (.matchField i)) ctx d &&
      (d.parts (fun inside t s => sizeOk use inside ctx t s) && belowDecl (sizesOk use) d))
  | .field id t s c b => by
      simp only [instDecl, shapeDecl, leavesDecl, switchesDecl, belowDecl, Decl.parts]
      rw [ifactor_ty use t s]
      simp only [Bool.and_assoc, Bool.and_comm, Bool.and_left_comm]
  | .maybe id t s c b p => by
      simp only [instDecl, shapeDecl, leavesDecl, switchesDecl, belowDecl, Decl.parts]
      rw [ifactor_ty use t s]
      simp only [Bool.and_assoc, Bool.and_comm, Bool.and_left_comm]
  | .union id (.matchField i) ks c => by
      simp only [instDecl, shapeDecl, leavesDecl, switchesDecl, belowDecl, Decl.parts]
      rw [ifactor_cases use ctx ks]
      simp only [Bool.and_assoc, Bool.and_left_comm]
  | .union id (.matchCompute _ _) ks c => by
      simp only [instDecl, shapeDecl, leavesDecl, switchesDecl, belowDecl, Decl.parts, guideOk, Bool.true_and]
      exact ifactor_cases use ctx ks
  | .union id .ladder ks c => by
      simp only [instDecl, shapeDecl, leavesDecl, switchesDecl, belowDecl, Decl.parts, guideOk, Bool.true_and]
      exact ifactor_cases use ctx ks
  | .other k => by simp only [instDecl, shapeDecl, Bool.false_and]
termination_by structural d => d
theorem ifactor_cases (use : Use) (ctx : List Decl) : (ks : List Case) →
    instCases use ctx ks = (shapeCases ks && leavesCases (fitsTy use) ks &&
      switchesCases (fun c i => guideOk use c (.matchField i)) ks &&
      ((ks.all fun k => sizeOk use true ctx k.ty k.size) && belowCases (sizesOk use) ks))
  | [] => by simp only [instCases, shapeCases, leavesCases, switchesCases, belowCases, List.all_nil, Bool.and_true]
  | .mk k t s c b :: ks => by
      simp only [instCases, shapeCases, leavesCases, switchesCases, belowCases, List.all_cons, case_size, case_ty]
      rw [ifactor_ty use t s, ifactor_cases use ctx ks]
      simp only [Bool.and_assoc, Bool.and_comm, Bool.and_left_comm]
termination_by structural ks => ks
theorem ifactor (use : Use) (ctx : List Decl) : (ds : List Decl) →
    instDecls use ctx ds = (shape ds && leaves (fitsTy use) ds &&
      switches (fun c i => guideOk use c (.matchField i)) ctx ds &&
      ((ds.all fun d => d.parts fun inside t s => sizeOk use inside ctx t s) && below (sizesOk use) ds))
  | [] => by simp only [instDecls, shape, leaves, switches, below, List.all_nil, Bool.and_true]
  | d :: ds => by
      simp only [instDecls, shape, leaves, switches, below, List.all_cons]
      rw [ifactor_decl use ctx d, ifactor use ctx ds]
      simp only [Bool.and_assoc, Bool.and_comm, Bool.and_left_comm]
termination_by structural ds => ds
end

/-- What can be instantiated, taken apart. -/
theorem inst_eq (use : Use) (ds : List Decl) :
    inst use ds = (shape ds &&
      ((!use.foreign || !floatDecls ds) &&
       (noBoolVector ds || use.write && (use.foreign || use.constexprStream)) &&
       (noNestedCArray ds || use.write || !use.constexprStream)) &&
      switches (fun c i => guideOk use c (.matchField i)) ds ds &&
      sizes (fun inside c t s => sizeOk use inside c t s) ds) := by
  rw [inst, ifactor, leaves_fits]
  rfl

/-! ### Sizes where the descriptors put them -/

/-- The vectors of records of a list. -/
def vecsHere (c : List Decl) : Bool := partsHere (fun _ _ t s => !t.recordVector || s.isVariable) c

theorem recordVector_flat {t : Ty} (h : t.flat = true) : t.recordVector = false := by
  cases t with
  | fieldList ds => rfl
  | array e n => rfl
  | vector e => cases e <;> first | (cases h; done) | rfl
  | _ => rfl

theorem formTy_flat {t : Ty} {s : Size} (h : t.flat = true) :
    formTy t s = (shapeTy t s && ((!t.recordVector || s.isVariable) && belowTy vecsHere t)) := by
  rw [shapeTy_flat h, recordVector_flat h, belowTy_flat h]
  simp

mutual
theorem form_eq_ty : (t : Ty) → (s : Size) →
    formTy t s = (shapeTy t s && ((!t.recordVector || s.isVariable) && belowTy vecsHere t))
  | .fieldList ds, s => by
      simp only [formTy, shapeTy, belowTy, Ty.recordVector, Bool.not_false, Bool.true_or, Bool.true_and]
      exact form_eq ds
  | .array (.fieldList ds) n, s => by
      simp only [formTy, shapeTy, belowTy, Ty.recordVector, Bool.not_false, Bool.true_or, Bool.true_and]
      exact form_eq ds
  | .vector (.fieldList ds), s => by
      simp only [formTy, shapeTy, belowTy, Ty.recordVector, Bool.not_true, Bool.false_or]
      rw [form_eq ds]
      simp only [vecsHere, partsHere, Bool.and_assoc, Bool.and_comm, Bool.and_left_comm]
  | .array (.int _) _, s => formTy_flat rfl
  | .array (.float _) _, s => formTy_flat rfl
  | .array (.fixedString _) _, s => formTy_flat rfl
  | .array (.array _ _) _, s => formTy_flat rfl
  | .array (.carray _ _) _, s => formTy_flat rfl
  | .array (.vector _) _, s => formTy_flat rfl
  | .array .string _, s => formTy_flat rfl
  | .array (.other _) _, s => formTy_flat rfl
  | .vector (.int _), s => formTy_flat rfl
  | .vector (.float _), s => formTy_flat rfl
  | .vector (.fixedString _), s => formTy_flat rfl
  | .vector (.array _ _), s => formTy_flat rfl
  | .vector (.carray _ _), s => formTy_flat rfl
  | .vector (.vector _), s => formTy_flat rfl
  | .vector .string, s => formTy_flat rfl
  | .vector (.other _), s => formTy_flat rfl
  | .string, s => formTy_flat rfl
  | .int _, s => formTy_flat rfl
  | .float _, s => formTy_flat rfl
  | .fixedString _, s => formTy_flat rfl
  | .carray _ _, s => formTy_flat rfl
  | .other _, s => formTy_flat rfl
termination_by structural t => t
theorem form_eq_decl : (d : Decl) →
    formDecl d = (shapeDecl d && (d.parts (fun _ t s => !t.recordVector || s.isVariable) && belowDecl vecsHere d))
  | .field id t s c b => by
      simp only [formDecl, shapeDecl, belowDecl, Decl.parts]
      exact form_eq_ty t s
  | .maybe id t s c b p => by
      simp only [formDecl, shapeDecl, belowDecl, Decl.parts]
      rw [form_eq_ty t s]
      simp only [Bool.and_assoc, Bool.and_comm, Bool.and_left_comm]
  | .union id g ks c => by
      simp only [formDecl, shapeDecl, belowDecl, Decl.parts]
      exact form_eq_cases ks
  | .other k => by simp only [formDecl, shapeDecl, Bool.false_and]
termination_by structural d => d
theorem form_eq_cases : (ks : List Case) →
    formCases ks = (shapeCases ks &&
      ((ks.all fun k => !k.ty.recordVector || k.size.isVariable) && belowCases vecsHere ks))
  | [] => by simp only [formCases, shapeCases, belowCases, List.all_nil, Bool.and_true]
  | .mk k t s c b :: ks => by
      simp only [formCases, shapeCases, belowCases, List.all_cons, case_size, case_ty]
      rw [form_eq_ty t s, form_eq_cases ks]
      simp only [Bool.and_assoc, Bool.and_comm, Bool.and_left_comm]
termination_by structural ks => ks
theorem form_eq : (ds : List Decl) →
    form ds = (shape ds &&
      ((ds.all fun d => d.parts fun _ t s => !t.recordVector || s.isVariable) && below vecsHere ds))
  | [] => by simp only [form, shape, below, List.all_nil, Bool.and_true]
  | d :: ds => by
      simp only [form, shape, below, List.all_cons]
      rw [form_eq_decl d, form_eq ds]
      simp only [Bool.and_assoc, Bool.and_comm, Bool.and_left_comm]
termination_by structural ds => ds
end

theorem form_shape (ds : List Decl) : form ds = (shape ds && vectorsHaveLengths ds) := form_eq ds

theorem parts_mono {P Q : Bool → Ty → Size → Bool} (h : ∀ b t s, P b t s = true → Q b t s = true) {d : Decl}
    (hd : d.parts P = true) : d.parts Q = true := by
  cases d with
  | field => exact h _ _ _ hd
  | maybe => exact h _ _ _ hd
  | union =>
    simp only [Decl.parts, List.all_eq_true] at hd ⊢
    exact fun k hk => h _ _ _ (hd k hk)
  | other => rfl

theorem parts_and (P Q : Bool → Ty → Size → Bool) (d : Decl) :
    d.parts (fun b t s => P b t s && Q b t s) = (d.parts P && d.parts Q) := by
  cases d with
  | union =>
    simp only [Decl.parts]
    exact all_and _ _ _
  | _ => rfl

theorem sizes_and (P Q : Bool → List Decl → Ty → Size → Bool) (ds : List Decl) :
    sizes (fun b c t s => P b c t s && Q b c t s) ds = (sizes P ds && sizes Q ds) := by
  rw [sizes, sizes, sizes, ← levels_and]
  congr 1
  funext c
  unfold partsHere
  rw [← all_and]
  congr 1
  funext d
  exact parts_and _ _ d

theorem sizes_mono {P Q : Bool → List Decl → Ty → Size → Bool}
    (h : ∀ b c t s, P b c t s = true → Q b c t s = true) {ds : List Decl} (hp : sizes P ds = true) :
    sizes Q ds = true := by
  refine levels_mono (fun c hc => ?_) hp
  rw [partsHere, List.all_eq_true] at hc ⊢
  exact fun d hd => parts_mono (fun b t s => h b c t s) (hc d hd)

/-- Where one property holds throughout, two others that agree under it hold together. -/
theorem sizes_congr {L P Q : Bool → List Decl → Ty → Size → Bool}
    (h : ∀ b c t s, L b c t s = true → P b c t s = Q b c t s) {ds : List Decl} (hl : sizes L ds = true) :
    sizes P ds = sizes Q ds := by
  refine Bool.eq_iff_iff.2 ⟨fun hp => ?_, fun hq => ?_⟩
  · have := sizes_and L P ds
    rw [hl, hp] at this
    refine sizes_mono (fun b c t s hs => ?_) this
    rw [Bool.and_eq_true] at hs
    rw [← h b c t s hs.1]; exact hs.2
  · have := sizes_and L Q ds
    rw [hl, hq] at this
    refine sizes_mono (fun b c t s hs => ?_) this
    rw [Bool.and_eq_true] at hs
    rw [h b c t s hs.1]; exact hs.2

theorem lengths_sizes (P : Bool → List Decl → String → Bool) (ds : List Decl) :
    lengths P ds = sizes (fun b c _ s => s.lenIs (P b c)) ds := by
  rw [lengths, sizes]
  congr 1

/-- What `sizeOk` says of a length from a field ... -/
theorem sizeOk_record (use : Use) (b : Bool) (c : List Decl) (ds : List Decl) (id : String) :
    sizeOk use b c (.fieldList ds) (.var (.fromField id)) = (!use.write || b && noFixed c id) := rfl

theorem sizeOk_field (use : Use) (b : Bool) (c : List Decl) {t : Ty} (ht : t.fieldListLike = false) (id : String) :
    sizeOk use b c t (.var (.fromField id)) =
      if use.write then (if b then noFixedBuffer c id else isNumber c id)
      else t.ignoresSize || isNumber c id := by
  cases t with
  | fieldList ds => cases ht
  | _ => simp only [sizeOk]

/-- ... and of another size. -/
theorem sizeOk_other (use : Use) (b : Bool) (c : List Decl) (t : Ty) {s : Size}
    (hs : ∀ id, s = .var (.fromField id) → False) :
    sizeOk use b c t s = (!t.recordVector || (use.write || s.isVariable)) := by
  unfold sizeOk
  split
  · exact absurd rfl (hs _)
  · exact absurd rfl (hs _)
  · rfl
  · rename_i h1 h2 h3
    have : t.recordVector = false := by
      unfold Ty.recordVector
      split
      · first | exact absurd rfl (h1 _) | exact absurd rfl (h2 _) | exact absurd rfl (h3 _)
      · rfl
    rw [this]; rfl

/-- A size is a length from a field or it is not. -/
theorem Size.from_or (s : Size) : (∃ id, s = .var (.fromField id)) ∨ ∀ id, s = .var (.fromField id) → False := by
  match s with
  | .var (.fromField id) => exact .inl ⟨id, rfl⟩
  | .var (.computed _) => exact .inr nofun
  | .bytes _ => exact .inr nofun
  | .dontCare => exact .inr nofun
  | .choices => exact .inr nofun

theorem Size.lenIs_other {P : String → Bool} {s : Size} (hs : ∀ id, s = .var (.fromField id) → False) :
    s.lenIs P = true := by
  unfold Size.lenIs
  split
  · exact absurd rfl (hs _)
  · rfl

theorem lenOk_other {use : Use} {b : Bool} {c : List Decl} {s : Size}
    (hs : ∀ id, s = .var (.fromField id) → False) : lenOk use b c s = true := by
  rw [lenOk_eq]; exact Size.lenIs_other hs

/-- With the sizes the descriptors give, it is as `casts` says. -/
theorem inst_tidy (use : Use) (ds : List Decl) (h : tidy ds = true) : inst use ds = casts use ds := by
  rw [tidy, Bool.and_eq_true] at h
  rw [inst_eq, casts_eq, form_shape, h.1, Bool.and_true, lengths_sizes]
  have := sizes_and (fun _ _ t s => !t.recordVector || s.isVariable)
    (fun _ _ t s => !t.ignoresSize || s.lenIs fun _ => false) ds
  rw [show sizes (fun _ _ t s => !t.recordVector || s.isVariable) ds = true from h.1,
    show sizes (fun _ _ t s => !t.ignoresSize || s.lenIs fun _ => false) ds = true from h.2] at this
  refine congrArg _ (sizes_congr (fun b c t s hs => ?_) this)
  rw [Bool.and_eq_true] at hs
  obtain ⟨h1, h2⟩ := hs
  rcases s.from_or with ⟨id, rfl⟩ | hs
  · simp only [Size.lenIs, Bool.or_false, Bool.not_eq_true'] at h2
    have ht : t.fieldListLike = false := by
      cases t <;> first | rfl | cases h2
    rw [sizeOk_field use b c ht, h2]
    simp only [Size.lenIs, lenOk]
    cases use.write <;> cases b <;> simp
  · rw [sizeOk_other use b c t hs, Size.lenIs_other hs]
    cases h3 : t.recordVector with
    | false => rfl
    | true =>
      rw [h3] at h1
      simp only [Bool.not_true, Bool.false_or] at h1
      rw [h1]; simp

/-! ### Reading and writing -/

/-- Of what can be written, the sizes that can be read. -/
theorem sizes_of_writable {f k : Bool} {ds : List Decl}
    (h : sizes (fun b c t s => sizeOk ⟨f, true, k⟩ b c t s) ds = true) :
    sizes (fun b c t s => sizeOk ⟨f, false, k⟩ b c t s) ds =
      (sizes (fun b c t s => !b || t.ignoresSize || s.lenIs (isNumber c)) ds && vectorsHaveLengths ds) := by
  rw [vectorsHaveLengths, ← sizes_and]
  refine sizes_congr (fun b c t s hs => ?_) h
  rcases s.from_or with ⟨id, rfl⟩ | hf
  · cases ht : t.fieldListLike with
    | true =>
      cases t with
      | fieldList ds' => simp [sizeOk_record, Ty.ignoresSize, Ty.recordVector]
      | _ => cases ht
    | false =>
      rw [sizeOk_field _ b c ht] at hs ⊢
      simp only [Size.isVariable, Bool.or_true, Bool.and_true, Size.lenIs, if_true] at hs ⊢
      cases b with
      | true => simp
      | false =>
        simp only [Bool.false_eq_true, if_false] at hs
        simp [hs]
  · rw [sizeOk_other _ b c t hf, Size.lenIs_other hf]
    simp

theorem sizes_of_readable {f k : Bool} {ds : List Decl}
    (h : sizes (fun b c t s => sizeOk ⟨f, false, k⟩ b c t s) ds = true) :
    sizes (fun b c t s => sizeOk ⟨f, true, k⟩ b c t s) ds = sizes recordLength ds := by
  refine sizes_congr (fun b c t s hs => ?_) h
  rcases s.from_or with ⟨id, rfl⟩ | hf
  · cases ht : t.fieldListLike with
    | true =>
      cases t with
      | fieldList ds' => simp [sizeOk_record, recordLength, Size.lenIs]
      | _ => cases ht
    | false =>
      rw [sizeOk_field _ b c ht] at hs ⊢
      simp only [Bool.false_eq_true, if_false, if_true] at hs ⊢
      rw [noFixedBuffer_eq]
      cases hi : t.ignoresSize with
      | true =>
        have ⟨ds', n, hd⟩ : ∃ ds' n, t = .array (.fieldList ds') n := by
          unfold Ty.ignoresSize at hi
          split at hi
          · cases ht
          · exact ⟨_, _, rfl⟩
          · cases hi
        subst hd
        rfl
      | false =>
        rw [hi, Bool.false_or] at hs
        have hr : recordLength b c t (.var (.fromField id)) = true := by
          unfold recordLength
          split
          · cases ht
          · cases hi
          · rfl
        rw [hr, hs]
        cases b
        · rfl
        · exact notBuffer_of_number hs
  · rw [sizeOk_other _ b c t hf]
    unfold recordLength
    split <;> simp [Size.lenIs_other hf]

/-! ### What is spelled with the descriptors -/

/-- The sizes the descriptors give. -/
def tidyPart (t : Ty) (s : Size) : Bool :=
  (!t.recordVector || s.isVariable) && (!t.ignoresSize || s.lenIs fun _ => false)

def tidyHere (c : List Decl) : Bool := partsHere (fun _ _ t s => tidyPart t s) c

theorem tidy_eq (ds : List Decl) : tidy ds = levels tidyHere ds :=
  (sizes_and (fun _ _ t s => !t.recordVector || s.isVariable)
    (fun _ _ t s => !t.ignoresSize || s.lenIs fun _ => false) ds).symm

theorem ignoresSize_flat {t : Ty} (h : t.flat = true) : t.ignoresSize = false := by
  cases t with
  | fieldList ds => cases h
  | array e n => cases e <;> first | (cases h; done) | rfl
  | _ => rfl

theorem tidyPart_flat {t : Ty} {s : Size} (h : t.flat = true) : tidyPart t s = true := by
  rw [tidyPart, recordVector_flat h, ignoresSize_flat h]; rfl

theorem tidyField_flat {id : String} {g : Tag} (h : g.t.flat = true) :
    ((g.field id).parts (fun _ t s => tidyPart t s) && belowDecl tidyHere (g.field id)) = true := by
  rw [Bool.and_eq_true]
  exact ⟨tidyPart_flat h, belowField_flat h⟩

theorem tidyCase_flat {k : Cond} {g : Tag} (h : g.t.flat = true) :
    (tidyPart (g.case k).ty (g.case k).size && belowTy tidyHere (g.case k).ty) = true := by
  rw [Bool.and_eq_true]
  exact ⟨tidyPart_flat h, belowTy_flat h⟩

mutual
theorem tidy_spelledDecl {I cfg tid} : ∀ {d}, Spelled I cfg tid d →
    (d.parts (fun _ t s => tidyPart t s) && belowDecl tidyHere d) = true
  | _, .basicField h => by
      obtain ⟨s, c, rfl, -⟩ := scalarTag_eq h
      exact tidyField_flat rfl
  | _, .fixedArrayField (e := e) hl h => by
      obtain ⟨c, rfl⟩ := fixedArrayTag_eq h
      exact tidyField_flat (by cases e <;> first | rfl | cases hl)
  | _, .arrayOfRecords hl h => by
      obtain ⟨c, rfl⟩ := arrayOfRecordsTag_eq h
      simp only [Tag.field, belowDecl, belowTy, Decl.parts]
      exact tidy_spelledList hl
  | _, .fixedStringField h => by
      obtain ⟨c, rfl⟩ := fixedStringTag_eq h
      exact tidyField_flat rfl
  | _, .cArrField _ h => by
      obtain ⟨-, c, rfl⟩ := cArrTag_eq h
      exact tidyField_flat rfl
  | _, .cStrField h => by
      obtain ⟨c, rfl⟩ := cStrTag_eq h
      exact tidyField_flat rfl
  | _, .magicByteArray => tidyField_flat rfl
  | _, .magicString => tidyField_flat rfl
  | _, .magicNumber h => by
      obtain ⟨-, rfl⟩ := magicNumberTag_eq h
      exact tidyField_flat rfl
  | _, .vecField (e := e) hds h => by
      have hrec := fun ds hds' => tidy_spelledList (hds ds hds')
      obtain ⟨s, c, b, rfl, hs⟩ := containerTag_eq h
      cases hl : e.fieldListLike with
      | false => exact tidyField_flat (by cases e <;> first | rfl | cases hl)
      | true =>
        obtain ⟨ds, hds⟩ : ∃ ds, e = .fieldList ds := by
          cases e <;> first | exact ⟨_, rfl⟩ | cases hl
        have hrec' := hrec ds hds
        subst hds
        simp only [Tag.field, belowDecl, belowTy, Decl.parts]
        rw [Bool.and_eq_true]
        exact ⟨by simp [tidyPart, hs, Ty.ignoresSize], hrec'⟩
  | _, .strField h => by
      obtain ⟨s, c, b, rfl, -⟩ := containerTag_eq h
      exact tidyField_flat rfl
  | _, .structField hl h => by
      obtain ⟨c, rfl⟩ := structTag_eq h
      simp only [Tag.field, belowDecl, belowTy, Decl.parts]
      exact tidy_spelledList hl
  | _, .maybe hb h => by
      have hrec := tidy_spelledDecl hb
      obtain ⟨id, t, s, b, rfl, rfl⟩ := maybeOf_eq h
      simp only [belowDecl, Decl.parts] at hrec ⊢
      exact hrec
  | _, .variance (ks := ks) hk h => by
      have hrec := fun k hm => tidy_spelledCase (hk k hm)
      obtain ⟨-, -, -, c, rfl⟩ := variance_eq h
      simp only [Bool.and_eq_true] at hrec
      rw [belowDecl, Decl.parts, Bool.and_eq_true, List.all_eq_true]
      exact ⟨fun k hm => (hrec k hm).1, belowCases_iff.2 fun k hm => (hrec k hm).2⟩
theorem tidy_spelledCase {I cfg tid} : ∀ {k}, SpelledCase I cfg tid k →
    (tidyPart k.ty k.size && belowTy tidyHere k.ty) = true
  | _, .asTrivial (t := t) ht h => by
      obtain ⟨s, c, rfl, hs⟩ := scalarTag_eq h
      exact tidyCase_flat (by cases t <;> first | rfl | cases ht)
  | _, .asStruct hl h => by
      obtain ⟨c, rfl⟩ := structTag_eq h
      simp only [Tag.case, Case.ty, Case.size, belowTy]
      exact tidy_spelledList hl
  | _, .asFixedArr (e := e) hc h => by
      obtain ⟨c, rfl⟩ := fixedArrayTag_eq h
      exact tidyCase_flat (by cases e <;> first | rfl | cases hc)
  | _, .asFixedString h => by
      obtain ⟨c, rfl⟩ := fixedStringTag_eq h
      exact tidyCase_flat rfl
  | _, .asVec (e := e) hc h => by
      obtain ⟨s, c, b, rfl, hs⟩ := containerTag_eq h
      exact tidyCase_flat (by cases e <;> first | rfl | cases hc)
  | _, .asString h => by
      obtain ⟨s, c, b, rfl, hs⟩ := containerTag_eq h
      exact tidyCase_flat rfl
  | _, .asArrOfRecords hl h => by
      obtain ⟨c, rfl⟩ := arrayOfRecordsTag_eq h
      simp only [Tag.case, Case.ty, Case.size, belowTy]
      exact tidy_spelledList hl
  | _, .asVecOfRecords hl h => by
      have hrec := tidy_spelledList hl
      obtain ⟨s, c, b, rfl, hs⟩ := containerTag_eq h
      simp only [Tag.case, Case.ty, Case.size, belowTy]
      rw [Bool.and_eq_true]
      exact ⟨by simp [tidyPart, hs, Ty.ignoresSize], hrec⟩
theorem tidy_spelledList {I cfg tid} : ∀ {ds}, SpelledList I cfg tid ds → levels tidyHere ds = true
  | _, .mk (ds := ds) h _ => by
      have hrec := fun d hd => tidy_spelledDecl (h d hd)
      simp only [Bool.and_eq_true] at hrec
      rw [levels, Bool.and_eq_true]
      exact ⟨List.all_eq_true.2 fun d hd => (hrec d hd).1, below_iff.2 fun d hd => (hrec d hd).2⟩
end

theorem tidy_spelled {I cfg tid ds} (h : SpelledList I cfg tid ds) : tidy ds = true := by
  rw [tidy_eq]; exact tidy_spelledList h

theorem instDecls_iff {use : Use} {ctx ds : List Decl} :
    instDecls use ctx ds = true ↔ ∀ d ∈ ds, instDecl use ctx d = true := by
  induction ds with
  | nil => simp [instDecls]
  | cons d ds ih => simp [instDecls, ih]

/-- In the foreign byte order there are no floating-point fields. -/
theorem inst_noFloat {use : Use} (hf : use.foreign = true) {ds : List Decl} (h : inst use ds = true) :
    levels noFloat ds = true := by
  rw [inst_eq] at h
  simp only [Bool.and_eq_true, hf] at h
  have h : floatDecls ds = false := by simpa using h.1.1.2.1.1
  rw [levels, Bool.and_eq_true]
  exact ⟨noFloat_here h, noFloat_below ds h⟩

/-- What is read has lengths for its vectors of records. -/
theorem vectors_of_readable {use : Use} (hr : use.write = false) {ds : List Decl} (h : inst use ds = true) :
    vectorsHaveLengths ds = true := by
  rw [inst_eq, Bool.and_eq_true] at h
  refine sizes_mono (fun b c t s hs => ?_) h.2
  rcases s.from_or with ⟨id, rfl⟩ | hf
  · simp [Size.isVariable]
  · rw [sizeOk_other _ b c t hf, hr, Bool.false_or] at hs
    exact hs

theorem notBuffer_of_noFixed {c : List Decl} {id : String} (h : noFixed c id = true) : notBuffer c id = true := by
  have hb : ∀ (t : Ty) (s : Size), (!(t.fieldContainable && s.isFixed)) = true →
      (!(t.fixedBufferLike && s.isFixed)) = true := fun t s h => by
    cases h1 : t.fixedBufferLike
    · rfl
    · simpa [Ty.fieldContainable, h1] using h
  unfold noFixed at h
  unfold notBuffer
  split at h
  · rename_i hf; rw [hf]; exact hb _ _ h
  · rename_i hf; rw [hf]; exact hb _ _ h
  · rename_i hf
    rw [hf]
    simp only [List.all_eq_true] at h ⊢
    exact fun k hk => hb _ _ (h k hk)
  · cases h
  · rename_i hf; rw [hf]

/-- Lengths of what is written, without floating-point fields. -/
theorem lengths_of_sizes {use : Use} (hw : use.write = true) {ds : List Decl} (hn : levels noFloat ds = true)
    (h : sizes (fun b c t s => sizeOk use b c t s) ds = true) :
    lengths (fun inside c i => if inside then notBuffer c i else isInt c i) ds = true := by
  rw [lengths_sizes]
  refine levels_mono_at (fun c hc hs => ?_) hn h
  rw [partsHere, List.all_eq_true] at hs ⊢
  refine fun d hd => parts_mono (fun b t s hs => ?_) (hs d hd)
  rcases s.from_or with ⟨id, rfl⟩ | hf
  · rw [Size.lenIs]
    cases ht : t.fieldListLike with
    | true =>
      cases t with
      | fieldList ds' =>
        rw [sizeOk_record, hw, Bool.not_true, Bool.false_or, Bool.and_eq_true] at hs
        rw [if_pos hs.1]
        exact notBuffer_of_noFixed hs.2
      | _ => cases ht
    | false =>
      rw [sizeOk_field _ b c ht, hw, if_pos rfl, noFixedBuffer_eq, int_eq hc] at hs
      exact hs
  · exact Size.lenIs_other hf

end S2S.Decl
