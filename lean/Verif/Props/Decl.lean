import Verif.Lemmas.Decl
import Verif.Lemmas.Inst
import Verif.Props.Unions
import Verif.Props.Meta
/-
C75 to C79: what users declare, what the library makes of it, and which of it compiles.
-/
namespace S2S.Props
open Spec Demo

/-! ## C75 -/

/-- C75, reads that succeed: a union that switches on an optional holds the alternative of
the first label the value of the optional matches; the optional is engaged. -/
theorem C75_engaged (cfg : Cfg) (fs : List Field) (hwf : WellFormed fs) (S : InStream)
    (s s' : S.State) (vs : List Val) (h : (structCast cfg fs).runOn S s = (.done (.ok vs), s'))
    (u id : String) (t : ScalarTy) (w : Nat) (labels : List (ScalarTy × Int)) (alts : List Alt)
    (c : Constraint) (p : Pred) (v o : Val)
    (hm : (Field.union u (.matchField id t labels) alts c, v) ∈ fs.zip vs)
    (ho : (Field.maybe id (.num t w) p, o) ∈ fs.zip vs) (hr : ∀ l ∈ labels, t.InRange l.2) :
    ∃ i a x, v = .var i a ∧ o = .present (.int x) ∧ (labels[i]?).map Prod.snd = some x ∧
      (∀ j, j < i → (labels[j]?).map Prod.snd ≠ some x) ∧
      p.eval (envOf fs vs) = .ok true := by
  obtain ⟨i, a, rfl, hmatch, hfirst⟩ := C21_read_first cfg fs hwf S s s' vs h u _ alts c v hm
  have hv := (success_on_any_stream cfg fs hwf S s s' vs h).1
  have henv : envOf fs vs id = some o := env_zip hwf.2.1 ho
  have hs := shaped_zip hv.2.2 ho
  have hf := fits_zip hv.1 ho
  obtain ⟨x, l, hx, hl, hlm⟩ := hmatch
  rw [henv] at hx
  have hox : o = .present (.int x) := by
    rcases hx with hx | hx
    · cases hx; simp [FitsField] at hf
    · cases hx; rfl
  subst hox
  have hxr : t.InRange x := by
    rw [FitsField, FitsKind] at hf
    exact hf.1
  refine ⟨i, a, x, rfl, rfl, ?_, ?_, ?_⟩
  · rw [hl, Option.map_some, (labelMatches_iff hxr (hr l (List.mem_of_getElem? hl))).1 hlm]
  · intro j hj hjx
    rw [Option.map_eq_some_iff] at hjx
    obtain ⟨l', hl', rfl⟩ := hjx
    exact hfirst j hj ⟨l'.2, l', .inr henv, hl',
      (labelMatches_iff hxr (hr l' (List.mem_of_getElem? hl'))).2 rfl⟩
  · rw [ShapedField] at hs
    exact hs.1

/-- C75: if the optional was not read, the read fails with `type_deduction_failure` at the
union, whatever the labels, the stream untouched. -/
theorem C75_empty (cfg : Cfg) (pre post : List Field) (u id : String) (t : ScalarTy)
    (labels : List (ScalarTy × Int)) (alts : List Alt) (c : Constraint)
    (hwf : WellFormed (pre ++ .union u (.matchField id t labels) alts c :: post))
    (S : InStream) (s s1 : S.State) (vs : List Val)
    (h : (structCast cfg pre).runOn S s = (.done (.ok vs), s1)) (k : Kind) (p : Pred)
    (ho : (Field.maybe id k p, Val.absent) ∈ pre.zip vs) :
    (structCast cfg (pre ++ .union u (.matchField id t labels) alts c :: post)).runOn S s =
      (.done (.error ⟨.typeDeductionFailure, u⟩), s1) := by
  have hwf1 := wf_prefix (pre := pre) (post := .union u (.matchField id t labels) alts c :: post) hwf
  have henv : envOf pre vs id = some .absent := env_zip hwf1.2.1 ho
  have hd : (Deducer.matchField id t labels).eval (envOf pre vs) = .ok none := by
    simp only [Deducer.eval, henv]
  rw [runOn_append cfg pre _ hwf S s s1 vs h]
  simp only [readRest, readFields, readField, hd, RdE.lift, RdE.ok_andThen]
  rfl

/-- C75: the same if no label is the value of the optional. -/
theorem C75_no_label (cfg : Cfg) (pre post : List Field) (u id : String) (t : ScalarTy)
    (labels : List (ScalarTy × Int)) (alts : List Alt) (c : Constraint)
    (hwf : WellFormed (pre ++ .union u (.matchField id t labels) alts c :: post))
    (S : InStream) (s s1 : S.State) (vs : List Val)
    (h : (structCast cfg pre).runOn S s = (.done (.ok vs), s1)) (w : Nat) (p : Pred) (x : Int)
    (ho : (Field.maybe id (.num t w) p, Val.present (.int x)) ∈ pre.zip vs)
    (hr : ∀ l ∈ labels, t.InRange l.2) (hn : x ∉ labels.map Prod.snd) :
    (structCast cfg (pre ++ .union u (.matchField id t labels) alts c :: post)).runOn S s =
      (.done (.error ⟨.typeDeductionFailure, u⟩), s1) := by
  have hwf1 := wf_prefix (pre := pre) (post := .union u (.matchField id t labels) alts c :: post) hwf
  have hv := (success_on_any_stream cfg pre hwf1 S s s1 vs h).1
  have hf := fits_zip hv.1 ho
  have hxr : t.InRange x := by
    rw [FitsField, FitsKind] at hf
    exact hf.1
  have henv : envOf pre vs id = some (.present (.int x)) := env_zip hwf1.2.1 ho
  have hno : switchIdx t x labels = none := by
    cases hs : switchIdx t x labels with
    | none => rfl
    | some i =>
      exfalso
      have hd : (Deducer.matchField id t labels).eval (envOf pre vs) = .ok (some i) := by
        simp only [Deducer.eval, henv, hs]
      obtain ⟨⟨x', l, hx', hl, hlm⟩, -⟩ := firstMatch_of_eval hd
      rw [henv] at hx'
      obtain rfl : x = x' := by
        rcases hx' with hx' | hx' <;> cases hx'
        rfl
      have hlm' := List.mem_of_getElem? hl
      exact hn (List.mem_map.2 ⟨l, hlm', ((labelMatches_iff hxr (hr l hlm')).1 hlm).symm⟩)
  have hd : (Deducer.matchField id t labels).eval (envOf pre vs) = .ok none := by
    simp only [Deducer.eval, henv, hno]
  rw [runOn_append cfg pre _ hwf S s s1 vs h]
  simp only [readRest, readFields, readField, hd, RdE.lift, RdE.ok_andThen]
  rfl

/-- C75: a list with a union that switches on an optional of the list cannot be written;
`stream_cast` does not compile. -/
theorem C75_not_writable (use : Decl.Use) (hw : use.write = true) (ds : List Decl.Decl)
    (hn : (ds.map Decl.Decl.id).Nodup) (u id : String) (ks : List Decl.Case) (c c' : Constraint)
    (t : Decl.Ty) (s : Decl.Size) (b : Option Nat) (p : Pred)
    (hu : Decl.Decl.union u (.matchField id) ks c ∈ ds)
    (hm : Decl.Decl.maybe id t s c' b p ∈ ds) : Decl.inst use ds = false := by
  cases h : Decl.inst use ds with
  | false => rfl
  | true =>
    have h1 := Decl.instDecls_iff.1 h _ hu
    rw [Decl.instDecl, Bool.and_eq_true, Decl.guideOk, if_pos hw] at h1
    have ht' := h1.1
    unfold Decl.isNumber at ht'
    split at ht'
    · rename_i id' _ _ _ _ hf
      have hid : id' = id := by simpa [Decl.Decl.id] using List.find?_some hf
      subst hid
      have := Decl.eq_of_id hn hm (List.mem_of_find?_eq_some hf) rfl
      cases this
    · cases ht'

/-! ## C76 -/

theorem matchValues_nodup {cfg : Cfg} {g : Decl.Guide} {ks : List Decl.Case}
    (h : Decl.typeDeductionLike g ks = true) :
    (Decl.matchValues cfg g ks).Nodup ↔
      (Decl.switchLabels ks).Pairwise fun a b => a % (cfg.szMod : Int) ≠ b % (cfg.szMod : Int) := by
  have key : Decl.matchValues cfg g ks = (Decl.switchLabels ks).map cfg.toSz := by
    have hs : ∀ ks : List Decl.Case, (ks.filterMap fun k =>
        match k.cond with | .label _ v => some (cfg.toSz v) | .when _ => none) =
        (Decl.switchLabels ks).map cfg.toSz := by
      intro ks
      induction ks with
      | nil => rfl
      | cons k ks ih =>
        obtain ⟨cond, t, s, c, b⟩ := k
        cases cond with
        | label t v => simp only [Decl.switchLabels, Decl.Case.cond, List.filterMap_cons, List.map_cons] at ih ⊢; rw [ih]
        | when p => simp only [Decl.switchLabels, Decl.Case.cond, List.filterMap_cons] at ih ⊢; rw [ih]
    cases g with
    | ladder =>
      rw [Decl.typeDeductionLike, Bool.and_eq_true] at h
      rw [Decl.matchValues]
      have : Decl.switchLabels ks = [] := by
        rw [Decl.switchLabels, List.filterMap_eq_nil_iff]
        intro k hk
        have := (List.all_eq_true.1 h.2) k hk
        cases hc : k.cond with
        | label t v => rw [hc] at this; cases this
        | when p => rfl
      rw [this]; rfl
    | matchField id => exact hs ks
    | matchCompute c r => exact hs ks
  rw [key, List.Nodup, List.pairwise_map]
  constructor <;> refine List.Pairwise.imp fun {a b} hab hx => hab ?_
  · rw [Cfg.toSz, Cfg.toSz, residue, residue]
    rw [Cfg.szMod] at hx
    rw [hx]
  · rw [Cfg.szMod, ← residue_cast, ← residue_cast]
    exact congrArg _ hx

/-- C76. `variance` accepts a switch or ladder exactly if it has at least one case, its
cases are all labelled (or all conditioned), no two are of the same type, no two labels
are the same number modulo 2^N (N: the width of `std::size_t`), and its options are
constraints that resolve. -/
theorem C76_accepts (I : Decl.Impl) (cfg : Cfg) (tid : Decl.Ty → Nat) (v : Decl.Ty) (id : String)
    (g : Decl.Guide) (ks : List Decl.Case) (opts : List Decl.Opt) :
    (Decl.variance I cfg tid v id g ks opts).isSome = true ↔
      ks ≠ [] ∧ (∀ k ∈ ks, k.cond.isLabel = true ↔ g ≠ .ladder) ∧
      (ks.map fun k => tid k.ty).Nodup ∧
      ((Decl.switchLabels ks).Pairwise fun a b => a % (cfg.szMod : Int) ≠ b % (cfg.szMod : Int)) ∧
      (Decl.resolve I v Decl.onlyConstraint (fun _ => true) opts).isSome = true := by
  have hlike : Decl.typeDeductionLike g ks = true ↔
      ks ≠ [] ∧ ∀ k ∈ ks, k.cond.isLabel = true ↔ g ≠ .ladder := by
    cases g <;> simp [Decl.typeDeductionLike]
  rw [← and_assoc, ← hlike]
  unfold Decl.variance
  rw [Decl.uniqueFieldChoices_eq, Decl.uniqueMatchValues_eq]
  by_cases h : Decl.typeDeductionLike g ks = true
  · rw [← matchValues_nodup h]
    by_cases h1 : (ks.map fun k => tid k.ty).Nodup <;> by_cases h2 : (Decl.matchValues cfg g ks).Nodup <;>
      simp [h, h1, h2]
  · simp [h]

/-- Labels are values of the type of the slot they are compared with, and survive
`std::size_t`. -/
def LabelsFit (cfg : Cfg) (fs : List Field) : Prop :=
  ∀ f ∈ fs, match f with
    | .union _ (.matchField _ t labels) _ _ =>
        ∀ l ∈ labels, t.InRange l.2 ∧ (t.size ≤ cfg.szBytes ∨ 0 ≤ l.2 ∧ l.2 < (cfg.szMod : Nat))
    | _ => True

instance (cfg : Cfg) : DecidablePred (LabelsFit cfg) := fun fs => by
  unfold LabelsFit
  refine @List.decidableBAll _ _ (fun f => ?_) fs
  split <;> infer_instance

theorem labelsOf_values {ks : List Decl.Case} {ls : List (ScalarTy × Int)}
    (h : Decl.labelsOf ks = some ls) : ls.map Prod.snd = Decl.switchLabels ks := by
  induction ks generalizing ls with
  | nil => cases h; rfl
  | cons k ks ih =>
    obtain ⟨cond, t, s, c, b⟩ := k
    cases cond with
    | label t v =>
      rw [Decl.labelsOf, Option.map_eq_some_iff] at h
      obtain ⟨ls', h', rfl⟩ := h
      rw [List.map_cons, ih h']
      rfl
    | when p => rw [Decl.labelsOf] at h; cases h

/-- C76. What it buys: in a schema declared with the library's descriptors, at every
level, labels that are values of their slot's type and fit into `std::size_t` select
unambiguously. -/
theorem C76_good_labels (I : Decl.Impl) (cfg : Cfg) (tid : Decl.Ty → Nat) (ds : List Decl.Decl)
    (fs : List Field) (h : Decl.SpelledList I cfg tid ds) (he : Decl.elabList I ds = some fs)
    (hr : Everywhere (LabelsFit cfg) fs) : Everywhere (GoodLabels cfg) fs := by
  refine (Everywhere.and.2 ⟨hr, Decl.everywhere_spelled h (Decl.elabList_eq.1 he).2⟩).mono ?_
  rintro fs ⟨hfit, ds, hsp, he⟩ f hf
  have hfit' := hfit f hf
  obtain ⟨d, hd, hx⟩ := Decl.elabDecls_mem he f hf
  cases f with
  | plain id k c => trivial
  | maybe id k p => trivial
  | union id dd alts c =>
    cases dd with
    | matchCompute _ _ _ => trivial
    | ladder _ => trivial
    | matchField i t labels =>
      refine ⟨hfit', ?_⟩
      obtain ⟨hall, -⟩ := hsp
      have hsd := hall d hd
      cases d with
      | field => rw [Decl.elabDecl, Option.map_eq_some_iff] at hx; obtain ⟨_, -, hx⟩ := hx; cases hx
      | maybe => rw [Decl.elabDecl, Option.map_eq_some_iff] at hx; obtain ⟨_, -, hx⟩ := hx; cases hx
      | other => rw [Decl.elabDecl] at hx; cases hx
      | union id' g ks c' =>
        obtain ⟨hlike, huniq⟩ := Decl.union_spelled hsd
        rw [Decl.uniqueMatchValues_eq, Option.some.injEq, decide_eq_true_iff, matchValues_nodup hlike] at huniq
        rw [Decl.elabDecl, Option.bind_eq_some_iff] at hx
        obtain ⟨dd, hg, hx⟩ := hx
        rw [Option.map_eq_some_iff] at hx
        obtain ⟨alts', -, hx⟩ := hx
        cases hx
        cases g with
        | matchCompute c r => rw [Decl.elabGuide, Option.map_eq_some_iff] at hg; obtain ⟨_, -, hg⟩ := hg; cases hg
        | ladder => rw [Decl.elabGuide, Option.map_eq_some_iff] at hg; obtain ⟨_, -, hg⟩ := hg; cases hg
        | matchField i' =>
          rw [Decl.elabGuide, Option.bind_eq_some_iff] at hg
          obtain ⟨t', -, hg⟩ := hg
          rw [Option.map_eq_some_iff] at hg
          obtain ⟨ls, hls, hg⟩ := hg
          cases hg
          rw [labelsOf_values hls]
          exact huniq.imp fun {a b} hab hx => hab (by rw [hx])

/-! ## C77 -/

/-- C77. For every template argument there is a specialization of `read_field` and
`write_field` exactly if it is `field_like`, ... -/
theorem C77_some (d : Decl.Decl) : (∃ h : Decl.Handler, h.takes d = true) ↔ d.fieldLike = true := by
  constructor
  · rintro ⟨h, hh⟩
    cases h <;> simp only [Decl.Handler.takes] at hh <;> simp [Decl.Decl.fieldLike, hh]
  · intro h
    simp only [Decl.Decl.fieldLike, Bool.or_eq_true] at h
    rcases h with (((((h | h) | h) | h) | h) | h) | h
    · exact ⟨.fixed, h⟩
    · exact ⟨.variable, h⟩
    · exact ⟨.arrayOfRecords, h⟩
    · exact ⟨.vectorOfRecords, h⟩
    · exact ⟨.struct, h⟩
    · exact ⟨.optional, h⟩
    · exact ⟨.union, h⟩

/-- C77. ... and never two: the choice is not ambiguous. -/
theorem C77_unique (d : Decl.Decl) (h h' : Decl.Handler) (hh : h.takes d = true)
    (hh' : h'.takes d = true) : h = h' := by
  cases d with
  | field id t s c b =>
    cases t with
    | array e n =>
      cases h <;> first | (cases hh; done) | (cases h' <;> first | rfl | (cases hh'; done) | skip)
      all_goals cases e <;> first | (cases hh; done) | cases hh'
    | vector e =>
      cases h <;> first | (cases hh; done) | (cases h' <;> first | rfl | (cases hh'; done) | skip)
      all_goals cases e <;> first | (cases hh; done) | cases hh'
    | _ => cases h <;> first | (cases hh; done) | (cases h' <;> first | rfl | cases hh')
  | maybe id t s c b p => cases h <;> first | (cases hh; done) | (cases h' <;> first | rfl | cases hh')
  | union id g ks c => cases h <;> first | (cases hh; done) | (cases h' <;> first | rfl | cases hh')
  | other t => cases h <;> cases hh

/-- The elements of a buffer are all the way down of one sort: numbers in `std::array`s in
a `std::array` or `std::vector`, numbers in C arrays in a C array, or records. -/
def homogeneous : Decl.Decl → Bool
  | .field _ (.array e _) _ _ _ => e.isArithmetic || e.isFixedArray || e.fieldListLike
  | .field _ (.carray e _) _ _ _ => e.isArithmetic || e.isCArray
  | .field _ (.vector e) _ _ _ => e.isArithmetic || e.isFixedArray || e.fieldListLike
  | _ => true

/-- C77. A field spelled with a descriptor is refused by `struct_field_list` exactly if it is
a buffer of the wrong elements: descriptors admit more than the casts have a
specialization for. -/
theorem C77_spelled (I : Decl.Impl) (cfg : Cfg) (tid : Decl.Ty → Nat) (d : Decl.Decl)
    (h : Decl.Spelled I cfg tid d) : d.fieldLike = homogeneous d := by
  cases h with
  | basicField h =>
    obtain ⟨s, c, rfl, hs⟩ := Decl.scalarTag_eq h
    have : s.isFixed = true := by cases s <;> first | rfl | cases hs
    simp [Decl.Tag.field, homogeneous, Decl.Decl.fieldLike, Decl.Decl.fixedSized, Decl.Ty.fieldContainable,
      Decl.Ty.isArithmetic, this]
  | @fixedArrayField _ e n _ _ he h =>
    obtain ⟨c, rfl⟩ := Decl.fixedArrayTag_eq h
    cases e <;> first | rfl | (cases he; done) | skip
    all_goals simp [Decl.Tag.field, homogeneous, Decl.Decl.fieldLike, Decl.Decl.fixedSized,
      Decl.Decl.variableSized, Decl.Decl.arrayOfRecord, Decl.Decl.vectorOfRecord, Decl.Decl.structLike,
      Decl.Decl.optionalLike, Decl.Decl.unionLike, Decl.Ty.fieldContainable, Decl.Ty.fixedBufferLike,
      Decl.Ty.isFixedArray, Decl.Ty.isCArray, Decl.Ty.isFixedString, Decl.Ty.isArithmetic,
      Decl.Ty.fieldListLike, Decl.Ty.variableSizedBufferLike, Decl.Ty.isVectorLike, Decl.Ty.isStringLike,
      Decl.Size.isFixed]
  | arrayOfRecords hl h => obtain ⟨c, rfl⟩ := Decl.arrayOfRecordsTag_eq h; rfl
  | fixedStringField h => obtain ⟨c, rfl⟩ := Decl.fixedStringTag_eq h; rfl
  | @cArrField _ e n _ _ he h =>
    obtain ⟨-, c, rfl⟩ := Decl.cArrTag_eq h
    cases e <;> first | rfl | (cases he; done) | skip
    all_goals simp [Decl.Tag.field, homogeneous, Decl.Decl.fieldLike, Decl.Decl.fixedSized,
      Decl.Decl.variableSized, Decl.Decl.arrayOfRecord, Decl.Decl.vectorOfRecord, Decl.Decl.structLike,
      Decl.Decl.optionalLike, Decl.Decl.unionLike, Decl.Ty.fieldContainable, Decl.Ty.fixedBufferLike,
      Decl.Ty.isFixedArray, Decl.Ty.isCArray, Decl.Ty.isFixedString, Decl.Ty.isArithmetic,
      Decl.Ty.fieldListLike, Decl.Ty.variableSizedBufferLike, Decl.Ty.isVectorLike, Decl.Ty.isStringLike,
      Decl.Size.isFixed]
  | cStrField h => obtain ⟨c, rfl⟩ := Decl.cStrTag_eq h; rfl
  | magicByteArray => rfl
  | magicString => rfl
  | magicNumber h =>
    obtain ⟨hs, rfl⟩ := Decl.magicNumberTag_eq h
    simp [Decl.Tag.field, homogeneous, Decl.Decl.fieldLike, Decl.Decl.fixedSized, Decl.Ty.fieldContainable,
      Decl.Ty.isArithmetic, hs]
  | @vecField _ e _ _ hl h =>
    obtain ⟨s, c, b, rfl, hs⟩ := Decl.containerTag_eq h
    cases e
    all_goals simp [Decl.Tag.field, homogeneous, Decl.Decl.fieldLike, Decl.Decl.fixedSized,
      Decl.Decl.variableSized, Decl.Decl.arrayOfRecord, Decl.Decl.vectorOfRecord, Decl.Decl.structLike,
      Decl.Decl.optionalLike, Decl.Decl.unionLike, Decl.Ty.fieldContainable, Decl.Ty.fixedBufferLike,
      Decl.Ty.isFixedArray, Decl.Ty.isCArray, Decl.Ty.isFixedString, Decl.Ty.isArithmetic,
      Decl.Ty.fieldListLike, Decl.Ty.variableSizedBufferLike, Decl.Ty.isVectorLike, Decl.Ty.isStringLike,
      hs]
  | strField h =>
    obtain ⟨s, c, b, rfl, hs⟩ := Decl.containerTag_eq h
    simp [Decl.Tag.field, homogeneous, Decl.Decl.fieldLike, Decl.Decl.variableSized,
      Decl.Ty.variableSizedBufferLike, Decl.Ty.isStringLike, hs]
  | structField hl h => obtain ⟨c, rfl⟩ := Decl.structTag_eq h; rfl
  | maybe hb h => obtain ⟨id, t, s, b, rfl, rfl⟩ := Decl.maybeOf_eq h; rfl
  | variance hk h => obtain ⟨-, -, -, c, rfl⟩ := Decl.variance_eq h; rfl

/-- An array of fixed strings can be spelled, but is not a field. -/
example : Decl.Decl.fieldLike (.field "names" (.array (.fixedString 7) 4) (.bytes 32) .none none) = false :=
  (C77_spelled ⟨24, 32, 1, fun _ => 1, fun _ => 1, fun _ _ => true⟩ be64 (fun _ => 0) _
    (.fixedArrayField (id := "names") (e := .fixedString 7) (n := 4) (opts := [])
      (g := ⟨.array (.fixedString 7) 4, .bytes 32, .none, none⟩) rfl rfl)).trans rfl

/-! ## C98 -/

/-- C103, reading, as far as it is true: every length and every discriminant, at every level, is an
integer field (the discriminant: or an optional integer), if the list is spelled with the
descriptors, or the byte order is the foreign one and no record or array of records is given a
length from a field. -/
theorem C103_read_partial (use : Decl.Use) (hr : use.write = false) (ds : List Decl.Decl)
    (h : (∃ I cfg tid, Decl.SpelledList I cfg tid ds) ∨ use.foreign = true ∧ Decl.recordsHaveNone ds = true)
    (hc : Decl.inst use ds = true) : Decl.wholeDecls ds ds = true := by
  have hn : Decl.levels Decl.noFloat ds = true := by
    rcases h with ⟨I, cfg, tid, h⟩ | h
    · exact Decl.noFloat_spelledList h
    · exact Decl.inst_noFloat h.1 hc
  have ht : Decl.tidy ds = true := by
    rcases h with ⟨I, cfg, tid, h⟩ | h
    · exact Decl.tidy_spelled h
    · rw [Decl.tidy, h.2, Decl.vectors_of_readable hr hc]; rfl
  rw [Decl.inst_tidy use ds ht, Decl.casts_eq, Decl.lengths_eq hn, Decl.guides_eq hn] at hc
  simp only [Bool.and_eq_true, hr, Bool.false_and, Bool.false_eq_true, if_false] at hc
  rw [Decl.wholeDecls_eq, Bool.and_eq_true]
  refine ⟨hc.2, Decl.switches_mono_at (fun c hc i hi => ?_) hn hc.1.2⟩
  rw [Bool.and_eq_true] at hi
  exact hi.1

/-- C103, writing: every discriminant and the length of every container that is a field of its
own is an integer field; the length of a container inside an optional or a union is taken
from anything but an array or fixed string. -/
theorem C103_write (use : Decl.Use) (hw : use.write = true) (ds : List Decl.Decl)
    (h : (∃ I cfg tid, Decl.SpelledList I cfg tid ds) ∨ use.foreign = true)
    (hc : Decl.inst use ds = true) :
    Decl.lengths (fun inside c i => if inside then Decl.notBuffer c i else Decl.isInt c i) ds = true ∧
    Decl.switches Decl.isInt ds ds = true := by
  have hn : Decl.levels Decl.noFloat ds = true := by
    rcases h with ⟨I, cfg, tid, h⟩ | h
    · exact Decl.noFloat_spelledList h
    · exact Decl.inst_noFloat h hc
  rw [Decl.inst_eq, Decl.guides_eq hn] at hc
  simp only [Bool.and_eq_true, hw, if_true] at hc
  exact ⟨Decl.lengths_of_sizes hw hn hc.2, hc.1.2⟩

/-- C103, writing: if the lengths of the containers inside optionals and unions are integers
as well, all are. -/
theorem C103_write_inside (use : Decl.Use) (hw : use.write = true) (ds : List Decl.Decl)
    (h : (∃ I cfg tid, Decl.SpelledList I cfg tid ds) ∨ use.foreign = true)
    (hc : Decl.inst use ds = true) (hl : Decl.insideInts ds = true) : Decl.wholeDecls ds ds = true := by
  have hn : Decl.levels Decl.noFloat ds = true := by
    rcases h with ⟨I, cfg, tid, h⟩ | h
    · exact Decl.noFloat_spelledList h
    · exact Decl.inst_noFloat h hc
  obtain ⟨h1, h2⟩ := C103_write use hw ds h hc
  rw [Decl.wholeDecls_eq, Bool.and_eq_true]
  refine ⟨?_, Decl.switches_mono_at (fun c _ i => Decl.optInt_of_int) hn h2⟩
  have := Decl.lengths_and (fun inside c i => if inside then Decl.notBuffer c i else Decl.isInt c i)
    (fun inside c i => !inside || Decl.isInt c i) ds
  rw [h1, Bool.true_and] at this
  refine Decl.lengths_mono (fun c b i hi => ?_) (this.trans hl)
  cases b <;> simp at hi
  · exact hi
  · exact hi.2

/-- C98, as far as it is true: for a list spelled with the descriptors, if it is read, or the
containers inside optionals and unions have their lengths from integers. -/
theorem C98_spelled_partial (I : Decl.Impl) (cfg : Cfg) (tid : Decl.Ty → Nat) (ds : List Decl.Decl)
    (h : Decl.SpelledList I cfg tid ds) (use : Decl.Use) (hc : Decl.inst use ds = true)
    (hl : use.write = true → Decl.insideInts ds = true) : Decl.wholeDecls ds ds = true := by
  cases hw : use.write with
  | false => exact C103_read_partial use hw ds (.inl ⟨I, cfg, tid, h⟩) hc
  | true => exact C103_write_inside use hw ds (.inl ⟨I, cfg, tid, h⟩) hc (hl hw)

/-- C98, as far as it is true: however it is spelled, in the foreign byte order, if it is read
without records or arrays of records that are given a length from a field. -/
theorem C98_foreign_partial (w k : Bool) (ds : List Decl.Decl) (h : Decl.inst ⟨true, w, k⟩ ds = true)
    (hr : w = false → Decl.recordsHaveNone ds = true)
    (hl : w = true → Decl.insideInts ds = true) : Decl.wholeDecls ds ds = true := by
  cases w with
  | false => exact C103_read_partial _ rfl ds (.inr ⟨rfl, hr rfl⟩) h
  | true => exact C103_write_inside _ rfl ds (.inr rfl) h (hl rfl)

/-- A vector whose length is a `float`, and a union that switches on a `double`: `basic_field`
takes only integers, but `field<"n", float, 4_B>` is a field. -/
def floatSlots : List Decl.Decl :=
  [.field "n" (.float 4) (.bytes 4) .none none,
   .field "t" (.float 8) (.bytes 8) .none none,
   .field "v" (.vector (.int u8)) (.var (.fromField "n")) .none none,
   .union "u" (.matchField "t")
     [.mk (.label i32 1) (.int u8) (.bytes 1) .none none,
      .mk (.label i32 2) (.int u32) (.bytes 4) .none none] .none]

/-- C98, C103. Spelled by hand, in the host's byte order, both casts compile for a list whose
length and discriminant are floating-point numbers. -/
theorem C98_by_hand :
    floatSlots.all Decl.Decl.fieldLike = true ∧
    Decl.intField? floatSlots "n" = none ∧ Decl.matchable? floatSlots "t" = none ∧
    (∀ k, Decl.inst ⟨false, false, k⟩ floatSlots = true ∧ Decl.inst ⟨false, true, k⟩ floatSlots = true ∧
      Decl.inst ⟨true, false, k⟩ floatSlots = false ∧ Decl.inst ⟨true, true, k⟩ floatSlots = false) :=
  ⟨rfl, rfl, rfl, fun _ => ⟨rfl, rfl, rfl, rfl⟩⟩

/-! ## C78 -/

/-- C78. A list of fields spelled with the library's descriptors, that can be read and none of whose buffers has empty elements, stands for a schema with the
same names, and one whose parts fit together. -/
theorem C78_schema (I : Decl.Impl) (hI : I.Sound) (cfg : Cfg) (tid : Decl.Ty → Nat)
    (ds : List Decl.Decl) (h : Decl.SpelledList I cfg tid ds) (use : Decl.Use) (hr : use.write = false)
    (hc : Decl.inst use ds = true) (hs : Decl.solidDecls ds = true) :
    ∃ fs, Decl.elabList I ds = some fs ∧ saneFields fs = true ∧
      fs.map Field.id = ds.map Decl.Decl.id := by
  have hx := C103_read_partial use hr ds (.inl ⟨I, cfg, tid, h⟩) hc
  rw [Decl.inst_tidy use ds (Decl.tidy_spelled h)] at hc
  obtain ⟨fs, h1, h2⟩ := Decl.elabDecls_some hI ds ds (Decl.ok_spelledList h) hc hs hx
  exact ⟨fs, Decl.elabList_eq.2 ⟨hx, h1⟩, h2, Decl.elabDecls_ids h1⟩

/-- C78. If it can be written, all names of lengths and discriminants resolve, at every
level, to integer fields of the right type. -/
theorem C78_resolves (I : Decl.Impl) (ds : List Decl.Decl) (ht : Decl.tidy ds = true) (fs : List Field)
    (he : Decl.elabList I ds = some fs) (use : Decl.Use) (hw : use.write = true)
    (hc : Decl.inst use ds = true) : Everywhere Resolves fs := by
  obtain ⟨hx, he⟩ := Decl.elabList_eq.1 he
  rw [Decl.inst_tidy use ds ht] at hc
  exact ⟨Decl.resolves_of_casts hw he hc hx, Decl.everyDecls_resolves hw ds ds fs he hc hx⟩

/-- C78. Together with what `struct_field_list` asserts: a schema that compiles for reading
and writing is well formed, everything in it resolves, and the other properties apply to
it; what the library leaves to the user is that labels and constants are values of their
fields, that slots are wide enough, and that callables do not look at derived slots. -/
theorem C78_self_consistent (I : Decl.Impl) (hI : I.Sound) (cfg : Cfg) (tid : Decl.Ty → Nat)
    (ds : List Decl.Decl) (h : Decl.SpelledList I cfg tid ds) (foreign ct : Bool)
    (hr : Decl.inst ⟨foreign, false, ct⟩ ds = true) (hc : Decl.inst ⟨foreign, true, ct⟩ ds = true) (hs : Decl.solidDecls ds = true)
    (lt : String → String → Bool) (ftid : Field → Nat) :
    ∃ fs, Decl.elabList I ds = some fs ∧
      (Everywhere NamesOk fs → Everywhere (fun fs => Meta.accepts lt ftid fs = true) fs →
        WellFormed fs ∧
        (Everywhere (fun fs => LabelsFit cfg fs ∧ GoodConsts cfg fs ∧ WideSlots cfg fs ∧ NoStale fs) fs ↔
          SelfConsistent cfg fs)) := by
  obtain ⟨fs, h1, h2, -⟩ := C78_schema I hI cfg tid ds h ⟨foreign, false, ct⟩ rfl hr hs
  refine ⟨fs, h1, fun hn ha => ?_⟩
  have hwf := ((C102_wellFormed lt ftid fs h2 hn).1 ha).1
  refine ⟨hwf, fun hl => ⟨hwf, ?_⟩, fun hsc => hsc.2.mono ?_⟩
  · have hg := C76_good_labels I cfg tid ds fs h h1 (hl.mono fun fs hl => hl.1)
    have hr := C78_resolves I ds (Decl.tidy_spelled h) fs h1 ⟨foreign, true, ct⟩ rfl hc
    exact (Everywhere.and.2 ⟨hr, Everywhere.and.2 ⟨hg, hl⟩⟩).mono fun fs hx =>
      ⟨hx.1, hx.2.1, hx.2.2.2⟩
  · rintro fs ⟨-, hg, hrest⟩
    refine ⟨fun f hf => ?_, hrest⟩
    have := hg f hf
    cases f with
    | plain => trivial
    | maybe => trivial
    | union id d alts c =>
      cases d with
      | matchField i t labels => exact this.1
      | _ => trivial

/-! ## C79, C99, C100, C104 -/

/-- C104. Of what `struct_field_list` accepts, the casts can be instantiated for exactly the
lists without the obstacles `clearDecls` names (a `std::vector<bool>`, unless it is written
in the foreign byte order or to a stream for constant evaluation; a floating-point type in
the foreign byte order; a C array of C arrays that is read from a stream for constant
evaluation; an optional of a C array, or of something that could not be a field itself),
and with lengths and discriminants of the right kind: integers, and

* the length of a container inside an optional or a union that is written: anything but an
  array or fixed string;
* a discriminant that is read: it may be an optional integer, but not also be the length of
  a container that is a field. -/
theorem C104_instantiates (I : Decl.Impl) (cfg : Cfg) (tid : Decl.Ty → Nat) (ds : List Decl.Decl)
    (h : Decl.SpelledList I cfg tid ds) (use : Decl.Use) :
    Decl.inst use ds = (Decl.clearDecls use ds &&
      Decl.switches (fun c i => if use.write then Decl.isInt c i
        else Decl.isOptInt c i && Decl.notLength c i) ds ds &&
      Decl.lengths (fun inside c i => if use.write && inside then Decl.notBuffer c i
        else Decl.isInt c i) ds) := by
  have hn := Decl.noFloat_spelledList h
  rw [Decl.inst_tidy use ds (Decl.tidy_spelled h), Decl.casts_spelledList h, Decl.lengths_eq hn, Decl.guides_eq hn]

/-- C99, as far as it is true: reading, or with lengths of containers inside optionals and
unions that are integers. -/
theorem C99_instantiates_partial (I : Decl.Impl) (cfg : Cfg) (tid : Decl.Ty → Nat) (ds : List Decl.Decl)
    (h : Decl.SpelledList I cfg tid ds) (use : Decl.Use)
    (hl : use.write = true → Decl.insideInts ds = true) :
    Decl.inst use ds = (Decl.clearDecls use ds && Decl.wholeDecls ds ds &&
      Decl.switches (fun c i => if use.write then Decl.notOptional c i else Decl.notLength c i) ds ds) := by
  have hn := Decl.noFloat_spelledList h
  cases hc : Decl.inst use ds with
  | true =>
    have hx := C98_spelled_partial I cfg tid ds h use hc hl
    rw [C104_instantiates I cfg tid ds h use] at hc
    simp only [Bool.and_eq_true] at hc
    rw [hc.1.1, hx, Bool.true_and]
    refine (Decl.switches_mono_at (fun c hn i hi => ?_) hn hc.1.2).symm
    cases hw : use.write with
    | true =>
      rw [hw, if_pos rfl, ← Decl.int_eq hn, Decl.number_eq, Bool.and_eq_true] at hi
      exact hi.2
    | false =>
      rw [hw, if_neg (by simp), Bool.and_eq_true] at hi
      exact hi.2
  | false =>
    symm
    refine Bool.eq_false_iff.2 fun hx => Bool.eq_false_iff.1 hc ?_
    rw [C104_instantiates I cfg tid ds h use]
    rw [Decl.wholeDecls_eq] at hx
    simp only [Bool.and_eq_true] at hx ⊢
    obtain ⟨⟨h1, h2, h3⟩, h4⟩ := hx
    refine ⟨⟨h1, ?_⟩, Decl.lengths_mono_at (fun c hn b i hi => ?_) hn h2⟩
    · have := Decl.switches_and Decl.isOptInt
        (fun c i => if use.write then Decl.notOptional c i else Decl.notLength c i) ds
      rw [h3, h4] at this
      refine Decl.switches_mono_at (fun c hn i hi => ?_) hn this
      rw [Bool.and_eq_true] at hi
      cases hw : use.write with
      | true =>
        rw [hw, if_pos rfl] at hi
        rw [if_pos rfl, ← Decl.int_eq hn, Decl.number_eq, Decl.optInt_eq hn, hi.1, hi.2]
        rfl
      | false =>
        rw [hw, if_neg (by simp)] at hi
        rw [if_neg (by simp), hi.1, hi.2]
        rfl
    · split
      · exact Decl.notBuffer_of_number (Decl.number_of_int hi)
      · exact hi

/-- C99. Whatever can be cast at all: no `std::vector<bool>` where it is read, or written in
the host's order to a run-time stream; no floating-point type in the foreign order; no C
array of C arrays read from a stream for constant evaluation. -/
theorem C99_none (use : Decl.Use) (ds : List Decl.Decl) (h : Decl.inst use ds = true) :
    (use.write = false ∨ (use.foreign = false ∧ use.constexprStream = false) → Decl.noBoolVector ds = true) ∧
    (use.foreign = true → Decl.floatDecls ds = false) ∧
    (use.write = false ∧ use.constexprStream = true → Decl.noNestedCArray ds = true) := by
  rw [Decl.inst_eq] at h
  simp only [Bool.and_eq_true] at h
  obtain ⟨⟨⟨-, ⟨h1, h2⟩, h3⟩, -⟩, -⟩ := h
  obtain ⟨f, w, k⟩ := use
  cases f <;> cases w <;> cases k <;> simp_all

/-- C99. What can be instantiated in the foreign byte order can be in the host's, unless a
`std::vector<bool>` is written to a run-time stream. -/
theorem C99_host (w k : Bool) (ds : List Decl.Decl) (h : Decl.inst ⟨true, w, k⟩ ds = true) :
    Decl.inst ⟨false, w, k⟩ ds = true ↔ (w = true ∧ k = false → Decl.noBoolVector ds = true) := by
  rw [Decl.inst_eq] at h ⊢
  simp only [Bool.and_eq_true] at h
  obtain ⟨⟨⟨h0, ⟨-, h2⟩, h3⟩, h4⟩, h5⟩ := h
  have h4 : Decl.switches (fun c i => Decl.guideOk ⟨false, w, k⟩ c (.matchField i)) ds ds = true := h4
  have h5 : Decl.sizes (fun b c t s => Decl.sizeOk ⟨false, w, k⟩ b c t s) ds = true := h5
  simp only [h0, h3, h4, h5, Bool.true_and, Bool.and_true]
  cases w <;> cases k <;> simp_all

/-- C100. What can be cast with run-time streams can be cast in constant evaluation, unless
a C array of C arrays is read. -/
theorem C100_constexpr (f w : Bool) (ds : List Decl.Decl) (h : Decl.inst ⟨f, w, false⟩ ds = true) :
    Decl.inst ⟨f, w, true⟩ ds = true ↔ (w = false → Decl.noNestedCArray ds = true) := by
  rw [Decl.inst_eq] at h ⊢
  simp only [Bool.and_eq_true] at h
  obtain ⟨⟨⟨h0, ⟨h1, h2⟩, -⟩, h4⟩, h5⟩ := h
  have h4 : Decl.switches (fun c i => Decl.guideOk ⟨f, w, true⟩ c (.matchField i)) ds ds = true := h4
  have h5 : Decl.sizes (fun b c t s => Decl.sizeOk ⟨f, w, true⟩ b c t s) ds = true := h5
  simp only [h0, h1, h4, h5, Bool.true_and, Bool.and_true]
  cases f <;> cases w <;> simp_all

/-- C100. What can be cast in constant evaluation can be cast with run-time streams, unless
a `std::vector<bool>` is written in the host's byte order. -/
theorem C100_run_time (f w : Bool) (ds : List Decl.Decl) (h : Decl.inst ⟨f, w, true⟩ ds = true) :
    Decl.inst ⟨f, w, false⟩ ds = true ↔ (f = false ∧ w = true → Decl.noBoolVector ds = true) := by
  rw [Decl.inst_eq] at h ⊢
  simp only [Bool.and_eq_true] at h
  obtain ⟨⟨⟨h0, ⟨h1, h2⟩, -⟩, h4⟩, h5⟩ := h
  have h4 : Decl.switches (fun c i => Decl.guideOk ⟨f, w, false⟩ c (.matchField i)) ds ds = true := h4
  have h5 : Decl.sizes (fun b c t s => Decl.sizeOk ⟨f, w, false⟩ b c t s) ds = true := h5
  simp only [h0, h1, h4, h5, Bool.true_and, Bool.and_true]
  cases f <;> cases w <;> simp_all

/-- C79, as far as it is true: reading, or in the host's byte order with lengths of
containers inside optionals and unions that are integers. -/
theorem C79_instantiates_partial (I : Decl.Impl) (cfg : Cfg) (tid : Decl.Ty → Nat) (ds : List Decl.Decl)
    (h : Decl.SpelledList I cfg tid ds) (f w : Bool) (hu : f = false ∨ w = false)
    (hl : w = true → Decl.insideInts ds = true) :
    Decl.inst ⟨f, w, false⟩ ds =
      (Decl.clearDecls ⟨f, w, false⟩ ds && Decl.wholeDecls ds ds &&
        Decl.switches (fun c i => if w then Decl.notOptional c i else Decl.notLength c i) ds ds &&
        Decl.noBoolVector ds) := by
  have h1 := C99_instantiates_partial I cfg tid ds h ⟨f, w, false⟩ hl
  rw [← h1]
  cases hc : Decl.inst ⟨f, w, false⟩ ds with
  | false => rfl
  | true => exact ((C99_none _ ds hc).1 (hu.symm.imp_right fun h => ⟨h, rfl⟩)).symm

/-- C79, as far as it is true: without a `std::vector<bool>`. -/
theorem C79_host_partial (w : Bool) (ds : List Decl.Decl) (h : Decl.inst ⟨true, w, false⟩ ds = true)
    (hb : Decl.noBoolVector ds = true) : Decl.inst ⟨false, w, false⟩ ds = true :=
  (C99_host w false ds h).2 fun _ => hb

/-! ## Examples -/

/-- A 64-bit implementation. -/
def impl64 : Decl.Impl := ⟨24, 32, 1, fun ds => 16 * ds.length + 8, fun _ => 1, fun _ _ => true⟩

theorem impl64_sound : impl64.Sound := ⟨fun ds => by show 0 < 16 * ds.length + 8; omega⟩

/-- Type ids: what the cases of the demo unions need. -/
def tyId : Decl.Ty → Nat
  | .int t => 4 * t.size + 1
  | .fieldList ds => 4 * ds.length + 2
  | _ => 0

/-- `Demo.inner`, as a user writes it. -/
def innerDecls : List Decl.Decl :=
  [.field "a" (.int i8) (.bytes 1) .none none,
   .maybe "b" (.int u16) (.bytes 2) .none none ⟨["a"], fun vs => vs == [.int (-1)]⟩]

def bodyCases : List Decl.Case :=
  [.mk (.label i32 1) (.int u32) (.bytes 4) (.cmp .lt u32 1000) none,
   .mk (.label i32 7) (.fieldList innerDecls) .dontCare .none none]

/-- `Demo.packet`. -/
def packetDecls : List Decl.Decl :=
  [.field "magic" (.int u32) (.bytes 4) (.cmp .eq i32 0x1234) none,
   .field "len" (.int u16) (.bytes 2) .none none,
   .field "tag" (.int u8) (.bytes 1) .none none,
   .field "data" (.vector (.int u16)) (.var (.fromField "len")) .none (some 64),
   .union "body" (.matchField "tag") bodyCases .none,
   .field "crc" (.int u16) (.bytes 2) (.user fun v => v != .int 0) none]

theorem spelled_inner : Decl.SpelledList impl64 be64 tyId innerDecls := by
  refine .mk (fun d hd => ?_) rfl
  simp only [innerDecls, List.mem_cons, List.not_mem_nil, or_false] at hd
  rcases hd with rfl | rfl
  · exact .basicField (t := i8) (opts := []) (g := ⟨.int i8, .bytes 1, .none, none⟩) rfl
  · exact .maybe (.basicField (id := "b") (t := u16) (opts := [])
      (g := ⟨.int u16, .bytes 2, .none, none⟩) rfl) rfl

theorem spelled_packet : Decl.SpelledList impl64 be64 tyId packetDecls := by
  refine .mk (fun d hd => ?_) rfl
  simp only [packetDecls, List.mem_cons, List.not_mem_nil, or_false] at hd
  rcases hd with rfl | rfl | rfl | rfl | rfl | rfl
  · exact .magicNumber (t := u32) (s := .bytes 4) (et := i32) (v := 0x1234) (g := ⟨.int u32, .bytes 4, .cmp .eq i32 0x1234, none⟩) rfl
  · exact .basicField (t := u16) (opts := []) (g := ⟨.int u16, .bytes 2, .none, none⟩) rfl
  · exact .basicField (t := u8) (opts := [.size (.bytes 1)]) (g := ⟨.int u8, .bytes 1, .none, none⟩) rfl
  · exact .vecField (e := .int u16) (opts := [.size (.var (.fromField "len")), .bound (some 64)])
      (g := ⟨.vector (.int u16), .var (.fromField "len"), .none, some 64⟩) (fun ds h => by cases h) rfl
  · refine .variance (v := .other 0) (id := "body") (g := .matchField "tag") (opts := []) (ks := bodyCases)
      (fun k hk => ?_) rfl
    simp only [bodyCases, List.mem_cons, List.not_mem_nil, or_false] at hk
    rcases hk with rfl | rfl
    · exact .asTrivial (t := .int u32) (opts := [.constraint (.cmp .lt u32 1000)])
        (g := ⟨.int u32, .bytes 4, .cmp .lt u32 1000, none⟩) rfl rfl
    · exact .asStruct (opts := []) (g := ⟨.fieldList innerDecls, .dontCare, .none, none⟩) spelled_inner rfl
  · exact .basicField (t := u16) (opts := [.constraint (.user fun v => v != .int 0)])
      (g := ⟨.int u16, .bytes 2, .user fun v => v != .int 0, none⟩) rfl

/-- The declaration stands for the demo schema. -/
example : Decl.elabList impl64 packetDecls = some packet := by rfl

example := C78_self_consistent impl64 impl64_sound be64 tyId packetDecls spelled_packet true false (by rfl) (by rfl) (by rfl)
  nameLt (tidOf packet)
example : Everywhere Resolves packet := C78_resolves impl64 packetDecls rfl packet rfl ⟨true, true, false⟩ rfl rfl
example : Everywhere (GoodLabels be64) packet :=
  C76_good_labels impl64 be64 tyId packetDecls packet spelled_packet rfl (by decide +kernel)
example : Decl.inst ⟨true, false, false⟩ packetDecls = true := by
  rw [C79_instantiates_partial impl64 be64 tyId packetDecls spelled_packet _ _ (.inr rfl) nofun]; rfl
example : Decl.inst ⟨true, true, true⟩ packetDecls = true := by
  rw [C99_instantiates_partial impl64 be64 tyId packetDecls spelled_packet _ fun _ => rfl]; rfl
example : Decl.inst ⟨true, true, true⟩ packetDecls = true := by
  rw [C104_instantiates impl64 be64 tyId packetDecls spelled_packet]; rfl
example : Decl.inst ⟨false, true, false⟩ packetDecls = true := C79_host_partial true packetDecls rfl rfl
example : ∃ h : Decl.Handler, h.takes packetDecls[4] = true := (C77_some _).2 rfl
example := C77_unique packetDecls[3] .variable .variable rfl rfl
example : (Decl.variance impl64 be64 tyId (.other 0) "body" (.matchField "tag") bodyCases []).isSome = true :=
  (C76_accepts _ _ _ _ _ _ _ _).2 ⟨by decide, fun k hk => by
    simp only [bodyCases, List.mem_cons, List.not_mem_nil, or_false] at hk
    rcases hk with rfl | rfl <;> simp [Decl.Case.cond, Decl.Cond.isLabel], by decide, by decide, rfl⟩

/-- An optional tag, present if `has` is not zero, and a union that switches on it. -/
def optTag : List Field :=
  [.plain "has" (.num u8 1) .none,
   .maybe "tag" (.num u16 2) ⟨["has"], fun vs => vs != [.int 0]⟩,
   .union "body" (.matchField "tag" u16 [(i32, 1), (i32, 300)])
     [.mk (.num u8 1) .none, .mk (.num u32 4) .none] .none]

example := C75_engaged be64 optTag (by decide) listIn [1, 1, 44, 0, 0, 0, 9] []
  [.int 1, .present (.int 300), .var 1 (.int 9)] (by rfl) "body" "tag" u16 2 [(i32, 1), (i32, 300)] _ .none
  _ (.var 1 (.int 9)) (.present (.int 300)) (.tail _ (.tail _ (.head _))) (.tail _ (.head _)) (by decide)
example : (structCast be64 optTag).runOn listIn [0, 7, 7] =
    (.done (.error ⟨.typeDeductionFailure, "body"⟩), [7, 7]) :=
  C75_empty be64 (optTag.take 2) [] "body" "tag" u16 _ _ .none (by decide) listIn [0, 7, 7] [7, 7]
    [.int 0, .absent] (by rfl) _ _ (.tail _ (.head _))
example : (structCast be64 optTag).runOn listIn [1, 1, 45, 7] =
    (.done (.error ⟨.typeDeductionFailure, "body"⟩), [7]) :=
  C75_no_label be64 (optTag.take 2) [] "body" "tag" u16 _ _ .none (by decide) listIn [1, 1, 45, 7] [7]
    [.int 1, .present (.int 301)] (by rfl) 2 _ 301 (.tail _ (.head _)) (by decide) (by decide)

def optTagDecls : List Decl.Decl :=
  [.field "has" (.int u8) (.bytes 1) .none none,
   .maybe "tag" (.int u16) (.bytes 2) .none none ⟨["has"], fun vs => vs != [.int 0]⟩,
   .union "body" (.matchField "tag")
     [.mk (.label i32 1) (.int u8) (.bytes 1) .none none,
      .mk (.label i32 300) (.int u32) (.bytes 4) .none none] .none]

example : Decl.elabList impl64 optTagDecls = some optTag := by rfl
example : Decl.inst ⟨true, false, false⟩ optTagDecls = true := by rfl
example : Decl.inst ⟨true, true, false⟩ optTagDecls = false :=
  C75_not_writable ⟨true, true, false⟩ rfl optTagDecls (by decide) "body" "tag" _ .none .none _ _ none _
    (.tail _ (.tail _ (.head _))) (.tail _ (.head _))

/-! ### What is accepted and does not compile, or compiles and does not select -/

theorem spelled_one {d : Decl.Decl} (h : Decl.Spelled impl64 be64 tyId d) (hl : d.fieldLike = true) :
    Decl.SpelledList impl64 be64 tyId [d] :=
  .mk (fun e he => by rw [List.mem_singleton.1 he]; exact h) (by simp [hl])

/-- C79: each obstacle occurs in a list `struct_field_list` accepts. An optional vector of
strings; a `std::vector<bool>`; an optional C array; a vector whose length is taken from a
vector; a `double`, which compiles in the host's byte order only. -/
theorem C79_obstacles :
    (∃ d, Decl.SpelledList impl64 be64 tyId [d] ∧ (∃ id t s c b p, d = .maybe id t s c b p ∧
      (Decl.Decl.field id t s c b).fieldLike = false) ∧ Decl.inst ⟨false, false, false⟩ [d] = false) ∧
    (∃ d, Decl.SpelledList impl64 be64 tyId [d] ∧ (∃ id s c b, d = .field id (.vector (.int .bool)) s c b) ∧
      Decl.inst ⟨false, false, false⟩ [d] = false) ∧
    (∃ d, Decl.SpelledList impl64 be64 tyId [d] ∧ (∃ id e n s c b p, d = .maybe id (.carray e n) s c b p ∧
      (Decl.Decl.field id (.carray e n) s c b).fieldLike = true) ∧ Decl.inst ⟨false, false, false⟩ [d] = false) ∧
    (∃ d, Decl.SpelledList impl64 be64 tyId [d] ∧
      (∃ id, d = .field id (.vector (.int u8)) (.var (.fromField id)) .none none) ∧
      Decl.inst ⟨false, false, false⟩ [d] = false) ∧
    (∃ d, Decl.SpelledList impl64 be64 tyId [d] ∧ Decl.inst ⟨false, false, false⟩ [d] = true ∧
      Decl.inst ⟨true, false, false⟩ [d] = false) := by
  refine ⟨⟨.maybe "x" (.vector .string) (.var (.computed ⟨[], fun _ => 1⟩)) .none none ⟨[], fun _ => true⟩, ?_, ?_, rfl⟩,
    ⟨.field "x" (.vector (.int .bool)) (.var (.computed ⟨[], fun _ => 1⟩)) .none none, ?_, ?_, rfl⟩,
    ⟨.maybe "x" (.carray (.int u8) 4) (.bytes 4) .none none ⟨[], fun _ => true⟩, ?_, ?_, rfl⟩,
    ⟨.field "x" (.vector (.int u8)) (.var (.fromField "x")) .none none, ?_, ?_, rfl⟩,
    ⟨.field "x" (.array (.float 8) 2) (.bytes 16) .none none, ?_, rfl, rfl⟩⟩
  · exact spelled_one (.maybe (.vecField (id := "x") (e := .string)
      (opts := [.size (.var (.computed ⟨[], fun _ => 1⟩))])
      (g := ⟨.vector .string, .var (.computed ⟨[], fun _ => 1⟩), .none, none⟩) (fun ds h => by cases h) rfl) rfl) rfl
  · exact ⟨_, _, _, _, _, _, rfl, rfl⟩
  · exact spelled_one (.vecField (id := "x") (e := .int .bool)
      (opts := [.size (.var (.computed ⟨[], fun _ => 1⟩))])
      (g := ⟨.vector (.int .bool), .var (.computed ⟨[], fun _ => 1⟩), .none, none⟩) (fun ds h => by cases h) rfl) rfl
  · exact ⟨_, _, _, _, rfl⟩
  · exact spelled_one (.maybe (.cArrField (id := "x") (e := .int u8) (n := 4) (opts := [])
      (g := ⟨.carray (.int u8) 4, .bytes 4, .none, none⟩) rfl rfl) rfl) rfl
  · exact ⟨_, _, _, _, _, _, _, rfl, rfl⟩
  · exact spelled_one (.vecField (id := "x") (e := .int u8) (opts := [.size (.var (.fromField "x"))])
      (g := ⟨.vector (.int u8), .var (.fromField "x"), .none, none⟩) (fun ds h => by cases h) rfl) rfl
  · exact ⟨_, rfl⟩
  · exact spelled_one (.fixedArrayField (id := "x") (e := .float 8) (n := 2) (opts := [])
      (g := ⟨.array (.float 8) 2, .bytes 16, .none, none⟩) rfl rfl) rfl

/-- A `std::vector<bool>`: `vec_field<"x", bool, ...>`. -/
def boolFlags : List Decl.Decl :=
  [.field "x" (.vector (.int .bool)) (.var (.computed ⟨[], fun _ => 1⟩)) .none none]

theorem spelled_boolFlags : Decl.SpelledList impl64 be64 tyId boolFlags :=
  spelled_one (.vecField (id := "x") (e := .int .bool)
      (opts := [.size (.var (.computed ⟨[], fun _ => 1⟩))])
      (g := ⟨.vector (.int .bool), .var (.computed ⟨[], fun _ => 1⟩), .none, none⟩) (fun ds h => by cases h) rfl) rfl

/-- A C array of C arrays: `c_arr_field<"x", std::uint16_t[3], 2>`. -/
def matrix : List Decl.Decl :=
  [.field "x" (.carray (.carray (.int u16) 3) 2) (.bytes 12) .none none]

theorem spelled_matrix : Decl.SpelledList impl64 be64 tyId matrix :=
  spelled_one (.cArrField (id := "x") (e := .carray (.int u16) 3) (n := 2) (opts := [])
      (g := ⟨.carray (.carray (.int u16) 3) 2, .bytes 12, .none, none⟩) rfl rfl) rfl

/-- C79 fails: a list with a `std::vector<bool>` can be written in the foreign byte order,
and in that order only. -/
theorem C79_fails_vector_bool :
    Decl.SpelledList impl64 be64 tyId boolFlags ∧ Decl.noBoolVector boolFlags = false ∧
    Decl.inst ⟨true, true, false⟩ boolFlags = true ∧ Decl.inst ⟨false, true, false⟩ boolFlags = false :=
  ⟨spelled_boolFlags, rfl, rfl, rfl⟩

/-- C99: the obstacles C79 does not name occur in lists `struct_field_list` accepts. A
`std::vector<bool>` can be written one element at a time and not otherwise, and not be
read; a C array of C arrays can be cast in every way but one. -/
theorem C99_obstacles :
    (Decl.SpelledList impl64 be64 tyId boolFlags ∧ Decl.noBoolVector boolFlags = false ∧
      ∀ use, Decl.inst use boolFlags = (use.write && (use.foreign || use.constexprStream))) ∧
    (Decl.SpelledList impl64 be64 tyId matrix ∧ Decl.noNestedCArray matrix = false ∧
      ∀ use, Decl.inst use matrix = (use.write || !use.constexprStream)) := by
  refine ⟨⟨spelled_boolFlags, rfl, fun ⟨f, w, k⟩ => ?_⟩, ⟨spelled_matrix, rfl, fun ⟨f, w, k⟩ => ?_⟩⟩
  · cases f <;> cases w <;> cases k <;> rfl
  · cases f <;> cases w <;> cases k <;> rfl

example : Decl.noBoolVector packetDecls = true :=
  (C99_none ⟨true, false, true⟩ packetDecls rfl).1 (.inl rfl)
example : Decl.inst ⟨false, true, false⟩ boolFlags = false := by
  refine Bool.eq_false_iff.2 fun h => ?_
  cases (C99_host true false boolFlags rfl).1 h ⟨rfl, rfl⟩
example : Decl.inst ⟨false, true, true⟩ boolFlags = true := (C99_host true true boolFlags rfl).2 (by simp)
example : Decl.inst ⟨true, false, true⟩ matrix = false := by
  refine Bool.eq_false_iff.2 fun h => ?_
  cases (C100_constexpr true false matrix rfl).1 h rfl
example : Decl.inst ⟨true, true, true⟩ matrix = true := (C100_constexpr true true matrix rfl).2 (by simp)
example : Decl.inst ⟨false, true, false⟩ boolFlags = false := by
  refine Bool.eq_false_iff.2 fun h => ?_
  cases (C100_run_time false true boolFlags rfl).1 h ⟨rfl, rfl⟩
example : Decl.inst ⟨true, true, false⟩ boolFlags = true := (C100_run_time true true boolFlags rfl).2 (by simp)

example : Decl.wholeDecls packetDecls packetDecls = true :=
  C98_spelled_partial impl64 be64 tyId packetDecls spelled_packet ⟨false, true, false⟩ rfl fun _ => rfl
example : Decl.wholeDecls packetDecls packetDecls = true := C98_foreign_partial false true packetDecls rfl (fun _ => rfl) nofun
example : Decl.wholeDecls packetDecls packetDecls = true :=
  C103_read_partial ⟨false, false, false⟩ rfl packetDecls (.inl ⟨_, _, _, spelled_packet⟩) rfl
example : Decl.wholeDecls packetDecls packetDecls = true :=
  C103_write_inside ⟨true, true, false⟩ rfl packetDecls (.inr rfl) rfl rfl

/-- An optional vector whose length is taken from an optional, and a union with a string
whose length is taken from a vector. -/
def looseCases : List Decl.Case :=
  [.mk (.label i32 1) .string (.var (.fromField "v")) .none none,
   .mk (.label i32 2) (.int u32) (.bytes 4) .none none]

def loose : List Decl.Decl :=
  [.field "t" (.int u8) (.bytes 1) .none none,
   .maybe "n" (.int u16) (.bytes 2) .none none ⟨["t"], fun vs => vs == [.int 1]⟩,
   .maybe "w" (.vector (.int u8)) (.var (.fromField "n")) .none none ⟨["t"], fun vs => vs == [.int 1]⟩,
   .field "v" (.vector (.int u8)) (.var (.computed ⟨["t"], fun _ => 2⟩)) .none none,
   .union "u" (.matchField "t") looseCases .none]

theorem spelled_loose : Decl.SpelledList impl64 be64 tyId loose := by
  refine .mk (fun d hd => ?_) rfl
  simp only [loose, List.mem_cons, List.not_mem_nil, or_false] at hd
  rcases hd with rfl | rfl | rfl | rfl | rfl
  · exact .basicField (t := u8) (opts := []) (g := ⟨.int u8, .bytes 1, .none, none⟩) rfl
  · exact .maybe (.basicField (id := "n") (t := u16) (opts := [])
      (g := ⟨.int u16, .bytes 2, .none, none⟩) rfl) rfl
  · exact .maybe (.vecField (id := "w") (e := .int u8) (opts := [.size (.var (.fromField "n"))])
      (g := ⟨.vector (.int u8), .var (.fromField "n"), .none, none⟩) (fun ds h => by cases h) rfl) rfl
  · exact .vecField (e := .int u8) (opts := [.size (.var (.computed ⟨["t"], fun _ => 2⟩))])
      (g := ⟨.vector (.int u8), .var (.computed ⟨["t"], fun _ => 2⟩), .none, none⟩) (fun ds h => by cases h) rfl
  · refine .variance (v := .other 0) (id := "u") (g := .matchField "t") (opts := []) (ks := looseCases)
      (fun k hk => ?_) rfl
    simp only [looseCases, List.mem_cons, List.not_mem_nil, or_false] at hk
    rcases hk with rfl | rfl
    · exact .asString (opts := [.size (.var (.fromField "v"))])
        (g := ⟨.string, .var (.fromField "v"), .none, none⟩) rfl
    · exact .asTrivial (t := .int u32) (opts := []) (g := ⟨.int u32, .bytes 4, .none, none⟩) rfl rfl

/-- C98, C79 and C99 fail: a list with lengths that are taken from an optional and from a
vector can be written, in either byte order and to either kind of stream. It cannot be
read. -/
theorem C98_fails_inside :
    Decl.SpelledList impl64 be64 tyId loose ∧ Decl.wholeDecls loose loose = false ∧
    Decl.isInt loose "n" = false ∧ Decl.isInt loose "v" = false ∧
    ∀ use, Decl.inst use loose = use.write := by
  refine ⟨spelled_loose, rfl, rfl, rfl, fun ⟨f, w, k⟩ => ?_⟩
  cases f <;> cases w <;> cases k <;> rfl

example := C103_write ⟨false, true, false⟩ rfl loose (.inl ⟨_, _, _, spelled_loose⟩) rfl

/-- C76: labels need not be values of the slot's type, and then two that are told apart as
`std::size_t` can match the same value: the second alternative is never read. On a 32-bit
machine the same declaration is refused. -/
theorem C76_labels_clash :
    let ks : List Decl.Case :=
      [.mk (.label i32 (-1)) (.int u8) (.bytes 1) .none none,
       .mk (.label i64 4294967295) (.int u32) (.bytes 4) .none none]
    (Decl.variance impl64 le64 tyId (.other 0) "u" (.matchField "t") ks []).isSome = true ∧
    (Decl.variance impl64 { le64 with szBytes := 4 } tyId (.other 0) "u" (.matchField "t") ks []).isSome = false ∧
    labelMatches u32 4294967295 (i32, -1) = true ∧ labelMatches u32 4294967295 (i64, 4294967295) = true := by
  refine ⟨?_, ?_, by decide, by decide⟩ <;> rfl

/-- C76: and the other way round, labels that are fine are refused on a 32-bit machine. -/
theorem C76_narrow_size :
    let ks : List Decl.Case :=
      [.mk (.label i32 0) (.int u8) (.bytes 1) .none none,
       .mk (.label i64 4294967296) (.int u32) (.bytes 4) .none none]
    (Decl.variance impl64 { le64 with szBytes := 4 } tyId (.other 0) "u" (.matchField "t") ks []).isSome = false ∧
    (∀ x : Int, labelMatches u64 x (i32, 0) = true → u64.InRange x →
      labelMatches u64 x (i64, 4294967296) = false) := by
  refine ⟨rfl, fun x hx hr => ?_⟩
  rw [labelMatches_iff hr (by decide)] at hx
  subst hx
  decide

example : ∃ fs, Decl.elabList impl64 packetDecls = some fs ∧ saneFields fs = true ∧
    fs.map Field.id = packetDecls.map Decl.Decl.id :=
  C78_schema impl64 impl64_sound be64 tyId packetDecls spelled_packet ⟨true, false, false⟩ rfl rfl rfl

end S2S.Props
