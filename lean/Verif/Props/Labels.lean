import Verif.Lemmas.Labels
import Verif.Lemmas.Edit
import Verif.Props.Damage
import Verif.Props.Edit
/-
C127: labels that are not integers.
-/
namespace S2S.Props
open Spec Demo Compare

/-- The value of a number that is a field of the list. -/
theorem number_of_plain {cfg : Cfg} {fs : List Field} {vs : List Val} (hu : uniqueFields [] fs = true)
    {sid : String} {t : ScalarTy} {w : Nat} {c : Constraint} (hs : .plain sid (.num t w) c ∈ fs)
    (hv : FitsFields cfg fs vs) : ∃ x, envOf fs vs sid = some (.int x) ∧ t.InRange x := by
  obtain ⟨v, hm⟩ := zip_of_mem (fitsFields_length hv).symm hs
  have h1 := fits_zip hv hm
  have h2 := env_zip hu hm
  cases v with
  | int x =>
    refine ⟨x, h2, ?_⟩
    simp only [FitsField, FitsKind] at h1
    exact h1.1
  | _ => simp [FitsField, FitsKind] at h1

/-- What is deduced is all that counts of what deduces it. -/
theorem same_runs (cfg : Cfg) (pre post : List Field) (id : String) (d d' : Deducer)
    (alts : List Alt) (c : Constraint) (hwf : WellFormed (pre ++ .union id d alts c :: post))
    (hwf' : WellFormed (pre ++ .union id d' alts c :: post)) (S : InStream) (s : S.State)
    (h : ∀ us s1, (structCast cfg pre).runOn S s = (.done (.ok us), s1) →
      d.eval (envOf pre us) = d'.eval (envOf pre us)) :
    (structCast cfg (pre ++ .union id d alts c :: post)).runOn S s =
      (structCast cfg (pre ++ .union id d' alts c :: post)).runOn S s := by
  cases hr : (structCast cfg pre).runOn S s with
  | mk o s1 =>
    cases o with
    | stuck w => rw [same_stuck cfg pre _ hwf S s s1 w hr, same_stuck cfg pre _ hwf' S s s1 w hr]
    | done o =>
      cases o with
      | error e =>
        rw [structCast_append cfg pre _ hwf, RdE.runOn_andThen, hr,
          structCast_append cfg pre _ hwf', RdE.runOn_andThen, hr]
      | ok us =>
        rw [runOn_append cfg pre _ hwf S s s1 us hr, runOn_append cfg pre _ hwf' S s s1 us hr]
        simp only [readRest, readFields, readField, h us s1 hr, Field.id, Field.constraint]

/-- A union that decides from the same fields is as well-formed. -/
theorem wf_deducer {pre post : List Field} {id : String} {d d' : Deducer} {alts : List Alt}
    {c : Constraint} (hwf : WellFormed (pre ++ .union id d alts c :: post))
    (ha : arity d' = arity d) (hd : ∀ i ∈ deducerDeps d', i ∈ deducerDeps d) :
    WellFormed (pre ++ .union id d' alts c :: post) := by
  obtain ⟨h1, h2, h3⟩ := hwf
  refine ⟨?_, ?_, ?_⟩
  · clear h2 h3
    induction pre with
    | nil => simpa [saneFields, saneField, ha] using h1
    | cons g gs ih =>
      simp only [List.cons_append, saneFields, Bool.and_eq_true] at h1 ⊢
      exact ⟨h1.1, ih h1.2⟩
  · clear h1 h3
    revert h2
    generalize ([] : List String) = seen
    intro h2
    induction pre generalizing seen with
    | nil => simpa [uniqueFields, uniqueField, Field.id] using h2
    | cons g gs ih =>
      simp only [List.cons_append, uniqueFields, Bool.and_eq_true] at h2 ⊢
      exact ⟨h2.1, ih _ h2.2⟩
  · clear h1 h2
    revert h3
    generalize ([] : List String) = seen
    intro h3
    induction pre generalizing seen with
    | nil =>
      simp only [List.nil_append, earlierFields, earlierField, fieldDeps, Field.id, Bool.and_eq_true,
        List.all_eq_true, List.mem_append, List.contains_eq_mem, decide_eq_true_eq] at h3 ⊢
      exact ⟨⟨fun i hi => h3.1.1 i (hi.imp (hd i) fun h => h), h3.1.2⟩, h3.2⟩
    | cons g gs ih =>
      simp only [List.cons_append, earlierFields, Bool.and_eq_true] at h3 ⊢
      exact ⟨h3.1, ih _ h3.2⟩

theorem wf_readUnion {R : Rounding} {pre post : List Field} {id sid : String} {t : ScalarTy}
    {as : List (ScalarTy × Int)} {alts : List Alt} {c : Constraint} {ls : List Label}
    (hwf : WellFormed (pre ++ writeUnion id sid t as alts c :: post)) (hl : ls.length = as.length) :
    WellFormed (pre ++ readUnion R id sid t ls alts c :: post) := by
  refine wf_deducer hwf (by simp [arity, hl]) fun i hi => ?_
  simp only [deducerDeps, List.flatMap_map, List.mem_flatMap, Label.asPred, List.mem_singleton] at hi ⊢
  obtain ⟨_, _, hi⟩ := hi
  exact hi

/-- C127, for labels that are integers: the union that is read by comparing one label after the
other is the one of the model that switches. -/
theorem C127_switch (cfg : Cfg) (R : Rounding) (pre post : List Field) (id sid : String)
    (t : ScalarTy) (w : Nat) (cs : Constraint) (hs : .plain sid (.num t w) cs ∈ pre)
    (ls : List (ScalarTy × Int)) (alts : List Alt) (c : Constraint)
    (hwf : WellFormed (pre ++ writeUnion id sid t ls alts c :: post)) (inp : List Byte) :
    (structCast cfg
        (pre ++ readUnion R id sid t (ls.map fun l => .int l.1 l.2) alts c :: post)).run inp =
      (structCast cfg (pre ++ writeUnion id sid t ls alts c :: post)).run inp := by
  refine same_runs cfg pre post id _ _ alts c (wf_readUnion (R := R) hwf (by simp)) hwf listIn inp
    fun us s1 h => ?_
  obtain ⟨x, hx, _⟩ := number_of_plain (wf_prefix hwf).2.1 hs
    ((read_iff cfg pre (wf_prefix hwf) inp s1 us).1 h).1.1
  simp only [Deducer.eval, hx]
  clear hwf
  induction ls with
  | nil => rfl
  | cons l ls ih =>
    simp only [List.map_cons, ladderIdx, switchIdx, asPred_eval hx, Label.matched]
    cases labelMatches t x l with
    | true => rfl
    | false =>
      rw [ih]
      simp

/-- C127, whole labels: where the labels are whole numbers of the type of the field and comparing
rounds nothing, they are read as the integers they are. -/
theorem C127_whole (cfg : Cfg) (R : Rounding) (pre post : List Field) (id sid : String)
    (t : ScalarTy) (w : Nat) (cs : Constraint) (hs : .plain sid (.num t w) cs ∈ pre)
    (ls : List Label) (as : List (ScalarTy × Int)) (hst : storedLabels cfg ls = some as)
    (alts : List Alt) (c : Constraint)
    (hwf : WellFormed (pre ++ writeUnion id sid t as alts c :: post))
    (hr : ∀ a ∈ as, t.InRange a.2) (hc : ∀ l ∈ ls, Comparable t l) (hw : ∀ l ∈ ls, ∃ z, IsWhole l z)
    (inp : List Byte) :
    (structCast cfg (pre ++ readUnion R id sid t ls alts c :: post)).run inp =
      (structCast cfg (pre ++ writeUnion id sid t as alts c :: post)).run inp := by
  refine same_runs cfg pre post id _ _ alts c
    (wf_readUnion (R := R) hwf (storedLabels_some hst).1.symm) hwf listIn inp fun us s1 h => ?_
  obtain ⟨x, hx, hxr⟩ := number_of_plain (wf_prefix hwf).2.1 hs
    ((read_iff cfg pre (wf_prefix hwf) inp s1 us).1 h).1.1
  simp only [Deducer.eval, hx]
  clear hwf
  induction ls generalizing as with
  | nil => cases hst; rfl
  | cons l ls ih =>
    rw [storedLabels] at hst
    split at hst
    · rename_i a as' h1 h2
      cases hst
      obtain ⟨z, hz⟩ := hw l (by simp)
      have h3 : l.matched R t x = labelMatches t x a := by
        rw [Bool.eq_iff_iff, matched_iff hxr (hc l (by simp)),
          labelMatches_iff hxr (hr a (by simp)), stored_whole h1 hz]
        have h4 := stored_whole h1 hz
        constructor
        · intro h5
          rw [← stored_whole h1 h5, h4]
        · rintro rfl; exact hz
      simp only [List.map_cons, ladderIdx, switchIdx, asPred_eval hx, h3]
      cases labelMatches t x a with
      | true => rfl
      | false =>
        rw [ih as' h2 (fun a h => hr a (by simp [h])) (fun l h => hc l (by simp [h]))
          fun l h => hw l (by simp [h])]
        simp
    · cases hst

/-- C127, labels that are not whole: no input is read as their alternative. -/
theorem C127_never (cfg : Cfg) (R : Rounding) (pre post : List Field) (id sid : String)
    (t : ScalarTy) (w : Nat) (cs : Constraint) (hs : .plain sid (.num t w) cs ∈ pre)
    (ls : List Label) (alts : List Alt) (c : Constraint)
    (hwf : WellFormed (pre ++ readUnion R id sid t ls alts c :: post)) (i : Nat) (l : Label)
    (hl : ls[i]? = some l) (hc : Comparable t l) (hn : ∀ z, ¬ IsWhole l z) (inp rest : List Byte)
    (us ws : List Val) (u : Val) (hlen : us.length = pre.length) :
    (structCast cfg (pre ++ readUnion R id sid t ls alts c :: post)).run inp ≠
      (.done (.ok (us ++ .var i u :: ws)), rest) := fun h => by
  obtain ⟨h1, _⟩ := (read_iff cfg _ hwf _ _ _).1 h
  obtain ⟨hp, hf⟩ := valid_split hwf hlen h1
  obtain ⟨x, hx, hxr⟩ := number_of_plain (wf_prefix hwf).2.1 hs hp.1
  have h2 := hf.2.2
  simp only [readUnion, ShapedField, Deducer.eval] at h2
  obtain ⟨⟨l', hl', hm⟩, _⟩ := (ladder_picks hx ls i).1 h2.1
  rw [hl] at hl'
  cases hl'
  exact hn x ((matched_iff hxr hc).1 hm)

/-- The value in the slot of a valid struct is the stored label of the alternative held. -/
theorem slot_is_label {cfg : Cfg} {pre post : List Field} {id sid : String} {t : ScalarTy} {w : Nat}
    {cs : Constraint} (hs : .plain sid (.num t w) cs ∈ pre) {as : List (ScalarTy × Int)}
    {alts : List Alt} {c : Constraint}
    (hwf : WellFormed (pre ++ writeUnion id sid t as alts c :: post))
    (hr : ∀ a ∈ as, t.InRange a.2) {us ws : List Val} {i : Nat} {u : Val}
    (hl : us.length = pre.length)
    (hv : Valid cfg (pre ++ writeUnion id sid t as alts c :: post) (us ++ .var i u :: ws)) :
    ∃ a, as[i]? = some a ∧ envOf pre us sid = some (.int a.2) := by
  obtain ⟨hp, hf⟩ := valid_split hwf hl hv
  obtain ⟨x, hx, hxr⟩ := number_of_plain (wf_prefix hwf).2.1 hs hp.1
  have h2 := hf.2.2
  simp only [writeUnion, ShapedField, Deducer.eval, hx, Except.ok.injEq] at h2
  obtain ⟨a, ha, hm⟩ := switchIdx_sound h2.1
  rw [labelMatches_iff hxr (hr a (List.mem_of_getElem? ha))] at hm
  exact ⟨a, ha, hm ▸ hx⟩

theorem envOf_deducer (pre post : List Field) (id : String) (d d' : Deducer) (alts : List Alt)
    (c : Constraint) (vs : List Val) : envOf (pre ++ .union id d' alts c :: post) vs =
      envOf (pre ++ .union id d alts c :: post) vs := by
  induction pre generalizing vs with
  | nil => cases vs <;> rfl
  | cons g gs ih =>
    cases vs with
    | nil => rfl
    | cons v vs => simp only [List.cons_append, envOf, ih vs]

/-- The deducer of a union of a valid struct may be another that selects the same alternative. -/
theorem valid_deducer {cfg : Cfg} {pre post : List Field} {id : String} {d d' : Deducer}
    {alts : List Alt} {c : Constraint} {us ws : List Val} {i : Nat} {u : Val}
    (hl : us.length = pre.length) (hwf : WellFormed (pre ++ .union id d alts c :: post))
    (hwf' : WellFormed (pre ++ .union id d' alts c :: post))
    (h : Valid cfg (pre ++ .union id d alts c :: post) (us ++ .var i u :: ws))
    (he : d'.eval (envOf pre us) = .ok (some i)) :
    Valid cfg (pre ++ .union id d' alts c :: post) (us ++ .var i u :: ws) := by
  have hf := (valid_split hwf hl h).2
  obtain ⟨h1, h2⟩ := (valid_pointwise _ _ _).1 h
  refine (valid_pointwise _ _ _).2 ⟨by simpa using h1, fun g w hm => ?_⟩
  rw [List.zip_append hl.symm, List.mem_append, List.zip_cons_cons, List.mem_cons] at hm
  rcases hm with hm | hm | hm
  · rw [envOf_deducer pre post id d d']
    exact h2 g w (by rw [List.zip_append hl.symm]; simp [hm])
  · simp only [Prod.mk.injEq] at hm
    obtain ⟨rfl, rfl⟩ := hm
    refine ⟨hf.1, hf.2.1, (shapedField_congr cfg (.union id d' alts c)
      (uniqueField_mem hwf'.2.1 _ (by simp)) (earlierField_mem hwf'.2.2 _ (by simp)) (Agree.mono
        (envOf_append_agree pre (.union id d' alts c :: post) us (.var i u :: ws) hl)
        fun j hj => by simpa using earlier_deps hwf'.2.2 j hj) _).mp ?_⟩
    have h3 := hf.2.2
    simp only [ShapedField] at h3 ⊢
    exact ⟨he, h3.2⟩
  · rw [envOf_deducer pre post id d d']
    exact h2 g w (by rw [List.zip_append hl.symm]; simp [hm])

theorem goodLabels_mem {cfg : Cfg} {pre post : List Field} {id sid : String} {t : ScalarTy}
    {as : List (ScalarTy × Int)} {alts : List Alt} {c : Constraint}
    (hsc : SelfConsistent cfg (pre ++ writeUnion id sid t as alts c :: post)) :
    (∀ a ∈ as, t.InRange a.2) ∧ (as.map Prod.snd).Nodup := by
  have h := hsc.2.1.2.1 (writeUnion id sid t as alts c) (by simp)
  simp only [writeUnion] at h
  exact ⟨fun a ha => (h.1 a ha).1, h.2⟩

/-- C127, written and read: the struct written holds alternative `i`, whose label is stored as
`x`. It is read back exactly if the first label that compares equal to `x` is that one. If none
does, the read fails at the union with `type_deduction_failure`. -/
theorem C127_read_back_iff_partial (cfg : Cfg) (R : Rounding) (pre post : List Field) (id sid : String)
    (t : ScalarTy) (w : Nat) (cs : Constraint) (hs : .plain sid (.num t w) cs ∈ pre)
    (ls : List Label) (as : List (ScalarTy × Int)) (hst : storedLabels cfg ls = some as)
    (alts : List Alt) (c : Constraint)
    (hsc : SelfConsistent cfg (pre ++ writeUnion id sid t as alts c :: post))
    (hrw : Rewritable cfg (pre ++ writeUnion id sid t as alts c :: post)) (vs : List Val)
    (hsv : Storable cfg (pre ++ writeUnion id sid t as alts c :: post) vs) (p : List Byte)
    (hw : (streamCast cfg (pre ++ writeUnion id sid t as alts c :: post) vs).run = (.done (.ok ()), p))
    (us ws : List Val) (i : Nat) (u : Val) (hl : us.length = pre.length)
    (hset : settle (pre ++ writeUnion id sid t as alts c :: post) vs = us ++ .var i u :: ws)
    (a : ScalarTy × Int) (ha : as[i]? = some a) (tail : List Byte) :
    ((structCast cfg (pre ++ readUnion R id sid t ls alts c :: post)).run (p ++ tail) =
        (.done (.ok (us ++ .var i u :: ws)), tail) ↔ Picks R t a.2 ls i) ∧
    ((∀ l ∈ ls, l.matched R t a.2 = false) →
      ∃ rest, (structCast cfg (pre ++ readUnion R id sid t ls alts c :: post)).run (p ++ tail) =
        (.done (.error ⟨.typeDeductionFailure, id⟩), rest)) := by
  have hwf := hsc.1
  have hwf' : WellFormed (pre ++ readUnion R id sid t ls alts c :: post) :=
    wf_readUnion hwf (storedLabels_some hst).1.symm
  obtain ⟨hv, rfl⟩ := (C69_exactly_valid cfg _ hsc hrw vs hsv p).1 hw
  rw [hset] at hv ⊢
  obtain ⟨a', ha', hx⟩ := slot_is_label hs hwf (goodLabels_mem hsc).1 hl hv
  rw [ha] at ha'
  cases ha'
  have hwire : wire cfg (pre ++ writeUnion id sid t as alts c :: post) (us ++ .var i u :: ws) =
      wire cfg (pre ++ readUnion R id sid t ls alts c :: post) (us ++ .var i u :: ws) := by
    rw [wire_split _ _ _ _ _ _ _ hl, wire_split _ _ _ _ _ _ _ hl]
    simp only [writeUnion, readUnion, wireField]
  constructor
  · constructor
    · intro h
      obtain ⟨h1, _⟩ := (read_iff cfg _ hwf' _ _ _).1 h
      have h2 := (valid_split hwf' hl h1).2.2.2
      simp only [readUnion, ShapedField, Deducer.eval] at h2
      exact (ladder_picks hx ls i).1 h2.1
    · intro h
      refine (read_iff cfg _ hwf' _ _ _).2 ⟨valid_deducer hl hwf hwf' hv ?_, by rw [hwire]⟩
      rw [Deducer.eval]
      exact (ladder_picks hx ls i).2 h
  · intro h
    refine (C118_refused_iff cfg _ hwf' _ _ _).2 ⟨pre, readUnion R id sid t ls alts c, post, us,
      wireField cfg.wire (writeUnion id sid t as alts c) (.var i u) ++ wire cfg post ws ++ tail,
      rfl, rfl, (valid_split hwf hl hv).1, ?_, ?_⟩
    · rw [wire_split _ _ _ _ _ _ _ hl]; simp only [List.append_assoc]
    · simp only [readUnion, FieldRefused, Deducer.eval]
      exact .inl ⟨(ladder_none hx ls).2 h, trivial⟩

/-- C127, where comparing rounds nothing: what was written is read back if the label of the
alternative is a whole number; if it is not, the read fails at the union. -/
theorem C127_read_back_partial (cfg : Cfg) (R : Rounding) (pre post : List Field) (id sid : String)
    (t : ScalarTy) (w : Nat) (cs : Constraint) (hs : .plain sid (.num t w) cs ∈ pre)
    (ls : List Label) (as : List (ScalarTy × Int)) (hst : storedLabels cfg ls = some as)
    (hc : ∀ l ∈ ls, Comparable t l) (alts : List Alt) (c : Constraint)
    (hsc : SelfConsistent cfg (pre ++ writeUnion id sid t as alts c :: post))
    (hrw : Rewritable cfg (pre ++ writeUnion id sid t as alts c :: post)) (vs : List Val)
    (hsv : Storable cfg (pre ++ writeUnion id sid t as alts c :: post) vs) (p : List Byte)
    (hw : (streamCast cfg (pre ++ writeUnion id sid t as alts c :: post) vs).run = (.done (.ok ()), p))
    (us ws : List Val) (i : Nat) (u : Val) (hl : us.length = pre.length)
    (hset : settle (pre ++ writeUnion id sid t as alts c :: post) vs = us ++ .var i u :: ws)
    (l : Label) (hli : ls[i]? = some l) (tail : List Byte) :
    ((∃ z, IsWhole l z) →
      (structCast cfg (pre ++ readUnion R id sid t ls alts c :: post)).run (p ++ tail) =
        (.done (.ok (us ++ .var i u :: ws)), tail)) ∧
    ((∀ z, ¬ IsWhole l z) →
      ∃ rest, (structCast cfg (pre ++ readUnion R id sid t ls alts c :: post)).run (p ++ tail) =
        (.done (.error ⟨.typeDeductionFailure, id⟩), rest)) := by
  obtain ⟨a, ha, hla⟩ := (storedLabels_some hst).2 i l hli
  obtain ⟨hr, hnd⟩ := goodLabels_mem hsc
  have har := hr a (List.mem_of_getElem? ha)
  obtain ⟨h1, h2⟩ := C127_read_back_iff_partial cfg R pre post id sid t w cs hs ls as hst alts c hsc hrw vs hsv
    p hw us ws i u hl hset a ha tail
  -- a label that is matched is the one stored as this number
  have huniq : ∀ j l', ls[j]? = some l' → l'.matched R t a.2 = true → j = i := by
    intro j l' hj hm
    obtain ⟨a', ha', hla'⟩ := (storedLabels_some hst).2 j l' hj
    have h3 := stored_whole hla' ((matched_iff har (hc l' (List.mem_of_getElem? hj))).1 hm)
    obtain ⟨hi1, hi2⟩ := List.getElem?_eq_some_iff.1 ha
    obtain ⟨hj1, hj2⟩ := List.getElem?_eq_some_iff.1 ha'
    have h4 : (as.map Prod.snd)[j]'(by simpa using hj1) = (as.map Prod.snd)[i]'(by simpa using hi1) := by
      simp [hi2, hj2, h3]
    exact (List.getElem_inj hnd).1 h4
  constructor
  · rintro ⟨z, hz⟩
    refine h1.2 ⟨⟨l, hli, (matched_iff har (hc l (List.mem_of_getElem? hli))).2 ?_⟩, fun j l' hj hl' => ?_⟩
    · rw [stored_whole hla hz]; exact hz
    · cases hm : l'.matched R t a.2 with
      | false => rfl
      | true => have := huniq j l' hl' hm; omega
  · intro hn
    refine h2 fun l' hl' => ?_
    cases hm : l'.matched R t a.2 with
    | false => rfl
    | true =>
      obtain ⟨j, hj⟩ := List.getElem?_of_mem hl'
      have := huniq j l' hj hm
      subst this
      rw [hli] at hj
      cases hj
      exact absurd ((matched_iff har (hc l hl')).1 hm) (hn _)

/-- C127, what is stored: for a floating-point label the number without its fraction, if that is
a `std::size_t`; otherwise the union does not compile. -/
theorem C127_stored (cfg : Cfg) (n : Nat) (k : Int) (a : ScalarTy × Int) :
    (Label.float n k).stored cfg = some a ↔
      a.1 = .int cfg.szBytes false ∧ Truncates (real n k) a.2 ∧
        0 ≤ a.2 ∧ a.2 < (cfg.szMod : Nat) := by
  obtain ⟨a1, a2⟩ := a
  simp only [Label.stored, Option.map_eq_some_iff, toInt_iff, Prod.mk.injEq]
  have hr : ∀ z : Int, (ScalarTy.int cfg.szBytes false).InRange z ↔ 0 ≤ z ∧ z < (cfg.szMod : Nat) := by
    intro z
    simp only [ScalarTy.InRange, Cfg.szMod]
  constructor
  · rintro ⟨z, ⟨h1, h2⟩, h3, rfl⟩
    exact ⟨h3.symm, h1, (hr z).1 h2⟩
  · rintro ⟨rfl, h1, h2⟩
    exact ⟨a2, ⟨h1, (hr a2).2 h2⟩, rfl, rfl⟩

instance (l : Label) (z : Int) : Decidable (IsWhole l z) :=
  inferInstanceAs (Decidable (Label.number l = .fin (z * one)))

/-- Three cases of a u8: the integer 7, the double 2.0 and the float 1.5. -/
def mixedLabels : List Label :=
  [.int i32 7, .float 8 0x4000000000000000, .float 4 0x3fc00000]
def mixedStored : List (ScalarTy × Int) := [(i32, 7), (.int 8 false, 2), (.int 8 false, 1)]
def mixedAlts : List Alt := [.mk (.num u8 1) .none, .mk (.num u16 2) .none, .mk (.num u8 1) .none]
def mixedRead : List Field :=
  [.plain "tag" (.num u8 1) .none, readUnion ieee "body" "tag" u8 mixedLabels mixedAlts .none]
def mixedWrite : List Field :=
  [.plain "tag" (.num u8 1) .none, writeUnion "body" "tag" u8 mixedStored mixedAlts .none]

theorem mixed_stored : storedLabels be64 mixedLabels = some mixedStored := by decide +kernel
theorem mixed_comparable : ∀ l ∈ mixedLabels, Comparable u8 l := by
  simp [mixedLabels, Comparable, ScalarTy.InRange, ScalarTy.size, u8]

/-- `C127_switch`: integers of different types. -/
example : (structCast be64 [.plain "tag" (.num i8 1) .none,
      readUnion ieee "body" "tag" i8 [.int i32 (-1), .int u16 3] [.mk (.num u8 1) .none, .mk (.num u16 2) .none] .none]).run
        [0xff, 9, 8] = (.done (.ok [.int (-1), .var 0 (.int 9)]), [8]) := by
  have h := C127_switch be64 ieee [.plain "tag" (.num i8 1) .none] [] "body" "tag" i8 1 .none (by simp)
    [(i32, -1), (u16, 3)] [.mk (.num u8 1) .none, .mk (.num u16 2) .none] .none (by decide +kernel) [0xff, 9, 8]
  exact h.trans (by rfl)

/-- `C127_whole`: the first two of the cases above. -/
example (inp : List Byte) : (structCast be64 [.plain "tag" (.num u8 1) .none,
      readUnion ieee "body" "tag" u8 (mixedLabels.take 2) (mixedAlts.take 2) .none]).run inp =
    (structCast be64 [.plain "tag" (.num u8 1) .none,
      writeUnion "body" "tag" u8 (mixedStored.take 2) (mixedAlts.take 2) .none]).run inp :=
  C127_whole be64 ieee [.plain "tag" (.num u8 1) .none] [] "body" "tag" u8 1 .none (by simp)
    (mixedLabels.take 2) (mixedStored.take 2) (by decide +kernel) (mixedAlts.take 2) .none
    (by decide +kernel) (by decide +kernel) (fun l hl => mixed_comparable l (List.mem_of_mem_take hl))
    (by
      simp only [mixedLabels, List.take_succ_cons, List.take_zero, List.mem_cons, List.not_mem_nil,
        or_false, forall_eq_or_imp, forall_eq]
      exact ⟨⟨7, rfl⟩, ⟨2, by decide +kernel⟩⟩) inp

example : (structCast be64 mixedRead).run [2, 1, 0] = (.done (.ok [.int 2, .var 1 (.int 256)]), []) := by
  decide +kernel

theorem not_whole {n : Nat} {k m : Int} (h : real n k = .fin m) (hm : m % one ≠ 0) :
    ∀ z, ¬ IsWhole (.float n k) z := by
  intro z hz
  simp only [IsWhole, Label.number, h, Real.fin.injEq] at hz
  exact hm (by rw [hz, Int.mul_emod_left])

/-- `C127_never`: whatever is read, it is not the third case. -/
example (inp rest : List Byte) (x u : Val) :
    (structCast be64 mixedRead).run inp ≠ (.done (.ok [x, .var 2 u]), rest) :=
  C127_never be64 ieee [.plain "tag" (.num u8 1) .none] [] "body" "tag" u8 1 .none (by simp) mixedLabels
    mixedAlts .none (by decide +kernel) 2 (.float 4 0x3fc00000) rfl (mixed_comparable _ (by simp [mixedLabels]))
    (not_whole (m := 3 * 2 ^ 1073) (by decide +kernel) (by decide +kernel)) inp rest [x] [] u rfl

/-- `C127_read_back_partial`: a struct with the second alternative is read back; one with the third is
written as well, but not read back. -/
example : (structCast be64 mixedRead).run [2, 1, 0, 9] = (.done (.ok [.int 2, .var 1 (.int 256)]), [9]) :=
  (C127_read_back_partial be64 ieee [.plain "tag" (.num u8 1) .none] [] "body" "tag" u8 1 .none (by simp) mixedLabels
    mixedStored mixed_stored mixed_comparable mixedAlts .none (by decide +kernel)
    (rewritable_of_checked (by decide +kernel)) [.int 0, .var 1 (.int 256)] (by decide +kernel) [2, 1, 0]
    (by decide +kernel) [.int 2] [] 1 (.int 256) rfl (by decide +kernel) (.float 8 0x4000000000000000) rfl [9]).1
    ⟨2, by decide +kernel⟩

/-- C127 is needed: a label of 1.5 compiles. A struct with its alternative is written, with the
tag 1, and what was written is refused by the same schema. -/
theorem C127_fails_half :
    (streamCast be64 mixedWrite [.int 0, .var 2 (.int 5)]).run = (.done (.ok ()), [1, 5]) ∧
    (structCast be64 mixedRead).run [1, 5] = (.done (.error ⟨.typeDeductionFailure, "body"⟩), [5]) := by
  decide +kernel

example : ∃ rest, (structCast be64 mixedRead).run [1, 5] =
    (.done (.error ⟨.typeDeductionFailure, "body"⟩), rest) :=
  (C127_read_back_partial be64 ieee [.plain "tag" (.num u8 1) .none] [] "body" "tag" u8 1 .none (by simp) mixedLabels
    mixedStored mixed_stored mixed_comparable mixedAlts .none (by decide +kernel)
    (rewritable_of_checked (by decide +kernel)) [.int 0, .var 2 (.int 5)] (by decide +kernel) [1, 5]
    (by decide +kernel) [.int 1] [] 2 (.int 5) rfl (by decide +kernel) (.float 4 0x3fc00000) rfl []).2
    (not_whole (m := 3 * 2 ^ 1073) (by decide +kernel) (by decide +kernel))

/-- Two cases of a u64: the double 2^53, and the integer after it. -/
def roundLabels : List Label := [.float 8 0x4340000000000000, .int (.int 8 false) (2 ^ 53 + 1)]
def roundStored : List (ScalarTy × Int) := [(.int 8 false, 2 ^ 53), (.int 8 false, 2 ^ 53 + 1)]
def roundAlts : List Alt := [.mk (.num u8 1) .none, .mk (.num i8 1) .none]
def roundRead : List Field :=
  [.plain "tag" (.num (.int 8 false) 8) .none,
   readUnion ieee "body" "tag" (.int 8 false) roundLabels roundAlts .none]
def roundWrite : List Field :=
  [.plain "tag" (.num (.int 8 false) 8) .none,
   writeUnion "body" "tag" (.int 8 false) roundStored roundAlts .none]

/-- Comparing must not round: the field is converted to `double`. The second alternative is
written with its own tag, and read back as the first. -/
theorem C127_fails_rounding :
    storedLabels be64 roundLabels = some roundStored ∧
    SelfConsistent be64 roundWrite ∧
    (∀ l ∈ roundLabels, ∃ z, IsWhole l z) ∧
    (streamCast be64 roundWrite [.int 0, .var 1 (.int (-1))]).run =
      (.done (.ok ()), [0, 0x20, 0, 0, 0, 0, 0, 1, 0xff]) ∧
    (structCast be64 roundRead).run [0, 0x20, 0, 0, 0, 0, 0, 1, 0xff] =
      (.done (.ok [.int (2 ^ 53 + 1), .var 0 (.int 255)]), []) ∧
    (streamCast be64 roundWrite [.int (2 ^ 53 + 1), .var 0 (.int 255)]).run =
      (.done (.ok ()), [0, 0x20, 0, 0, 0, 0, 0, 0, 0xff]) := by
  refine ⟨by decide +kernel, by decide +kernel, ?_, by decide +kernel, by decide +kernel, by decide +kernel⟩
  simp only [roundLabels, List.mem_cons, List.not_mem_nil, or_false, forall_eq_or_imp, forall_eq]
  exact ⟨⟨2 ^ 53, by decide +kernel⟩, ⟨2 ^ 53 + 1, rfl⟩⟩

/-- `C127_read_back_iff_partial`: so the second is not read back. -/
example : (structCast be64 roundRead).run [0, 0x20, 0, 0, 0, 0, 0, 1, 0xff] ≠
    (.done (.ok [.int (2 ^ 53 + 1), .var 1 (.int (-1))]), []) := fun h => by
  have := ((C127_read_back_iff_partial be64 ieee [.plain "tag" (.num (.int 8 false) 8) .none] [] "body" "tag"
    (.int 8 false) 8 .none (by simp) roundLabels roundStored (by decide +kernel) roundAlts .none
    (by decide +kernel) (rewritable_of_checked (by decide +kernel)) [.int 0, .var 1 (.int (-1))]
    (by decide +kernel) [0, 0x20, 0, 0, 0, 0, 0, 1, 0xff] (by decide +kernel) [.int (2 ^ 53 + 1)] [] 1
    (.int (-1)) rfl (by decide +kernel) (.int 8 false, 2 ^ 53 + 1) rfl []).1.1 h).2 0 _ (by decide) rfl
  exact absurd this (by decide +kernel)

/-- A case for all other tags: an object equal to every integer, that converts to 0. -/
def otherLabels : List Label := [.int i32 7, .object (fun _ => true) (some 0)]
def otherStored : List (ScalarTy × Int) := [(i32, 7), (.int 8 false, 0)]
def otherAlts : List Alt := [.mk (.num u8 1) .none, .mk (.num u16 2) .none]

/-- `C127_read_back_iff_partial`: it is read back, as the first label is not equal to 0. -/
example (tail : List Byte) : (structCast be64 [.plain "tag" (.num u8 1) .none,
      readUnion ieee "body" "tag" u8 otherLabels otherAlts .none]).run ([0, 1, 2] ++ tail) =
    (.done (.ok [.int 0, .var 1 (.int 258)]), tail) := by
  refine (C127_read_back_iff_partial be64 ieee [.plain "tag" (.num u8 1) .none] [] "body" "tag" u8 1 .none (by simp)
    otherLabels otherStored (by decide +kernel) otherAlts .none (by decide +kernel)
    (rewritable_of_checked (by decide +kernel)) [.int 9, .var 1 (.int 258)] (by decide +kernel) [0, 1, 2]
    (by decide +kernel) [.int 0] [] 1 (.int 258) rfl (by decide +kernel) (.int 8 false, 0) rfl tail).1.2
    ⟨⟨_, rfl, rfl⟩, fun j l hj hl => ?_⟩
  obtain rfl : j = 0 := by omega
  cases hl
  rfl

/-- `C127_stored`: -0.5 is stored as 0; -1, infinity and NaN are not stored. -/
example : (Label.float 8 0xbfe0000000000000).stored be64 = some (.int 8 false, 0) :=
  (C127_stored be64 8 0xbfe0000000000000 _).2 ⟨rfl, ⟨_, rfl, by decide +kernel⟩, by decide +kernel, by decide +kernel⟩
example : (Label.float 8 0xbff0000000000000).stored be64 = none := by decide +kernel
example : (Label.float 4 0x7f800000).stored be64 = none := by decide +kernel
example : (Label.float 4 0x7fc00000).stored be64 = none := by decide +kernel

end S2S.Props
