import Verif.Spec.Damage
import Verif.Lemmas.Refused
import Verif.Lemmas.Sizes
import Verif.Lemmas.Append
/-
What overwritten bytes of one field do to the others.
-/
namespace S2S
open Spec

/-! ### Input that ends is shorter than the longest encoding -/

theorem nextRecord_short {V : List Val → Prop} {W : List Val → List Byte} {R : List Byte → Prop}
    {n m : Nat} {inp : List Byte} (hV : ∀ ws, V ws → (W ws).length ≤ m)
    (hR : ∀ tail, R tail → tail.length < m) (h : NextRecord V W R n inp) : inp.length < n * m := by
  obtain ⟨vs, tail, rfl, hn, hvs, ht⟩ := h
  have h1 : (vs.flatMap (recordBytes W)).length ≤ vs.length * m := by
    clear hn ht
    induction vs with
    | nil => simp
    | cons v vs ih =>
      obtain ⟨ws, rfl, hw⟩ := hvs v (by simp)
      have := ih fun u hu => hvs u (by simp [hu])
      have := hV ws hw
      simp only [List.flatMap_cons, recordBytes, List.length_append, List.length_cons, Nat.add_mul]
      omega
  have h2 := hR tail ht
  have h3 : (vs.length + 1) * m ≤ n * m := Nat.mul_le_mul_right m hn
  rw [Nat.add_mul] at h3
  simp only [List.length_append]
  omega

mutual
theorem kindRefused_short (cfg : Cfg) : (k : Kind) → saneKind k = true → ∀ env inp,
    KindRefused cfg env k inp .bufferExhaustion → inp.length < maxKind cfg k
  | .num t w, _, env, inp, h => by
      simp only [KindRefused] at h; rw [maxKind]; exact h.2.1
  | .fbuf e n, _, env, inp, h => by
      simp only [KindRefused] at h; rw [maxKind]; exact h.1
  | .fstr n, _, env, inp, h => by
      simp only [KindRefused] at h; rw [maxKind]; exact h.1
  | .vec e len bound, hs, env, inp, h => by
      simp only [saneKind, decide_eq_true_eq] at hs
      simp only [KindRefused] at h
      obtain ⟨n, -, ⟨-, h⟩ | ⟨hf, hlt, -⟩⟩ := h
      · cases h
      · rw [maxKind]
        exact Nat.lt_of_lt_of_le hlt (Nat.mul_le_mul_right _ (count_le_maxCount hs hf))
  | .record fs, hs, env, inp, h => by
      simp only [saneKind] at hs
      simp only [KindRefused] at h
      obtain ⟨id, h⟩ := h
      rw [maxKind]
      exact fieldsRefused_short cfg fs hs [] [] inp id h
  | .arrRec fs n, hs, env, inp, h => by
      simp only [saneKind] at hs
      simp only [KindRefused] at h
      rw [maxKind]
      exact nextRecord_short (fun ws hw => (wireFields_between cfg cfg.wire fs hs ws hw.1).2)
        (fun tail ⟨id, ht⟩ => fieldsRefused_short cfg fs hs [] [] tail id ht) h
  | .vecRec fs len bound sz, hs, env, inp, h => by
      simp only [saneKind, Bool.and_eq_true, decide_eq_true_eq] at hs
      simp only [KindRefused] at h
      obtain ⟨n, -, ⟨-, h⟩ | ⟨hf, h⟩⟩ := h
      · cases h
      · rw [maxKind]
        have := nextRecord_short (fun ws hw => (wireFields_between cfg cfg.wire fs hs.2 ws hw.1).2)
          (fun tail ⟨id, ht⟩ => fieldsRefused_short cfg fs hs.2 [] [] tail id ht) h
        exact Nat.lt_of_lt_of_le this (Nat.mul_le_mul_right _ (count_le_maxCount hs.1 hf))
termination_by structural k => k
theorem fieldRefused_short (cfg : Cfg) : (f : Field) → saneField f = true → ∀ env inp,
    FieldRefused cfg env f inp .bufferExhaustion → inp.length < maxField cfg f
  | .plain id k c, hs, env, inp, h => by
      simp only [saneField] at hs
      simp only [FieldRefused] at h
      rw [maxField]
      obtain h | ⟨h, -⟩ := h
      · exact kindRefused_short cfg k hs env inp h
      · cases h
  | .maybe id k p, hs, env, inp, h => by
      simp only [saneField] at hs
      simp only [FieldRefused] at h
      rw [maxField]
      exact kindRefused_short cfg k hs env inp h.2
  | .union id d alts c, hs, env, inp, h => by
      simp only [saneField, Bool.and_eq_true] at hs
      simp only [FieldRefused] at h
      rw [maxField]
      obtain ⟨-, h⟩ | ⟨i, -, h | ⟨h, -⟩⟩ := h
      · cases h
      · exact altsRefused_short cfg alts hs.2 env i inp h
      · cases h
termination_by structural f => f
theorem altsRefused_short (cfg : Cfg) : (alts : List Alt) → saneAlts alts = true → ∀ env i inp,
    AltsRefused cfg env alts i inp .bufferExhaustion → inp.length < maxAlts cfg alts
  | [], _, env, i, inp, h => by simp [AltsRefused] at h
  | .mk k c :: alts, hs, env, 0, inp, h => by
      simp only [saneAlts, Bool.and_eq_true] at hs
      simp only [AltsRefused] at h
      rw [maxAlts]
      obtain h | ⟨h, -⟩ := h
      · have := kindRefused_short cfg k hs.1 env inp h; omega
      · cases h
  | .mk k c :: alts, hs, env, i + 1, inp, h => by
      simp only [saneAlts, Bool.and_eq_true] at hs
      simp only [AltsRefused] at h
      rw [maxAlts]
      have := altsRefused_short cfg alts hs.2 env i inp h
      omega
termination_by structural alts => alts
theorem fieldsRefused_short (cfg : Cfg) : (fs : List Field) → saneFields fs = true →
    ∀ pre vs inp id, FieldsRefused cfg pre vs fs inp .bufferExhaustion id →
      inp.length < maxFields cfg fs
  | [], _, pre, vs, inp, id, h => by simp [FieldsRefused] at h
  | f :: fs, hs, pre, vs, inp, id, h => by
      simp only [saneFields, Bool.and_eq_true] at hs
      simp only [FieldsRefused] at h
      rw [maxFields]
      obtain ⟨-, h⟩ | ⟨v, tail, rfl, hv, h⟩ := h
      · have := fieldRefused_short cfg f hs.1 _ inp h; omega
      · have := fieldsRefused_short cfg fs hs.2 _ _ tail id h
        have := (wireField_between cfg cfg.wire f hs.1 v hv.1).2
        simp only [List.length_append]
        omega
termination_by structural fs => fs
end

/-! ### The number of bytes of a field, given its siblings -/

theorem record_length {cfg : Cfg} {fs : List Field} (hs : saneFields fs = true)
    (hr : minFields fs = maxFields cfg fs) {ws : List Val} (h : FitsFields cfg fs ws) :
    (wireFields cfg.wire fs ws).length = maxFields cfg fs := by
  have := wireFields_between cfg cfg.wire fs hs ws h
  omega

theorem records_length {cfg : Cfg} {fs : List Field} (hs : saneFields fs = true)
    (hr : minFields fs = maxFields cfg fs) {vs : List Val}
    (h : ∀ v ∈ vs, ∃ ws, v = .seq ws ∧ FitsFields cfg fs ws) :
    (vs.flatMap (recordBytes fun ws => wireFields cfg.wire fs ws)).length =
      vs.length * maxFields cfg fs := by
  refine flatMap_length _ _ _ fun v hv => ?_
  obtain ⟨ws, rfl, hw⟩ := h v hv
  exact record_length hs hr hw

theorem rigid_length (cfg : Cfg) (env : Env) (k : Kind) (hs : saneKind k = true)
    (hr : rigidKind cfg k = true) (v v' : Val) (h : IsKind cfg env k v) (h' : IsKind cfg env k v') :
    (wireKind cfg.wire k v').length = (wireKind cfg.wire k v).length := by
  obtain ⟨h1, -, h3⟩ := h
  obtain ⟨h1', -, h3'⟩ := h'
  cases k with
  | num t w =>
    cases v <;> simp only [FitsKind] at h1
    cases v' <;> simp only [FitsKind] at h1'
    simp only [wireKind, wireScalar]
    split <;> simp
  | fbuf e n =>
    cases v <;> simp only [FitsKind] at h1
    cases v' <;> simp only [FitsKind] at h1'
    rw [wireKind, wireKind, flatMap_length _ e.size _ fun v hv => wireElem_length _ e v (h1.2 v hv),
      flatMap_length _ e.size _ fun v hv => wireElem_length _ e v (h1'.2 v hv), h1.1, h1'.1]
  | fstr n =>
    cases v <;> simp only [FitsKind] at h1
    cases v' <;> simp only [FitsKind] at h1'
    rw [wireKind, wireKind,
      flatMap_length _ 1 _ fun v hv => wireElem_length _ (.scalar u8) v (h1.2 v hv),
      flatMap_length _ 1 _ fun v hv => wireElem_length _ (.scalar u8) v (h1'.2 v hv), h1.1, h1'.1]
  | vec e len b =>
    cases v <;> simp only [FitsKind] at h1
    cases v' <;> simp only [FitsKind] at h1'
    simp only [ShapedKind] at h3 h3'
    have hl := h3.symm.trans h3'
    simp only [Except.ok.injEq] at hl
    rw [wireKind, wireKind, flatMap_length _ e.size _ fun v hv => wireElem_length _ e v (h1.2 v hv),
      flatMap_length _ e.size _ fun v hv => wireElem_length _ e v (h1'.2 v hv), hl]
  | record fs =>
    simp only [saneKind] at hs
    simp only [rigidKind, decide_eq_true_eq] at hr
    cases v <;> simp only [FitsKind] at h1
    cases v' <;> simp only [FitsKind] at h1'
    rw [wireKind, wireKind, record_length hs hr h1, record_length hs hr h1']
  | arrRec fs n =>
    simp only [saneKind] at hs
    simp only [rigidKind, decide_eq_true_eq] at hr
    cases v <;> simp only [FitsKind] at h1
    cases v' <;> simp only [FitsKind] at h1'
    rw [wireKind, wireKind, records_length hs hr h1.2, records_length hs hr h1'.2, h1.1, h1'.1]
  | vecRec fs len b sz =>
    simp only [saneKind, Bool.and_eq_true] at hs
    simp only [rigidKind, decide_eq_true_eq] at hr
    cases v <;> simp only [FitsKind] at h1
    cases v' <;> simp only [FitsKind] at h1'
    simp only [ShapedKind] at h3 h3'
    have h4 := h3.1.symm.trans h3'.1
    simp only [Except.ok.injEq] at h4
    rw [wireKind, wireKind, records_length hs.2 hr h1.2, records_length hs.2 hr h1'.2, h4]

theorem rigid_short (cfg : Cfg) (env : Env) (k : Kind) (hs : saneKind k = true)
    (hr : rigidKind cfg k = true) (v : Val) (h : IsKind cfg env k v) (inp : List Byte)
    (he : KindRefused cfg env k inp .bufferExhaustion) :
    inp.length < (wireKind cfg.wire k v).length := by
  obtain ⟨h1, -, h3⟩ := h
  cases k with
  | num t w =>
    cases v <;> simp only [FitsKind] at h1
    simp only [KindRefused] at he
    simp only [wireKind, wireScalar]
    split <;> simpa using he.2.1
  | fbuf e n =>
    cases v <;> simp only [FitsKind] at h1
    simp only [KindRefused] at he
    rw [wireKind, flatMap_length _ e.size _ fun v hv => wireElem_length _ e v (h1.2 v hv), h1.1]
    exact he.1
  | fstr n =>
    cases v <;> simp only [FitsKind] at h1
    simp only [KindRefused] at he
    rw [wireKind, flatMap_length _ 1 _ fun v hv => wireElem_length _ (.scalar u8) v (h1.2 v hv), h1.1]
    simpa using he.1
  | vec e len b =>
    cases v <;> simp only [FitsKind] at h1
    simp only [ShapedKind] at h3
    simp only [KindRefused] at he
    obtain ⟨n, hn, ⟨-, he⟩ | ⟨-, he, -⟩⟩ := he
    · cases he
    · rw [h3] at hn
      cases hn
      rw [wireKind, flatMap_length _ e.size _ fun v hv => wireElem_length _ e v (h1.2 v hv)]
      exact he
  | record fs =>
    have := kindRefused_short cfg _ hs env inp he
    simp only [saneKind] at hs
    simp only [rigidKind, decide_eq_true_eq] at hr
    cases v <;> simp only [FitsKind] at h1
    rw [wireKind, record_length hs hr h1]
    exact this
  | arrRec fs n =>
    have := kindRefused_short cfg _ hs env inp he
    simp only [saneKind] at hs
    simp only [rigidKind, decide_eq_true_eq] at hr
    cases v <;> simp only [FitsKind] at h1
    rw [wireKind, records_length hs hr h1.2, h1.1]
    exact this
  | vecRec fs len b sz =>
    simp only [saneKind, Bool.and_eq_true] at hs
    simp only [rigidKind, decide_eq_true_eq] at hr
    cases v <;> simp only [FitsKind] at h1
    simp only [ShapedKind] at h3
    simp only [KindRefused] at he
    obtain ⟨n, hn, ⟨-, he⟩ | ⟨-, he⟩⟩ := he
    · cases he
    · rw [h3.1] at hn
      cases hn
      rw [wireKind, records_length hs.2 hr h1.2]
      exact nextRecord_short (fun ws hw => (wireFields_between cfg cfg.wire fs hs.2 ws hw.1).2)
        (fun tail ⟨id, ht⟩ => fieldsRefused_short cfg fs hs.2 [] [] tail id ht) he

theorem rigidAlts_length (cfg : Cfg) (env : Env) (alts : List Alt) (hs : saneAlts alts = true)
    (hr : (alts.all fun a => rigidKind cfg a.kind) = true) (i : Nat) (v v' : Val)
    (h : FitsAlts cfg alts i v ∧ OkAlts alts i v ∧ ShapedAlts cfg env alts i v)
    (h' : FitsAlts cfg alts i v' ∧ OkAlts alts i v' ∧ ShapedAlts cfg env alts i v') :
    (wireAlts cfg.wire alts i v').length = (wireAlts cfg.wire alts i v).length := by
  induction alts generalizing i with
  | nil => rfl
  | cons a alts ih =>
    obtain ⟨k, c⟩ := a
    simp only [saneAlts, Bool.and_eq_true] at hs
    simp only [List.all_cons, Bool.and_eq_true] at hr
    cases i with
    | zero =>
      simp only [FitsAlts, OkAlts, ShapedAlts] at h h'
      simp only [wireAlts]
      exact rigid_length cfg env k hs.1 hr.1 v v' ⟨h.1, h.2.1.1, h.2.2⟩ ⟨h'.1, h'.2.1.1, h'.2.2⟩
    | succ i =>
      simp only [FitsAlts, OkAlts, ShapedAlts] at h h'
      simp only [wireAlts]
      exact ih hs.2 hr.2 i h h'

theorem rigidAlts_short (cfg : Cfg) (env : Env) (alts : List Alt) (hs : saneAlts alts = true)
    (hr : (alts.all fun a => rigidKind cfg a.kind) = true) (i : Nat) (v : Val)
    (h : FitsAlts cfg alts i v ∧ OkAlts alts i v ∧ ShapedAlts cfg env alts i v) (inp : List Byte)
    (he : AltsRefused cfg env alts i inp .bufferExhaustion) :
    inp.length < (wireAlts cfg.wire alts i v).length := by
  induction alts generalizing i with
  | nil => simp [AltsRefused] at he
  | cons a alts ih =>
    obtain ⟨k, c⟩ := a
    simp only [saneAlts, Bool.and_eq_true] at hs
    simp only [List.all_cons, Bool.and_eq_true] at hr
    cases i with
    | zero =>
      simp only [FitsAlts, OkAlts, ShapedAlts] at h
      simp only [AltsRefused] at he
      simp only [wireAlts]
      obtain he | ⟨he, -⟩ := he
      · exact rigid_short cfg env k hs.1 hr.1 v ⟨h.1, h.2.1.1, h.2.2⟩ inp he
      · cases he
    | succ i =>
      simp only [FitsAlts, OkAlts, ShapedAlts] at h
      simp only [AltsRefused] at he
      simp only [wireAlts]
      exact ih hs.2 hr.2 i h he

theorem rigidField_length (cfg : Cfg) (env : Env) (f : Field) (hs : saneField f = true)
    (hr : rigidField cfg f = true) (v v' : Val) (h : IsField cfg env f v) (h' : IsField cfg env f v') :
    (wireField cfg.wire f v').length = (wireField cfg.wire f v).length := by
  obtain ⟨h1, h2, h3⟩ := h
  obtain ⟨h1', h2', h3'⟩ := h'
  cases f with
  | plain id k c =>
    simp only [FitsField, OkField, ShapedField] at h1 h2 h3 h1' h2' h3'
    simp only [saneField] at hs
    simp only [rigidField] at hr
    simp only [wireField]
    exact rigid_length cfg env k hs hr v v' ⟨h1, h2.1, h3⟩ ⟨h1', h2'.1, h3'⟩
  | maybe id k p =>
    simp only [saneField] at hs
    simp only [rigidField] at hr
    cases v <;> simp only [FitsField] at h1 <;> cases v' <;> simp only [FitsField] at h1'
      <;> simp only [ShapedField, OkField] at h2 h3 h2' h3'
    · rfl
    · rw [h3] at h3'; cases h3'.1
    · rw [h3'] at h3; cases h3.1
    · simp only [wireField]
      exact rigid_length cfg env k hs hr _ _ ⟨h1, h2, h3.2⟩ ⟨h1', h2', h3'.2⟩
  | union id d alts c =>
    simp only [saneField, Bool.and_eq_true] at hs
    simp only [rigidField] at hr
    cases v <;> simp only [FitsField] at h1
    cases v' <;> simp only [FitsField] at h1'
    simp only [ShapedField, OkField] at h2 h3 h2' h3'
    have hi := h3.1.symm.trans h3'.1
    simp only [Except.ok.injEq, Option.some.injEq] at hi
    subst hi
    simp only [wireField]
    exact rigidAlts_length cfg env alts hs.2 hr _ _ _ ⟨h1, h2.1, h3.2⟩ ⟨h1', h2'.1, h3'.2⟩

theorem rigidField_short (cfg : Cfg) (env : Env) (f : Field) (hs : saneField f = true)
    (hr : rigidField cfg f = true) (v : Val) (h : IsField cfg env f v) (inp : List Byte)
    (he : FieldRefused cfg env f inp .bufferExhaustion) :
    inp.length < (wireField cfg.wire f v).length := by
  obtain ⟨h1, h2, h3⟩ := h
  cases f with
  | plain id k c =>
    simp only [FitsField, OkField, ShapedField] at h1 h2 h3
    simp only [saneField] at hs
    simp only [rigidField] at hr
    simp only [FieldRefused] at he
    simp only [wireField]
    obtain he | ⟨he, -⟩ := he
    · exact rigid_short cfg env k hs hr v ⟨h1, h2.1, h3⟩ inp he
    · cases he
  | maybe id k p =>
    simp only [saneField] at hs
    simp only [rigidField] at hr
    simp only [FieldRefused] at he
    cases v <;> simp only [FitsField] at h1 <;> simp only [ShapedField, OkField] at h2 h3
    · rw [h3] at he; cases he.1
    · simp only [wireField]
      exact rigid_short cfg env k hs hr _ ⟨h1, h2, h3.2⟩ inp he.2
  | union id d alts c =>
    simp only [saneField, Bool.and_eq_true] at hs
    simp only [rigidField] at hr
    simp only [FieldRefused] at he
    cases v <;> simp only [FitsField] at h1
    simp only [ShapedField, OkField] at h2 h3
    obtain ⟨-, he⟩ | ⟨i, hi, he | ⟨he, -⟩⟩ := he
    · cases he
    · rw [h3.1] at hi
      cases hi
      simp only [wireField]
      exact rigidAlts_short cfg env alts hs.2 hr _ _ ⟨h1, h2.1, h3.2⟩ inp he
    · cases he

/-! ### Replacing the value of one field -/

theorem fitsFields_length {cfg : Cfg} {fs : List Field} {vs : List Val} (h : FitsFields cfg fs vs) :
    vs.length = fs.length := by
  induction fs generalizing vs with
  | nil => cases vs <;> simp [FitsFields] at h ⊢
  | cons f fs ih =>
    cases vs with
    | nil => simp [FitsFields] at h
    | cons v vs => simp only [FitsFields] at h; simp [ih h.2]

theorem fits_replace {cfg : Cfg} {pre post : List Field} {f : Field} {us ws : List Val} {v v' : Val}
    (hl : us.length = pre.length) (h : FitsFields cfg (pre ++ f :: post) (us ++ v :: ws))
    (hv : FitsField cfg f v') : FitsFields cfg (pre ++ f :: post) (us ++ v' :: ws) := by
  induction pre generalizing us with
  | nil =>
    have : us = [] := by simpa using hl
    subst this
    simp only [List.nil_append, FitsFields] at h ⊢
    exact ⟨hv, h.2⟩
  | cons g gs ih =>
    cases us with
    | nil => simp at hl
    | cons u us =>
      simp only [List.cons_append, FitsFields] at h ⊢
      exact ⟨h.1, ih (by simpa using hl) h.2⟩

theorem ok_replace {pre post : List Field} {f : Field} {us ws : List Val} {v v' : Val}
    (hl : us.length = pre.length) (h : OkFields (pre ++ f :: post) (us ++ v :: ws))
    (hv : OkField f v') : OkFields (pre ++ f :: post) (us ++ v' :: ws) := by
  induction pre generalizing us with
  | nil =>
    have : us = [] := by simpa using hl
    subst this
    simp only [List.nil_append, OkFields] at h ⊢
    exact ⟨hv, h.2⟩
  | cons g gs ih =>
    cases us with
    | nil => simp at hl
    | cons u us =>
      simp only [List.cons_append, OkFields] at h ⊢
      exact ⟨h.1, ih (by simpa using hl) h.2⟩

/-- Siblings other than `f` keep their values. -/
theorem envOf_replace (pre post : List Field) (f : Field) (us ws : List Val) (v v' : Val)
    (hl : us.length = pre.length) (i : String) (hi : i ≠ f.id) :
    envOf (pre ++ f :: post) (us ++ v :: ws) i = envOf (pre ++ f :: post) (us ++ v' :: ws) i := by
  induction pre generalizing us with
  | nil =>
    have : us = [] := by simpa using hl
    subst this
    simp [envOf, Env.set, hi]
  | cons g gs ih =>
    cases us with
    | nil => simp at hl
    | cons u us =>
      simp only [List.cons_append, envOf, Env.set]
      rw [ih us (by simpa using hl)]

theorem shaped_replace {cfg : Cfg} {pre post : List Field} {f : Field} {us ws : List Val} {v v' : Val}
    {env env' : Env} (hl : us.length = pre.length)
    (hp : ∀ g ∈ pre ++ post, uniqueField g = true ∧ earlierField g = true ∧
      Agree (fieldDeps g) env env')
    (h : ShapedFields cfg env (pre ++ f :: post) (us ++ v :: ws))
    (hv : ShapedField cfg env' f v') : ShapedFields cfg env' (pre ++ f :: post) (us ++ v' :: ws) := by
  induction pre generalizing us with
  | nil =>
    have : us = [] := by simpa using hl
    subst this
    simp only [List.nil_append, ShapedFields] at h hp ⊢
    refine ⟨hv, ?_⟩
    replace h := h.2
    clear hv
    induction post generalizing ws with
    | nil => simp [ShapedFields]
    | cons g gs ih =>
      cases ws with
      | nil => simp [ShapedFields]
      | cons w ws =>
        simp only [ShapedFields] at h ⊢
        obtain ⟨a, b, c⟩ := hp g (by simp)
        exact ⟨(shapedField_congr cfg g a b c w).mp h.1, ih (fun x hx => hp x (by simp [hx])) h.2⟩
  | cons g gs ih =>
    cases us with
    | nil => simp at hl
    | cons u us =>
      simp only [List.cons_append, ShapedFields] at h ⊢
      obtain ⟨a, b, c⟩ := hp g (by simp)
      exact ⟨(shapedField_congr cfg g a b c u).mp h.1,
        ih (by simpa using hl) (fun x hx => hp x (by simp at hx ⊢; exact .inr hx)) h.2⟩

theorem uniqueField_mem {seen : List String} {fs : List Field} (h : uniqueFields seen fs = true) :
    ∀ g ∈ fs, uniqueField g = true := by
  induction fs generalizing seen with
  | nil => simp
  | cons f fs ih =>
    simp only [uniqueFields, Bool.and_eq_true] at h
    intro g hg
    rcases List.mem_cons.mp hg with rfl | hg
    · exact h.1.2
    · exact ih h.2 g hg

theorem earlierField_mem {seen : List String} {fs : List Field} (h : earlierFields seen fs = true) :
    ∀ g ∈ fs, earlierField g = true := by
  induction fs generalizing seen with
  | nil => simp
  | cons f fs ih =>
    simp only [earlierFields, Bool.and_eq_true] at h
    intro g hg
    rcases List.mem_cons.mp hg with rfl | hg
    · exact h.1.2
    · exact ih h.2 g hg

/-- A field sees only fields before it. -/
theorem earlier_deps {seen : List String} {pre post : List Field} {f : Field}
    (h : earlierFields seen (pre ++ f :: post) = true) :
    ∀ i ∈ fieldDeps f, i ∈ seen ++ pre.map Field.id := by
  induction pre generalizing seen with
  | nil =>
    simp only [List.nil_append, earlierFields, Bool.and_eq_true, List.all_eq_true,
      List.contains_eq_mem, decide_eq_true_eq] at h
    simpa using h.1.1
  | cons g gs ih =>
    simp only [List.cons_append, earlierFields, Bool.and_eq_true] at h
    intro i hi
    simpa using ih h.2 i hi

theorem not_own_name {pre post : List Field} {f : Field}
    (h : uniqueFields [] (pre ++ f :: post) = true) : f.id ∉ pre.map Field.id := by
  suffices ∀ seen, uniqueFields seen (pre ++ f :: post) = true → f.id ∉ pre.map Field.id from
    this _ h
  clear h
  intro seen h
  induction pre generalizing seen with
  | nil => simp
  | cons g gs ih =>
    simp only [List.cons_append, uniqueFields, Bool.and_eq_true] at h
    simp only [List.map_cons, List.mem_cons, not_or]
    refine ⟨fun he => ?_, ih _ h.2⟩
    refine uniqueFields_not_seen _ _ h.2 g.id (by simp) ?_
    simp [he]

/-- Fields before a field do not see it. -/
theorem earlier_unseen {pre post : List Field} {f : Field} (hwf : WellFormed (pre ++ f :: post)) :
    Unseen pre f.id := by
  intro g hg hi
  obtain ⟨a, b, rfl⟩ := List.append_of_mem hg
  have h1 := earlier_deps (pre := a) (post := b ++ f :: post) (f := g)
    (by simpa using hwf.2.2) _ hi
  have h2 := not_own_name hwf.2.1
  apply h2
  simp only [List.nil_append] at h1
  simp [h1]

/-- A value of the field beside the fields before it, put in place of another that nobody
looks at, leaves a valid struct. -/
theorem valid_replace {cfg : Cfg} {pre post : List Field} {f : Field} {us ws : List Val} {v v' : Val}
    (hwf : WellFormed (pre ++ f :: post)) (hl : us.length = pre.length) (hun : Unseen post f.id)
    (h : Valid cfg (pre ++ f :: post) (us ++ v :: ws)) (hv : IsField cfg (envOf pre us) f v') :
    Valid cfg (pre ++ f :: post) (us ++ v' :: ws) := by
  obtain ⟨h1, h2, h3⟩ := h
  refine ⟨fits_replace hl h1 hv.1, ok_replace hl h2 hv.2.1, shaped_replace hl ?_ h3 ?_⟩
  · intro g hg
    have hg' : g ∈ pre ++ f :: post := by
      simp only [List.mem_append, List.mem_cons] at hg ⊢; rcases hg with h | h <;> simp [h]
    refine ⟨uniqueField_mem hwf.2.1 g hg', earlierField_mem hwf.2.2 g hg', fun i hi =>
      envOf_replace pre post f us ws v v' hl i ?_⟩
    rintro rfl
    rcases List.mem_append.mp hg with hg | hg
    · exact earlier_unseen hwf g hg hi
    · exact hun g hg hi
  · refine (shapedField_congr cfg f (uniqueField_mem hwf.2.1 f (by simp))
      (earlierField_mem hwf.2.2 f (by simp)) (Agree.mono (envOf_append_agree pre (f :: post) us (v' :: ws) hl)
        fun i hi => by simpa using earlier_deps hwf.2.2 i hi) v').mp hv.2.2

end S2S
