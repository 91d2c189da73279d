import Verif.Spec.Names
import Verif.Lemmas.Tables
import Verif.Lemmas.Derive
/-
What the checks of `struct_field_list` accept.
-/
namespace S2S.Meta
open Spec

/-! ### Tables of a list of fields -/

theorem fieldTable_keys (fs : List Field) (tid : Field → Nat) :
    keys ((fs.map fun f => (f.id, tid f)).zipIdx.map fun e => ((e.1.1, ⟨e.1.2, e.2⟩) : String × FieldInfo)) =
      fs.map Field.id := by
  rw [keys, List.map_map]
  apply List.ext_getElem?
  intro i
  simp only [List.getElem?_map, List.getElem?_zipIdx, Option.map_map]
  cases fs[i]? <;> rfl

theorem fieldTable_mem (fs : List Field) (tid : Field → Nat) (k : String) (info : FieldInfo) :
    (k, info) ∈ ((fs.map fun f => (f.id, tid f)).zipIdx.map fun e => ((e.1.1, ⟨e.1.2, e.2⟩) : String × FieldInfo)) ↔
      ∃ f, At fs info.occursAt f ∧ f.id = k ∧ tid f = info.typeId := by
  rw [List.mem_iff_getElem?]
  constructor
  · rintro ⟨i, h⟩
    simp only [List.getElem?_map, List.getElem?_zipIdx, Option.map_map] at h
    cases hf : fs[i]? with
    | none => rw [hf] at h; cases h
    | some f =>
      rw [hf] at h
      simp only [Option.map_some, Function.comp_apply, Option.some.injEq, Prod.mk.injEq, Nat.zero_add] at h
      obtain ⟨rfl, rfl⟩ := h
      exact ⟨f, hf, rfl, rfl⟩
  · rintro ⟨f, hf, rfl, ht⟩
    refine ⟨info.occursAt, ?_⟩
    have hf' : fs[info.occursAt]? = some f := hf
    simp only [List.getElem?_map, List.getElem?_zipIdx, hf', Option.map_some, Nat.zero_add, ht]

theorem fieldTable_get (lt : String → String → Bool) (tid : Field → Nat) {fs : List Field}
    (hn : fs.length ≤ maxFields) (hd : Distinct fs) :
    ∃ t, fieldTable lt (fs.map fun f => (f.id, tid f)) = some t ∧
      ∀ k info, mapGet t k = some info ↔
        if k = "" ∧ fs.length < maxFields then info = ⟨0, 0⟩
        else ∃ f, At fs info.occursAt f ∧ f.id = k ∧ tid f = info.typeId := by
  obtain ⟨m, h1, _, h3⟩ := mapOf_get lt maxFields (⟨0, 0⟩ : FieldInfo)
    ((fs.map fun f => (f.id, tid f)).zipIdx.map fun e => ((e.1.1, ⟨e.1.2, e.2⟩) : String × FieldInfo))
    (by rw [List.length_map, List.length_zipIdx, List.length_map]; exact hn)
    (by rw [fieldTable_keys fs tid]; exact hd)
  refine ⟨m, h1, fun k info => ?_⟩
  rw [h3]
  simp only [List.length_map, List.length_zipIdx, fieldTable_mem]

theorem depEntries_spec {deps : Field → Option (List String)} {fs : List Field}
    {es : List (String × List String)} (h : depEntries deps fs = some es) :
    keys es = fs.map Field.id ∧ es.length = fs.length ∧ (∀ f ∈ fs, ∃ ds, deps f = some ds) ∧
      ∀ k ds, (k, ds) ∈ es ↔ ∃ f ∈ fs, f.id = k ∧ deps f = some ds := by
  induction fs generalizing es with
  | nil => simp only [depEntries, Option.some.injEq] at h; subst h; simp [keys]
  | cons f fs ih =>
    rw [depEntries] at h
    cases hd : deps f with
    | none => rw [hd] at h; cases h
    | some ds =>
      rw [hd] at h
      cases hr : depEntries deps fs with
      | none => rw [hr] at h; cases h
      | some es' =>
        rw [hr] at h
        simp only [Option.bind_some, Option.map_some, Option.some.injEq] at h
        subst h
        obtain ⟨h1, h2, h3, h4⟩ := ih hr
        refine ⟨?_, ?_, ?_, ?_⟩
        · rw [keys, List.map_cons, List.map_cons, ← h1]; rfl
        · simp [h2]
        · intro g hg
          rcases List.mem_cons.1 hg with rfl | hg
          · exact ⟨ds, hd⟩
          · exact h3 g hg
        · intro k ds'
          rw [List.mem_cons, h4]
          constructor
          · rintro (h | ⟨g, hg, hk, hds⟩)
            · injection h with hk hds
              exact ⟨f, by simp, hk.symm, by rw [hds]; exact hd⟩
            · exact ⟨g, by simp [hg], hk, hds⟩
          · rintro ⟨g, hg, hk, hds⟩
            rcases List.mem_cons.1 hg with rfl | hg
            · left
              rw [hd] at hds
              injection hds with hds
              rw [hk, hds]
            · exact .inr ⟨g, hg, hk, hds⟩

theorem depEntries_some {deps : Field → Option (List String)} {fs : List Field}
    (h : ∀ f ∈ fs, ∃ ds, deps f = some ds) : ∃ es, depEntries deps fs = some es := by
  induction fs with
  | nil => exact ⟨[], rfl⟩
  | cons f fs ih =>
    obtain ⟨ds, hd⟩ := h f (by simp)
    obtain ⟨es, he⟩ := ih fun g hg => h g (by simp [hg])
    exact ⟨(f.id, ds) :: es, by rw [depEntries, hd, he]; rfl⟩

/-! ### The check -/

theorem depsBefore_iff (t : List (String × FieldInfo)) (n : Nat) (ds : List String) :
    depsBefore t n ds = some true ↔
      ∀ d ∈ ds, ∃ info, mapGet t d = some info ∧ info.occursAt ≤ n := by
  induction ds with
  | nil => simp [depsBefore]
  | cons d ds ih =>
    rw [depsBefore]
    cases hg : mapGet t d with
    | none => simp [hg]
    | some info =>
      simp only [List.mem_cons, forall_eq_or_imp, hg, Option.some.injEq, exists_eq_left']
      by_cases h : info.occursAt > n
      · rw [if_pos h]
        constructor
        · intro h'; cases h'
        · intro h'; omega
      · rw [if_neg h, ih]
        exact ⟨fun h' => ⟨by omega, h'⟩, fun h' => h'.2⟩

theorem dependenciesResolved_iff (t : List (String × FieldInfo)) (es : List (String × List String)) :
    dependenciesResolved t es = some true ↔
      ∀ name ds, (name, ds) ∈ es → ∃ info, mapGet t name = some info ∧
        ∀ d ∈ ds, ∃ info', mapGet t d = some info' ∧ info'.occursAt ≤ info.occursAt := by
  induction es with
  | nil => simp [dependenciesResolved]
  | cons e es ih =>
    obtain ⟨name, ds⟩ := e
    rw [dependenciesResolved]
    cases hg : mapGet t name with
    | none =>
      constructor
      · intro h; cases h
      · intro h
        obtain ⟨info, h1, _⟩ := h name ds (by simp)
        rw [hg] at h1; cases h1
    | some info =>
      simp only
      constructor
      · intro h
        cases hb : depsBefore t info.occursAt ds with
        | none => rw [hb] at h; cases h
        | some b =>
          cases b with
          | false => rw [hb] at h; cases h
          | true =>
            rw [hb] at h
            intro name' ds' hm
            rcases List.mem_cons.1 hm with he | hm
            · injection he with h1 h2
              subst h1 h2
              exact ⟨info, hg, (depsBefore_iff _ _ _).1 hb⟩
            · exact ih.1 h name' ds' hm
      · intro h
        obtain ⟨info', h1, h2⟩ := h name ds (by simp)
        rw [hg] at h1
        injection h1 with h1
        subst h1
        rw [(depsBefore_iff _ _ _).2 h2]
        exact ih.2 fun name' ds' hm => h name' ds' (by simp [hm])

theorem at_inj {fs : List Field} (hd : Distinct fs) {i j : Nat} {f g : Field} (hi : At fs i f)
    (hj : At fs j g) (h : f.id = g.id) : i = j := by
  have h1 : (fs.map Field.id)[i]? = some f.id := by
    have hi' : fs[i]? = some f := hi
    rw [List.getElem?_map, hi']; rfl
  have h2 : (fs.map Field.id)[j]? = some f.id := by
    have hj' : fs[j]? = some g := hj
    rw [List.getElem?_map, hj', h]; rfl
  have hlt : i < (fs.map Field.id).length := (List.getElem?_eq_some_iff.1 h1).1
  exact (List.getElem?_inj hlt hd).1 (h1.trans h2.symm)

theorem at_mem {fs : List Field} {f : Field} (h : f ∈ fs) : ∃ i, At fs i f := List.mem_iff_getElem?.1 h

theorem mem_of_at {fs : List Field} {i : Nat} {f : Field} (h : At fs i f) : f ∈ fs :=
  List.mem_iff_getElem?.2 ⟨i, h⟩

theorem resolvedFor_iff (lt : String → String → Bool) (tid : Field → Nat)
    (deps : Field → Option (List String)) {fs : List Field} (hd : Distinct fs)
    (hne : ∀ f ∈ fs, f.id ≠ "") :
    resolvedFor lt tid deps fs = some true ↔
      fs.length ≤ maxFields ∧ (∀ f ∈ fs, ∃ ds, deps f = some ds) ∧
      ∀ i f ds, At fs i f → deps f = some ds → ∀ d ∈ ds,
        d = "" ∧ fs.length < maxFields ∨ DeclaredUpTo fs i d := by
  constructor
  · intro h
    rw [resolvedFor] at h
    cases ht : fieldTable lt (fs.map fun f => (f.id, tid f)) with
    | none => rw [ht] at h; cases h
    | some t =>
      rw [ht, Option.bind_some] at h
      have hn : fs.length ≤ maxFields := by
        have := mapOf_some (show mapOf _ _ _ _ = some t from ht)
        simpa only [List.length_map, List.length_zipIdx] using this
      obtain ⟨t', ht', hget⟩ := fieldTable_get lt tid hn hd
      rw [ht] at ht'
      injection ht' with ht'
      subst ht'
      cases he : depEntries deps fs with
      | none => rw [depTable, he] at h; cases h
      | some es =>
        obtain ⟨hk, hl, hall, hmem⟩ := depEntries_spec he
        obtain ⟨m, hm, hmk, hmget⟩ := mapOf_get lt maxFields ([] : List String) es (by omega) (by rw [hk]; exact hd)
        rw [depTable, he, Option.bind_some, hm, Option.bind_some, dependenciesResolved_iff] at h
        refine ⟨hn, hall, fun i f ds hf hds d hdd => ?_⟩
        have hfm := mem_of_at hf
        have hin : (f.id, ds) ∈ m := by
          rw [← mapGet_iff hmk, hmget, if_neg (fun h => hne f hfm h.1), hmem]
          exact ⟨f, hfm, rfl, hds⟩
        obtain ⟨info, h1, h2⟩ := h f.id ds hin
        rw [hget, if_neg (fun h => hne f hfm h.1)] at h1
        obtain ⟨f', hf', hid, _⟩ := h1
        have hii := at_inj hd hf hf' hid.symm
        obtain ⟨info', h3, h4⟩ := h2 d hdd
        rw [hget] at h3
        by_cases hd0 : d = "" ∧ fs.length < maxFields
        · exact .inl hd0
        · rw [if_neg hd0] at h3
          obtain ⟨g, hg, hgid, _⟩ := h3
          exact .inr ⟨info'.occursAt, g, by omega, hg, hgid⟩
  · rintro ⟨hn, hall, hdeps⟩
    obtain ⟨t, ht, hget⟩ := fieldTable_get lt tid hn hd
    obtain ⟨es, he⟩ := depEntries_some hall
    obtain ⟨hk, hl, _, hmem⟩ := depEntries_spec he
    obtain ⟨m, hm, hmk, hmget⟩ := mapOf_get lt maxFields ([] : List String) es (by omega) (by rw [hk]; exact hd)
    rw [resolvedFor, ht, Option.bind_some, depTable, he, Option.bind_some, hm, Option.bind_some,
      dependenciesResolved_iff]
    intro name ds hin
    rw [← mapGet_iff hmk, hmget, hl] at hin
    by_cases h0 : name = "" ∧ fs.length < maxFields
    · rw [if_pos h0] at hin
      subst hin
      exact ⟨⟨0, 0⟩, (hget _ _).2 (by rw [if_pos h0]), fun d hd => by cases hd⟩
    · rw [if_neg h0, hmem] at hin
      obtain ⟨f, hfm, rfl, hds⟩ := hin
      obtain ⟨i, hi⟩ := at_mem hfm
      refine ⟨⟨tid f, i⟩, (hget _ _).2 (by rw [if_neg h0]; exact ⟨f, hi, rfl, rfl⟩), fun d hdd => ?_⟩
      rcases hdeps i f ds hi hds d hdd with h | ⟨j, g, hj, hg, rfl⟩
      · exact ⟨⟨0, 0⟩, (hget _ _).2 (by rw [if_pos h]), Nat.zero_le _⟩
      · exact ⟨⟨tid g, j⟩, (hget _ _).2 (by
          rw [if_neg (fun h => hne g (mem_of_at hg) h.1)]; exact ⟨g, hg, rfl, rfl⟩), hj⟩

/-! ### The names extracted -/

theorem lenDepsOfKind_eq (k : Kind) :
    lenDepsOfKind k = if (kindDeps k).length ≤ maxDeps then some (kindDeps k) else none := by
  have hp : ∀ l : List String, pushAll maxDeps [] l = if l.length ≤ maxDeps then some l else none := by
    intro l
    rw [pushAll_eq]
    by_cases h : l.length ≤ maxDeps
    · rw [if_pos h, if_pos (.inl (by simpa using h))]; rfl
    · rw [if_neg h, if_neg]
      rintro (h' | h')
      · exact h (by simpa using h')
      · subst h'; exact h (by decide)
  cases k with
  | vec e len b => cases len <;> exact hp _
  | vecRec gs len b sz => cases len <;> exact hp _
  | num t w => rfl
  | fbuf e n => rfl
  | fstr n => rfl
  | record gs => rfl
  | arrRec gs n => rfl

theorem pushAll_lim (l : List String) :
    pushAll maxDeps [] l = if l.length ≤ maxDeps then some l else none := by
  rw [pushAll_eq]
  by_cases h : l.length ≤ maxDeps
  · rw [if_pos h, if_pos (.inl (by simpa using h))]; rfl
  · rw [if_neg h, if_neg]
    rintro (h' | h')
    · exact h (by simpa using h')
    · subst h'; exact h (by decide)

theorem lenDepsOfAlts_some (alts : List Alt) (dss : List (List String)) :
    lenDepsOfAlts alts = some dss ↔
      (∀ a ∈ alts, (kindDeps a.kind).length ≤ maxDeps) ∧ dss = alts.map fun a => kindDeps a.kind := by
  induction alts generalizing dss with
  | nil => simp [lenDepsOfAlts, eq_comm]
  | cons a alts ih =>
    rw [lenDepsOfAlts, lenDepsOfKind_eq]
    by_cases h : (kindDeps a.kind).length ≤ maxDeps
    · rw [if_pos h, Option.bind_some]
      simp only [Option.map_eq_some_iff, ih, List.mem_cons, forall_eq_or_imp, h, true_and, List.map_cons]
      constructor
      · rintro ⟨x, ⟨h1, rfl⟩, rfl⟩; exact ⟨h1, rfl⟩
      · rintro ⟨h1, rfl⟩; exact ⟨_, ⟨h1, rfl⟩, rfl⟩
    · rw [if_neg h]
      simp [h]

theorem predDeps_some (ps : List Pred) (dss : List (List String)) :
    predDeps ps = some dss ↔ (∀ p ∈ ps, p.ids.length ≤ maxDeps) ∧ dss = ps.map Pred.ids := by
  induction ps generalizing dss with
  | nil => simp [predDeps, eq_comm]
  | cons p ps ih =>
    rw [predDeps, pushAll_lim]
    by_cases h : p.ids.length ≤ maxDeps
    · rw [if_pos h, Option.bind_some]
      simp only [Option.map_eq_some_iff, ih, List.mem_cons, forall_eq_or_imp, h, true_and, List.map_cons]
      constructor
      · rintro ⟨x, ⟨h1, rfl⟩, rfl⟩; exact ⟨h1, rfl⟩
      · rintro ⟨h1, rfl⟩; exact ⟨_, ⟨h1, rfl⟩, rfl⟩
    · rw [if_neg h]
      simp [h]

theorem flatten_some (vecs : List (List String)) (ds : List String) :
    flatten vecs = some ds ↔
      vecs.length ≤ maxDeps ∧ vecs.flatten.length ≤ maxDeps ∧ ds = vecs.flatten := by
  rw [flatten, pushAll_lim]
  by_cases h : maxDeps < vecs.length
  · rw [if_pos h]; simp; omega
  · rw [if_neg h]
    by_cases h' : vecs.flatten.length ≤ maxDeps
    · rw [if_pos h']
      simp only [Option.some.injEq, h', true_and]
      exact ⟨fun h1 => ⟨by omega, h1.symm⟩, fun h1 => h1.2.symm⟩
    · rw [if_neg h']
      simp only [reduceCtorEq, h', false_and, and_false]

theorem length_le_flatten {α : Type} {l : List α} {ls : List (List α)} (h : l ∈ ls) :
    l.length ≤ ls.flatten.length := by
  induction ls with
  | nil => cases h
  | cons x ls ih =>
    simp only [List.flatten_cons, List.length_append]
    rcases List.mem_cons.1 h with rfl | h
    · omega
    · have := ih h; omega

theorem boundOf_none (k : Kind) : boundOf k = none ↔ declaresBound k = false := by
  cases k with
  | vec e len b => cases b <;> simp [boundOf, declaresBound]
  | vecRec fs len b sz => cases b <;> simp [boundOf, declaresBound]
  | _ => simp [boundOf, declaresBound]

/-- What the length table of a field holds. -/
theorem lengthDeps_some (f : Field) (ds : List String) :
    lengthDeps f = some ds ↔
      match f with
      | .plain _ k _ => (kindDeps k).length ≤ maxDeps ∧ ds = kindDeps k
      | .maybe _ k _ => declaresBound k = false ∧ (kindDeps k).length ≤ maxDeps ∧ ds = kindDeps k
      | .union _ _ alts _ => alts.length ≤ maxDeps ∧
          (alts.flatMap fun a => kindDeps a.kind).length ≤ maxDeps ∧
          ds = alts.flatMap fun a => kindDeps a.kind := by
  cases f with
  | plain id k c =>
    show lenDepsOfKind k = some ds ↔ _
    rw [lenDepsOfKind_eq]
    by_cases h : (kindDeps k).length ≤ maxDeps
    · rw [if_pos h]; simp only [Option.some.injEq, h, true_and]; exact eq_comm
    · rw [if_neg h]; simp [h]
  | maybe id k p =>
    show (if (boundOf k).isSome = true then none else lenDepsOfKind k) = some ds ↔ _
    simp only [lenDepsOfKind_eq, ← boundOf_none]
    cases hb : boundOf k with
    | some b => simp [hb]
    | none =>
      simp only [Option.isSome_none, Bool.false_eq_true, if_false, hb, true_and]
      by_cases h : (kindDeps k).length ≤ maxDeps
      · rw [if_pos h]; simp only [Option.some.injEq, h, true_and]; exact eq_comm
      · rw [if_neg h]; simp [h]
  | union id d alts c =>
    show (lenDepsOfAlts alts).bind flatten = some ds ↔ _
    simp only [Option.bind_eq_some_iff, lenDepsOfAlts_some, flatten_some]
    constructor
    · rintro ⟨dss, ⟨_, rfl⟩, h2, h3, rfl⟩
      simp only [List.length_map] at h2
      rw [List.flatMap_def]
      exact ⟨h2, h3, rfl⟩
    · rintro ⟨h1, h2, rfl⟩
      rw [List.flatMap_def] at h2 ⊢
      refine ⟨_, ⟨fun a ha => ?_, rfl⟩, by simpa using h1, h2, rfl⟩
      have := length_le_flatten (List.mem_map_of_mem (f := fun a : Alt => kindDeps a.kind) ha)
      omega

theorem parseDeps_some (f : Field) (ds : List String) :
    parseDeps f = some ds ↔
      match f with
      | .maybe _ _ p => p.ids.length ≤ maxDeps ∧ ds = p.ids
      | _ => ds = [] := by
  cases f with
  | maybe id k p =>
    show pushAll maxDeps [] p.ids = some ds ↔ _
    rw [pushAll_lim]
    by_cases h : p.ids.length ≤ maxDeps
    · rw [if_pos h]; simp only [Option.some.injEq, h, true_and]; exact eq_comm
    · rw [if_neg h]; simp [h]
  | plain id k c => simp [parseDeps, eq_comm]
  | union id d alts c => simp [parseDeps, eq_comm]

theorem removeDuplicates_eq (l : List String) (h : l.length ≤ maxDeps) :
    removeDuplicates l = some (addNew [] l) := by
  rw [removeDuplicates, setOf_eq _ _ _ (by simpa using h), Option.bind_some, pushAll_nil]
  have := length_addNew [] l
  simp only [List.length_nil, Nat.zero_add] at this
  omega

theorem removeDuplicates_some {l l' : List String} (h : removeDuplicates l = some l') :
    l' = addNew [] l := by
  rw [removeDuplicates] at h
  cases hs : setOf maxDeps [] l with
  | none => rw [hs] at h; cases h
  | some s =>
    rw [hs, Option.bind_some] at h
    rw [pushAll_some h, setOf_some hs]

theorem typeDeps_some (f : Field) (ds : List String) :
    typeDeps f = some ds ↔
      match f with
      | .union _ (.ladder ps) _ _ => ps.length ≤ maxDeps ∧ (ps.flatMap Pred.ids).length ≤ maxDeps ∧
          ds = addNew [] (ps.flatMap Pred.ids)
      | .union _ d _ _ => (deducerDeps d).length ≤ maxDeps ∧ ds = deducerDeps d
      | _ => ds = [] := by
  have key : ∀ l : List String, pushAll maxDeps [] l = some ds ↔ l.length ≤ maxDeps ∧ ds = l := by
    intro l
    rw [pushAll_lim]
    by_cases h : l.length ≤ maxDeps
    · rw [if_pos h]; simp only [Option.some.injEq, h, true_and]; exact eq_comm
    · rw [if_neg h]; simp [h]
  cases f with
  | maybe id k p => simp [typeDeps, eq_comm]
  | plain id k c => simp [typeDeps, eq_comm]
  | union id d alts c =>
    cases d with
    | matchField i t ls => exact key _
    | matchCompute comp t ls => exact key _
    | ladder ps =>
      show ((predDeps ps).bind flatten).bind removeDuplicates = some ds ↔ _
      simp only [Option.bind_eq_some_iff, predDeps_some, flatten_some]
      constructor
      · rintro ⟨l, ⟨dss, ⟨_, rfl⟩, h2, h3, rfl⟩, h4⟩
        simp only [List.length_map] at h2
        rw [List.flatMap_def]
        exact ⟨h2, h3, removeDuplicates_some h4⟩
      · rintro ⟨h1, h2, rfl⟩
        rw [List.flatMap_def] at h2 ⊢
        refine ⟨_, ⟨_, ⟨fun p hp => ?_, rfl⟩, by simpa using h1, h2, rfl⟩, removeDuplicates_eq _ h2⟩
        have := length_le_flatten (List.mem_map_of_mem (f := Pred.ids) hp)
        omega

/-- The limits are those of the three tables. -/
theorem withinLimits_iff (f : Field) :
    WithinLimits f ↔ (∃ ds, lengthDeps f = some ds) ∧ (∃ ds, parseDeps f = some ds) ∧
      ∃ ds, typeDeps f = some ds := by
  simp only [lengthDeps_some, parseDeps_some, typeDeps_some]
  cases f with
  | plain id k c => simp [WithinLimits, maxDeps]
  | maybe id k p => simp [WithinLimits, maxDeps, and_assoc]
  | union id d alts c =>
    cases d with
    | ladder ps =>
      simp only [WithinLimits, maxDeps, deducerDeps]
      constructor
      · rintro ⟨h1, h2, h3, h4⟩; exact ⟨⟨_, h1, h2, rfl⟩, ⟨_, rfl⟩, ⟨_, h4, h3, rfl⟩⟩
      · rintro ⟨⟨_, h1, h2, _⟩, _, ⟨_, h4, h3, _⟩⟩; exact ⟨h1, h2, h3, h4⟩
    | matchField i t ls => simp [WithinLimits, maxDeps, and_assoc]
    | matchCompute comp t ls => simp [WithinLimits, maxDeps, and_assoc]

/-- Together the three tables hold the names the field refers to. -/
theorem deps_union {f : Field} {l p t : List String} (hl : lengthDeps f = some l)
    (hp : parseDeps f = some p) (ht : typeDeps f = some t) (d : String) :
    d ∈ fieldDeps f ↔ d ∈ l ∨ d ∈ p ∨ d ∈ t := by
  rw [lengthDeps_some] at hl
  rw [parseDeps_some] at hp
  rw [typeDeps_some] at ht
  cases f with
  | plain id k c =>
    simp only at hl hp ht
    rw [hl.2, hp, ht]
    simp [fieldDeps]
  | maybe id k q =>
    simp only at hl hp ht
    rw [hl.2.2, hp.2, ht]
    simp [fieldDeps]
  | union id dd alts c =>
    cases dd with
    | ladder ps =>
      simp only at hl hp ht
      rw [hl.2.2, hp, ht.2.2, mem_addNew]
      simp only [fieldDeps, deducerDeps, List.mem_append, List.not_mem_nil, false_or]
      exact Or.comm
    | matchField i t' ls =>
      simp only at hl hp ht
      rw [hl.2.2, hp, ht.2]
      simp only [fieldDeps, List.mem_append, List.not_mem_nil, false_or]
      exact Or.comm
    | matchCompute comp t' ls =>
      simp only at hl hp ht
      rw [hl.2.2, hp, ht.2]
      simp only [fieldDeps, List.mem_append, List.not_mem_nil, false_or]
      exact Or.comm

theorem accepts_iff (lt : String → String → Bool) (tid : Field → Nat) {fs : List Field}
    (hne : ∀ f ∈ fs, f.id ≠ "") :
    accepts lt tid fs = true ↔
      fs ≠ [] ∧ Distinct fs ∧ fs.length ≤ maxFields ∧ (∀ f ∈ fs, WithinLimits f) ∧
      ∀ i f, At fs i f → ∀ d ∈ fieldDeps f, d = "" ∧ fs.length < maxFields ∨ DeclaredUpTo fs i d := by
  rw [accepts, hasUniqueFieldIds, fieldIdsUnique_eq]
  simp only [Bool.and_eq_true, beq_iff_eq, Option.some.injEq, decide_eq_true_eq, Bool.not_eq_true',
    List.isEmpty_eq_false_iff, ne_eq, List.map_eq_nil_iff]
  constructor
  · rintro ⟨⟨⟨⟨he, hd⟩, h1⟩, h2⟩, h3⟩
    rw [resolvedFor_iff lt tid _ hd hne] at h1 h2 h3
    refine ⟨he, hd, h1.1, fun f hf => (withinLimits_iff f).2 ⟨h1.2.1 f hf, h2.2.1 f hf, h3.2.1 f hf⟩, ?_⟩
    intro i f hf d hdd
    have hm := mem_of_at hf
    obtain ⟨l, hl⟩ := h1.2.1 f hm
    obtain ⟨p, hp⟩ := h2.2.1 f hm
    obtain ⟨t, ht⟩ := h3.2.1 f hm
    rcases (deps_union hl hp ht d).1 hdd with h | h | h
    · exact h1.2.2 i f l hf hl d h
    · exact h2.2.2 i f p hf hp d h
    · exact h3.2.2 i f t hf ht d h
  · rintro ⟨he, hd, hn, hw, h⟩
    rw [resolvedFor_iff lt tid _ hd hne, resolvedFor_iff lt tid _ hd hne, resolvedFor_iff lt tid _ hd hne]
    have hw' := fun f hf => (withinLimits_iff f).1 (hw f hf)
    refine ⟨⟨⟨⟨he, hd⟩, hn, fun f hf => (hw' f hf).1, ?_⟩, hn, fun f hf => (hw' f hf).2.1, ?_⟩,
      hn, fun f hf => (hw' f hf).2.2, ?_⟩
    all_goals
      intro i f ds hf hds d hdd
      obtain ⟨⟨l, hl⟩, ⟨p, hp⟩, ⟨t, ht⟩⟩ := hw' f (mem_of_at hf)
      refine h i f hf d ((deps_union hl hp ht d).2 ?_)
    · rw [hl] at hds; injection hds with hds; subst hds; exact .inl hdd
    · rw [hp] at hds; injection hds with hds; subst hds; exact .inr (.inl hdd)
    · rw [ht] at hds; injection hds with hds; subst hds; exact .inr (.inr hdd)

end S2S.Meta
