import Verif.Spec.Containers
import Verif.Spec.Tables
import Verif.Lemmas.Containers
/-
C121: the containers and lists of constant evaluation.
-/
namespace S2S.Props
open Spec Ct

variable {α β : Type}

/-! ### vectors and loops -/

/-- C121. A `static_vector` of capacity `n` takes any `n` elements, in order, and is no
constant expression with more. Between its size and its capacity `operator[]` gives
value-initialized elements; beyond, nothing. -/
theorem C121_vector (n : Nat) (d : α) (as : List α) :
    (n < as.length → (SVec.new n d).pushAll as = none) ∧
    (as.length ≤ n → ∃ v, (SVec.new n d).pushAll as = some v ∧ v.items = as ∧ v.size = as.length ∧
      v.capacity = n ∧ (v.empty = true ↔ as = []) ∧
      (∀ i, i < as.length → v.at i = as[i]?) ∧
      (∀ i, as.length ≤ i → i < n → v.at i = some d) ∧ ∀ i, n ≤ i → v.at i = none) := by
  rcases rep_pushAll (rep_new n d) as with ⟨v, h1, -, h2⟩ | ⟨h1, -, h2⟩
  · have hf := h2.fits
    simp only [List.nil_append] at h2 hf
    refine ⟨fun h => by omega, fun _ => ⟨v, h1, h2.holds.items, h2.size, h2.holds.cap, ?_,
      fun i hi => rep_at_lt h2 hi, fun i h3 h4 => ?_, fun i h3 => ?_⟩⟩
    · rw [SVec.empty, h2.size]
      simp
    · rw [rep_at h2, if_neg (by omega), if_pos h4]
    · rw [rep_at h2, if_neg (by omega), if_neg (by omega)]
  · exact ⟨fun _ => h1, fun h => by simp at h2; omega⟩

/-- C121. `find_index_if` over fewer elements than `unsigned` has values gives the first
place of an element with the property, and the size if there is none. -/
theorem C121_find (ev : Ev) (n : Nat) (d : α) (as : List α) (hn : as.length ≤ n)
    (hc : ev.Copes as.length) (p : α → Bool) :
    ∃ v i, (SVec.new n d).pushAll as = some v ∧ findIf ev p v = some i ∧
      (∀ j a, j < i → as[j]? = some a → p a = false) ∧
      (i = as.length ∨ ∃ a, as[i]? = some a ∧ p a = true) := by
  rcases rep_pushAll (rep_new n d) as with ⟨v, h1, -, h2⟩ | ⟨-, -, h2⟩
  · simp only [List.nil_append] at h2
    refine ⟨v, _, h1, findIf_eq h2 hc.u hc.fuel p, ?_, ?_⟩
    · clear h1 h2 hc hn
      induction as with
      | nil => intro j a h; simp [Meta.findIndexIf] at h
      | cons b as ih =>
        intro j a hj ha
        rw [Meta.findIndexIf] at hj
        by_cases hp : p b = true
        · simp [hp] at hj
        · rw [if_neg hp] at hj
          cases j with
          | zero => simp at ha; subst ha; simpa using hp
          | succ j => exact ih j a (by omega) (by simpa using ha)
    · by_cases h : Meta.findIndexIf p as = as.length
      · exact .inl h
      · exact .inr (Meta.findIndexIf_get h)
  · simp at h2; omega

/-- C121, why the condition: with as many elements as `unsigned` has values, none of them
with the property, the loop does not end, however long the evaluator goes on. -/
theorem C121_find_forever (ev : Ev) (hu : 0 < ev.u) (as : List α) (hn : ev.u ≤ as.length)
    (p : α → Bool) (hp : ∀ a ∈ as, p a = false) : findIf ev p (.full as) = none := by
  rw [findIf]
  rw [loop_forever (σ := Unit) (ρ := Nat) (bound := (SVec.full as).size) hu hn (body := fun i _ =>
    ((SVec.full as).at i).map fun a => if p a then .inr i else .inl ()) ?_ ev.fuel 0 () hu]
  intro i s hi
  refine ⟨(), ?_⟩
  have hlt : i < as.length := by omega
  simp [SVec.at, SVec.full, List.getElem?_eq_getElem hlt, hp _ (List.getElem_mem hlt)]

/-- C121. `equal_ranges` compares sizes and elements, and nothing else of the arrays. -/
theorem C121_equal [DecidableEq α] (ev : Ev) (n n' : Nat) (d d' : α) (as bs : List α)
    (hn : as.length ≤ n) (hn' : bs.length ≤ n') (hc : ev.Copes as.length) :
    ∃ v w, (SVec.new n d).pushAll as = some v ∧ (SVec.new n' d').pushAll bs = some w ∧
      equal ev v w = some (decide (as = bs)) := by
  rcases rep_pushAll (rep_new n d) as with ⟨v, h1, -, h2⟩ | ⟨-, -, h2⟩
  · rcases rep_pushAll (rep_new n' d') bs with ⟨w, h3, -, h4⟩ | ⟨-, -, h4⟩
    · simp only [List.nil_append] at h2 h4
      exact ⟨v, w, h1, h3, equal_eq h2 h4 hc.u hc.fuel⟩
    · simp at h4; omega
  · simp at h2; omega

/-- C121. `sort_ranges` on the array: what the vector held in order, the elements behind
them untouched. -/
theorem C121_sort (ev : Ev) (n : Nat) (d : α) (as : List α) (hn : as.length ≤ n)
    (hc : ev.Copes as.length) (lt : α → α → Bool) (hw : StrictWeak lt) :
    ∃ v w, (SVec.new n d).pushAll as = some v ∧ sort ev lt v = some w ∧ w.items.Perm as ∧
      w.items.Pairwise (fun a b => lt b a = false) ∧ w.size = v.size ∧ w.capacity = n ∧
      ∀ i, as.length ≤ i → w.at i = v.at i := by
  rcases rep_pushAll (rep_new n d) as with ⟨v, h1, -, h2⟩ | ⟨-, -, h2⟩
  · simp only [List.nil_append] at h2
    obtain ⟨l, w, h3, h4, h5⟩ := sort_eq h2 hc.u hc.sz hc.fuel lt
    obtain ⟨l', h6, h7, h8⟩ := Meta.sortRanges_sorted (lt := lt) ⟨hw.asymm, hw.trans⟩ as
    rw [h3] at h6
    cases h6
    refine ⟨v, w, h1, h4, ?_, ?_, ?_, h5.holds.cap, fun i hi => ?_⟩
    · rw [h5.holds.items]; exact h7
    · rw [h5.holds.items]; exact h8
    · rw [h5.size, h2.size, h7.length_eq]
    · have := h7.length_eq
      rw [rep_at h5, rep_at h2, if_neg (by omega : ¬ i < l.length),
        if_neg (by omega : ¬ i < as.length)]
  · simp at h2; omega

/-! ### sets and maps -/

/-- C121. A `static_set` of capacity `n` holds every element once, in the order in which
they first come, if these are at most `n`, and is no constant expression otherwise. -/
theorem C121_set [DecidableEq α] (ev : Ev) (n : Nat) (d : α) (as : List α) (hc : ev.Copes n) :
    (n < (firsts as).length → Ct.setOf ev n d as = none) ∧
    ((firsts as).length ≤ n → ∃ v, Ct.setOf ev n d as = some v ∧ v.items = firsts as ∧
      v.size = (firsts as).length ∧ v.capacity = n) := by
  have hm := setOf_exact n [] as (by simp)
  rw [addNew_firsts] at hm
  simp only [List.not_mem_nil, not_false_eq_true, decide_true, List.nil_append] at hm
  rw [List.filter_eq_self.2 (by simp)] at hm
  rcases rep_setOf hc d as with ⟨v, l, h1, h2, h3⟩ | ⟨h1, h2⟩
  · rw [hm] at h2
    split at h2
    · cases h2
      exact ⟨fun h => by omega, fun _ => ⟨v, h1, h3.holds.items, h3.size, h3.holds.cap⟩⟩
    · cases h2
  · rw [hm] at h2
    split at h2
    · cases h2
    · exact ⟨fun _ => h1, fun h => by contradiction⟩

/-- C121. A `static_map` of capacity `n` made of at most `n` entries gives the value of the
last entry with a key, the missing entries counting as ones with the empty key and a
value-initialized value; it holds each key once, in order. -/
theorem C121_map (ev : Ev) (n : Nat) (d : β) (es : List (String × β)) (hc : ev.Copes n)
    (lt : String → String → Bool) (hw : StrictWeak lt) :
    (n < es.length → Ct.mapOf ev lt n d es = none) ∧
    (es.length ≤ n → ∃ v, Ct.mapOf ev lt n d es = some v ∧
      (∀ key, Ct.mapGet ev v key =
        some (lastEntry key (es ++ List.replicate (n - es.length) ("", d)))) ∧
      (v.items.map Prod.fst).Nodup ∧
      (v.items.map Prod.fst).Pairwise (fun a b => lt b a = false) ∧ v.capacity = n) := by
  rcases rep_mapOf hc lt d es with ⟨v, l, h1, h2, h3⟩ | ⟨h1, h2⟩
  · have hle := Meta.mapOf_some h2
    refine ⟨fun h => by omega, fun _ => ⟨v, h1, fun key => ?_, ?_, ?_, h3.holds.cap⟩⟩
    · rw [rep_mapGet h3 hc]
      obtain ⟨m, h4, h5, h6⟩ := Meta.mapOf_spec lt n d es hle
      rw [h2] at h4
      cases h4
      rw [h6, lastOf_eq]
    · obtain ⟨m, h4, h5, -⟩ := Meta.mapOf_spec lt n d es hle
      rw [h2] at h4
      cases h4
      rw [h3.holds.items]
      exact h5
    · rw [h3.holds.items]
      rw [Meta.mapOf, if_neg (by omega)] at h2
      cases h4 : Meta.mapInsertAll n [] (es ++ List.replicate (n - es.length) ("", d)) with
      | none => rw [h4] at h2; cases h2
      | some m =>
        rw [h4, Option.bind_some] at h2
        obtain ⟨l', h6, -, h8⟩ := Meta.sortRanges_sorted (lt := fun a b : String × β => lt a.1 b.1)
          ⟨fun a b => hw.asymm _ _, fun a b c => hw.trans _ _ _⟩ m
        rw [h2] at h6
        cases h6
        exact List.pairwise_map.2 h8
  · refine ⟨fun _ => h1, fun h => ?_⟩
    obtain ⟨m, h4, -⟩ := Meta.mapOf_spec lt n d es h
    rw [h2] at h4
    cases h4

/-! ### the tables of a schema -/

/-- C121. The tables of `Model/Meta`, which the theorems about accepted schemas, lookup and
access are about (C28-C31, C65-C67, C76), are the ones held by these containers. -/
theorem C121_tables (ev : Ev) (hc : ev.Copes 256) (lt : String → String → Bool) (d : β)
    (es : List (String × β)) :
    (Ct.mapOf ev lt Meta.maxFields d es).map SVec.items = Meta.mapOf lt Meta.maxFields d es ∧
    (∀ v, Ct.mapOf ev lt Meta.maxFields d es = some v → ∀ m, Meta.mapOf lt Meta.maxFields d es = some m →
      ∀ key, Ct.mapGet ev v key = some (Meta.mapGet m key)) ∧
    (∀ vs : List (SVec String), (Ct.flatten Meta.maxDeps vs).map SVec.items =
      Meta.pushAll Meta.maxDeps [] (vs.flatMap SVec.items)) ∧
    ∀ as v, (SVec.new Meta.maxDeps "").pushAll as = some v →
      (Ct.removeDuplicates ev Meta.maxDeps v).map SVec.items = Meta.removeDuplicates as := by
  have hc64 : ev.Copes 64 := ⟨by have := hc.u; omega, by have := hc.sz; omega, by have := hc.fuel; omega⟩
  refine ⟨?_, ?_, ?_, ?_⟩
  · rcases rep_mapOf (n := Meta.maxFields) hc lt d es with ⟨v, l, h1, h2, h3⟩ | ⟨h1, h2⟩
    · rw [h1, h2, Option.map_some, h3.holds.items]
    · rw [h1, h2]; rfl
  · intro v hv m hm key
    rcases rep_mapOf (n := Meta.maxFields) hc lt d es with ⟨v, l, h1, h2, h3⟩ | ⟨h1, h2⟩
    · rw [hv] at h1; cases h1
      rw [hm] at h2; cases h2
      exact rep_mapGet h3 hc key
    · rw [hv] at h1; cases h1
  · intro vs
    rw [Ct.flatten]
    rcases rep_pushAll (rep_new Meta.maxDeps "") (vs.flatMap SVec.items) with ⟨v, h1, h2, h3⟩ | ⟨h1, h2, -⟩
    · rw [h1, h2, Option.map_some, h3.holds.items]
    · rw [h1, h2]; rfl
  · intro as v hv
    rcases rep_pushAll (rep_new Meta.maxDeps "") as with ⟨v', h1, -, h3⟩ | ⟨h1, -⟩
    · rw [hv] at h1; cases h1
      simp only [List.nil_append] at h3
      rw [Ct.removeDuplicates, h3.holds.items, Meta.removeDuplicates]
      rcases rep_setOf (n := Meta.maxDeps) hc64 "" as with ⟨w, l, h4, h5, h6⟩ | ⟨h4, h5⟩
      · rw [h4, h5, Option.bind_some, Option.bind_some, h6.holds.items]
        rcases rep_pushAll (rep_new Meta.maxDeps "") l with ⟨v', h1, h2, h3⟩ | ⟨h1, h2, -⟩
        · rw [h1, h2, Option.map_some, h3.holds.items]
        · rw [h1, h2]; rfl
      · rw [h4, h5]; rfl
    · rw [hv] at h1; cases h1

/-- C121. `has_unique_field_ids` on the containers: of fewer ids than `unsigned` has values
it is satisfied exactly if no two are the same (C30). -/
theorem C121_unique_ids (ev : Ev) (ids : List String) (hc : ev.Copes ids.length) :
    Ct.fieldIdsUnique ev ids = some (decide ids.Nodup) := by
  have hm := Meta.fieldIdsUnique_eq ids
  rw [Meta.fieldIdsUnique] at hm
  rw [Ct.fieldIdsUnique]
  rcases rep_setOf hc "" ids with ⟨w, l, h4, h5, h6⟩ | ⟨h4, h5⟩
  · rw [h5, Option.bind_some, Meta.equalRanges_eq] at hm
    rw [h4, Option.bind_some, equal_eq (rep_full ids "") h6 hc.u hc.fuel, hm]
  · rw [h5] at hm
    cases hm

/-! ### optionals -/

/-- C121. `lookup_field` has a value exactly if the table has one, and it is that one. -/
theorem C121_lookup (ev : Ev) (n : Nat) (d : β) (es : List (String × β)) (hc : ev.Copes n)
    (lt : String → String → Bool) (hw : StrictWeak lt) (hn : es.length ≤ n) (name : String) :
    ∃ v o, Ct.mapOf ev lt n d es = some v ∧ lookupField ev d v name = some o ∧
      ∀ b, (o.hasValue = true ∧ o.value = b) ↔
        lastEntry name (es ++ List.replicate (n - es.length) ("", d)) = some b := by
  obtain ⟨v, h1, h2, -⟩ := (C121_map ev n d es hc lt hw).2 hn
  refine ⟨v, _, h1, by rw [lookupField, h2 name, Option.map_some], fun b => ?_⟩
  cases lastEntry name (es ++ List.replicate (n - es.length) ("", d)) <;> simp [SOpt.ofOption]

/-- The comparison of a `static_optional` with nothing says the opposite of what it asks,
and two of them are equal if both or neither hold a value, whichever they hold. The
library uses neither. -/
theorem C121_fails_comparisons :
    (SOpt.ofOption 0 (none : Option Nat)).eqNullopt = false ∧
    (SOpt.ofOption 0 (some 3)).eqNullopt = true ∧
    (SOpt.ofOption 0 (some 3)).eqOpt (SOpt.ofOption 0 (some 4)) = true := by decide

/-! ### lists of types and names -/

/-- C121. `any_of`, `all_are_same` and `front` of lists of types. -/
theorem C121_types [DecidableEq α] (ts : List α) :
    (∀ t, anyOf t ts = true ↔ t ∈ ts) ∧ (allSame ts = true ↔ ∀ t ∈ ts, ∀ u ∈ ts, t = u) ∧
    front ts = ts[0]? := by
  refine ⟨fun t => ?_, ?_, ?_⟩
  · induction ts with
    | nil => simp [anyOf]
    | cons u ts ih =>
      rw [anyOf]
      by_cases h : t = u <;> simp [h, ih]
  · induction ts with
    | nil => simp [allSame]
    | cons t ts ih =>
      cases ts with
      | nil => simp [allSame]
      | cons u ts =>
        rw [allSame, Bool.and_eq_true, ih, decide_eq_true_eq]
        constructor
        · rintro ⟨rfl, h⟩ a ha b hb
          refine h a ?_ b ?_
          · rcases List.mem_cons.1 ha with rfl | ha
            · simp
            · exact ha
          · rcases List.mem_cons.1 hb with rfl | hb
            · simp
            · exact hb
        · intro h
          exact ⟨h t (by simp) u (by simp), fun a ha b hb =>
            h a (List.mem_cons_of_mem _ ha) b (List.mem_cons_of_mem _ hb)⟩
  · cases ts <;> rfl

/-- C121. Lists of names: the names of a callable are spelled one by one or as one
`with_fields` value, with the same result; `get_t` and `pop_t` count from the front. -/
theorem C121_names (l : List String) :
    namesOf (l.map .id) = some l ∧ namesOf [.list l] = some l ∧
    (∀ as r, namesOf as = some r → as = r.map .id ∨ as = [.list r]) ∧
    nameCount l = l.length ∧ (∀ k, nameGet 0 k l = l[k]?) ∧ ∀ k, namePop k l = l.drop k := by
  have hall : ∀ l : List String, allNames (l.map .id) = some l := by
    intro l
    induction l with
    | nil => rfl
    | cons a l ih => rw [List.map_cons, allNames, ih]; rfl
  have hinv : ∀ as r, allNames as = some r → as = r.map .id := by
    intro as
    induction as with
    | nil => intro r h; cases h; rfl
    | cons a as ih =>
      intro r h
      cases a with
      | list l => simp [allNames] at h
      | id s =>
        rw [allNames, Option.map_eq_some_iff] at h
        obtain ⟨r', h1, rfl⟩ := h
        rw [ih r' h1]; rfl
  refine ⟨?_, rfl, fun as r h => ?_, ?_, fun k => ?_, fun k => ?_⟩
  · have : namesOf (l.map .id) = allNames (l.map .id) := by
      cases l with
      | nil => rfl
      | cons a l => cases l <;> rfl
    rw [this, hall]
  · match as, h with
    | [.list l], h => cases h; exact .inr rfl
    | [], h => exact .inl (hinv [] r h)
    | [.id s], h => exact .inl (hinv _ r h)
    | a :: b :: as, h => exact .inl (hinv _ r (by cases a <;> exact h))
  · induction l with
    | nil => rfl
    | cons a l ih => rw [nameCount, ih, List.length_cons]; omega
  · have : ∀ (l : List String) i, i ≤ k → nameGet i k l = l[k - i]? := by
      intro l
      induction l with
      | nil => intro i _; simp [nameGet]
      | cons a l ih =>
        intro i hi
        rw [nameGet]
        by_cases h : i = k
        · simp [h]
        · rw [if_neg h, ih (i + 1) (by omega), show k - i = k - (i + 1) + 1 by omega,
            List.getElem?_cons_succ]
    exact this l 0 (Nat.zero_le _)
  · induction l generalizing k with
    | nil => simp [namePop]
    | cons a l ih =>
      cases k with
      | zero => simp [namePop]
      | succ k => rw [namePop, ih, List.drop_succ_cons]

/-! Concrete cases; an evaluator with loops of 262144 rounds, as compilers have. -/

def gcc : Ev := ⟨4294967296, 18446744073709551616, 262144⟩
theorem gcc_copes {n : Nat} (h : n ≤ 262143) : gcc.Copes n :=
  ⟨by simp [gcc]; omega, by simp [gcc]; omega, by simp [gcc]; omega⟩

-- the vector of containers_ct.cpp, and what is behind its end
example : (SVec.new 5 0).pushAll [7, 8] = some ⟨[7, 8, 0, 0, 0], 2⟩ := by rfl
example : ∃ v, (SVec.new 5 0).pushAll [7, 8] = some v ∧ v.items = [7, 8] ∧ v.at 1 = some 8 ∧
    v.at 4 = some 0 ∧ v.at 5 = none := ⟨_, rfl, rfl, rfl, rfl, rfl⟩
example : sort gcc (fun a b : Nat => decide (a < b)) ⟨[1, 9, 5, 3, 0, 0, 0], 5⟩ =
    some ⟨[0, 1, 3, 5, 9, 0, 0], 5⟩ := by decide +kernel
example : Ct.setOf gcc 4 0 [3, 1, 3, 2, 1] = some ⟨[3, 1, 2, 0], 3⟩ := by decide +kernel
example : firsts [3, 1, 3, 2, 1] = [3, 1, 2] := by decide
example : Ct.setOf gcc 2 0 [3, 1, 3, 2, 1] = none := by decide +kernel
-- the last entry for a key wins, and two are missing
example : (Ct.mapOf gcc (fun a b => decide (a < b)) 5 0 [("b", 1), ("a", 2), ("b", 3)]).map SVec.items =
    some [("", 0), ("a", 2), ("b", 3)] := by decide +kernel
example (m : Nat) : findIf ⟨256, 65536, m⟩ (· == 1) (.full (List.replicate 300 0)) = none :=
  C121_find_forever ⟨256, 65536, m⟩ (Nat.succ_pos 255) _
    (by rw [List.length_replicate]; exact Nat.le_of_ble_eq_true rfl) _
    (fun a ha => by rw [List.eq_of_mem_replicate ha]; rfl)
example := C121_unique_ids gcc ["a", "b", "a"] (gcc_copes (by decide))
example : anyOf 3 [1, 2, 3] = true ∧ allSame [1, 1, 2] = false ∧ front [4, 5] = some 4 := by decide
example : namesOf [.list ["a", "b"]] = namesOf [.id "a", .id "b"] ∧
    namesOf [.list ["a"], .id "b"] = none ∧ nameGet 0 1 ["a", "b"] = some "b" ∧
    namePop 1 ["a", "b"] = ["b"] := by decide

example := (C121_vector 5 0 [7, 8]).2 (by decide)
example : (SVec.new 2 0).pushAll [7, 8, 9] = none := (C121_vector 2 0 [7, 8, 9]).1 (by decide)
example : ∃ v i, (SVec.new 5 0).pushAll [7, 8] = some v ∧ findIf gcc (· == 8) v = some i ∧
    (∀ j a, j < i → [7, 8][j]? = some a → (a == 8) = false) ∧ (i = 2 ∨ ∃ a, [7, 8][i]? = some a ∧ (a == 8) = true) :=
  C121_find gcc 5 0 [7, 8] (by decide) (gcc_copes (by decide)) _
example := C121_equal gcc 5 3 0 1 [7, 8] [7, 8] (by decide) (by decide) (gcc_copes (by decide))
theorem nat_strictWeak : StrictWeak fun a b : Nat => decide (a < b) := by
  constructor <;> simp <;> omega
example := C121_sort gcc 7 0 [1, 9, 5, 3, 0] (by decide) (gcc_copes (by decide)) _ nat_strictWeak
example := (C121_set gcc 4 0 [3, 1, 3, 2, 1] (gcc_copes (by decide))).2 (by decide)
/-- Any order of the names will do. -/
example (lt : String → String → Bool) (hw : StrictWeak lt) :=
  (C121_map gcc 5 0 [("b", 1), ("a", 2), ("b", 3)] (gcc_copes (by decide)) lt hw).2 (by decide)
example (lt : String → String → Bool) := C121_tables gcc (gcc_copes (by decide)) lt 0 [("b", 1), ("a", 2), ("b", 3)]
example (lt : String → String → Bool) (hw : StrictWeak lt) :=
  C121_lookup gcc 5 0 [("b", 1), ("a", 2), ("b", 3)] (gcc_copes (by decide)) lt hw (by decide) "b"
example : allSame ["u8", "u8"] = true := (C121_types ["u8", "u8"]).2.1.2 (by simp)
example : namePop 1 ["a", "b", "c"] = ["b", "c"] := (C121_names ["a", "b", "c"]).2.2.2.2.2 1

end S2S.Props
