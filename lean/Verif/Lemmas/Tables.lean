import Verif.Lemmas.Sort
/-
The containers of constant evaluation: what sets and maps hold.
-/
namespace S2S.Meta

variable {α β : Type}

/-! ### find_index -/

theorem findIndexIf_le (p : α → Bool) (l : List α) : findIndexIf p l ≤ l.length := by
  induction l with
  | nil => exact Nat.le_refl _
  | cons a l ih =>
    rw [findIndexIf]
    split
    · exact Nat.zero_le _
    · simp only [List.length_cons]; omega

theorem findIndexIf_eq (p : α → Bool) (l : List α) :
    findIndexIf p l = l.length ↔ ∀ a ∈ l, p a = false := by
  induction l with
  | nil => simp [findIndexIf]
  | cons a l ih =>
    rw [findIndexIf]
    by_cases h : p a = true
    · rw [if_pos h]
      constructor
      · intro h'; simp at h'
      · intro h'; rw [h' a (by simp)] at h; cases h
    · rw [if_neg h]
      simp only [List.length_cons, Nat.add_right_cancel_iff, ih, List.mem_cons, forall_eq_or_imp]
      exact ⟨fun h' => ⟨by simpa using h, h'⟩, fun h' => h'.2⟩

theorem findIndexIf_get {p : α → Bool} {l : List α} (h : findIndexIf p l ≠ l.length) :
    ∃ a, l[findIndexIf p l]? = some a ∧ p a = true := by
  induction l with
  | nil => exact absurd rfl h
  | cons a l ih =>
    rw [findIndexIf] at h ⊢
    by_cases hp : p a = true
    · rw [if_pos hp]; exact ⟨a, rfl, hp⟩
    · rw [if_neg hp] at h ⊢
      obtain ⟨b, h1, h2⟩ := ih fun h' => h (by rw [h']; rfl)
      exact ⟨b, by simpa using h1, h2⟩

/-! ### push_back -/

theorem pushAll_eq (n : Nat) (l as : List α) :
    pushAll n l as = if l.length + as.length ≤ n ∨ as = [] then some (l ++ as) else none := by
  induction as generalizing l with
  | nil => simp [pushAll]
  | cons a as ih =>
    rw [pushAll, pushBack]
    by_cases h : l.length < n
    · rw [if_pos h, Option.bind_some, ih]
      have : (l ++ [a]).length + as.length ≤ n ∨ as = [] ↔ l.length + (a :: as).length ≤ n ∨ a :: as = [] := by
        simp only [List.length_append, List.length_cons, List.length_nil, reduceCtorEq, or_false]
        constructor
        · rintro (h | h)
          · omega
          · subst h; simp; omega
        · intro h; left; omega
      by_cases h' : l.length + (a :: as).length ≤ n ∨ a :: as = []
      · rw [if_pos h', if_pos (this.2 h')]; simp
      · rw [if_neg h', if_neg (fun x => h' (this.1 x))]
    · rw [if_neg h, if_neg]
      · rfl
      · simp only [List.length_cons, reduceCtorEq, or_false]; omega

theorem pushAll_nil (n : Nat) (as : List α) (h : as.length ≤ n) : pushAll n [] as = some as := by
  rw [pushAll_eq, if_pos (.inl (by simpa using h))]; rfl

theorem pushAll_some {n : Nat} {as as' : List α} (h : pushAll n [] as = some as') : as' = as := by
  rw [pushAll_eq] at h
  split at h
  · injection h with h; simpa using h.symm
  · cases h

/-! ### static_set -/

/-- The elements in the order of their first occurrences. -/
def addNew [DecidableEq α] (s : List α) : List α → List α
  | [] => s
  | a :: as => addNew (if a ∈ s then s else s ++ [a]) as

variable [DecidableEq α]

theorem mem_addNew (s l : List α) (x : α) : x ∈ addNew s l ↔ x ∈ s ∨ x ∈ l := by
  induction l generalizing s with
  | nil => simp [addNew]
  | cons a l ih =>
    rw [addNew, ih]
    by_cases h : a ∈ s
    · rw [if_pos h]
      constructor
      · rintro (h' | h')
        · exact .inl h'
        · exact .inr (by simp [h'])
      · rintro (h' | h')
        · exact .inl h'
        · rcases List.mem_cons.1 h' with rfl | h'
          · exact .inl h
          · exact .inr h'
    · rw [if_neg h]; simp [or_assoc]

theorem nodup_addNew {s : List α} (hs : s.Nodup) (l : List α) : (addNew s l).Nodup := by
  induction l generalizing s with
  | nil => exact hs
  | cons a l ih =>
    rw [addNew]
    apply ih
    split
    · exact hs
    · rename_i h
      rw [List.nodup_append]
      refine ⟨hs, by simp, fun x hx y hy => ?_⟩
      rw [List.mem_singleton] at hy
      rintro rfl
      exact h (hy ▸ hx)

theorem length_addNew (s l : List α) : (addNew s l).length ≤ s.length + l.length := by
  induction l generalizing s with
  | nil => simp [addNew]
  | cons a l ih =>
    rw [addNew]
    have := ih (if a ∈ s then s else s ++ [a])
    split at this
    · rename_i h; rw [if_pos h]; simp only [List.length_cons]; omega
    · rename_i h; rw [if_neg h]; simp only [List.length_cons, List.length_append, List.length_nil] at *; omega

theorem addNew_nodup {s l : List α} (h : (s ++ l).Nodup) : addNew s l = s ++ l := by
  induction l generalizing s with
  | nil => simp [addNew]
  | cons a l ih =>
    rw [addNew, if_neg]
    · rw [ih (by simpa using h)]; simp
    · intro ha
      rw [List.nodup_append] at h
      exact h.2.2 a ha a (by simp) rfl

theorem findIndex_eq (l : List α) (a : α) : findIndex l a = l.length ↔ a ∉ l := by
  rw [findIndex, findIndexIf_eq]
  constructor
  · intro h ha; have := h a ha; simp at this
  · intro h b hb
    rw [beq_eq_false_iff_ne]
    rintro rfl; exact h hb

theorem setOf_eq (n : Nat) (s l : List α) (h : s.length + l.length ≤ n) :
    setOf n s l = some (addNew s l) := by
  induction l generalizing s with
  | nil => rfl
  | cons a l ih =>
    simp only [List.length_cons] at h
    rw [setOf, setInsert, addNew]
    by_cases ha : a ∈ s
    · rw [if_neg (fun h' => (findIndex_eq s a).1 h' ha), if_pos ha]
      exact ih s (by omega)
    · rw [if_pos ((findIndex_eq s a).2 ha), if_neg ha, pushBack, if_pos (by omega)]
      exact ih _ (by simp only [List.length_append, List.length_cons, List.length_nil]; omega)

/-- An element that does not fit makes evaluation fail; otherwise the set is `addNew`. -/
theorem setOf_some {n : Nat} {s l s' : List α} (h : setOf n s l = some s') : s' = addNew s l := by
  induction l generalizing s with
  | nil => simp only [setOf, Option.some.injEq] at h; exact h.symm
  | cons a l ih =>
    rw [setOf, setInsert] at h
    rw [addNew]
    by_cases ha : a ∈ s
    · rw [if_neg (fun h' => (findIndex_eq s a).1 h' ha)] at h
      rw [if_pos ha]
      exact ih h
    · rw [if_pos ((findIndex_eq s a).2 ha), pushBack] at h
      rw [if_neg ha]
      split at h
      · exact ih h
      · cases h

theorem equalFrom_eq (xs ys : List α) (i n : Nat) (hx : i + n = xs.length) (hy : i + n = ys.length) :
    equalFrom xs ys i n = some (decide (xs.drop i = ys.drop i)) := by
  induction n generalizing i with
  | zero =>
    rw [equalFrom, List.drop_eq_nil_of_le (by omega), List.drop_eq_nil_of_le (by omega)]
    simp
  | succ n ih =>
    have h1 : i < xs.length := by omega
    have h2 : i < ys.length := by omega
    rw [equalFrom, List.getElem?_eq_getElem h1, List.getElem?_eq_getElem h2,
      List.drop_eq_getElem_cons h1, List.drop_eq_getElem_cons h2]
    simp only [bne_iff_ne, ne_eq, List.cons.injEq]
    by_cases h : xs[i] = ys[i]
    · rw [if_neg (by simpa using h), ih (i + 1) (by omega) (by omega)]
      simp [h]
    · rw [if_pos h]; simp [h]

theorem equalRanges_eq (xs ys : List α) : equalRanges xs ys = some (decide (xs = ys)) := by
  rw [equalRanges]
  by_cases h : xs.length = ys.length
  · rw [if_neg (by simpa using h), equalFrom_eq xs ys 0 _ (by omega) (by omega)]; rfl
  · rw [if_pos h]
    have : xs ≠ ys := fun h' => h (by rw [h'])
    simp [this]

theorem fieldIdsUnique_eq (ids : List String) : fieldIdsUnique ids = some (decide ids.Nodup) := by
  rw [fieldIdsUnique, setOf_eq _ _ _ (by simp), Option.bind_some, equalRanges_eq]
  congr 1
  rw [decide_eq_decide]
  constructor
  · intro h; rw [h]; exact nodup_addNew .nil ids
  · intro h; exact (addNew_nodup (s := []) h).symm

/-! ### static_map -/

def keys (m : List (String × β)) : List String := m.map Prod.fst

theorem mapGet_mem {m : List (String × β)} {k : String} {v : β} (h : mapGet m k = some v) : (k, v) ∈ m := by
  rw [mapGet] at h
  split at h
  · rename_i h'
    obtain ⟨e, h1, h2⟩ := findIndexIf_get h'
    rw [h1] at h
    simp only [Option.map_some, Option.some.injEq] at h
    have := List.mem_of_getElem? h1
    rw [beq_iff_eq] at h2
    rw [← h, ← h2]; exact this
  · cases h

theorem mapGet_none {m : List (String × β)} {k : String} : mapGet m k = none ↔ k ∉ keys m := by
  rw [mapGet]
  constructor
  · intro h
    split at h
    · rename_i h'
      obtain ⟨e, h1, h2⟩ := findIndexIf_get h'
      rw [h1] at h; cases h
    · rename_i h'
      have h' := (findIndexIf_eq _ _).1 (Classical.not_not.1 h')
      intro hk
      obtain ⟨e, he, rfl⟩ := List.mem_map.1 hk
      have := h' e he
      simp at this
  · intro h
    rw [if_neg]
    rw [Classical.not_not, findIndexIf_eq]
    intro e he
    rw [beq_eq_false_iff_ne]
    rintro rfl
    exact h (List.mem_map_of_mem he)

theorem nodup_keys_inj {m : List (String × β)} (hm : (keys m).Nodup) {k : String} {v v' : β}
    (h : (k, v) ∈ m) (h' : (k, v') ∈ m) : v = v' := by
  induction m with
  | nil => cases h
  | cons e m ih =>
    rw [keys, List.map_cons, List.nodup_cons] at hm
    rcases List.mem_cons.1 h with rfl | hh
    · rcases List.mem_cons.1 h' with h' | h'
      · injection h' with _ h'; exact h'.symm
      · exact absurd (List.mem_map_of_mem (f := Prod.fst) h') hm.1
    · rcases List.mem_cons.1 h' with rfl | h'
      · exact absurd (List.mem_map_of_mem (f := Prod.fst) hh) hm.1
      · exact ih hm.2 hh h'

theorem mapGet_iff {m : List (String × β)} (hm : (keys m).Nodup) {k : String} {v : β} :
    mapGet m k = some v ↔ (k, v) ∈ m := by
  refine ⟨mapGet_mem, fun h => ?_⟩
  cases hg : mapGet m k with
  | none => exact absurd (List.mem_map_of_mem (f := Prod.fst) h) (mapGet_none.1 hg)
  | some v' => rw [nodup_keys_inj hm h (mapGet_mem hg)]

theorem mapGet_perm {m m' : List (String × β)} (hm : (keys m).Nodup) (hp : m'.Perm m) (k : String) :
    mapGet m' k = mapGet m k := by
  have hm' : (keys m').Nodup := (hp.map Prod.fst).nodup_iff.2 hm
  cases h : mapGet m k with
  | none => rw [mapGet_none] at h ⊢; exact fun h' => h ((hp.map Prod.fst).mem_iff.1 h')
  | some v => rw [mapGet_iff hm] at h; rw [mapGet_iff hm']; exact hp.mem_iff.2 h

/-- Inserting: the map stays without duplicates, and the key has the new value. -/
theorem mapInsert_spec {n : Nat} {m : List (String × β)} (hm : (keys m).Nodup) (hn : m.length < n)
    (e : String × β) :
    ∃ m', mapInsert n m e = some m' ∧ (keys m').Nodup ∧ m'.length ≤ m.length + 1 ∧
      ∀ k, mapGet m' k = if k = e.1 then some e.2 else mapGet m k := by
  rw [mapInsert]
  by_cases h : findIndexIf (fun t => t.1 == e.1) m = m.length
  · rw [if_pos h, pushBack, if_pos hn]
    have hk : e.1 ∉ keys m := by
      intro hk
      obtain ⟨e', he, h'⟩ := List.mem_map.1 hk
      have := (findIndexIf_eq _ _).1 h e' he
      rw [h'] at this; simp at this
    have hm' : (keys (m ++ [e])).Nodup := by
      rw [keys, List.map_append, List.nodup_append]
      refine ⟨hm, by simp, fun x hx y hy => ?_⟩
      simp only [List.map_cons, List.map_nil, List.mem_singleton] at hy
      rintro rfl
      exact hk (hy ▸ hx)
    refine ⟨_, rfl, hm', by simp, fun k => ?_⟩
    by_cases hke : k = e.1
    · rw [if_pos hke, mapGet_iff hm', hke]; simp
    · rw [if_neg hke]
      cases hg : mapGet m k with
      | none =>
        rw [mapGet_none] at hg ⊢
        simp only [keys, List.map_append, List.map_cons, List.map_nil, List.mem_append, List.mem_singleton]
        rintro (h' | h')
        · exact hg h'
        · exact hke h'
      | some v => rw [mapGet_iff hm', List.mem_append]; exact .inl (mapGet_mem hg)
  · rw [if_neg h]
    obtain ⟨t, h1, h2⟩ := findIndexIf_get h
    rw [beq_iff_eq] at h2
    rw [h1, Option.map_some]
    generalize findIndexIf (fun t => t.1 == e.1) m = i at h1
    obtain ⟨hi, hti⟩ := List.getElem?_eq_some_iff.1 h1
    have hkeys : keys (m.set i (t.1, e.2)) = keys m := by
      rw [keys, List.map_set]
      apply List.ext_getElem?
      intro j
      by_cases hj : i = j
      · subst hj
        rw [List.getElem?_set_self (by simpa using hi)]
        simp [keys, h1]
      · rw [List.getElem?_set_ne hj]; rfl
    have hm' : (keys (m.set i (t.1, e.2))).Nodup := by rw [hkeys]; exact hm
    refine ⟨_, rfl, hm', by simp, fun k => ?_⟩
    by_cases hke : k = e.1
    · rw [if_pos hke, mapGet_iff hm', hke, ← h2]
      exact List.mem_iff_getElem?.2 ⟨i, by simp [hi]⟩
    · rw [if_neg hke]
      cases hg : mapGet m k with
      | none => rw [mapGet_none] at hg ⊢; rw [hkeys]; exact hg
      | some v =>
        rw [mapGet_iff hm']
        obtain ⟨j, hj⟩ := List.mem_iff_getElem?.1 (mapGet_mem hg)
        refine List.mem_iff_getElem?.2 ⟨j, ?_⟩
        rw [List.getElem?_set_ne]
        · exact hj
        · rintro rfl
          rw [h1] at hj
          injection hj with hj
          exact hke (by rw [← h2, hj])

/-- The last entry for a key. -/
def lastOf (key : String) : List (String × β) → Option β
  | [] => none
  | e :: es => (lastOf key es).or (if key = e.1 then some e.2 else none)

theorem mapInsertAll_spec {n : Nat} (es : List (String × β)) {m : List (String × β)}
    (hm : (keys m).Nodup) (hn : m.length + es.length ≤ n) :
    ∃ m', mapInsertAll n m es = some m' ∧ (keys m').Nodup ∧
      ∀ k, mapGet m' k = (lastOf k es).or (mapGet m k) := by
  induction es generalizing m with
  | nil => exact ⟨m, rfl, hm, fun k => by simp [lastOf]⟩
  | cons e es ih =>
    simp only [List.length_cons] at hn
    obtain ⟨m1, h1, h2, h3, h4⟩ := mapInsert_spec (n := n) hm (by omega) e
    obtain ⟨m2, h5, h6, h7⟩ := ih h2 (by omega)
    refine ⟨m2, by rw [mapInsertAll, h1]; exact h5, h6, fun k => ?_⟩
    rw [h7, h4, lastOf]
    cases lastOf k es with
    | some v => rfl
    | none => by_cases hk : k = e.1 <;> simp [hk]

theorem mapOf_spec (lt : String → String → Bool) (n : Nat) (d : β) (es : List (String × β))
    (hn : es.length ≤ n) :
    ∃ m, mapOf lt n d es = some m ∧ (keys m).Nodup ∧
      ∀ k, mapGet m k = lastOf k (es ++ List.replicate (n - es.length) ("", d)) := by
  obtain ⟨m, h1, h2, h3⟩ := mapInsertAll_spec (n := n) (es ++ List.replicate (n - es.length) ("", d))
    (m := []) .nil (by simp; omega)
  obtain ⟨m', h4, h5⟩ := sortRanges_perm (fun a b : String × β => lt a.1 b.1) m
  refine ⟨m', ?_, (h5.map Prod.fst).nodup_iff.2 h2, fun k => ?_⟩
  · rw [mapOf, if_neg (by omega), h1]; exact h4
  · rw [mapGet_perm h2 h5, h3]
    simp [mapGet, findIndexIf]

theorem lastOf_append (k : String) (xs ys : List (String × β)) :
    lastOf k (xs ++ ys) = (lastOf k ys).or (lastOf k xs) := by
  induction xs with
  | nil => simp [lastOf]
  | cons x xs ih =>
    rw [List.cons_append, lastOf, ih, lastOf, Option.or_assoc]

theorem lastOf_replicate (k : String) (j : Nat) (d : β) :
    lastOf k (List.replicate j ("", d)) = if k = "" ∧ 0 < j then some d else none := by
  induction j with
  | zero => simp [lastOf]
  | succ j ih =>
    rw [List.replicate_succ, lastOf, ih]
    by_cases hk : k = ""
    · by_cases hj : 0 < j <;> simp [hk, hj]
    · simp [hk]

theorem lastOf_iff {es : List (String × β)} (h : (keys es).Nodup) {k : String} {v : β} :
    lastOf k es = some v ↔ (k, v) ∈ es := by
  induction es generalizing v with
  | nil => simp [lastOf]
  | cons e es ih =>
    rw [keys, List.map_cons, List.nodup_cons] at h
    rw [lastOf]
    constructor
    · intro hl
      cases hk : lastOf k es with
      | some w =>
        rw [hk] at hl
        simp only [Option.some_or, Option.some.injEq] at hl
        subst hl
        exact List.mem_cons_of_mem _ ((ih h.2).1 hk)
      | none =>
        rw [hk] at hl
        simp only [Option.none_or] at hl
        split at hl
        · rename_i he
          injection hl with hl
          subst hl he
          simp
        · cases hl
    · intro hm
      rcases List.mem_cons.1 hm with he | hm
      · have : lastOf k es = none := by
          cases hk : lastOf k es with
          | none => rfl
          | some w =>
            have := List.mem_map_of_mem (f := Prod.fst) ((ih h.2).1 hk)
            rw [← he] at h
            exact absurd this h.1
        rw [this, ← he]; simp
      · rw [(ih h.2).2 hm]; rfl

/-- What a map built from distinct keys gives. -/
theorem mapOf_get (lt : String → String → Bool) (n : Nat) (d : β) (es : List (String × β))
    (hn : es.length ≤ n) (hk : (keys es).Nodup) :
    ∃ m, mapOf lt n d es = some m ∧ (keys m).Nodup ∧
      ∀ k v, mapGet m k = some v ↔
        (if k = "" ∧ es.length < n then v = d else (k, v) ∈ es) := by
  obtain ⟨m, h1, h2, h3⟩ := mapOf_spec lt n d es hn
  refine ⟨m, h1, h2, fun k v => ?_⟩
  rw [h3, lastOf_append, lastOf_replicate]
  by_cases h : k = "" ∧ es.length < n
  · rw [if_pos h, if_pos ⟨h.1, by omega⟩]
    simp only [Option.some_or, Option.some.injEq]
    exact eq_comm
  · rw [if_neg h, if_neg (fun h' => h ⟨h'.1, by omega⟩), Option.none_or]
    exact lastOf_iff hk

theorem mapOf_some {lt : String → String → Bool} {n : Nat} {d : β} {es m : List (String × β)}
    (h : mapOf lt n d es = some m) : es.length ≤ n := by
  rw [mapOf] at h
  split at h
  · cases h
  · omega

end S2S.Meta
