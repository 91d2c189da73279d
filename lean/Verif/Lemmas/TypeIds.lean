import Verif.Model.Meta
/-
The counter of type ids: binary search over "the ids below `n` are taken".
-/
namespace S2S.Meta

/-- An interval of `2^k - 1` candidates. -/
theorem genId_odd (sz n k l fuel : Nat) (taken : Nat → Bool) (ht : ∀ i, taken i = decide (i < n))
    (hk : 1 ≤ k) (hl : l ≤ n) (hsz : l + 2 ^ k < sz) (hf : k ≤ fuel) :
    genId sz taken l (l + 2 ^ k - 2) fuel = some (min n (l + 2 ^ k - 1)) := by
  induction k generalizing l fuel with
  | zero => omega
  | succ k ih =>
    obtain ⟨fuel, rfl⟩ : ∃ m, fuel = m + 1 := ⟨fuel - 1, by omega⟩
    rw [genId]
    by_cases hk0 : k = 0
    · subst hk0
      rw [if_pos (by omega), ht]
      by_cases h : l < n
      · rw [if_pos (by simpa using h)]; congr 1; omega
      · rw [if_neg (by simpa using h)]; congr 1; omega
    · have hp : 2 ^ (k + 1) = 2 ^ k + 2 ^ k := by rw [Nat.pow_succ]; omega
      have h2 : 2 ≤ 2 ^ k := by
        obtain ⟨j, rfl⟩ : ∃ j, k = j + 1 := ⟨k - 1, by omega⟩
        have : 0 < 2 ^ j := Nat.two_pow_pos j
        rw [Nat.pow_succ]; omega
      have hm : l + (l + 2 ^ (k + 1) - 2 - l) / 2 = l + 2 ^ k - 1 := by omega
      rw [if_neg (by omega)]
      simp only [hm, ht]
      by_cases h : l + 2 ^ k - 1 < n
      · rw [if_pos (by simpa using h)]
        have := ih (l + 2 ^ k) fuel (by omega) (by omega) (by omega) (by omega)
        rw [show l + 2 ^ k - 1 + 1 = l + 2 ^ k by omega,
          show l + 2 ^ (k + 1) - 2 = l + 2 ^ k + 2 ^ k - 2 by omega, this]
        congr 1; omega
      · rw [if_neg (by simpa using h)]
        have := ih l fuel (by omega) hl (by omega) (by omega)
        have hw : (l + 2 ^ k - 1 + sz - 1) % sz = l + 2 ^ k - 2 := by
          rw [show l + 2 ^ k - 1 + sz - 1 = (l + 2 ^ k - 2) + sz by omega, Nat.add_mod_right,
            Nat.mod_eq_of_lt (by omega)]
        rw [hw, this]
        congr 1; omega

/-- An interval of `2^k` candidates. -/
theorem genId_even (sz n k l fuel : Nat) (taken : Nat → Bool) (ht : ∀ i, taken i = decide (i < n))
    (hk : 0 < l ∨ 2 ≤ k) (hl : l ≤ n) (hsz : l + 2 ^ k < sz) (hf : k + 1 ≤ fuel) :
    genId sz taken l (l + 2 ^ k - 1) fuel = some (min n (l + 2 ^ k)) := by
  induction k generalizing l fuel with
  | zero =>
    obtain ⟨fuel, rfl⟩ : ∃ m, fuel = m + 1 := ⟨fuel - 1, by omega⟩
    rw [genId, if_pos (by omega), ht]
    by_cases h : l < n
    · rw [if_pos (by simpa using h)]; congr 1; omega
    · rw [if_neg (by simpa using h)]; congr 1; omega
  | succ k ih =>
    obtain ⟨fuel, rfl⟩ : ∃ m, fuel = m + 1 := ⟨fuel - 1, by omega⟩
    have hp : 2 ^ (k + 1) = 2 ^ k + 2 ^ k := by rw [Nat.pow_succ]; omega
    have h2 : 0 < 2 ^ k := Nat.two_pow_pos k
    have hm : l + (l + 2 ^ (k + 1) - 1 - l) / 2 = l + 2 ^ k - 1 := by omega
    rw [genId, if_neg (by omega)]
    simp only [hm, ht]
    by_cases h : l + 2 ^ k - 1 < n
    · rw [if_pos (by simpa using h)]
      have := ih (l + 2 ^ k) fuel (by omega) (by omega) (by omega) (by omega)
      rw [show l + 2 ^ k - 1 + 1 = l + 2 ^ k by omega,
        show l + 2 ^ (k + 1) - 1 = l + 2 ^ k + 2 ^ k - 1 by omega, this]
      congr 1; omega
    · rw [if_neg (by simpa using h)]
      have hw : (l + 2 ^ k - 1 + sz - 1) % sz = l + 2 ^ k - 2 := by
        by_cases hk0 : k = 0
        · subst hk0
          have hl0 : 0 < l := by omega
          rw [show l + 2 ^ 0 - 1 + sz - 1 = (l + 2 ^ 0 - 2) + sz by simp; omega, Nat.add_mod_right,
            Nat.mod_eq_of_lt (by omega)]
        · have h2 : 2 ≤ 2 ^ k := by
            obtain ⟨j, rfl⟩ : ∃ j, k = j + 1 := ⟨k - 1, by omega⟩
            have : 0 < 2 ^ j := Nat.two_pow_pos j
            rw [Nat.pow_succ]; omega
          rw [show l + 2 ^ k - 1 + sz - 1 = (l + 2 ^ k - 2) + sz by omega, Nat.add_mod_right,
            Nat.mod_eq_of_lt (by omega)]
      rw [hw]
      by_cases hk0 : k = 0
      · subst hk0
        obtain ⟨fuel, rfl⟩ : ∃ m, fuel = m + 1 := ⟨fuel - 1, by omega⟩
        rw [genId, if_pos (by omega), ht, if_neg (by simp at h ⊢; omega)]
        congr 1; simp at h ⊢; omega
      · have := genId_odd sz n k l fuel taken ht (by omega) hl (by omega) (by omega)
        rw [this]
        congr 1; omega

/-- The ids below `n` taken: the search gives `n`, up to 1024. -/
theorem genId_first {sz fuel : Nat} (hsz : 1024 < sz) (hf : 11 ≤ fuel) (n : Nat) (taken : Nat → Bool)
    (ht : ∀ i, taken i = decide (i < n)) : genId sz taken 0 1023 fuel = some (min n 1024) := by
  have := genId_even sz n 10 0 fuel taken ht (.inr (by decide)) (by omega) (by simpa using hsz) hf
  simpa using this

/-! ### The registry -/

/-- Ids are given out from 0 up, to distinct types. -/
structure Orderly (r : Registry T) : Prop where
  ids : r.map Prod.snd = List.range r.length
  types : (r.map Prod.fst).Nodup

theorem Orderly.taken {r : Registry T} (h : Orderly r) (i : Nat) : r.taken i = decide (i < r.length) := by
  have : r.taken i = (r.map Prod.snd).any (· == i) := by rw [Registry.taken, List.any_map]; rfl
  rw [this, h.ids, Bool.eq_iff_iff]
  simp

theorem Orderly.mem {r : Registry T} (h : Orderly r) {t t' : T} {i i' : Nat} (h1 : (t, i) ∈ r)
    (h2 : (t', i') ∈ r) : t = t' ↔ i = i' := by
  obtain ⟨a, ha⟩ := List.mem_iff_getElem?.1 h1
  obtain ⟨b, hb⟩ := List.mem_iff_getElem?.1 h2
  have idx : ∀ {a : Nat} {t : T} {i : Nat}, r[a]? = some (t, i) → a = i := by
    intro a t i ha
    have h3 : (r.map Prod.snd)[a]? = some i := by rw [List.getElem?_map, ha]; rfl
    rw [h.ids, List.getElem?_range (List.getElem?_eq_some_iff.1 ha).1] at h3
    simpa using h3
  have ea := idx ha
  have eb := idx hb
  subst ea eb
  constructor
  · rintro rfl
    have h4 : (r.map Prod.fst)[a]? = some t := by rw [List.getElem?_map, ha]; rfl
    have h5 : (r.map Prod.fst)[b]? = some t := by rw [List.getElem?_map, hb]; rfl
    exact (List.getElem?_inj (List.getElem?_eq_some_iff.1 h4).1 h.types).1 (h4.trans h5.symm)
  · rintro rfl
    rw [ha] at hb
    simpa using (Option.some.inj hb)

theorem Orderly.typeOf {r : Registry T} (h : Orderly r) {t : T} {i : Nat} (hm : (t, i) ∈ r) :
    r.typeOf i = some t := by
  rw [Registry.typeOf]
  cases hf : r.find? fun e => e.2 == i with
  | none =>
    have := List.find?_eq_none.1 hf (t, i) hm
    simp at this
  | some e =>
    have h1 := List.mem_of_find?_eq_some hf
    have h2 : e.2 = i := by simpa using List.find?_some hf
    have := (h.mem (t := e.1) (i := e.2) h1 hm).2 h2
    rw [Option.map_some, this]

theorem register_spec [BEq T] [LawfulBEq T] {sz depth : Nat} (hsz : 1024 < sz) (hf : 11 ≤ depth)
    {r : Registry T} (h : Orderly r) (t : T) (hn : r.length ≤ 1024 ∨ t ∈ r.map Prod.fst) :
    ∃ r' i, register sz depth r t = some (r', i) ∧ Orderly r' ∧ (t, i) ∈ r' ∧ (∀ e ∈ r, e ∈ r') ∧
      (∀ u ∈ r'.map Prod.fst, u ∈ r.map Prod.fst ∨ u = t) := by
  rw [register]
  cases hq : r.find? fun e => e.1 == t with
  | some e =>
    have h1 := List.mem_of_find?_eq_some hq
    have h2 : e.1 = t := by simpa using List.find?_some hq
    exact ⟨r, e.2, rfl, h, by rw [← h2]; exact h1, fun _ h => h, fun _ h => .inl h⟩
  | none =>
    have hnot : t ∉ r.map Prod.fst := by
      intro hm
      obtain ⟨e, he, rfl⟩ := List.mem_map.1 hm
      have := List.find?_eq_none.1 hq e he
      simp at this
    have hn := hn.resolve_right hnot
    have hg := genId_first hsz hf r.length r.taken h.taken
    simp only [hg, Option.bind_some]
    rw [Nat.min_eq_left hn, h.taken, if_neg (by simp)]
    refine ⟨_, _, rfl, ⟨?_, ?_⟩, by simp, fun e he => by simp [he], fun u hu => ?_⟩
    · rw [List.map_append, h.ids, List.length_append]; simp [List.range_succ]
    · rw [List.map_append, List.nodup_append]
      refine ⟨h.types, by simp, fun a ha b hb => ?_⟩
      simp at hb
      subst hb
      rintro rfl
      exact hnot ha
    · rw [List.map_append, List.mem_append] at hu
      simpa using hu

/-- A full registry takes no further type. -/
theorem register_full [BEq T] [LawfulBEq T] {sz depth : Nat} (hsz : 1024 < sz) (hf : 11 ≤ depth)
    {r : Registry T} (h : Orderly r) (t : T) (hn : 1024 < r.length) (hnew : t ∉ r.map Prod.fst) :
    register sz depth r t = none := by
  rw [register]
  cases hq : r.find? fun e => e.1 == t with
  | some e =>
    have h1 := List.mem_of_find?_eq_some hq
    have h2 : e.1 = t := by simpa using List.find?_some hq
    exact absurd (h2 ▸ List.mem_map_of_mem (f := Prod.fst) h1) hnew
  | none =>
    have hg := genId_first hsz hf r.length r.taken h.taken
    simp only [hg, Option.bind_some]
    rw [Nat.min_eq_right (by omega), h.taken, if_pos (by simpa using hn)]

theorem nodup_subset_length {T : Type} [BEq T] [LawfulBEq T] {l u : List T} (hl : l.Nodup)
    (h : ∀ a ∈ l, a ∈ u) : l.length ≤ u.length := by
  induction l generalizing u with
  | nil => simp
  | cons a l ih =>
    have ha := h a (by simp)
    have h2 := List.nodup_cons.1 hl
    have := ih (u := u.erase a) h2.2 fun b hb => by
      have hne : b ≠ a := fun e => h2.1 (e ▸ hb)
      exact (List.mem_erase_of_ne hne).2 (h b (by simp [hb]))
    rw [List.length_erase_of_mem ha] at this
    have : 0 < u.length := List.length_pos_of_mem ha
    simp only [List.length_cons]; omega

theorem registerAll_spec {T : Type} [BEq T] [LawfulBEq T] {sz depth : Nat} (hsz : 1024 < sz) (hf : 11 ≤ depth)
    (u : List T) (hu : u.length ≤ 1025) {r : Registry T} (h : Orderly r)
    (hr : ∀ t ∈ r.map Prod.fst, t ∈ u) (ts : List T) (hts : ∀ t ∈ ts, t ∈ u) :
    ∃ r' is, registerAll sz depth r ts = some (r', is) ∧ Orderly r' ∧ (∀ e ∈ r, e ∈ r') ∧
      is.length = ts.length ∧ ∀ (k : Nat) t i, ts[k]? = some t → is[k]? = some i → (t, i) ∈ r' := by
  induction ts generalizing r with
  | nil => exact ⟨r, [], rfl, h, fun _ h => h, rfl, by simp⟩
  | cons t ts ih =>
    have hroom : r.length ≤ 1024 ∨ t ∈ r.map Prod.fst := by
      by_cases hm : t ∈ r.map Prod.fst
      · exact .inr hm
      · left
        have hnd : (t :: r.map Prod.fst).Nodup := List.nodup_cons.2 ⟨hm, h.types⟩
        have := nodup_subset_length hnd (u := u) fun a ha => by
          rcases List.mem_cons.1 ha with rfl | ha
          · exact hts a (by simp)
          · exact hr a ha
        simp only [List.length_cons, List.length_map] at this
        omega
    obtain ⟨r1, i, e1, o1, m1, s1, k1⟩ := register_spec hsz hf h t hroom
    obtain ⟨r2, is, e2, o2, s2, l2, m2⟩ := ih o1
      (fun a ha => by
        rcases k1 a ha with h | rfl
        · exact hr a h
        · exact hts a (by simp))
      (fun a ha => hts a (by simp [ha]))
    refine ⟨r2, i :: is, by rw [registerAll, e1, Option.bind_some]; simp only [e2]; rfl, o2,
      fun e he => s2 e (s1 e he), by simp [l2], fun k a j hk hj => ?_⟩
    cases k with
    | zero =>
      simp only [List.getElem?_cons_zero, Option.some.injEq] at hk hj
      subst hk hj
      exact s2 _ m1
    | succ k =>
      simp only [List.getElem?_cons_succ] at hk hj
      exact m2 k a j hk hj

end S2S.Meta
