import Verif.Spec.Containers
import Verif.Model.Containers
import Verif.Lemmas.Tables
/-
The containers of constant evaluation hold lists.
-/
namespace S2S.Ct

variable {α β : Type}

/-! ### loops -/

/-- The same without a counter that wraps and a limit. -/
def iter (body : Nat → σ → Option (σ ⊕ ρ)) (i : Nat) : Nat → σ → Option (σ ⊕ ρ)
  | 0, s => some (.inl s)
  | n + 1, s =>
      match body i s with
      | none => none
      | some (.inr r) => some (.inr r)
      | some (.inl s') => iter body (i + 1) n s'

theorem loop_eq {u bound : Nat} (hb : bound < u) (body : Nat → σ → Option (σ ⊕ ρ)) (n : Nat) :
    ∀ fuel i s, i + n = bound → n < fuel → loop u bound body fuel i s = iter body i n s := by
  induction n with
  | zero =>
    intro fuel i s hi hf
    cases fuel with
    | zero => omega
    | succ fuel => rw [loop, if_neg (by omega), iter]
  | succ n ih =>
    intro fuel i s hi hf
    cases fuel with
    | zero => omega
    | succ fuel =>
      rw [loop, if_pos (by omega), iter]
      cases body i s with
      | none => rfl
      | some x =>
        cases x with
        | inr r => rfl
        | inl s' =>
          simp only
          rw [Nat.mod_eq_of_lt (by omega)]
          exact ih fuel (i + 1) s' (by omega) (by omega)

theorem loop_forever {u bound : Nat} (hu : 0 < u) (hb : u ≤ bound) {body : Nat → σ → Option (σ ⊕ ρ)}
    (hbody : ∀ i s, i < u → ∃ s', body i s = some (.inl s')) :
    ∀ fuel i s, i < u → loop u bound body fuel i s = none := by
  intro fuel
  induction fuel with
  | zero => intro i s _; rfl
  | succ fuel ih =>
    intro i s hi
    obtain ⟨s', h⟩ := hbody i s hi
    rw [loop, if_pos (by omega), h]
    exact ih _ _ (Nat.mod_lt _ hu)

/-! ### static_vector -/

/-- The vector holds `l`, in an array of `n` whose other elements are `d`. -/
structure Rep (n : Nat) (d : α) (v : SVec α) (l : List α) : Prop where
  values : v.values = l ++ List.replicate (n - l.length) d
  size : v.size = l.length
  fits : l.length ≤ n

/-- The vector has an array of `n` and holds `l`; the other elements can be anything. -/
structure Holds (n : Nat) (v : SVec α) (l : List α) : Prop where
  cap : v.values.length = n
  size : v.size = l.length
  fits : l.length ≤ n
  items : v.items = l

theorem Rep.holds {n : Nat} {d : α} {v : SVec α} {l : List α} (h : Rep n d v l) : Holds n v l := by
  have := h.fits
  refine ⟨by rw [h.values]; simp; omega, h.size, h.fits, ?_⟩
  rw [SVec.items, h.values, h.size]
  simp

theorem rep_unique {n : Nat} {d : α} {v w : SVec α} {l : List α} (h : Rep n d v l)
    (h' : Rep n d w l) : v = w := by
  cases v; cases w
  have := h.values; have := h.size; have := h'.values; have := h'.size
  simp_all

theorem rep_new (n : Nat) (d : α) : Rep n d (.new n d) [] := ⟨by simp [SVec.new], rfl, by simp⟩

theorem rep_full (l : List α) (d : α) : Rep l.length d (.full l) l :=
  ⟨by simp [SVec.full], rfl, Nat.le_refl _⟩

theorem rep_push {n : Nat} {d : α} {v : SVec α} {l : List α} (h : Rep n d v l) (a : α) :
    (l.length < n ∧ ∃ v', v.push a = some v' ∧ Rep n d v' (l ++ [a])) ∨
      (l.length = n ∧ v.push a = none) := by
  have hc := h.holds.cap
  have hf := h.fits
  rw [SVec.push, h.size, hc]
  by_cases hn : l.length < n
  · refine .inl ⟨hn, _, if_pos hn, ⟨?_, ?_, ?_⟩⟩
    · simp only
      rw [h.values, List.set_append_right _ _ (Nat.le_refl _), Nat.sub_self]
      obtain ⟨m, hm⟩ : ∃ m, n - l.length = m + 1 := ⟨n - l.length - 1, by omega⟩
      rw [hm, List.replicate_succ, List.set_cons_zero, List.append_assoc]
      simp only [List.length_append, List.length_singleton, List.singleton_append]
      rw [show n - (l.length + 1) = m by omega]
    · simp
    · simp; omega
  · exact .inr ⟨by omega, if_neg hn⟩

theorem rep_pushAll {n : Nat} {d : α} {v : SVec α} {l : List α} (h : Rep n d v l) (as : List α) :
    (∃ v', v.pushAll as = some v' ∧ Meta.pushAll n l as = some (l ++ as) ∧ Rep n d v' (l ++ as)) ∨
      (v.pushAll as = none ∧ Meta.pushAll n l as = none ∧ n < l.length + as.length) := by
  induction as generalizing v l with
  | nil => exact .inl ⟨v, rfl, by simp [Meta.pushAll], by simpa using h⟩
  | cons a as ih =>
    rcases rep_push h a with ⟨h1, v1, h2, h3⟩ | ⟨h1, h2⟩
    · rcases ih h3 with ⟨v', h4, h5, h6⟩ | ⟨h4, h5, h6⟩
      · refine .inl ⟨v', by rw [SVec.pushAll, h2]; exact h4, ?_, by simpa using h6⟩
        rw [Meta.pushAll, Meta.pushBack, if_pos h1, Option.bind_some, h5]
        simp
      · refine .inr ⟨by rw [SVec.pushAll, h2]; exact h4, ?_, by simp at h6 ⊢; omega⟩
        rw [Meta.pushAll, Meta.pushBack, if_pos h1, Option.bind_some, h5]
    · exact .inr ⟨by rw [SVec.pushAll, h2]; rfl,
        by rw [Meta.pushAll, Meta.pushBack, if_neg (by omega)]; rfl, by simp; omega⟩

theorem rep_at {n : Nat} {d : α} {v : SVec α} {l : List α} (h : Rep n d v l) (i : Nat) :
    v.at i = if i < l.length then l[i]? else if i < n then some d else none := by
  have hf := h.fits
  rw [SVec.at, h.values]
  by_cases hi : i < l.length
  · rw [if_pos hi, List.getElem?_append_left hi]
  · rw [if_neg hi, List.getElem?_append_right (by omega), List.getElem?_replicate]
    by_cases hn : i < n
    · rw [if_pos (by omega), if_pos hn]
    · rw [if_neg (by omega), if_neg hn]

theorem rep_at_lt {n : Nat} {d : α} {v : SVec α} {l : List α} (h : Rep n d v l) {i : Nat}
    (hi : i < l.length) : v.at i = l[i]? := by rw [rep_at h, if_pos hi]

theorem rep_assign {n : Nat} {d : α} {v : SVec α} {l : List α} (h : Rep n d v l) {i : Nat}
    (hi : i < l.length) (a : α) : ∃ v', v.assign i a = some v' ∧ Rep n d v' (l.set i a) := by
  have hf := h.fits
  refine ⟨_, if_pos (by rw [h.holds.cap]; omega), ⟨?_, ?_, ?_⟩⟩
  · simp only
    rw [h.values, List.set_append_left _ _ hi, List.length_set]
  · simp [h.size]
  · simpa using hf

/-! ### find_index, equal_ranges -/

theorem iter_find (p : α → Bool) (v : SVec α) (l : List α) (i : Nat)
    (hv : ∀ k, k < l.length → v.at (i + k) = l[k]?) :
    (match iter (fun i (_ : Unit) => (v.at i).map fun a => if p a then .inr i else .inl ())
        i l.length () with
      | none => none
      | some (.inr j) => some j
      | some (.inl _) => some (i + l.length)) = some (i + Meta.findIndexIf p l) := by
  induction l generalizing i with
  | nil => simp [iter, Meta.findIndexIf]
  | cons a l ih =>
    have h0 := hv 0 (by simp)
    simp only [Nat.add_zero, List.getElem?_cons_zero] at h0
    rw [List.length_cons, iter, h0, Meta.findIndexIf]
    simp only [Option.map_some]
    by_cases hp : p a = true
    · simp [hp]
    · simp only [hp, Bool.false_eq_true, if_false]
      have := ih (i + 1) (fun k hk => by
        have := hv (k + 1) (by simp; omega)
        rw [List.getElem?_cons_succ] at this
        rw [← this]; congr 1; omega)
      rw [show i + (l.length + 1) = i + 1 + l.length by omega,
        show i + (Meta.findIndexIf p l + 1) = i + 1 + Meta.findIndexIf p l by omega]
      exact this

theorem findIf_eq {ev : Ev} {n : Nat} {d : α} {v : SVec α} {l : List α} (h : Rep n d v l)
    (hu : l.length < ev.u) (hf : l.length < ev.fuel) (p : α → Bool) :
    findIf ev p v = some (Meta.findIndexIf p l) := by
  have := iter_find p v l 0 (fun k hk => by rw [Nat.zero_add, rep_at_lt h hk])
  rw [findIf, h.size, loop_eq hu _ l.length ev.fuel 0 () (by omega) hf]
  generalize iter _ 0 l.length () = x at this ⊢
  rcases x with _ | _ | _ <;> simp at this ⊢ <;> assumption

theorem iter_equal [DecidableEq α] (v w : SVec α) (l m : List α) (i : Nat) (hl : l.length = m.length)
    (hv : ∀ k, k < l.length → v.at (i + k) = l[k]?)
    (hw : ∀ k, k < m.length → w.at (i + k) = m[k]?) :
    (match iter (fun i (_ : Unit) => (v.at i).bind fun x => (w.at i).map fun y =>
        if x != y then .inr false else .inl ()) i l.length () with
      | none => none
      | some (.inr b) => some b
      | some (.inl _) => some true) = some (decide (l = m)) := by
  induction l generalizing i m with
  | nil => cases m <;> simp_all [iter]
  | cons a l ih =>
    cases m with
    | nil => simp at hl
    | cons b m =>
      have h0 := hv 0 (by simp)
      have h1 := hw 0 (by simp)
      simp only [Nat.add_zero, List.getElem?_cons_zero] at h0 h1
      rw [List.length_cons, iter, h0, h1]
      simp only [Option.bind_some, Option.map_some]
      by_cases hab : a = b
      · subst hab
        simp only [bne_self_eq_false, Bool.false_eq_true, if_false, List.cons.injEq, true_and]
        refine ih m (i + 1) (by simpa using hl) (fun k hk => ?_) (fun k hk => ?_)
        · have := hv (k + 1) (by simp; omega)
          rw [List.getElem?_cons_succ] at this
          rw [← this]; congr 1; omega
        · have := hw (k + 1) (by simp; omega)
          rw [List.getElem?_cons_succ] at this
          rw [← this]; congr 1; omega
      · simp [hab]

theorem equal_eq [DecidableEq α] {ev : Ev} {n n' : Nat} {d d' : α} {v w : SVec α} {l m : List α}
    (h : Rep n d v l) (h' : Rep n' d' w m) (hu : l.length < ev.u) (hf : l.length < ev.fuel) :
    equal ev v w = some (decide (l = m)) := by
  rw [equal, h.size, h'.size]
  by_cases hl : l.length = m.length
  · rw [if_neg (by simpa using hl), loop_eq hu _ l.length ev.fuel 0 () (by omega) hf]
    exact iter_equal v w l m 0 hl (fun k hk => by rw [Nat.zero_add, rep_at_lt h hk])
      (fun k hk => by rw [Nat.zero_add, rep_at_lt h' hk])
  · rw [if_pos hl]
    have : l ≠ m := fun h => hl (by rw [h])
    simp [this]

/-! ### sort_ranges -/

theorem sortRound_eq {ev : Ev} {n : Nat} {d : α} {v : SVec α} {l : List α} (h : Rep n d v l)
    (hu : l.length < ev.u) (lt : α → α → Bool) {j : Nat} (hj : j + 1 < l.length) :
    ∃ l' v', Meta.sortStep lt l j = some l' ∧ sortRound ev lt j v = some (.inl v') ∧ Rep n d v' l' ∧
      l'.length = l.length := by
  have h1 : l[j]? = some l[j] := List.getElem?_eq_getElem (by omega)
  have h2 : l[j + 1]? = some l[j + 1] := List.getElem?_eq_getElem hj
  rw [Meta.sortStep, sortRound, Nat.mod_eq_of_lt (by omega), rep_at_lt h hj, rep_at_lt h (by omega), h1, h2]
  simp only [Option.bind_some]
  by_cases hlt : lt l[j + 1] l[j] = true
  · rw [if_pos hlt, if_pos hlt]
    obtain ⟨v1, h3, h4⟩ := rep_assign h (i := j) (by omega) l[j + 1]
    obtain ⟨v2, h5, h6⟩ := rep_assign h4 (i := j + 1) (by simpa using hj) l[j]
    refine ⟨_, v2, rfl, ?_, h6, by simp⟩
    rw [SVec.swap, rep_at_lt h hj, rep_at_lt h (by omega), h1, h2]
    simp only [Option.bind_some, h3, h5, Option.map_some]
  · rw [if_neg hlt, if_neg hlt]
    exact ⟨l, v, rfl, rfl, h, rfl⟩

theorem iter_sort {ev : Ev} {n : Nat} {d : α} (lt : α → α → Bool) (k : Nat) :
    ∀ (j : Nat) (v : SVec α) (l : List α), Rep n d v l → l.length < ev.u → j + k < l.length →
    ∃ l' v', Meta.sortPass lt l j k = some l' ∧ iter (sortRound ev lt) j k v = some (.inl v') ∧
      Rep n d v' l' ∧ l'.length = l.length := by
  induction k with
  | zero => intro j v l h _ _; exact ⟨l, v, rfl, rfl, h, rfl⟩
  | succ k ih =>
    intro j v l h hu hj
    obtain ⟨l1, v1, h1, h2, h3, h4⟩ := sortRound_eq h hu lt (j := j) (by omega)
    obtain ⟨l2, v2, h5, h6, h7, h8⟩ := ih (j + 1) v1 l1 h3 (by omega) (by omega)
    refine ⟨l2, v2, ?_, ?_, h7, by omega⟩
    · rw [Meta.sortPass, h1]; exact h5
    · rw [iter, h2]; exact h6

theorem sortInner_eq {ev : Ev} {n : Nat} {d : α} {v : SVec α} {l : List α} (h : Rep n d v l)
    (hu : l.length < ev.u) (hs : l.length ≤ ev.sz) (hf : l.length < ev.fuel) (hl : 0 < l.length)
    (lt : α → α → Bool) :
    ∃ l' v', Meta.sortPass lt l 0 (l.length - 1) = some l' ∧ sortInner ev lt v = some (.inl v') ∧
      Rep n d v' l' ∧ l'.length = l.length := by
  obtain ⟨l', v', h1, h2, h3, h4⟩ := iter_sort (ev := ev) lt (l.length - 1) 0 v l h hu (by omega)
  refine ⟨l', v', h1, ?_, h3, h4⟩
  have hb : (v.size + ev.sz - 1) % ev.sz = l.length - 1 := by
    rw [h.size, show l.length + ev.sz - 1 = l.length - 1 + ev.sz by omega, Nat.add_mod_right,
      Nat.mod_eq_of_lt (by omega)]
  rw [sortInner, hb, loop_eq (by omega) _ (l.length - 1) ev.fuel 0 v (by omega) (by omega)]
  exact h2

theorem iter_sorts {ev : Ev} {n : Nat} {d : α} (lt : α → α → Bool) (k : Nat) :
    ∀ (i : Nat) (v : SVec α) (l : List α), Rep n d v l → l.length < ev.u → l.length ≤ ev.sz →
    l.length < ev.fuel → (k ≠ 0 → 0 < l.length) →
    ∃ l' v', Meta.sortLoop lt l k = some l' ∧
      iter (fun _ w => sortInner ev lt w) i k v = some (.inl v') ∧ Rep n d v' l' := by
  induction k with
  | zero => intro i v l h _ _ _ _; exact ⟨l, v, rfl, rfl, h⟩
  | succ k ih =>
    intro i v l h hu hs hf hl
    obtain ⟨l1, v1, h1, h2, h3, h4⟩ := sortInner_eq h hu hs hf (hl (by simp)) lt
    obtain ⟨l2, v2, h5, h6, h7⟩ := ih (i + 1) v1 l1 h3 (by omega) (by omega) (by omega)
      (fun _ => by have := hl (by simp); omega)
    refine ⟨l2, v2, ?_, ?_, h7⟩
    · rw [Meta.sortLoop, h1]; exact h5
    · rw [iter, h2]; exact h6

theorem sort_eq {ev : Ev} {n : Nat} {d : α} {v : SVec α} {l : List α} (h : Rep n d v l)
    (hu : l.length < ev.u) (hs : l.length ≤ ev.sz) (hf : l.length < ev.fuel) (lt : α → α → Bool) :
    ∃ l' v', Meta.sortRanges lt l = some l' ∧ sort ev lt v = some v' ∧ Rep n d v' l' := by
  obtain ⟨l', v', h1, h2, h3⟩ := iter_sorts (ev := ev) lt l.length 0 v l h hu hs hf (by omega)
  refine ⟨l', v', h1, ?_, h3⟩
  rw [sort, h.size, loop_eq hu _ l.length ev.fuel 0 v (by omega) hf, h2]

/-! ### static_set -/

/-- An evaluator that copes with ranges of `n`. -/
structure Ev.Copes (ev : Ev) (n : Nat) : Prop where
  u : n < ev.u
  sz : n ≤ ev.sz
  fuel : n < ev.fuel

theorem rep_setInsert [DecidableEq α] {ev : Ev} {n : Nat} {d : α} {v : SVec α} {l : List α}
    (h : Rep n d v l) (hc : ev.Copes n) (a : α) :
    (∃ v' l', setInsert ev v a = some v' ∧ Meta.setInsert n l a = some l' ∧ Rep n d v' l') ∨
      (setInsert ev v a = none ∧ Meta.setInsert n l a = none) := by
  have hf := h.fits
  have := hc.u; have := hc.fuel
  rw [setInsert, find, findIf_eq h (by omega) (by omega), Option.bind_some, Meta.setInsert, h.size]
  show (∃ v' l', (if Meta.findIndex l a = l.length then _ else _) = _ ∧ _) ∨ ((if Meta.findIndex l a = l.length then _ else _) = _ ∧ _)
  by_cases hi : Meta.findIndex l a = l.length
  · rw [if_pos hi, if_pos hi, Meta.pushBack]
    rcases rep_push h a with ⟨h1, v', h2, h3⟩ | ⟨h1, h2⟩
    · exact .inl ⟨v', _, h2, if_pos h1, h3⟩
    · exact .inr ⟨h2, if_neg (by omega)⟩
  · rw [if_neg hi, if_neg hi]
    exact .inl ⟨v, l, rfl, rfl, h⟩

theorem rep_setInsertAll [DecidableEq α] {ev : Ev} {n : Nat} {d : α} (hc : ev.Copes n) (as : List α) :
    ∀ (v : SVec α) (l : List α), Rep n d v l →
    (∃ v' l', setInsertAll ev v as = some v' ∧ Meta.setOf n l as = some l' ∧ Rep n d v' l') ∨
      (setInsertAll ev v as = none ∧ Meta.setOf n l as = none) := by
  induction as with
  | nil => intro v l h; exact .inl ⟨v, l, rfl, rfl, h⟩
  | cons a as ih =>
    intro v l h
    rw [setInsertAll, Meta.setOf]
    rcases rep_setInsert h hc a with ⟨v1, l1, h1, h2, h3⟩ | ⟨h1, h2⟩
    · rw [h1, h2]; exact ih v1 l1 h3
    · rw [h1, h2]; exact .inr ⟨rfl, rfl⟩

theorem rep_setOf [DecidableEq α] {ev : Ev} {n : Nat} (hc : ev.Copes n) (d : α) (as : List α) :
    (∃ v l, setOf ev n d as = some v ∧ Meta.setOf n [] as = some l ∧ Rep n d v l) ∨
      (setOf ev n d as = none ∧ Meta.setOf n [] as = none) :=
  rep_setInsertAll hc as _ _ (rep_new n d)

/-! ### static_map -/

theorem rep_mapInsert {ev : Ev} {n : Nat} {d : String × β} {v : SVec (String × β)}
    {l : List (String × β)} (h : Rep n d v l) (hc : ev.Copes n) (e : String × β) :
    (∃ v' l', mapInsert ev v e = some v' ∧ Meta.mapInsert n l e = some l' ∧ Rep n d v' l') ∨
      (mapInsert ev v e = none ∧ Meta.mapInsert n l e = none) := by
  have hf := h.fits
  have := hc.u; have := hc.fuel
  rw [mapInsert, findIf_eq h (by omega) (by omega), Option.bind_some, Meta.mapInsert, h.size]
  have hle := Meta.findIndexIf_le (fun t => t.1 == e.1) l
  generalize Meta.findIndexIf (fun t => t.1 == e.1) l = i at *
  by_cases hi : i = l.length
  · rw [if_pos hi, if_pos hi, Meta.pushBack]
    rcases rep_push h e with ⟨h1, v', h2, h3⟩ | ⟨h1, h2⟩
    · exact .inl ⟨v', _, h2, if_pos h1, h3⟩
    · exact .inr ⟨h2, if_neg (by omega)⟩
  · have hlt : i < l.length := by omega
    rw [if_neg hi, if_neg hi, rep_at_lt h hlt, List.getElem?_eq_getElem hlt]
    obtain ⟨v', h1, h2⟩ := rep_assign h hlt (l[i].1, e.2)
    exact .inl ⟨v', _, h1, rfl, h2⟩

theorem rep_mapInsertAll {ev : Ev} {n : Nat} {d : String × β} (hc : ev.Copes n)
    (es : List (String × β)) : ∀ (v : SVec (String × β)) (l : List (String × β)), Rep n d v l →
    (∃ v' l', mapInsertAll ev v es = some v' ∧ Meta.mapInsertAll n l es = some l' ∧ Rep n d v' l') ∨
      (mapInsertAll ev v es = none ∧ Meta.mapInsertAll n l es = none) := by
  induction es with
  | nil => intro v l h; exact .inl ⟨v, l, rfl, rfl, h⟩
  | cons e es ih =>
    intro v l h
    rw [mapInsertAll, Meta.mapInsertAll]
    rcases rep_mapInsert h hc e with ⟨v1, l1, h1, h2, h3⟩ | ⟨h1, h2⟩
    · rw [h1, h2]; exact ih v1 l1 h3
    · rw [h1, h2]; exact .inr ⟨rfl, rfl⟩

theorem rep_mapOf {ev : Ev} {n : Nat} (hc : ev.Copes n) (lt : String → String → Bool) (d : β)
    (es : List (String × β)) :
    (∃ v l, mapOf ev lt n d es = some v ∧ Meta.mapOf lt n d es = some l ∧ Rep n ("", d) v l) ∨
      (mapOf ev lt n d es = none ∧ Meta.mapOf lt n d es = none) := by
  rw [mapOf, Meta.mapOf]
  by_cases hn : n < es.length
  · rw [if_pos hn, if_pos hn]; exact .inr ⟨rfl, rfl⟩
  · rw [if_neg hn, if_neg hn]
    rcases rep_mapInsertAll hc (es ++ List.replicate (n - es.length) ("", d)) _ _
      (rep_new n ("", d)) with ⟨v1, l1, h1, h2, h3⟩ | ⟨h1, h2⟩
    · rw [h1, h2]
      have := h3.fits
      obtain ⟨l', v', h4, h5, h6⟩ := sort_eq h3 (ev := ev) (by have := hc.u; omega)
        (by have := hc.sz; omega) (by have := hc.fuel; omega) (fun a b => lt a.1 b.1)
      exact .inl ⟨v', l', h5, h4, h6⟩
    · rw [h1, h2]; exact .inr ⟨rfl, rfl⟩

theorem rep_mapGet {ev : Ev} {n : Nat} {d : String × β} {v : SVec (String × β)}
    {l : List (String × β)} (h : Rep n d v l) (hc : ev.Copes n) (key : String) :
    mapGet ev v key = some (Meta.mapGet l key) := by
  have hf := h.fits
  have := hc.u; have := hc.fuel
  rw [mapGet, findIf_eq h (by omega) (by omega), Option.bind_some, Meta.mapGet, h.size]
  have hle := Meta.findIndexIf_le (fun t => t.1 == key) l
  generalize Meta.findIndexIf (fun t => t.1 == key) l = i at *
  by_cases hi : i = l.length
  · rw [if_neg (by simpa using hi), if_neg (by simpa using hi)]
  · have hlt : i < l.length := by omega
    rw [if_pos hi, if_pos hi, rep_at_lt h hlt, List.getElem?_eq_getElem hlt]
    rfl

/-! ### as specified -/

theorem addNew_length_le [DecidableEq α] (s l : List α) : s.length ≤ (Meta.addNew s l).length := by
  induction l generalizing s with
  | nil => exact Nat.le_refl _
  | cons a l ih =>
    rw [Meta.addNew]
    split
    · exact ih s
    · have := ih (s ++ [a])
      simp at this
      omega

theorem setOf_exact [DecidableEq α] (n : Nat) (s l : List α) (h : s.length ≤ n) :
    Meta.setOf n s l =
      if (Meta.addNew s l).length ≤ n then some (Meta.addNew s l) else none := by
  induction l generalizing s with
  | nil => rw [Meta.setOf, Meta.addNew, if_pos h]
  | cons a l ih =>
    rw [Meta.setOf, Meta.setInsert, Meta.addNew]
    by_cases ha : a ∈ s
    · rw [if_neg (fun h' => (Meta.findIndex_eq s a).1 h' ha), if_pos ha]
      exact ih s h
    · rw [if_pos ((Meta.findIndex_eq s a).2 ha), if_neg ha, Meta.pushBack]
      by_cases hn : s.length < n
      · rw [if_pos hn]
        exact ih _ (by simp; omega)
      · rw [if_neg hn, if_neg]
        · rfl
        · have := addNew_length_le (s ++ [a]) l
          simp at this
          omega

theorem addNew_firsts [DecidableEq α] (s l : List α) :
    Meta.addNew s l = s ++ (Spec.firsts l).filter (fun a => a ∉ s) := by
  induction l generalizing s with
  | nil => simp [Meta.addNew, Spec.firsts]
  | cons a l ih =>
    rw [Meta.addNew, Spec.firsts]
    by_cases ha : a ∈ s
    · rw [if_pos ha, ih, List.filter_cons_of_neg (by simpa using ha), List.filter_filter]
      congr 1
      refine List.filter_congr fun b _ => ?_
      by_cases hb : b ∈ s
      · simp [hb]
      · have : b ≠ a := fun h => hb (h ▸ ha)
        simp [hb, this]
    · rw [if_neg ha, ih, List.filter_cons_of_pos (by simpa using ha), List.filter_filter,
        List.append_assoc, List.singleton_append]
      congr 2
      refine List.filter_congr fun b _ => ?_
      by_cases hb : b ∈ s <;> simp [hb]

theorem lastOf_eq (key : String) (es : List (String × β)) :
    Meta.lastOf key es = Spec.lastEntry key es := by
  induction es with
  | nil => rfl
  | cons e es ih =>
    rw [Meta.lastOf, ih, Spec.lastEntry, Spec.lastEntry, List.reverse_cons, List.find?_append]
    cases es.reverse.find? fun e => e.1 == key with
    | some x => simp
    | none =>
      by_cases h : key = e.1
      · simp [h]
      · have : ¬ e.1 = key := fun h' => h h'.symm
        simp [h, this]

end S2S.Ct
