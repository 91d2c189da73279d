import Verif.Model.Range
/-
C83: what the range constraints would check.
-/
namespace S2S.Props

/-- Where the search stops: everything before ends below the value, everything from there on
does not. -/
theorem lowerBound_split {v : Int} {rs : List Range} {i : Nat}
    (h : lowerBound (fun r => decide (r.b < v)) rs = some i) :
    ∃ pre post, rs = pre ++ post ∧ i = pre.length ∧ (∀ r ∈ pre, r.b < v) ∧ ∀ r ∈ post, v ≤ r.b := by
  rw [lowerBound] at h
  split at h
  · rename_i hp
    cases h
    induction rs with
    | nil => exact ⟨[], [], rfl, rfl, nofun, nofun⟩
    | cons r rs ih =>
      rw [List.pairwise_cons] at hp
      by_cases hr : r.b < v
      · obtain ⟨pre, post, h1, h2, h3, h4⟩ := ih hp.2
        refine ⟨r :: pre, post, by rw [h1]; rfl, ?_, ?_, h4⟩
        · simp [List.findIdx_cons, hr, h2]
        · intro x hx
          rcases List.mem_cons.1 hx with rfl | hx
          · exact hr
          · exact h3 x hx
      · refine ⟨[], r :: rs, rfl, ?_, nofun, ?_⟩
        · simp [List.findIdx_cons, hr]
        · intro x hx
          rcases List.mem_cons.1 hx with rfl | hx
          · omega
          · have := hp.1 x hx
            simp only [decide_eq_true_eq] at this
            omega
  · cases h

theorem lowerBound_defined {v : Int} {rs : List Range} :
    (∃ i, lowerBound (fun r => decide (r.b < v)) rs = some i) ↔
      rs.Pairwise fun r1 r2 => r2.b < v → r1.b < v := by
  rw [lowerBound]
  split
  · rename_i h
    simp only [decide_eq_true_eq] at h
    exact ⟨fun _ => h, fun _ => ⟨_, rfl⟩⟩
  · rename_i h
    simp only [decide_eq_true_eq] at h
    exact ⟨(by rintro ⟨_, h⟩; cases h), fun h' => absurd h' h⟩

/-- What the search looks at in the end: with ranges sorted by their starts, the first one
that does not end below the value. -/
theorem inRanges_eq {test : Range → Int → Bool} {order : List Range} {v : Int}
    (hlow : ∀ r, r.b < v → test r v = false) (hhigh : ∀ r, v < r.a → test r v = false)
    {pre post : List Range} (ho : order = pre ++ post)
    (h : lowerBound (fun r => decide (r.b < v)) order = some pre.length)
    (hpre : ∀ r ∈ pre, r.b < v) :
    inRanges test order v = some (match post.head? with | none => false | some r => test r v) := by
  have last : pre ≠ [] → ∃ r, order[pre.length - 1]? = some r ∧ test r v = false := by
    intro hne
    have hl : pre.length - 1 < pre.length := by
      have := List.length_pos_iff.2 hne
      omega
    refine ⟨pre[pre.length - 1], ?_, hlow _ (hpre _ (List.getElem_mem hl))⟩
    rw [ho, List.getElem?_append_left hl, List.getElem?_eq_getElem hl]
  have hn : order[pre.length]? = post.head? := by
    rw [ho, List.getElem?_append_right (Nat.le_refl _), Nat.sub_self, List.head?_eq_getElem?]
  clear ho
  simp only [inRanges, h]
  by_cases hne : pre = []
  · subst hne
    simp only [List.length_nil] at hn
    simp only [List.length_nil, bne_self_eq_false, Bool.false_and, Bool.false_eq_true, if_false, hn]
    cases post.head? <;> rfl
  · obtain ⟨r', h1, h2⟩ := last hne
    have h0 : (pre.length != 0) = true := by simpa using hne
    rw [hn]
    cases hp : post.head? with
    | none => simp only [h0, Bool.true_and, if_true, h1, h2]
    | some r =>
      rw [hp] at hn
      by_cases hr : r.a > v
      · simp only [h0, Bool.true_and, hr, decide_true, if_true, h1, h2, hhigh r hr]
      · simp only [h0, Bool.true_and, hr, decide_false, Bool.false_eq_true, if_false, hn]

theorem pairwise_mem {α : Type} {R : α → α → Prop} {l : List α} (h : l.Pairwise R) {x y : α}
    (hx : x ∈ l) (hy : y ∈ l) : x = y ∨ R x y ∨ R y x := by
  induction h with
  | nil => cases hx
  | cons h _ ih =>
    rcases List.mem_cons.1 hx with rfl | hx'
    · rcases List.mem_cons.1 hy with rfl | hy'
      · exact .inl rfl
      · exact .inr (.inl (h _ hy'))
    · rcases List.mem_cons.1 hy with rfl | hy'
      · exact .inr (.inr (h _ hx'))
      · exact ih hx' hy'

/-- Ranges that start no later end no later. -/
def EndsOrdered (rs : List Range) : Prop := ∀ r1 ∈ rs, ∀ r2 ∈ rs, r1.a ≤ r2.a → r1.b ≤ r2.b

/-- An order `std::sort` may leave, with the longer of two ranges that start together first. -/
theorem order_exists (rs : List Range) : ∃ order, SortedRanges rs order ∧
    order.Pairwise fun r1 r2 => r1.a < r2.a ∨ r1.a = r2.a ∧ r2.b ≤ r1.b := by
  let le : Range → Range → Bool := fun r1 r2 => decide (r1.a < r2.a ∨ r1.a = r2.a ∧ r2.b ≤ r1.b)
  have h := List.pairwise_mergeSort (le := le)
    (by intro a b c h1 h2; simp only [le, decide_eq_true_eq] at *; omega)
    (by intro a b; simp only [le, Bool.or_eq_true, decide_eq_true_eq]; omega) rs
  simp only [le, decide_eq_true_eq] at h
  exact ⟨_, ⟨List.mergeSort_perm rs le, h.imp fun h => by omega⟩, h⟩

/-- The search is defined for all values of a type and all results of sorting exactly if the
ends are ordered as the starts are. -/
theorem search_defined (P : Int → Prop) (rs : List Range) (hP : ∀ r ∈ rs, P r.b) :
    (∀ order, SortedRanges rs order → ∀ v, P v → ∃ i, lowerBound (fun r => decide (r.b < v)) order = some i) ↔
      EndsOrdered rs := by
  constructor
  · intro h r1 h1 r2 h2 ha
    obtain ⟨order, ho, hl⟩ := order_exists rs
    have hp := lowerBound_defined.1 (h order ho r1.b (hP r1 h1))
    have := pairwise_mem (hl.and hp) (ho.1.mem_iff.2 h1) (ho.1.mem_iff.2 h2)
    rcases this with rfl | ⟨_, h⟩ | ⟨h, _⟩
    · exact Int.le_refl _
    · omega
    · omega
  · intro h order ho v _
    refine lowerBound_defined.2 (List.Pairwise.imp_of_mem ?_ ho.2)
    intro r1 r2 h1 h2 ha hb
    have := h r1 (ho.1.mem_iff.1 h1) r2 (ho.1.mem_iff.1 h2) ha
    omega

/-- The value is in one of the ranges without its ends. -/
def InOpen (rs : List Range) (v : Int) : Prop := ∃ r ∈ rs, r.a < v ∧ v < r.b
/-- The value is in one of the ranges or an end of one. -/
def InClosed (rs : List Range) (v : Int) : Prop := ∃ r ∈ rs, r.a ≤ v ∧ v ≤ r.b

instance (rs : List Range) (v : Int) : Decidable (InOpen rs v) := by unfold InOpen; infer_instance
instance (rs : List Range) (v : Int) : Decidable (InClosed rs v) := by unfold InClosed; infer_instance

theorem search {rs order : List Range} (he : EndsOrdered rs) (ho : SortedRanges rs order) (v : Int) :
    ∃ pre post, order = pre ++ post ∧ (∀ r ∈ pre, r.b < v) ∧ (∀ r ∈ post, v ≤ r.b) ∧
      lowerBound (fun r => decide (r.b < v)) order = some pre.length := by
  obtain ⟨i, h⟩ := (search_defined (fun _ => True) rs fun _ _ => trivial).2 he order ho v trivial
  obtain ⟨pre, post, h1, h2, h3, h4⟩ := lowerBound_split h
  exact ⟨pre, post, h1, h3, h4, by rw [h, h2]⟩

/-- C83: the closed ranges are checked as they should be, for all values of their type and
whatever order sorting leaves, exactly if ranges that start no later end no later. -/
theorem C83_closed (t : Int → Prop) (rs : List Range) (ht : ∀ r ∈ rs, t r.b) :
    (∀ order, SortedRanges rs order → ∀ v, t v → inClosedRange order v = some (decide (InClosed rs v))) ↔
      EndsOrdered rs := by
  constructor
  · intro h
    refine (search_defined t rs ht).1 fun order ho v hv => ?_
    have := h order ho v hv
    cases hb : lowerBound (fun r => decide (r.b < v)) order with
    | none => rw [inClosedRange, inRanges, hb] at this; cases this
    | some i => exact ⟨i, rfl⟩
  · intro he order ho v _
    obtain ⟨pre, post, h1, h2, h3, h4⟩ := search he ho v
    rw [inClosedRange, inRanges_eq (by intro r h; simp; omega) (by intro r h; simp; omega) h1 h4 h2]
    have hs := ho.2
    rw [h1] at hs
    have hs := (List.pairwise_append.1 hs).2.1
    have hmem : ∀ r, r ∈ rs ↔ r ∈ pre ∨ r ∈ post := by
      intro r
      rw [← ho.1.mem_iff, h1, List.mem_append]
    congr 1
    cases post with
    | nil =>
      refine (decide_eq_false ?_).symm
      rintro ⟨r, hr, ha, hb⟩
      rcases (hmem r).1 hr with hr | hr
      · have := h2 r hr; omega
      · cases hr
    | cons x post =>
      rw [List.pairwise_cons] at hs
      have hx := h3 x List.mem_cons_self
      simp only [List.head?_cons]
      rw [← Bool.decide_and]
      refine decide_eq_decide.2 ⟨fun h => ⟨x, (hmem x).2 (.inr List.mem_cons_self), h⟩, ?_⟩
      rintro ⟨r, hr, ha, hb⟩
      refine ⟨?_, hx⟩
      rcases (hmem r).1 hr with hr | hr
      · have := h2 r hr; omega
      · rcases List.mem_cons.1 hr with rfl | hr
        · exact ha
        · have := hs.1 r hr; omega

/-- C83: the open ranges are checked as they should be, for all values of their type and
whatever order sorting leaves, exactly if moreover ranges overlap only if they end together. -/
theorem C83_open (t : Int → Prop) (rs : List Range) (ht : ∀ r ∈ rs, t r.b) :
    (∀ order, SortedRanges rs order → ∀ v, t v → inOpenRange order v = some (decide (InOpen rs v))) ↔
      EndsOrdered rs ∧ ∀ r1 ∈ rs, ∀ r2 ∈ rs, r1.a ≤ r2.a → r1.b ≤ r2.a ∨ r1.b = r2.b := by
  constructor
  · intro h
    have he : EndsOrdered rs := by
      refine (search_defined t rs ht).1 fun order ho v hv => ?_
      have := h order ho v hv
      cases hb : lowerBound (fun r => decide (r.b < v)) order with
      | none => rw [inOpenRange, inRanges, hb] at this; cases this
      | some i => exact ⟨i, rfl⟩
    refine ⟨he, fun r1 hr1 r2 hr2 ha => ?_⟩
    have hb := he r1 hr1 r2 hr2 ha
    by_cases hlt : r1.b ≤ r2.a
    · exact .inl hlt
    by_cases heq : r1.b = r2.b
    · exact .inr heq
    exfalso
    obtain ⟨order, ho, -⟩ := order_exists rs
    obtain ⟨pre, post, h1, h2, h3, h4⟩ := search he ho r1.b
    have := h order ho r1.b (ht r1 hr1)
    rw [inOpenRange, inRanges_eq (by intro r h; simp; omega) (by intro r h; simp; omega) h1 h4 h2,
      decide_eq_true (p := InOpen rs r1.b) ⟨r2, hr2, by omega, by omega⟩] at this
    have hs := ho.2
    rw [h1] at hs
    have hs := (List.pairwise_append.1 hs).2.1
    cases post with
    | nil => cases this
    | cons x post =>
      have hx := h3 x List.mem_cons_self
      rw [List.pairwise_cons] at hs
      have hin : r1 ∈ order := ho.1.mem_iff.2 hr1
      have hxin : x ∈ rs := ho.1.mem_iff.1 (by rw [h1]; simp)
      rw [h1, List.mem_append] at hin
      have hxa : x.a ≤ r1.a := by
        rcases hin with hin | hin
        · have := h2 r1 hin; omega
        · rcases List.mem_cons.1 hin with rfl | hin
          · exact Int.le_refl _
          · exact hs.1 r1 hin
      have := he x hxin r1 hr1 hxa
      simp at *
      omega
  · rintro ⟨he, ho2⟩ order ho v _
    obtain ⟨pre, post, h1, h2, h3, h4⟩ := search he ho v
    rw [inOpenRange, inRanges_eq (by intro r h; simp; omega) (by intro r h; simp; omega) h1 h4 h2]
    have hs := ho.2
    rw [h1] at hs
    have hs := (List.pairwise_append.1 hs).2.1
    have hmem : ∀ r, r ∈ rs ↔ r ∈ pre ∨ r ∈ post := by
      intro r
      rw [← ho.1.mem_iff, h1, List.mem_append]
    congr 1
    cases post with
    | nil =>
      refine (decide_eq_false ?_).symm
      rintro ⟨r, hr, ha, hb⟩
      rcases (hmem r).1 hr with hr | hr
      · have := h2 r hr; omega
      · cases hr
    | cons x post =>
      rw [List.pairwise_cons] at hs
      have hx := h3 x List.mem_cons_self
      have hxin := (hmem x).2 (.inr List.mem_cons_self)
      simp only [List.head?_cons]
      rw [← Bool.decide_and]
      refine decide_eq_decide.2 ⟨fun h => ⟨x, hxin, h⟩, ?_⟩
      rintro ⟨r, hr, ha, hb⟩
      rcases (hmem r).1 hr with hr' | hr'
      · have := h2 r hr'; omega
      · rcases List.mem_cons.1 hr' with rfl | hr'
        · exact ⟨ha, hb⟩
        · have hxa := hs.1 r hr'
          have := ho2 x hxin r hr hxa
          omega

/-- Bytes: ranges that end together may overlap. -/
example := (C83_open (fun v => 0 ≤ v ∧ v < 256) [⟨3, 9⟩, ⟨1, 9⟩, ⟨20, 30⟩] (by decide)).2
  ⟨by unfold EndsOrdered; decide, by decide⟩ [⟨1, 9⟩, ⟨3, 9⟩, ⟨20, 30⟩] ⟨by decide, by decide⟩ 9 (by decide)

/-- C83: for ranges of which no two overlap, in whatever order they are declared, both checks
are as they should be. Ends may be shared. -/
theorem C83_disjoint (rs order : List Range) (hp : ∀ r ∈ rs, r.Proper)
    (hd : ∀ r1 ∈ rs, ∀ r2 ∈ rs, r1 ≠ r2 → r1.b ≤ r2.a ∨ r2.b ≤ r1.a)
    (ho : SortedRanges rs order) (v : Int) :
    inOpenRange order v = some (decide (InOpen rs v)) ∧
    inClosedRange order v = some (decide (InClosed rs v)) := by
  have key : ∀ r1 ∈ rs, ∀ r2 ∈ rs, r1.a ≤ r2.a → r1 = r2 ∨ r1.b ≤ r2.a := by
    intro r1 h1 r2 h2 ha
    by_cases he : r1 = r2
    · exact .inl he
    · have h3 := hp r2 h2
      rw [Range.Proper] at h3
      have := hd r1 h1 r2 h2 he
      exact .inr (by omega)
  have he : EndsOrdered rs := by
    intro r1 h1 r2 h2 ha
    have h3 := hp r2 h2
    rw [Range.Proper] at h3
    rcases key r1 h1 r2 h2 ha with rfl | h
    · exact Int.le_refl _
    · omega
  refine ⟨(C83_open (fun _ => True) rs fun _ _ => trivial).2 ⟨he, fun r1 h1 r2 h2 ha => ?_⟩ order ho v trivial,
    (C83_closed (fun _ => True) rs fun _ _ => trivial).2 he order ho v trivial⟩
  rcases key r1 h1 r2 h2 ha with rfl | h
  · exact .inr rfl
  · exact .inl h

/-- Three ranges, two of them touching, declared out of order. -/
example (v : Int) :
    inOpenRange [⟨-5, 0⟩, ⟨1, 5⟩, ⟨5, 9⟩] v = some (decide (InOpen [⟨5, 9⟩, ⟨-5, 0⟩, ⟨1, 5⟩] v)) ∧
    inClosedRange [⟨-5, 0⟩, ⟨1, 5⟩, ⟨5, 9⟩] v = some (decide (InClosed [⟨5, 9⟩, ⟨-5, 0⟩, ⟨1, 5⟩] v)) :=
  C83_disjoint _ _ (by decide) (by decide) ⟨by decide, by decide⟩ v

/-- Overlapping open ranges: 5 is in the second, and is refused. -/
theorem C83_overlap_refused : inOpenRange [⟨1, 5⟩, ⟨3, 9⟩] 5 = some false ∧ InOpen [⟨1, 5⟩, ⟨3, 9⟩] 5 := by
  decide

/-- A range within another: the behaviour is undefined. -/
theorem C83_nested_undefined : inClosedRange [⟨1, 9⟩, ⟨3, 5⟩] 7 = none ∧
    inOpenRange [⟨1, 9⟩, ⟨3, 5⟩] 7 = none := by
  decide

end S2S.Props
