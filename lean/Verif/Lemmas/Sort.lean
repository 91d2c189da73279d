import Verif.Model.Meta
/-
`sort_ranges` as passes that carry the largest element to the end.
-/
namespace S2S.Meta

variable {α : Type}

/-- One pass, by structure. -/
def bub (lt : α → α → Bool) : List α → List α
  | [] => []
  | [a] => [a]
  | a :: b :: l => if lt b a then b :: bub lt (a :: l) else a :: bub lt (b :: l)
termination_by l => l.length

theorem sortPass_bub (lt : α → α → Bool) (l pre : List α) :
    sortPass lt (pre ++ l) pre.length (l.length - 1) = some (pre ++ bub lt l) := by
  match l with
  | [] => simp [sortPass, bub]
  | [a] => simp [sortPass, bub]
  | a :: b :: l =>
    have h1 : (pre ++ a :: b :: l)[pre.length]? = some a := by simp
    have h2 : (pre ++ a :: b :: l)[pre.length + 1]? = some b := by
      rw [List.getElem?_append_right (by omega)]
      simp
    show sortPass lt (pre ++ a :: b :: l) pre.length (l.length + 1) = _
    rw [sortPass, sortStep, h1, h2]
    simp only [Option.bind_some]
    by_cases h : lt b a = true
    · rw [if_pos h, bub, if_pos h]
      have := sortPass_bub lt (a :: l) (pre ++ [b])
      have hs : ((pre ++ a :: b :: l).set pre.length b).set (pre.length + 1) a = pre ++ [b] ++ a :: l := by
        rw [List.set_append_right _ _ (by omega), List.set_append_right _ _ (by omega)]
        simp
      rw [hs]
      simpa using this
    · rw [if_neg h, bub, if_neg h]
      have := sortPass_bub lt (b :: l) (pre ++ [a])
      simpa using this
termination_by l.length

theorem bub_perm (lt : α → α → Bool) (l : List α) : (bub lt l).Perm l := by
  match l with
  | [] => rw [bub]
  | [a] => rw [bub]
  | a :: b :: l =>
    rw [bub]
    split
    · exact ((bub_perm lt (a :: l)).cons b).trans (.swap a b l)
    · exact (bub_perm lt (b :: l)).cons a
termination_by l.length

theorem bub_length (lt : α → α → Bool) (l : List α) : (bub lt l).length = l.length :=
  (bub_perm lt l).length_eq

theorem sortLoop_some (lt : α → α → Bool) (n : Nat) (l : List α) :
    ∃ l', sortLoop lt l n = some l' ∧ l'.Perm l := by
  induction n generalizing l with
  | zero => exact ⟨l, rfl, .refl _⟩
  | succ n ih =>
    have := sortPass_bub lt l []
    simp only [List.nil_append, List.length_nil] at this
    rw [sortLoop, this]
    obtain ⟨l', h1, h2⟩ := ih (bub lt l)
    exact ⟨l', h1, h2.trans (bub_perm lt l)⟩

/-- `a` may stand before `b`. -/
abbrev Le (lt : α → α → Bool) (a b : α) : Prop := lt b a = false

/-- A strict weak order, as far as sorting needs it. -/
structure Weak (lt : α → α → Bool) : Prop where
  asymm : ∀ a b, lt a b = true → lt b a = false
  trans : ∀ a b c, Le lt a b → Le lt b c → Le lt a c

variable {lt : α → α → Bool}

theorem bub_sorted {l : List α} (h : l.Pairwise (Le lt)) : bub lt l = l := by
  match l with
  | [] => rw [bub]
  | [a] => rw [bub]
  | a :: b :: l =>
    have h' := List.pairwise_cons.1 h
    have hab : lt b a = false := h'.1 b (by simp)
    rw [bub, if_neg (by rw [hab]; decide), bub_sorted h'.2]
termination_by l.length

theorem bub_append {u s : List α} (hs : s.Pairwise (Le lt)) (hus : ∀ a ∈ u, ∀ b ∈ s, Le lt a b) :
    bub lt (u ++ s) = bub lt u ++ s := by
  match u with
  | [] => rw [bub]; exact bub_sorted hs
  | [a] =>
    rw [bub]
    exact bub_sorted (List.pairwise_cons.2 ⟨fun b hb => hus a (by simp) b hb, hs⟩)
  | a :: b :: u =>
    show bub lt (a :: b :: (u ++ s)) = _
    rw [bub, bub]
    have h1 := bub_append (u := a :: u) hs fun x hx => hus x (by
      rcases List.mem_cons.1 hx with rfl | hx <;> simp [*])
    have h2 := bub_append (u := b :: u) hs fun x hx => hus x (by
      rcases List.mem_cons.1 hx with rfl | hx <;> simp [*])
    split
    · rw [List.cons_append, ← h1]; rfl
    · rw [List.cons_append, ← h2]; rfl
termination_by u.length

/-- A pass carries the largest element to the end. -/
theorem bub_last (w : Weak lt) {l : List α} (hl : l ≠ []) :
    ∃ i m, bub lt l = i ++ [m] ∧ ∀ a ∈ l, Le lt a m := by
  have irrefl : ∀ a, Le lt a a := fun a => by
    show lt a a = false
    by_cases h : lt a a = true
    · exact w.asymm a a h
    · simpa using h
  match l with
  | [] => exact absurd rfl hl
  | [a] =>
    refine ⟨[], a, by rw [bub]; rfl, fun x hx => ?_⟩
    rw [List.mem_singleton] at hx
    rw [hx]; exact irrefl a
  | a :: b :: l =>
    rw [bub]
    by_cases h : lt b a = true
    · rw [if_pos h]
      obtain ⟨i, m, h1, h2⟩ := bub_last w (l := a :: l) (by simp)
      refine ⟨b :: i, m, by rw [h1]; rfl, fun x hx => ?_⟩
      rcases List.mem_cons.1 hx with rfl | hx
      · exact h2 _ (by simp)
      rcases List.mem_cons.1 hx with rfl | hx
      · exact w.trans _ a _ (w.asymm _ _ h) (h2 a (by simp))
      · exact h2 _ (by simp [hx])
    · rw [if_neg h]
      obtain ⟨i, m, h1, h2⟩ := bub_last w (l := b :: l) (by simp)
      refine ⟨a :: i, m, by rw [h1]; rfl, fun x hx => ?_⟩
      rcases List.mem_cons.1 hx with rfl | hx
      · exact w.trans _ b _ (by simpa using h) (h2 b (by simp))
      · exact h2 _ hx
termination_by l.length

theorem sortLoop_sorted (w : Weak lt) (n : Nat) (u s : List α) (hn : u.length ≤ n)
    (hs : s.Pairwise (Le lt)) (hus : ∀ a ∈ u, ∀ b ∈ s, Le lt a b) :
    ∃ l', sortLoop lt (u ++ s) n = some l' ∧ l'.Pairwise (Le lt) := by
  induction n generalizing u s with
  | zero =>
    cases u with
    | nil => exact ⟨s, rfl, hs⟩
    | cons a u => simp at hn
  | succ n ih =>
    have := sortPass_bub lt (u ++ s) []
    simp only [List.nil_append, List.length_nil] at this
    rw [sortLoop, this, Option.bind_some, bub_append hs hus]
    by_cases hu : u = []
    · subst hu
      have := ih [] s (Nat.zero_le _) hs fun _ h => by cases h
      rw [bub]
      exact this
    · obtain ⟨i, m, h1, h2⟩ := bub_last w hu
      have hp := bub_perm lt u
      rw [h1] at hp
      have hlen := hp.length_eq
      simp only [List.length_append, List.length_singleton] at hlen
      rw [h1, List.append_assoc]
      refine ih i ([m] ++ s) (by omega) ?_ ?_
      · exact List.pairwise_cons.2 ⟨fun b hb => hus m (hp.mem_iff.1 (by simp)) b hb, hs⟩
      · intro a ha b hb
        have ha' : a ∈ u := hp.mem_iff.1 (by simp [ha])
        rcases List.mem_cons.1 hb with rfl | hb
        · exact h2 a ha'
        · exact hus a ha' b hb

theorem sortRanges_perm (lt : α → α → Bool) (l : List α) :
    ∃ l', sortRanges lt l = some l' ∧ l'.Perm l := sortLoop_some lt _ l

theorem sortRanges_sorted (w : Weak lt) (l : List α) :
    ∃ l', sortRanges lt l = some l' ∧ l'.Perm l ∧ l'.Pairwise (Le lt) := by
  obtain ⟨l', h1, h2⟩ := sortLoop_sorted w l.length l [] (Nat.le_refl _) .nil fun _ _ _ h => by cases h
  obtain ⟨l'', h3, h4⟩ := sortRanges_perm lt l
  rw [List.append_nil] at h1
  have : l' = l'' := by
    have := h1.symm.trans h3
    injection this
  subst this
  exact ⟨l', h3, h4, h2⟩

end S2S.Meta
