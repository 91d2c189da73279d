import Verif.Spec.Amalgam
/-
Taking the include directives out of a text.
-/
namespace S2S.Amalgam
open S2S.Spec

/-! ### Lines -/

theorem linesOf_ne (t : List Char) : linesOf t ≠ [] := by
  cases t with
  | nil => simp [linesOf]
  | cons c cs =>
      unfold linesOf
      split
      · simp
      · split <;> simp

theorem linesOf_line {l : List Char} (h : '\n' ∉ l) : linesOf l = [l] := by
  induction l with
  | nil => rfl
  | cons c cs ih =>
      simp only [List.mem_cons, not_or] at h
      unfold linesOf
      rw [if_neg (fun e => h.1 e.symm), ih h.2]

theorem linesOf_append {l : List Char} (h : '\n' ∉ l) (t : List Char) :
    linesOf (l ++ '\n' :: t) = l :: linesOf t := by
  induction l with
  | nil => simp [linesOf]
  | cons c cs ih =>
      simp only [List.mem_cons, not_or] at h
      rw [List.cons_append, linesOf, if_neg (fun e => h.1 e.symm), ih h.2]

/-- A text is a line, or a line and more. -/
theorem line_or (t : List Char) : ('\n' ∉ t) ∨ ∃ l r, '\n' ∉ l ∧ t = l ++ '\n' :: r := by
  induction t with
  | nil => simp
  | cons c cs ih =>
      by_cases h : c = '\n'
      · subst h
        exact .inr ⟨[], cs, by simp, rfl⟩
      · rcases ih with ih | ⟨l, r, hl, rfl⟩
        · exact .inl (by simp [ih, Ne.symm h])
        · exact .inr ⟨c :: l, r, by simp [hl, Ne.symm h], rfl⟩

/-- Or lines, and one more. -/
theorem line_or_last (t : List Char) : ('\n' ∉ t) ∨ ∃ r l, '\n' ∉ l ∧ t = r ++ '\n' :: l := by
  induction t with
  | nil => simp
  | cons c cs ih =>
      rcases ih with ih | ⟨r, l, hl, rfl⟩
      · by_cases h : c = '\n'
        · subst h
          exact .inr ⟨[], cs, ih, rfl⟩
        · exact .inl (by simp [ih, Ne.symm h])
      · exact .inr ⟨c :: r, l, hl, rfl⟩

theorem linesOf_split (x y : List Char) : linesOf (x ++ '\n' :: y) = linesOf x ++ linesOf y := by
  generalize hn : x.length = n
  induction n using Nat.strongRecOn generalizing x with
  | _ n ih =>
      rcases line_or x with h | ⟨l, r, hl, rfl⟩
      · rw [linesOf_append h, linesOf_line h]
        rfl
      · have := ih r.length (by simp at hn; omega) r rfl
        rw [List.append_assoc, List.cons_append, linesOf_append hl, linesOf_append hl, this]
        rfl

theorem content_split (x y : List Char) : content (x ++ '\n' :: y) = content x ++ content y := by
  simp [content, linesOf_split, List.filter_append]

theorem content_line {l : List Char} (h : '\n' ∉ l) : content l = if Blank l then [] else [l] := by
  simp only [content, linesOf_line h]
  by_cases hb : Blank l <;> simp [hb]

theorem content_blank {t : List Char} (h : Blank t) : content t = [] := by
  generalize hn : t.length = n
  induction n using Nat.strongRecOn generalizing t with
  | _ n ih =>
      rcases line_or t with h' | ⟨l, r, hl, rfl⟩
      · rw [content_line h', if_pos h]
      · have hr : Blank r := fun c hc => h c (by simp [hc])
        have hl' : Blank l := fun c hc => h c (by simp [hc])
        rw [content_split, content_line hl, if_pos hl', ih r.length (by simp at hn; omega) hr rfl]
        rfl

theorem tidy_split {x y : List Char} (h : Tidy (x ++ '\n' :: y)) : Tidy x ∧ Tidy y := by
  unfold Tidy at *
  rw [linesOf_split] at h
  exact ⟨fun l hl => h l (List.mem_append_left _ hl), fun l hl => h l (List.mem_append_right _ hl)⟩

theorem content_mem {t l : List Char} : l ∈ content t ↔ l ∈ linesOf t ∧ ¬ Blank l := by
  simp [content]

/-! ### Runs of spaces -/

theorem blank_append {a b : List Char} : Blank (a ++ b) ↔ Blank a ∧ Blank b := by
  unfold Blank
  simp only [List.mem_append]
  constructor
  · exact fun h => ⟨fun c hc => h c (.inl hc), fun c hc => h c (.inr hc)⟩
  · rintro ⟨h, h'⟩ c (hc | hc)
    · exact h c hc
    · exact h' c hc

theorem drop_blank {a : List Char} (h : Blank a) (t : List Char) :
    (a ++ t).dropWhile isSpace = t.dropWhile isSpace := by
  induction a with
  | nil => rfl
  | cons c cs ih =>
      rw [List.cons_append, List.dropWhile_cons, if_pos (h c (by simp))]
      exact ih fun d hd => h d (by simp [hd])

theorem take_blank {a : List Char} (h : Blank a) (t : List Char) :
    (a ++ t).takeWhile isSpace = a ++ t.takeWhile isSpace := by
  induction a with
  | nil => rfl
  | cons c cs ih =>
      rw [List.cons_append, List.takeWhile_cons, if_pos (h c (by simp)), ih fun d hd => h d (by simp [hd])]
      rfl

theorem blank_take (t : List Char) : Blank (t.takeWhile isSpace) := fun c hc => by
  have := List.all_takeWhile (p := isSpace) (l := t)
  exact List.all_eq_true.1 this c hc

theorem literal_eq {s t r : List Char} : literal s t = some r ↔ t = s ++ r := by
  induction s generalizing t with
  | nil => simp [literal, eq_comm]
  | cons c cs ih =>
      cases t with
      | nil => simp [literal]
      | cons d t =>
          unfold literal
          by_cases h : c = d
          · subst h
            simp [ih]
          · simp [h, Ne.symm h]

/-- `\s*$`. -/
theorem lineEnd_some {t r : List Char} (h : lineEnd t = some r) :
    ∃ s, Blank s ∧ t = s ++ r ∧ (r = [] ∨ ∃ r', r = '\n' :: r') := by
  unfold lineEnd at h
  have ht := List.takeWhile_append_dropWhile (p := isSpace) (l := t)
  have hb := blank_take t
  generalize t.takeWhile isSpace = sp at *
  generalize t.dropWhile isSpace = rest at *
  simp only at h
  split at h
  · rename_i hr
    simp only [List.isEmpty_iff] at hr
    cases h
    exact ⟨sp, hb, by rw [← ht, hr], .inl rfl⟩
  · split at h
    · rename_i hm
      cases h
      rcases line_or_last sp with h | ⟨a, l, hl, rfl⟩
      · exact absurd hm h
      · have e : ((a ++ '\n' :: l).reverse.takeWhile (· != '\n')).reverse = l := by
          rw [List.reverse_append, List.reverse_cons, List.append_assoc]
          have : ∀ (m : List Char), '\n' ∉ m → (m ++ ([('\n' : Char)] ++ a.reverse)).takeWhile (· != '\n') = m := by
            intro m hm
            induction m with
            | nil => simp
            | cons c cs ih =>
                simp only [List.mem_cons, not_or] at hm
                rw [List.cons_append, List.takeWhile_cons, if_pos (by simpa using Ne.symm hm.1), ih hm.2]
          rw [this l.reverse (by simpa using hl), List.reverse_reverse]
        refine ⟨a, (blank_append.1 hb).1, ?_, .inr ⟨_, rfl⟩⟩
        rw [e, ← ht]
        simp
    · cases h

/-- It matches where a line ends. -/
theorem lineEnd_isSome {s t : List Char} (hs : Blank s) (ht : t = [] ∨ ∃ t', t = '\n' :: t') :
    ∃ r, lineEnd (s ++ t) = some r := by
  unfold lineEnd
  simp only [drop_blank hs, take_blank hs]
  split
  · exact ⟨_, rfl⟩
  · rename_i hr
    rcases ht with rfl | ⟨t', rfl⟩
    · simp at hr
    · have : '\n' ∈ s ++ ('\n' :: t').takeWhile isSpace := by
        rw [List.takeWhile_cons, if_pos (by decide)]
        simp
      rw [if_pos this]
      exact ⟨_, rfl⟩

theorem keyword_some {t r : List Char} (h : keyword t = some r) :
    ∃ a b, Blank a ∧ Blank b ∧ t = a ++ keywordText ++ b ++ r := by
  unfold keyword at h
  simp only [Option.map_eq_some_iff, literal_eq] at h
  obtain ⟨u, hu, rfl⟩ := h
  have ht := List.takeWhile_append_dropWhile (p := isSpace) (l := t)
  have hu' := List.takeWhile_append_dropWhile (p := isSpace) (l := u)
  refine ⟨_, _, blank_take t, blank_take u, ?_⟩
  rw [List.append_assoc, hu', List.append_assoc, ← hu, ht]

theorem keyword_eq {a b r : List Char} (ha : Blank a) (hb : Blank b) (hr : ∀ c ∈ r.head?, isSpace c = false) :
    keyword (a ++ keywordText ++ b ++ r) = some r := by
  have e : r.dropWhile isSpace = r := by
    cases r with
    | nil => rfl
    | cons c cs => rw [List.dropWhile_cons, if_neg]; simp [hr c (by simp)]
  unfold keyword
  rw [List.append_assoc, List.append_assoc, drop_blank ha]
  have : (keywordText ++ (b ++ r)).dropWhile isSpace = keywordText ++ (b ++ r) := by
    show List.dropWhile isSpace ('#' :: _) = _
    rw [List.dropWhile_cons, if_neg (by decide)]
    rfl
  rw [this, literal_eq.2 rfl, Option.map_some, drop_blank hb, e]

/-- What both patterns are: a keyword, a name in brackets, the end of the line. -/
structure Shape (pattern : List Char → Option (List Char × List Char)) (opn cls : Char)
    (named : List Char → Prop) : Prop where
  found : ∀ {t name r}, pattern t = some (name, r) → named name ∧ ∃ a b u, Blank a ∧ Blank b ∧
    t = a ++ keywordText ++ b ++ opn :: name ++ cls :: u ∧ lineEnd u = some r
  finds : ∀ {a b name u r}, Blank a → Blank b → named name → lineEnd u = some r →
    pattern (a ++ keywordText ++ b ++ opn :: name ++ cls :: u) = some (name, r)
  brackets : '\n' ≠ opn ∧ '\n' ≠ cls
  oneLine : ∀ {a b name u}, Blank a → Blank b → named name →
    Tidy (a ++ keywordText ++ b ++ opn :: name ++ cls :: u) → '\n' ∉ b ∧ '\n' ∉ name

theorem take_until {p : Char → Bool} {name u : List Char} {c : Char} (hn : ∀ x ∈ name, p x = true)
    (hc : p c = false) :
    (name ++ c :: u).takeWhile p = name ∧ (name ++ c :: u).dropWhile p = c :: u := by
  induction name with
  | nil => simp [hc]
  | cons x xs ih =>
      have := ih fun y hy => hn y (by simp [hy])
      simp [hn x (by simp), this.1, this.2]

/-- In a tidy text there is something behind the keyword. -/
theorem tidy_gap {a b t : List Char} (ha : Blank a) (hb : Blank b)
    (h : Tidy (a ++ keywordText ++ b ++ t)) : '\n' ∉ b := by
  intro hn
  rcases line_or b with h' | ⟨b1, b2, hb1, rfl⟩
  · exact h' hn
  have kw : '\n' ∉ keywordText := by decide
  have hb1' : Blank b1 := (blank_append.1 hb).1
  rcases line_or_last a with ha' | ⟨a1, a2, ha2, rfl⟩
  · have : Tidy ((a ++ keywordText ++ b1) ++ '\n' :: (b2 ++ t)) := by simpa using h
    refine (tidy_split this).1 _ (by rw [linesOf_line (by simp_all)]; simp) ⟨a, b1, ha, hb1', .inl rfl⟩
  · have : Tidy (a1 ++ '\n' :: ((a2 ++ keywordText ++ b1) ++ '\n' :: (b2 ++ t))) := by simpa using h
    refine (tidy_split (tidy_split this).2).1 _ (by rw [linesOf_line (by simp_all)]; simp)
      ⟨a2, b1, fun c hc => ha c (by simp [hc]), hb1', .inl rfl⟩

/-- And a name in quotes is on one line. -/
theorem tidy_name {a b n t : List Char} (ha : Blank a) (hb : Blank b) (hn : '"' ∉ n)
    (h : Tidy (a ++ keywordText ++ b ++ '"' :: n ++ t)) : '\n' ∉ n := by
  have hbn : '\n' ∉ b := tidy_gap (t := '"' :: n ++ t) ha hb (by simpa using h)
  intro hm
  rcases line_or n with h' | ⟨n1, n2, hn1, rfl⟩
  · exact h' hm
  have kw : '\n' ∉ keywordText := by decide
  have hq : ('\n' : Char) ≠ '"' := by decide
  have hn1' : '"' ∉ n1 := fun h => hn (by simp [h])
  rcases line_or_last a with ha' | ⟨a1, a2, ha2, rfl⟩
  · have : Tidy ((a ++ keywordText ++ b ++ '"' :: n1) ++ '\n' :: (n2 ++ t)) := by simpa using h
    refine (tidy_split this).1 _ (by rw [linesOf_line (by simp_all)]; simp) ⟨a, b, ha, hb, .inr ⟨n1, hn1', rfl⟩⟩
  · have : Tidy (a1 ++ '\n' :: ((a2 ++ keywordText ++ b ++ '"' :: n1) ++ '\n' :: (n2 ++ t))) := by
      simpa using h
    refine (tidy_split (tidy_split this).2).1 _ (by rw [linesOf_line (by simp_all)]; simp)
      ⟨a2, b, fun c hc => ha c (by simp [hc]), hb, .inr ⟨n1, hn1', rfl⟩⟩

theorem quoted_shape : Shape quoted '"' '"' fun name => name ≠ [] ∧ '"' ∉ name where
  found := by
    intro t name r h
    unfold quoted at h
    simp only [Option.bind_eq_some_iff] at h
    obtain ⟨t1, h1, t2, h2, h3⟩ := h
    obtain ⟨a, b, ha, hb, rfl⟩ := keyword_some h1
    rw [literal_eq] at h2
    subst h2
    have ht := List.takeWhile_append_dropWhile (p := (· != '"')) (l := t2)
    have hn : '"' ∉ t2.takeWhile (· != '"') := by
      intro hm
      have := List.all_eq_true.1 (List.all_takeWhile (p := (· != '"')) (l := t2)) _ hm
      simp at this
    generalize t2.takeWhile (· != '"') = n at *
    generalize t2.dropWhile (· != '"') = m at *
    split at h3
    · cases h3
    · rename_i hne
      simp only [Option.bind_eq_some_iff, Option.map_eq_some_iff, Prod.mk.injEq, literal_eq] at h3
      obtain ⟨u, rfl, r', hr, rfl, rfl⟩ := h3
      refine ⟨⟨by simpa using hne, hn⟩, a, b, u, ha, hb, ?_, hr⟩
      rw [← ht]
      simp
  finds := by
    intro a b name u r ha hb hn hr
    unfold quoted
    rw [List.append_assoc _ ('"' :: name), List.cons_append, keyword_eq ha hb (by simp; decide)]
    have := take_until (p := (· != '"')) (name := name) (u := u) (c := '"')
      (by intro x hx; simp only [bne_iff_ne, ne_eq]; rintro rfl; exact hn.2 hx) (by decide)
    simp only [Option.bind_some, literal, if_true, this.1, this.2, hr, Option.map_some]
    rw [if_neg (by simpa using hn.1)]
  brackets := by decide
  oneLine := by
    intro a b name u ha hb hn h
    exact ⟨tidy_gap (t := '"' :: name ++ '"' :: u) ha hb (by simpa using h), tidy_name ha hb hn.2 h⟩

theorem angled_shape : Shape angled '<' '>' fun name => name ≠ [] ∧ ∀ c ∈ name, isWord c = true where
  found := by
    intro t name r h
    unfold angled at h
    simp only [Option.bind_eq_some_iff] at h
    obtain ⟨t1, h1, t2, h2, h3⟩ := h
    obtain ⟨a, b, ha, hb, rfl⟩ := keyword_some h1
    rw [literal_eq] at h2
    subst h2
    have ht := List.takeWhile_append_dropWhile (p := isWord) (l := t2)
    have hn : ∀ c ∈ t2.takeWhile isWord, isWord c = true :=
      List.all_eq_true.1 (List.all_takeWhile (p := isWord) (l := t2))
    generalize t2.takeWhile isWord = n at *
    generalize t2.dropWhile isWord = m at *
    split at h3
    · cases h3
    · rename_i hne
      simp only [Option.bind_eq_some_iff, Option.map_eq_some_iff, Prod.mk.injEq, literal_eq] at h3
      obtain ⟨u, rfl, r', hr, rfl, rfl⟩ := h3
      refine ⟨⟨by simpa using hne, hn⟩, a, b, u, ha, hb, ?_, hr⟩
      rw [← ht]
      simp
  finds := by
    intro a b name u r ha hb hn hr
    unfold angled
    rw [List.append_assoc _ ('<' :: name), List.cons_append, keyword_eq ha hb (by simp; decide)]
    have := take_until (p := isWord) (name := name) (u := u) (c := '>') hn.2 (by decide)
    simp only [Option.bind_some, literal, if_true, this.1, this.2, hr, Option.map_some]
    rw [if_neg (by simpa using hn.1)]
  brackets := by decide
  oneLine := by
    intro a b name u ha hb hn h
    exact ⟨tidy_gap (t := '<' :: name ++ '>' :: u) ha hb (by simpa using h),
      fun hm => by have := hn.2 _ hm; revert this; decide⟩

/-! ### Substitution -/

/-- The line is a directive of that kind. -/
def IsDirective (opn cls : Char) (named : List Char → Prop) (l : List Char) : Prop :=
  ∃ name, named name ∧ ∃ a b c, Blank a ∧ Blank b ∧ Blank c ∧
    l = a ++ keywordText ++ b ++ opn :: name ++ cls :: c

theorem not_blank_directive {a b t : List Char} : ¬ Blank (a ++ keywordText ++ b ++ t) := by
  intro h
  have := h '#' (by simp [keywordText])
  revert this
  decide

variable {pattern : List Char → Option (List Char × List Char)} {opn cls : Char} {named : List Char → Prop}

theorem sub_nil (b : Bool) : sub pattern b [] = [] := by unfold sub; rfl

theorem sub_line : ∀ {l : List Char}, '\n' ∉ l → sub pattern false l = l
  | [], _ => sub_nil _
  | c :: cs, h => by
      simp only [List.mem_cons, not_or] at h
      rw [sub, beq_false_of_ne (Ne.symm h.1), sub_line h.2]

theorem sub_lines : ∀ {l : List Char}, '\n' ∉ l → ∀ r : List Char,
    sub pattern false (l ++ '\n' :: r) = l ++ '\n' :: sub pattern true r
  | [], _, r => by
      rw [List.nil_append, sub]
      rfl
  | c :: cs, h, r => by
      simp only [List.mem_cons, not_or] at h
      rw [List.cons_append, sub, beq_false_of_ne (Ne.symm h.1), sub_lines h.2]
      rfl

/-- A line that does not match is copied. -/
theorem sub_copy {l : List Char} (hl : '\n' ∉ l) (r : List Char) (h : pattern (l ++ '\n' :: r) = none) :
    sub pattern true (l ++ '\n' :: r) = l ++ '\n' :: sub pattern true r := by
  cases l with
  | nil =>
      rw [List.nil_append] at h ⊢
      rw [sub, h]
      rfl
  | cons c cs =>
      simp only [List.mem_cons, not_or] at hl
      rw [List.cons_append] at h ⊢
      rw [sub, h]
      simp only
      rw [beq_false_of_ne (Ne.symm hl.1), sub_lines hl.2]
      rfl

theorem sub_copy_last {l : List Char} (hl : '\n' ∉ l) (h : pattern l = none) : sub pattern true l = l := by
  cases l with
  | nil => exact sub_nil _
  | cons c cs =>
      simp only [List.mem_cons, not_or] at hl
      rw [sub, h]
      simp only
      rw [beq_false_of_ne (Ne.symm hl.1), sub_line hl.2]

/-- There is nothing on the first line. -/
def FirstBlank (t : List Char) : Prop := Blank (t.takeWhile (· != '\n'))

theorem content_space {t : List Char} (h : FirstBlank t) : content (' ' :: t) = content t := by
  unfold FirstBlank at h
  rcases line_or t with ht | ⟨l, r, hl, rfl⟩
  · have e : t.takeWhile (· != '\n') = t := by
      clear h
      induction t with
      | nil => rfl
      | cons c cs ih =>
          simp only [List.mem_cons, not_or] at ht
          rw [List.takeWhile_cons, if_pos (by simpa using Ne.symm ht.1), ih ht.2]
    rw [e] at h
    rw [content_blank h, content_blank]
    intro c hc
    rcases List.mem_cons.1 hc with rfl | hc
    · decide
    · exact h c hc
  · have e := (take_until (p := (· != '\n')) (name := l) (u := r) (c := '\n')
      (by intro x hx; simp only [bne_iff_ne, ne_eq]; rintro rfl; exact hl hx) (by decide)).1
    rw [e] at h
    rw [← List.cons_append, content_split, content_split, content_blank h, content_blank]
    intro c hc
    rcases List.mem_cons.1 hc with rfl | hc
    · decide
    · exact h c hc

/-- A match is one line with a directive, and blank ones around. -/
theorem match_content (S : Shape pattern opn cls named) {t name r : List Char}
    (h : pattern t = some (name, r)) (ht : Tidy t) :
    ∃ d, IsDirective opn cls named d ∧ content t = d :: content r ∧ Tidy r ∧ r.length < t.length ∧
      (r = [] ∨ ∃ r', r = '\n' :: r') := by
  obtain ⟨hn, a, b, u, ha, hb, rfl, hu⟩ := S.found h
  obtain ⟨hbn, hnn⟩ := S.oneLine ha hb hn ht
  obtain ⟨s, hs, rfl, hr⟩ := lineEnd_some hu
  have kw : '\n' ∉ keywordText := by decide
  have hop : '\n' ≠ opn ∧ '\n' ≠ cls := S.brackets
  have key : ∀ a, Blank a → '\n' ∉ a →
      ∃ d, IsDirective opn cls named d ∧
        content (a ++ keywordText ++ b ++ opn :: name ++ cls :: (s ++ r)) = d :: content r := by
    intro a ha han
    have line : ∀ c, '\n' ∉ c → '\n' ∉ a ++ keywordText ++ b ++ opn :: name ++ cls :: c := by
      intro c hc
      simp only [List.mem_append, List.mem_cons, not_or]
      exact ⟨⟨⟨⟨han, kw⟩, hbn⟩, hop.1, hnn⟩, hop.2, hc⟩
    have dir : ∀ c, Blank c → IsDirective opn cls named
        (a ++ keywordText ++ b ++ opn :: name ++ cls :: c) := fun c hc => ⟨name, hn, a, b, c, ha, hb, hc, rfl⟩
    have nb : ∀ c, ¬ Blank (a ++ keywordText ++ b ++ opn :: name ++ cls :: c) := by
      intro c
      rw [List.append_assoc _ (opn :: name)]
      exact not_blank_directive
    rcases line_or s with hs' | ⟨s1, s2, hs1, rfl⟩
    · rcases hr with rfl | ⟨r', rfl⟩
      · refine ⟨_, dir s hs, ?_⟩
        rw [List.append_nil, content_line (line s hs'), if_neg (nb s)]
        rfl
      · refine ⟨_, dir s hs, ?_⟩
        have e : a ++ keywordText ++ b ++ opn :: name ++ cls :: (s ++ '\n' :: r') =
            (a ++ keywordText ++ b ++ opn :: name ++ cls :: s) ++ '\n' :: r' := by simp
        rw [e, content_split, content_line (line s hs'), if_neg (nb s)]
        rfl
    · have hb1 := (blank_append.1 hs).1
      have hb2 : Blank s2 := fun c hc => hs c (by simp [hc])
      refine ⟨_, dir s1 hb1, ?_⟩
      have e : a ++ keywordText ++ b ++ opn :: name ++ cls :: (s1 ++ '\n' :: s2 ++ r) =
          (a ++ keywordText ++ b ++ opn :: name ++ cls :: s1) ++ '\n' :: (s2 ++ r) := by simp
      rw [e, content_split, content_line (line s1 hs1), if_neg (nb s1)]
      rcases hr with rfl | ⟨r', rfl⟩
      · rw [List.append_nil, content_blank hb2]
        rfl
      · rw [content_split, content_blank hb2]
        rfl
  have htr : Tidy r := by
    rcases hr with rfl | ⟨r', rfl⟩
    · intro l hl
      simp only [linesOf, List.mem_singleton] at hl
      subst hl
      rintro ⟨a, b, _, _, h | ⟨c, _, h⟩⟩ <;> simp [keywordText] at h
    · have : Tidy ((a ++ keywordText ++ b ++ opn :: name ++ cls :: s) ++ '\n' :: r') := by simpa using ht
      have h' := (tidy_split this).2
      intro l hl
      rw [linesOf, if_pos rfl] at hl
      rcases List.mem_cons.1 hl with rfl | hl
      · rintro ⟨a, b, _, _, h | ⟨c, _, h⟩⟩ <;> simp [keywordText] at h
      · exact h' l hl
  rcases line_or_last a with ha' | ⟨a1, a2, ha2, rfl⟩
  · obtain ⟨d, hd, he⟩ := key a ha ha'
    exact ⟨d, hd, he, htr, by simp; omega, hr⟩
  · obtain ⟨d, hd, he⟩ := key a2 (fun c hc => ha c (by simp [hc])) ha2
    refine ⟨d, hd, ?_, htr, by simp; omega, hr⟩
    rw [← he]
    have e : a1 ++ '\n' :: a2 ++ keywordText ++ b ++ opn :: name ++ cls :: (s ++ r) =
        a1 ++ '\n' :: (a2 ++ keywordText ++ b ++ opn :: name ++ cls :: (s ++ r)) := by simp
    rw [e, content_split, content_blank (blank_append.1 ha).1]
    rfl

/-- A line that is a directive matches. -/
theorem directive_match (S : Shape pattern opn cls named) {l r : List Char}
    (h : IsDirective opn cls named l) (hr : r = [] ∨ ∃ r', r = '\n' :: r') : pattern (l ++ r) ≠ none := by
  obtain ⟨name, hn, a, b, c, ha, hb, hc, rfl⟩ := h
  obtain ⟨r', he⟩ := lineEnd_isSome hc hr
  have e : a ++ keywordText ++ b ++ opn :: name ++ cls :: c ++ r =
      a ++ keywordText ++ b ++ opn :: name ++ cls :: (c ++ r) := by simp
  rw [e, S.finds ha hb hn he]
  simp

open Classical in
theorem sub_content (S : Shape pattern opn cls named) : ∀ (n : Nat) (t : List Char), t.length ≤ n → Tidy t →
    content (sub pattern true t) = (content t).filter (fun l => !decide (IsDirective opn cls named l)) ∧
    (FirstBlank t → FirstBlank (sub pattern true t))
  | n, [], _, _ => by
      rw [sub_nil]
      exact ⟨rfl, id⟩
  | 0, _ :: _, h, _ => by simp at h
  | n + 1, c :: cs, hlen, ht => by
      cases hp : pattern (c :: cs) with
      | none =>
          rcases line_or (c :: cs) with hl | ⟨l, r, hl, he⟩
          · rw [sub_copy_last hl hp]
            refine ⟨?_, id⟩
            rw [content_line hl]
            by_cases hb : Blank (c :: cs)
            · simp [hb]
            · have : ¬ IsDirective opn cls named (c :: cs) := by
                intro hd
                have := directive_match S (r := []) hd (.inl rfl)
                rw [List.append_nil] at this
                exact this hp
              simp [hb, this]
          · rw [he] at hp hlen ht ⊢
            rw [sub_copy hl r hp]
            have ih := (sub_content S n r (by simp at hlen; omega) (tidy_split ht).2).1
            have e : ∀ u, (l ++ '\n' :: u).takeWhile (· != '\n') = l := fun u =>
              (take_until (p := (· != '\n')) (name := l) (u := u) (c := '\n')
                (by intro x hx; simp only [bne_iff_ne, ne_eq]; rintro rfl; exact hl hx) (by decide)).1
            refine ⟨?_, fun h => by unfold FirstBlank at h ⊢; rw [e] at h ⊢; exact h⟩
            rw [content_split, content_split, List.filter_append, ih, content_line hl]
            by_cases hb : Blank l
            · simp [hb]
            · have : ¬ IsDirective opn cls named l := fun hd => directive_match S hd (.inr ⟨r, rfl⟩) hp
              simp [hb, this]
      | some q =>
          obtain ⟨name, r⟩ := q
          obtain ⟨d, hd, hc, htr, hlt, hr⟩ := match_content S hp ht
          have hlt' : r.length ≤ cs.length := by simp at hlt; omega
          rw [sub, hp]
          simp only [hlt', if_true]
          rw [hc]
          have fb : ∀ b, content (sub pattern b r) =
              (content r).filter (fun l => !decide (IsDirective opn cls named l)) ∧ FirstBlank (sub pattern b r) := by
            intro b
            rcases hr with rfl | ⟨r', rfl⟩
            · rw [sub_nil]
              exact ⟨rfl, by intro c hc; simp at hc⟩
            · cases b with
              | true =>
                  have := sub_content S n ('\n' :: r') (by simp at hlt' hlen ⊢; omega) htr
                  exact ⟨this.1, this.2 (by intro c hc; simp at hc)⟩
              | false =>
                  have := sub_content S n r' (by simp at hlt' hlen ⊢; omega) (tidy_split (x := []) htr).2
                  have h1 : sub pattern false ('\n' :: r') = [] ++ '\n' :: sub pattern true r' := by
                    rw [sub]; rfl
                  have h2 : content ('\n' :: r') = content ([] ++ '\n' :: r') := rfl
                  rw [h1, h2, content_split, content_split, this.1]
                  exact ⟨rfl, by intro c hc; simp at hc⟩
          obtain ⟨h1, h2⟩ := fb (((c :: cs).take (cs.length + 1 - r.length)).getLast? == some '\n')
          refine ⟨?_, ?_⟩
          · rw [content_space h2, h1]
            simp [hd]
          · intro _
            unfold FirstBlank at h2 ⊢
            intro x hx
            rw [List.takeWhile_cons, if_pos (by decide)] at hx
            rcases List.mem_cons.1 hx with rfl | hx
            · decide
            · exact h2 x hx

/-! ### Reading the lines of a file -/

theorem not_dangling_blank {l : List Char} (h : Blank l) : ¬ Dangling l := by
  rintro ⟨a, b, _, _, rfl | ⟨c, _, rfl⟩⟩
  · exact not_blank_directive (t := []) (by rwa [List.append_nil])
  · exact not_blank_directive h

theorem tidy_iff {t : List Char} : Tidy t ↔ ∀ l ∈ content t, ¬ Dangling l := by
  constructor
  · exact fun h l hl => h l (content_mem.1 hl).1
  · intro h l hl
    by_cases hb : Blank l
    · exact not_dangling_blank hb
    · exact h l (content_mem.2 ⟨hl, hb⟩)

theorem quoted_directive {l : List Char} :
    IsDirective '"' '"' (fun name => name ≠ [] ∧ '"' ∉ name) l ↔ ∃ name, Quoted name l := by
  constructor
  · rintro ⟨name, ⟨h, h'⟩, r⟩
    exact ⟨name, h, h', r⟩
  · rintro ⟨name, h, h', r⟩
    exact ⟨name, ⟨h, h'⟩, r⟩

theorem angled_directive {l : List Char} :
    IsDirective '<' '>' (fun name => name ≠ [] ∧ ∀ c ∈ name, isWord c = true) l ↔ ∃ name, Angled name l := by
  constructor
  · rintro ⟨name, ⟨h, h'⟩, r⟩
    exact ⟨name, h, h', r⟩
  · rintro ⟨name, h, h', r⟩
    exact ⟨name, ⟨h, h'⟩, r⟩

/-- What is left of a file. -/
theorem strip_content {t : List Char} (ht : Tidy t) :
    content (sub angled true (sub quoted true t)) = ownLines t ∧ Tidy (sub quoted true t) := by
  classical
  have h1 := (sub_content quoted_shape _ t (Nat.le_refl _) ht).1
  have ht' : Tidy (sub quoted true t) := by
    rw [tidy_iff, h1]
    intro l hl
    exact tidy_iff.1 ht l (List.mem_filter.1 hl).1
  refine ⟨?_, ht'⟩
  rw [(sub_content angled_shape _ _ (Nat.le_refl _) ht').1, h1, List.filter_filter]
  unfold ownLines
  apply List.filter_congr
  intro l _
  simp only [quoted_directive, angled_directive]
  rw [Bool.eq_iff_iff]
  simp only [Bool.and_eq_true, Bool.not_eq_true', decide_eq_false_iff_not]
  grind

theorem readlines_line : ∀ t : List Char, '\n' ∉ t → t ≠ [] → readlines t = [t]
  | [], _, h => absurd rfl h
  | [c], h, _ => by
      simp only [List.mem_cons, not_or] at h
      rw [readlines, if_neg (Ne.symm h.1)]
      rfl
  | c :: d :: ds, h, _ => by
      rw [List.mem_cons, not_or] at h
      rw [readlines, if_neg (Ne.symm h.1), readlines_line (d :: ds) h.2 (by simp)]

theorem readlines_append (r : List Char) : ∀ l : List Char, '\n' ∉ l →
    readlines (l ++ '\n' :: r) = (l ++ ['\n']) :: readlines r
  | [], _ => by rw [List.nil_append, readlines, if_pos rfl]; rfl
  | c :: cs, h => by
      simp only [List.mem_cons, not_or] at h
      rw [List.cons_append, readlines, if_neg (Ne.symm h.1), readlines_append r cs h.2]
      rfl

theorem mem_readlines {t x : List Char} : x ∈ readlines t →
    ∃ l ∈ linesOf t, '\n' ∉ l ∧ (x = l ∨ x = l ++ ['\n']) := by
  generalize hn : t.length = n
  induction n using Nat.strongRecOn generalizing t with
  | _ n ih =>
      intro h
      rcases line_or t with ht | ⟨l, r, hl, rfl⟩
      · cases t with
        | nil => simp [readlines] at h
        | cons c cs =>
            rw [readlines_line _ ht (by simp)] at h
            simp only [List.mem_singleton] at h
            exact ⟨c :: cs, by rw [linesOf_line ht]; simp, ht, .inl h⟩
      · rw [readlines_append r l hl] at h
        rw [linesOf_append hl]
        rcases List.mem_cons.1 h with rfl | h
        · exact ⟨l, by simp, hl, .inr rfl⟩
        · obtain ⟨l', hl', h1, h2⟩ := ih r.length (by simp at hn; omega) rfl h
          exact ⟨l', by simp [hl'], h1, h2⟩

theorem readlines_mem {t l : List Char} (hl : l ∈ linesOf t) (hne : l ≠ []) :
    '\n' ∉ l ∧ (l ∈ readlines t ∨ (l ++ ['\n']) ∈ readlines t) := by
  generalize hn : t.length = n
  induction n using Nat.strongRecOn generalizing t with
  | _ n ih =>
      rcases line_or t with ht | ⟨l', r, hl', rfl⟩
      · rw [linesOf_line ht] at hl
        simp only [List.mem_singleton] at hl
        subst hl
        refine ⟨ht, .inl ?_⟩
        rw [readlines_line l ht hne]
        simp
      · rw [readlines_append r l' hl']
        rw [linesOf_append hl'] at hl
        rcases List.mem_cons.1 hl with rfl | hl
        · exact ⟨hl', .inr (by simp)⟩
        · obtain ⟨h1, h2⟩ := ih r.length (by simp at hn; omega) hl rfl
          exact ⟨h1, h2.imp (List.mem_cons_of_mem _) (List.mem_cons_of_mem _)⟩

theorem first_line : ∀ {l x r : List Char}, '\n' ∉ l → l ++ '\n' :: [] = x ++ '\n' :: r → l = x
  | [], [], _, _, _ => rfl
  | [], c :: cs, _, _, h => by
      simp only [List.nil_append, List.cons_append, List.cons.injEq] at h
      have := h.2
      simp at this
  | c :: cs, [], _, hl, h => by
      simp only [List.nil_append, List.cons_append, List.cons.injEq] at h
      exact absurd (by simp [h.1]) hl
  | c :: cs, d :: ds, _, hl, h => by
      simp only [List.cons_append, List.cons.injEq] at h
      rw [h.1, first_line (fun hm => hl (by simp [hm])) h.2]

/-- A line matches if it is a directive. -/
theorem line_match (S : Shape pattern opn cls named) {l x name : List Char} (hl : '\n' ∉ l)
    (hx : x = l ∨ x = l ++ ['\n']) :
    (∃ r, pattern x = some (name, r)) ↔ named name ∧ ∃ a b c, Blank a ∧ Blank b ∧ Blank c ∧
      l = a ++ keywordText ++ b ++ opn :: name ++ cls :: c := by
  constructor
  · rintro ⟨r, h⟩
    obtain ⟨hn, a, b, u, ha, hb, e, hu⟩ := S.found h
    obtain ⟨s, hs, rfl, hr⟩ := lineEnd_some hu
    refine ⟨hn, a, b, ?_⟩
    rcases hx with rfl | rfl
    · rcases hr with rfl | ⟨r', rfl⟩
      · exact ⟨s, ha, hb, hs, by simpa using e⟩
      · rw [e] at hl
        simp at hl
    · rcases hr with rfl | ⟨r', rfl⟩
      · rw [List.append_nil] at e
        -- the line end is the last space
        rcases List.eq_nil_or_concat s with rfl | ⟨s', z, rfl⟩
        · have := List.append_inj' e (by simp)
          simp only [List.cons.injEq, and_true] at this
          exact absurd this.2 S.brackets.2
        · rw [List.concat_eq_append, ← List.cons_append, ← List.append_assoc] at e
          have := (List.append_inj' e (by simp)).1
          exact ⟨s', ha, hb, (blank_append.1 (by rw [← List.concat_eq_append]; exact hs)).1, this⟩
      · have e' : l ++ '\n' :: [] = (a ++ keywordText ++ b ++ opn :: name ++ cls :: s) ++ '\n' :: r' := by
          rw [e]; simp
        exact ⟨s, ha, hb, hs, first_line hl e'⟩
  · rintro ⟨hn, a, b, c, ha, hb, hc, rfl⟩
    rcases hx with rfl | rfl
    · obtain ⟨r, hr⟩ := lineEnd_isSome (t := []) hc (.inl rfl)
      rw [List.append_nil] at hr
      exact ⟨r, S.finds ha hb hn hr⟩
    · obtain ⟨r, hr⟩ := lineEnd_isSome (t := ['\n']) hc (.inr ⟨[], rfl⟩)
      refine ⟨r, ?_⟩
      have := S.finds ha hb hn hr
      simpa using this

end S2S.Amalgam
