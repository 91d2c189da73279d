import Verif.Spec.Nav
/-
The navigation, read line by line.
-/
namespace S2S.Nav
open Amalgam (isSpace isWord)

theorem colon_not_name : isNameChar ':' = false := by decide
theorem colon_not_space : isSpace ':' = false := by decide

theorem name_not_space {c : Char} (h : isNameChar c = true) : isSpace c = false := by
  simp only [isNameChar, isWord, Bool.or_eq_true, beq_iff_eq, Char.isAlphanum, Char.isAlpha,
    Char.isUpper, Char.isLower, Char.isDigit, Bool.and_eq_true, decide_eq_true_eq] at h
  have hn : (48 ≤ c.toNat ∧ c.toNat ≤ 57) ∨ (65 ≤ c.toNat ∧ c.toNat ≤ 90) ∨ (97 ≤ c.toNat ∧ c.toNat ≤ 122) ∨
      c.toNat = 95 ∨ c.toNat = 46 ∨ c.toNat = 47 ∨ c.toNat = 45 := by
    have e : ∀ d : Char, c.val ≤ d.val ↔ c.toNat ≤ d.toNat := fun _ => Iff.rfl
    have e' : ∀ d : Char, c.val ≥ d.val ↔ d.toNat ≤ c.toNat := fun _ => Iff.rfl
    rcases h with ((((h | h) | rfl) | rfl) | rfl) | rfl
    · simp only [e, e'] at h
      rcases h with h | h
      · exact .inr (.inl h)
      · exact .inr (.inr (.inl h))
    · simp only [e, e'] at h
      exact .inl h
    all_goals simp
  simp only [isSpace, Bool.or_eq_false_iff, Bool.and_eq_false_iff, decide_eq_false_iff_not, beq_eq_false_iff_ne]
  omega

theorem mem_takeWhile {p : Char → Bool} {t : Line} {c : Char} (h : c ∈ t.takeWhile p) : p c = true := by
  induction t with
  | nil => cases h
  | cons d t ih =>
    simp only [List.takeWhile_cons] at h
    split at h
    · rename_i hd
      rcases List.mem_cons.1 h with rfl | h
      · exact hd
      · exact ih h
    · cases h

theorem span_eq {p : Char → Bool} {a b : Line} (ha : ∀ c ∈ a, p c = true) (hb : ∀ c, b.head? = some c → p c = false) :
    (a ++ b).takeWhile p = a ∧ (a ++ b).dropWhile p = b := by
  induction a with
  | nil =>
    cases b with
    | nil => simp
    | cons c cs => simp [hb c rfl]
  | cons c cs ih =>
    have := ih fun c hc => ha c (by simp [hc])
    simp [ha c (by simp), this]

theorem dropWhile_head {p : Char → Bool} (t : Line) (c : Char) (h : (t.dropWhile p).head? = some c) : p c = false := by
  induction t with
  | nil => cases h
  | cons d t ih =>
    simp only [List.dropWhile_cons] at h
    split at h
    · exact ih h
    · rename_i hd; cases h; simpa using hd

theorem entryAfter_iff (t page : Line) : entryAfter t = some page ↔
    ∃ sp sp' stem : Line, t = sp ++ page ++ sp' ∧ (∀ c ∈ sp, isSpace c = true) ∧
      (∀ c ∈ sp', isSpace c = true) ∧ stem ≠ [] ∧ (∀ c ∈ stem, isNameChar c = true) ∧
      page = stem ++ ".md".toList := by
  have hmd : ∀ c ∈ ".md".toList, isNameChar c = true := by decide
  constructor
  · intro h
    simp only [entryAfter] at h
    split at h
    · rename_i hc
      cases h
      simp only [Bool.and_eq_true, List.all_eq_true, decide_eq_true_eq, beq_iff_eq] at hc
      obtain ⟨⟨h1, h2⟩, h3⟩ := hc
      generalize hn : (t.dropWhile isSpace).takeWhile isNameChar = name at *
      refine ⟨t.takeWhile isSpace, (t.dropWhile isSpace).dropWhile isNameChar, name.take (name.length - 3), ?_, ?_, h1, ?_, ?_, ?_⟩
      · rw [← hn, List.append_assoc, List.takeWhile_append_dropWhile, List.takeWhile_append_dropWhile]
      · intro c hc; exact mem_takeWhile hc
      · intro h; have := congrArg List.length h; simp at this; omega
      · intro c hc
        have := List.mem_of_mem_take hc
        rw [← hn] at this
        exact mem_takeWhile this
      · rw [← h3, List.take_append_drop]
    · cases h
  · rintro ⟨sp, sp', stem, rfl, h1, h2, h3, h4, rfl⟩
    have hp : ∀ c ∈ stem ++ ".md".toList, isNameChar c = true := by
      intro c hc
      rcases List.mem_append.1 hc with hc | hc
      · exact h4 c hc
      · exact hmd c hc
    have e1 := (span_eq (p := isSpace) (b := (stem ++ ".md".toList) ++ sp') h1 (fun c hc => by
      apply name_not_space
      cases stem with
      | nil => exact absurd rfl h3
      | cons d ds => cases hc; exact h4 _ (by simp))).2
    have e2 := span_eq (p := isNameChar) (b := sp') hp (fun c hc => by
      cases hn : isNameChar c with
      | false => rfl
      | true =>
        have := name_not_space hn
        rw [h2 c (List.mem_of_mem_head? hc)] at this
        cases this)
    simp only [entryAfter]
    rw [List.append_assoc, e1, e2.1, e2.2, if_pos]
    simp only [Bool.and_eq_true, List.all_eq_true, decide_eq_true_eq, beq_iff_eq]
    refine ⟨⟨h2, ?_⟩, ?_⟩
    · have : 0 < stem.length := List.length_pos_iff.2 h3
      simp; omega
    · have : (stem ++ ".md".toList).length - 3 = stem.length := by simp
      rw [this, List.drop_left]

/-- A page has no colon, so there is one place to match. -/
theorem searchEntry_iff (line page : Line) : searchEntry line = some page ↔ Entry line page := by
  have hcolon : ∀ {t : Line} {page}, entryAfter t = some page → ':' ∉ t := by
    intro t page h hm
    obtain ⟨sp, sp', stem, rfl, h1, h2, _, h4, rfl⟩ := (entryAfter_iff t page).1 h
    simp only [List.mem_append] at hm
    rcases hm with (hm | hm | hm) | hm
    · have := h1 _ hm; exact absurd this (by decide)
    · have := h4 _ hm; exact absurd this (by decide)
    · exact absurd hm (by decide)
    · have := h2 _ hm; exact absurd this (by decide)
  induction line with
  | nil =>
    simp only [searchEntry, Entry]
    constructor
    · nofun
    · rintro ⟨_, _, _, _, h, _⟩; simp at h
  | cons c cs ih =>
    rw [searchEntry]
    have hstep : Entry (c :: cs) page ↔ (c = ':' ∧ entryAfter cs = some page) ∨ Entry cs page := by
      constructor
      · rintro ⟨before, sp, sp', stem, h, hr⟩
        cases before with
        | nil =>
          cases h
          exact .inl ⟨rfl, (entryAfter_iff _ _).2 ⟨sp, sp', stem, rfl, hr⟩⟩
        | cons b bs =>
          cases h
          exact .inr ⟨bs, sp, sp', stem, rfl, hr⟩
      · rintro (⟨rfl, h⟩ | ⟨before, sp, sp', stem, rfl, hr⟩)
        · obtain ⟨sp, sp', stem, rfl, hr⟩ := (entryAfter_iff _ _).1 h
          exact ⟨[], sp, sp', stem, rfl, hr⟩
        · exact ⟨c :: before, sp, sp', stem, rfl, hr⟩
    rw [hstep]
    split
    · rename_i hc
      cases he : entryAfter cs with
      | some name =>
        simp only [hc, Option.some.injEq, true_and]
        constructor
        · exact .inl
        · rintro (h | ⟨_, _, _, _, rfl, _⟩)
          · exact h
          · exact absurd (by simp) (hcolon he)
      | none => simp [ih]
    · rename_i hc
      simp [ih, hc]

theorem isKey_iff (line : Line) : isKey line = true ↔ NewKey line := by
  cases line with
  | nil => simp [isKey, NewKey]
  | cons c cs =>
    simp only [isKey, NewKey, Bool.and_eq_true, Bool.not_eq_true', List.cons.injEq]
    constructor
    · rintro ⟨h1, h2⟩
      refine ⟨c, cs, ⟨rfl, rfl⟩, h1, ?_⟩
      rintro rfl
      simp [h1] at h2
    · rintro ⟨_, _, ⟨rfl, rfl⟩, h1, h2⟩
      refine ⟨h1, ?_⟩
      simp [h1, List.isPrefixOf, beq_eq_false_iff_ne]
      exact fun h => h2 (Eq.symm h)

theorem rstrip_iff (t : Line) : rstrip t = "nav:".toList ↔
    ∃ sp : Line, t = "nav:".toList ++ sp ∧ ∀ c ∈ sp, isSpace c = true := by
  constructor
  · intro h
    refine ⟨(t.reverse.takeWhile isSpace).reverse, ?_, ?_⟩
    · rw [← h, rstrip, ← List.reverse_append, List.takeWhile_append_dropWhile, List.reverse_reverse]
    · intro c hc
      exact mem_takeWhile (List.mem_reverse.1 hc)
  · rintro ⟨sp, rfl, h⟩
    rw [rstrip, List.reverse_append, (span_eq (p := isSpace) (fun c hc => h c (List.mem_reverse.1 hc)) ?_).2,
      List.reverse_reverse]
    intro c hc
    have : c = ':' := by
      have h1 : ("nav:".toList).reverse.head? = some ':' := by decide
      rw [h1] at hc; cases hc; rfl
    rw [this]; decide

theorem pagesOf_part (part after : List Line) (h1 : ∀ l ∈ part, ¬ NewKey l)
    (h2 : ∀ l, after.head? = some l → NewKey l) : Lists part (pagesOf (part ++ after)) := by
  induction part with
  | nil =>
    cases after with
    | nil => exact .nil
    | cons l ls =>
      rw [List.nil_append, pagesOf, if_pos ((isKey_iff l).2 (h2 l rfl))]
      exact .nil
  | cons l ls ih =>
    have ih := ih fun l h => h1 l (by simp [h])
    rw [List.cons_append, pagesOf, if_neg (fun h => h1 l (by simp) ((isKey_iff l).1 h))]
    cases hs : searchEntry l with
    | some page => exact .entry ((searchEntry_iff _ _).1 hs) ih
    | none => exact .other (fun page h => by rw [← searchEntry_iff, hs] at h; cases h) ih

theorem lists_unique {lines pages pages' : List Line} (h : Lists lines pages) (h' : Lists lines pages') :
    pages = pages' := by
  induction h generalizing pages' with
  | nil => cases h'; rfl
  | entry he _ ih =>
    cases h' with
    | entry he' h' =>
      rw [← searchEntry_iff] at he he'
      rw [he] at he'
      cases he'
      rw [ih h']
    | other hn _ => exact absurd he (hn _)
  | other hn _ ih =>
    cases h' with
    | entry he' _ => exact absurd he' (hn _)
    | other _ h' => exact ih h'

theorem navPages_part {file part : List Line} (h : NavPart file part) : Lists part (navPages file) := by
  obtain ⟨before, sp, after, rfl, h1, h2, h3, h4⟩ := h
  induction before with
  | nil =>
    rw [List.nil_append, navPages, if_pos (by rw [beq_iff_eq, rstrip_iff]; exact ⟨sp, rfl, h1⟩)]
    exact pagesOf_part part after h3 h4
  | cons l ls ih =>
    rw [List.cons_append, navPages, if_neg]
    · exact ih fun l h => h2 l (by simp [h])
    · rw [beq_iff_eq, rstrip_iff]
      rintro ⟨sp', h5, h6⟩
      exact h2 l (by simp) sp' h6 h5

theorem navPages_none {file : List Line} (h : ∀ l ∈ file, ∀ sp : Line, (∀ c ∈ sp, isSpace c = true) →
    l ≠ "nav:".toList ++ sp) : navPages file = [] := by
  induction file with
  | nil => rfl
  | cons l ls ih =>
    rw [navPages, if_neg]
    · exact ih fun l h' => h l (by simp [h'])
    · rw [beq_iff_eq, rstrip_iff]
      rintro ⟨sp, h5, h6⟩
      exact h l (by simp) sp h6 h5

theorem problems_mem (listed onDisk : List Line) (page : Line) :
    (.unlisted page ∈ problems listed onDisk ↔ page ∈ onDisk ∧ page ∉ listed) ∧
    (.missing page ∈ problems listed onDisk ↔ page ∈ listed ∧ page ∉ onDisk) ∧
    (.twice page ∈ problems listed onDisk ↔ 1 < listed.count page) := by
  simp only [problems, List.mem_append, List.mem_map, List.mem_filter, List.mem_eraseDups]
  refine ⟨by simp, by simp, ?_⟩
  simp
  intro h
  exact List.count_pos_iff.1 (by omega)

end S2S.Nav
