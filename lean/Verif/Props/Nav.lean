import Verif.Lemmas.Nav
/-
C129: the check of the navigation.
-/
namespace S2S.Props
open Nav

/-- C129, the problems: exactly the pages that no entry is for, the entries without a page, and
the pages listed more than once are reported. -/
theorem C129_problems (file part pages onDisk : List Line) (hp : NavPart file part)
    (hl : Lists part pages) (page : Line) :
    (.unlisted page ∈ problems (navPages file) onDisk ↔ page ∈ onDisk ∧ page ∉ pages) ∧
    (.missing page ∈ problems (navPages file) onDisk ↔ page ∈ pages ∧ page ∉ onDisk) ∧
    (.twice page ∈ problems (navPages file) onDisk ↔ 1 < pages.count page) := by
  rw [lists_unique hl (navPages_part hp)]
  exact problems_mem _ _ page

/-- C129, the verdict: the script returns 0 exactly if the entries of the navigation are the pages
on disk, each once, in some order. -/
theorem C129_passes (file part pages onDisk : List Line) (hp : NavPart file part)
    (hl : Lists part pages) (hd : onDisk.Nodup) :
    Nav.main (some file) onDisk = 0 ↔ pages.Perm onDisk := by
  have h := fun page => C129_problems file part pages onDisk hp hl page
  rw [Nav.main]
  have h1 : (if (problems (navPages file) onDisk).isEmpty then 0 else 1) = 0 ↔
      ∀ x, x ∉ problems (navPages file) onDisk := by
    rw [← List.eq_nil_iff_forall_not_mem, ← List.isEmpty_iff]
    split <;> simp_all
  rw [h1, List.perm_iff_count]
  constructor
  · intro hx p
    have a := mt (h p).1.2 (hx _)
    have b := mt (h p).2.1.2 (hx _)
    have hn : pages.Nodup := List.nodup_iff_count.2 fun p => by
      have c := mt (h p).2.2.2 (hx _)
      omega
    rw [hn.count, hd.count]
    by_cases h1 : p ∈ pages <;> by_cases h2 : p ∈ onDisk <;> simp_all
  · intro hx x
    have hm : ∀ p, p ∈ pages ↔ p ∈ onDisk := fun p => by
      rw [← List.count_pos_iff, ← List.count_pos_iff, hx]
    cases x with
    | unlisted p => rw [(h p).1, hm]; exact fun h => h.2 h.1
    | missing p => rw [(h p).2.1, hm]; exact fun h => h.2 h.1
    | twice p =>
      rw [(h p).2.2, hx, hd.count]
      split <;> omega

/-- C129, without a navigation: the script returns 0 exactly if there are no pages. Without the
file it returns 1. -/
theorem C129_no_nav (file onDisk : List Line)
    (h : ∀ l ∈ file, ∀ sp : Line, (∀ c ∈ sp, Amalgam.isSpace c = true) → l ≠ "nav:".toList ++ sp) :
    (Nav.main (some file) onDisk = 0 ↔ onDisk = []) ∧ Nav.main none onDisk = 1 := by
  refine ⟨?_, rfl⟩
  rw [Nav.main, navPages_none h]
  cases onDisk <;> simp [problems]

/-- C129, comments: if no comment in the navigation looks like an entry, the entries are those of
the lines that are not comments. -/
theorem C129_uncommented (part pages : List Line) (hl : Lists part pages)
    (hc : ∀ l ∈ part, Comment l → ∀ page, ¬ Entry l page) (keep : Line → Bool)
    (hk : ∀ l, keep l = false → Comment l) : Lists (part.filter keep) pages := by
  induction hl with
  | nil => exact .nil
  | @entry line lines page pages he _ ih =>
    have ih := ih fun l h => hc l (by simp [h])
    have : keep line = true := by
      cases hkl : keep line with
      | true => rfl
      | false => exact absurd he (hc line (by simp) (hk line hkl) page)
    rw [List.filter_cons, if_pos this]
    exact .entry he ih
  | @other line lines pages hn _ ih =>
    have ih := ih fun l h => hc l (by simp [h])
    rw [List.filter_cons]
    split
    · exact .other hn ih
    · exact ih

example : Lists (["  - Overview: index.md".toList, " # see below".toList].filter fun l => l != " # see below".toList)
    ["index.md".toList] := by
  have hn : ∀ page, ¬ Entry " # see below".toList page := fun page h => by
    rw [← searchEntry_iff] at h; exact absurd h (by simp [searchEntry])
  refine C129_uncommented _ _ (.entry ((searchEntry_iff _ _).1 (by decide +kernel)) (.other hn .nil)) ?_ _ ?_
  · intro l hl hc page he
    simp only [List.mem_cons, List.not_mem_nil, or_false] at hl
    rcases hl with rfl | rfl
    · obtain ⟨sp, rest, h, _⟩ := hc
      exact absurd (show '#' ∈ "  - Overview: index.md".toList by rw [h]; simp) (by decide)
    · exact hn page he
  · intro l hl
    simp only [bne_eq_false_iff_eq] at hl
    exact ⟨[' '], " see below".toList, hl, by decide⟩

/-- The navigation of the repository (/repo/docs/mkdocs.yml 44-61) and its pages. -/
def ourFile : List Line := ["site_name: s2s", "docs_dir: .", "", "nav:", "  - Overview: index.md",
  "  - The meta-struct: struct.md", "  - Schema:", "      - Fields and axes: schema/index.md",
  "      - The size axis: schema/size-axis.md", "      - Computed values: schema/computed-values.md",
  "      - Optional and variant fields: schema/optional-and-variant.md",
  "  - Constraints and validation: constraints.md", "  - Reading: reading.md", "  - Writing: writing.md",
  "  - Streams: streams.md", "  - Compile time: compile-time.md", "  - Errors: errors.md",
  "  - Reference: reference.md", "", "markdown_extensions:", "  - admonition"].map String.toList
def ourPages : List Line := ["compile-time.md", "constraints.md", "errors.md", "index.md", "reading.md",
  "reference.md", "schema/computed-values.md", "schema/index.md", "schema/optional-and-variant.md",
  "schema/size-axis.md", "streams.md", "struct.md", "writing.md"].map String.toList

example : Nav.main (some ourFile) ourPages = 0 := by decide +kernel

def smallNav : List Line := ["  - Overview: index.md", "", "# - Old: old.md"].map String.toList
def smallFile : List Line := ["site_name: s2s".toList, "nav: ".toList] ++ smallNav ++ ["strict: true".toList]

theorem smallNav_part : NavPart smallFile smallNav := by
  refine ⟨["site_name: s2s".toList], [' '], ["strict: true".toList], rfl, by decide, ?_, ?_, ?_⟩
  · intro l hl sp _ h
    simp only [List.mem_singleton] at hl
    subst hl
    have := congrArg List.head? h
    exact absurd this (by simp)
  · intro l hl h
    have h1 : ∀ l ∈ smallNav, isKey l = false := by decide +kernel
    have h2 := (isKey_iff l).2 h
    rw [h1 l hl] at h2
    cases h2
  · intro l hl
    cases hl
    exact ⟨'s', _, rfl, by decide, by decide⟩

theorem smallNav_lists : Lists smallNav ["index.md".toList, "old.md".toList] :=
  .entry ((searchEntry_iff _ _).1 (by decide +kernel)) (.other
    (fun page h => by rw [← searchEntry_iff] at h; exact absurd h (by simp [searchEntry]))
    (.entry ((searchEntry_iff _ _).1 (by decide +kernel)) .nil))

/-- The check is not what its first line says it is: an entry that is commented out counts. A page
nobody can reach passes. -/
theorem C129_fails_comment : Comment (smallNav.getLast (by decide)) ∧
    Nav.main (some smallFile) ["index.md".toList, "old.md".toList] = 0 :=
  ⟨⟨[], _, rfl, nofun⟩,
    (C129_passes smallFile smallNav _ _ smallNav_part smallNav_lists (by decide +kernel)).2 (.refl _)⟩

/-- Nor does it see every entry: one without a title is reported as missing. -/
theorem C129_fails_untitled :
    .unlisted "index.md".toList ∈
      problems (navPages (["nav:", "  - index.md"].map String.toList)) ["index.md".toList] := by
  decide +kernel

example : .missing "old.md".toList ∈ problems (navPages smallFile) ["index.md".toList] :=
  (C129_problems smallFile smallNav _ _ smallNav_part smallNav_lists "old.md".toList).2.1.2
    (by decide +kernel)

example : Nav.main (some ["site_name: s2s".toList]) [] = 0 :=
  (C129_no_nav ["site_name: s2s".toList] [] (by
    intro l hl sp _ h
    simp only [List.mem_singleton] at hl
    subst hl
    exact absurd (congrArg List.head? h) (by simp))).1.2 rfl

/-- Without the comment the page is reported. -/
example : Nav.main (some (smallFile.filter fun l => l.head? != some '#')) ["index.md".toList, "old.md".toList] = 1 := by
  decide +kernel

example : Nav.main (some smallFile) ["index.md".toList, "old.md".toList] = 0 :=
  (C129_passes smallFile smallNav _ _ smallNav_part smallNav_lists (by decide +kernel)).2 (.refl _)

end S2S.Props
