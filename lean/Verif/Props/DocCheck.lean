import Verif.Lemmas.DocCheck
/-
C130: the check of the examples in the documentation.
-/
namespace S2S.Props
open DocCheck

/-- C130, the blocks: the script finds exactly the blocks of a page, with their line numbers and
bindings. -/
theorem C130_blocks (page : List Line) (blocks : List Block) :
    docBlocks page = blocks ↔ Shows 0 page blocks := docBlocks_iff page blocks

/-- C130, the reports: which failure is reported of a block. -/
theorem C130_reported (files : Line → Option (List Line)) (b : Block) :
    (check files b = some .unbound ↔ b.binding = none ∧ ∃ l ∈ b.body, DocCheck.Entry l) ∧
    (check files b = some .noSource ↔ ∃ path, b.binding = some path ∧ files path = none) ∧
    (check files b = some .noMarkers ↔ ∃ path src, b.binding = some path ∧ files path = some src ∧
      ¬ Reversed src ∧ ∀ region, ¬ Marks src region) ∧
    (check files b = some .drifted ↔ ∃ path src, b.binding = some path ∧ files path = some src ∧
      ∃ region, (Marks src region ∨ Reversed src ∧ region = []) ∧ region ≠ b.body) := by
  have he : b.body.any (hasEntry none) = true ↔ ∃ l ∈ b.body, DocCheck.Entry l := by
    rw [List.any_eq_true]
    simp only [hasEntry_none]
  have hnone : ∀ src, sourceRegion src = none ↔ ¬ Reversed src ∧ ∀ region, ¬ Marks src region := by
    intro src
    constructor
    · intro h
      refine ⟨fun hr => ?_, fun region hm => ?_⟩
      · cases h.symm.trans ((sourceRegion_iff src []).2 (.inr ⟨hr, rfl⟩))
      · cases h.symm.trans ((sourceRegion_iff src region).2 (.inl hm))
    · rintro ⟨h1, h2⟩
      cases hs : sourceRegion src with
      | none => rfl
      | some r =>
        rcases (sourceRegion_iff src r).1 hs with h | h
        · exact absurd h (h2 r)
        · exact absurd h.1 h1
  simp only [← hnone, ← sourceRegion_iff, ← he]
  cases hb : b.binding with
  | none =>
    simp only [check, hb]
    split <;> simp_all
  | some path =>
    simp only [check, hb]
    cases hf : files path with
    | none => simp [hf]
    | some src =>
      simp only
      cases hs : sourceRegion src with
      | none => simp [hf, hs]
      | some region =>
        clear he hnone
        simp only
        split <;> simp_all

/-- C130, the verdict: the script returns 0 exactly if every block bound to a file shows what the
file marks, and no other block has an entry point. -/
theorem C130_passes (files : Line → Option (List Line)) (pages : List (List Line)) :
    DocCheck.main files pages = 0 ↔ ∀ page ∈ pages, ∀ blocks, Shows 0 page blocks → ∀ b ∈ blocks,
      (∀ path, b.binding = some path → ∃ src, files path = some src ∧
        (Marks src b.body ∨ Reversed src ∧ b.body = [])) ∧
      (b.binding = none → ∀ l ∈ b.body, ¬ DocCheck.Entry l) := by
  have h1 : DocCheck.main files pages = 0 ↔
      ∀ page ∈ pages, ∀ b ∈ docBlocks page, check files b = none := by
    rw [DocCheck.main]
    split
    · rename_i h
      simp only [List.isEmpty_iff, List.flatMap_eq_nil_iff, List.filterMap_eq_nil_iff] at h
      simpa using h
    · rename_i h
      simp only [List.isEmpty_iff, List.flatMap_eq_nil_iff, List.filterMap_eq_nil_iff] at h
      simpa using h
  have h2 : ∀ b, check files b = none ↔
      (∀ path, b.binding = some path → ∃ src, files path = some src ∧
        (Marks src b.body ∨ Reversed src ∧ b.body = [])) ∧
      (b.binding = none → ∀ l ∈ b.body, ¬ DocCheck.Entry l) := by
    intro b
    simp only [← sourceRegion_iff, ← hasEntry_none]
    cases hb : b.binding with
    | none =>
      simp only [check, hb]
      split <;> simp_all
    | some path =>
      simp only [check, hb]
      cases hf : files path with
      | none => simp [hf]
      | some src =>
        simp only
        cases hs : sourceRegion src with
        | none => simp [hf, hs]
        | some region =>
          simp only
          split <;> simp_all
  rw [h1]
  constructor
  · intro h page hp blocks hs b hb
    rw [← C130_blocks] at hs
    subst hs
    exact (h2 b).1 (h page hp b hb)
  · intro h page hp b hb
    exact (h2 b).2 (h page hp _ ((C130_blocks page _).1 rfl) b hb)

/-- C130, the difference: of two texts that differ the script shows the first line in which they
do, unless they contain the words it uses for the end. -/
theorem C130_difference (doc src : List Line) (hd : endOfRegion ∉ doc) (hs : endOfBlock ∉ src)
    (hne : doc ≠ src) : ∃ i : Nat, firstDifference doc src = some i ∧
      doc.take i = src.take i ∧ doc[i]? ≠ src[i]? := by
  have key : ∀ i : Nat, (doc[i]?).getD endOfBlock = (src[i]?).getD endOfRegion → doc[i]? = src[i]? := by
    intro i h
    cases h1 : doc[i]? with
    | none =>
      cases h2 : src[i]? with
      | none => rfl
      | some y =>
        rw [h1, h2] at h
        exact absurd (show endOfBlock ∈ src from (show endOfBlock = y from h) ▸ List.mem_of_getElem? h2) hs
    | some x =>
      cases h2 : src[i]? with
      | none =>
        rw [h1, h2] at h
        exact absurd (show endOfRegion ∈ doc from (show x = endOfRegion from h) ▸ List.mem_of_getElem? h1) hd
      | some y => rw [h1, h2] at h; exact congrArg some h
  cases hf : firstDifference doc src with
  | none =>
    refine absurd (List.ext_getElem? fun i => ?_) hne
    by_cases hi : i < max doc.length src.length
    · exact key i (firstDifference_none hf i hi)
    · rw [List.getElem?_eq_none (by omega), List.getElem?_eq_none (by omega)]
  | some i =>
    obtain ⟨h1, h2, h3⟩ := firstDifference_some.1 hf
    refine ⟨i, rfl, List.ext_getElem? fun j => ?_, fun h => h2 ?_⟩
    · rw [List.getElem?_take, List.getElem?_take]
      split
      · exact key j (h3 j ‹_›)
      · rfl
    · cases h4 : doc[i]? with
      | some x => rw [← h, h4]; rfl
      | none =>
        rw [h4] at h
        rw [List.getElem?_eq_none_iff] at h4
        have := List.getElem?_eq_none_iff.1 h.symm
        omega

def lines (t : List String) : List Line := t.map String.toList

/-- A page with a bound program and a sketch, its source, and a source whose markers are swapped. -/
def docPage : List Line := lines ["# Title", "<!-- docs: test/a.cpp -->", "```cpp", "int main() {}", "```", "```",
  "using x = y;", "```"]
def docFiles (path : Line) : Option (List Line) :=
  if path = "test/a.cpp".toList then
    some (lines ["#include <x>", "  // docs-begin", "int main() {}", "// docs-end ", ""])
  else if path = "swapped.cpp".toList then some (lines ["// docs-end", "int main() {}", "// docs-begin"])
  else none

example : docBlocks docPage = [⟨3, some "test/a.cpp".toList, [("int main() {}").toList]⟩,
    ⟨6, none, ["using x = y;".toList]⟩] := by decide +kernel
example : Shows 0 docPage [⟨3, some "test/a.cpp".toList, [("int main() {}").toList]⟩,
    ⟨6, none, ["using x = y;".toList]⟩] := (C130_blocks _ _).1 (by decide +kernel)
example : DocCheck.main docFiles [docPage] = 0 := by decide +kernel
example : Marks ((docFiles "test/a.cpp".toList).getD []) (lines ["int main() {}"]) := by
  have h : DocCheck.main docFiles [docPage] = 0 := by decide +kernel
  obtain ⟨src, h1, h2⟩ := ((C130_passes _ _).1 h docPage (by simp) _ ((C130_blocks _ _).1 rfl)
    ⟨3, some "test/a.cpp".toList, [("int main() {}").toList]⟩ (by decide +kernel)).1 _ rfl
  rcases h2 with h2 | h2
  · rw [h1]; exact h2
  · exact absurd h2.2 (by simp)
/-- Each failure happens. -/
example : check docFiles ⟨1, none, lines ["  int  main  (int argc)"]⟩ = some .unbound := by decide +kernel
example : check docFiles ⟨1, none, lines ["domain(x)", "main_loop()"]⟩ = none := by decide +kernel
example : check docFiles ⟨1, some "b.cpp".toList, []⟩ = some .noSource := by decide +kernel
example : check (fun _ => some (lines ["// docs-begin"])) ⟨1, some "b.cpp".toList, []⟩ = some .noMarkers := by
  decide +kernel
example : check docFiles ⟨1, some "test/a.cpp".toList, lines ["int main() { }"]⟩ = some .drifted := by
  decide +kernel
example : ∃ i, firstDifference (lines ["a", "b"]) (lines ["a", "b", "c"]) = some i ∧
    (lines ["a", "b"]).take i = (lines ["a", "b", "c"]).take i ∧ (lines ["a", "b"])[i]? ≠ (lines ["a", "b", "c"])[i]? :=
  C130_difference _ _ (by decide +kernel) (by decide +kernel) (by decide +kernel)

/-- "Both must agree exactly" is not what is checked: if the markers are swapped, the region is
empty, and an empty block agrees with it. -/
theorem C130_fails_swapped :
    DocCheck.main docFiles [lines ["<!-- docs: swapped.cpp -->", "```cpp", "```"]] = 0 ∧
    ∀ region, ¬ Marks ((docFiles "swapped.cpp".toList).getD []) region := by
  refine ⟨by decide +kernel, fun region h => ?_⟩
  have h1 := sourceRegion_marks h
  have h2 : docFiles "swapped.cpp".toList = some (lines ["// docs-end", "int main() {}", "// docs-begin"]) := by
    decide +kernel
  rw [h2] at h h1
  obtain ⟨before, b, e, after, hs, hb, he, h3, h4⟩ := h
  simp only [Option.getD_some, lines, List.map_cons, List.map_nil] at hs
  cases before with
  | nil =>
    obtain ⟨rfl, _⟩ := List.cons.inj hs
    exact markers_differ hb ⟨[], [], by simp, nofun, nofun⟩
  | cons x xs =>
    obtain ⟨rfl, _⟩ := List.cons.inj hs
    exact (h3 "// docs-end".toList (by simp)).2 ⟨[], [], by simp, nofun, nofun⟩

/-- Nor is every complete program of a page seen: an indented one is not, one fenced by tildes is
not, and one below a line that begins with code in three backquotes is not. -/
theorem C130_fails_unseen :
    DocCheck.main docFiles [lines ["- Item", "", "  ```cpp", "  int main() {}", "  ```"]] = 0 ∧
    DocCheck.main docFiles [lines ["~~~cpp", "int main() {}", "~~~"]] = 0 ∧
    DocCheck.main docFiles [lines ["```x``` is code.", "", "```cpp", "int main() {}", "```"]] = 0 := by
  decide +kernel

/-- The text for "differ in trailing whitespace only" is printed of texts that differ otherwise. -/
theorem C130_fails_words : firstDifference (lines ["a"]) (lines ["a", "<end of block>"]) = none := by
  decide +kernel

example : ∃ path, some "b.cpp".toList = some path ∧ docFiles path = none :=
  (C130_reported docFiles ⟨1, some "b.cpp".toList, []⟩).2.1.1 (by decide +kernel)

end S2S.Props
