import Verif.Model.DocCheck
/-
What a page shows, and what a source file marks.
-/
namespace S2S.DocCheck
open Amalgam (isSpace isWord)

def Spaces (t : Line) : Prop := ∀ c ∈ t, isSpace c = true

/-- A line that begins or ends a block. -/
def Fence (line : Line) : Prop := ∃ t, line = "```".toList ++ t

/-- A comment that binds the block below it to a file. -/
def Binds (line path : Line) : Prop :=
  ∃ a b c d : Line, line = "<!--".toList ++ a ++ "docs:".toList ++ b ++ path ++ c ++ "-->".toList ++ d ∧
    Spaces a ∧ Spaces b ∧ Spaces c ∧ Spaces d ∧ path ≠ [] ∧ ∀ x ∈ path, isSpace x = false

/-- The blocks of a page: text without fences, a fence, lines without fences, a fence, and so on.
The last may lack its end. `i` is the number of lines above, `bound` what the line directly
above the block binds it to. -/
inductive Shows : Nat → List Line → List Block → Prop
  | none {i text} : (∀ l ∈ text, ¬ Fence l) → Shows i text []
  | block {i text open' body close rest bound blocks} :
      (∀ l ∈ text, ¬ Fence l) → Fence open' → (∀ l ∈ body, ¬ Fence l) → Fence close →
      (∀ path, bound = some path ↔ ∃ l, text.getLast? = some l ∧ Binds l path) →
      Shows (i + text.length + 1 + body.length + 1) rest blocks →
      Shows i (text ++ open' :: (body ++ close :: rest)) (⟨i + text.length + 1, bound, body⟩ :: blocks)
  | unclosed {i text open' body bound} :
      (∀ l ∈ text, ¬ Fence l) → Fence open' → (∀ l ∈ body, ¬ Fence l) →
      (∀ path, bound = some path ↔ ∃ l, text.getLast? = some l ∧ Binds l path) →
      Shows i (text ++ open' :: body) [⟨i + text.length + 1, bound, body⟩]

/-- A line that is the marker, between spaces. -/
def Marker (marker line : Line) : Prop := ∃ a b, line = a ++ marker ++ b ∧ Spaces a ∧ Spaces b

/-- The lines between the first marker that begins a region and the first that ends one. -/
def Marks (src region : List Line) : Prop :=
  ∃ (before : List Line) (b : Line) (e : Line) (after : List Line),
    src = before ++ b :: (region ++ e :: after) ∧
    Marker "// docs-begin".toList b ∧ Marker "// docs-end".toList e ∧
    (∀ l ∈ before, ¬ Marker "// docs-begin".toList l ∧ ¬ Marker "// docs-end".toList l) ∧
    (∀ l ∈ region, ¬ Marker "// docs-end".toList l)

/-- The markers are there, but the one that ends a region comes first. -/
def Reversed (src : List Line) : Prop :=
  ∃ (before : List Line) (e : Line) (between : List Line) (b : Line) (after : List Line),
    src = before ++ e :: (between ++ b :: after) ∧ Marker "// docs-end".toList e ∧
    Marker "// docs-begin".toList b ∧
    (∀ l ∈ before, ¬ Marker "// docs-begin".toList l)

/-- The line has the word `main`, spaces, an opening parenthesis. -/
def Entry (line : Line) : Prop :=
  ∃ a b c : Line, line = a ++ "main".toList ++ b ++ '(' :: c ∧ Spaces b ∧
    ∀ x, a.getLast? = some x → isWord x = false

end S2S.DocCheck
