import Verif.Model.Nav
/-
What the navigation lists.
-/
namespace S2S.Nav
open Amalgam (isSpace)

/-- The line ends in an entry for the page: a colon, spaces, a name with the extension `.md`,
spaces. -/
def Entry (line page : Line) : Prop :=
  ∃ before sp sp' stem : Line, line = before ++ ':' :: (sp ++ page ++ sp') ∧
    (∀ c ∈ sp, isSpace c = true) ∧ (∀ c ∈ sp', isSpace c = true) ∧
    stem ≠ [] ∧ (∀ c ∈ stem, isNameChar c = true) ∧ page = stem ++ ".md".toList

/-- The line begins a new part of the file. -/
def NewKey (line : Line) : Prop :=
  ∃ c cs, line = c :: cs ∧ isSpace c = false ∧ c ≠ '#'

/-- The line is a comment. -/
def Comment (line : Line) : Prop := ∃ sp rest : Line, line = sp ++ '#' :: rest ∧ ∀ c ∈ sp, isSpace c = true

/-- The pages listed by the lines, each by its own. -/
inductive Lists : List Line → List Line → Prop
  | nil : Lists [] []
  | entry {line lines page pages} : Entry line page → Lists lines pages → Lists (line :: lines) (page :: pages)
  | other {line lines pages} : (∀ page, ¬ Entry line page) → Lists lines pages → Lists (line :: lines) pages

/-- The part of the file that is the navigation: between the line `nav:` and the next part. -/
def NavPart (file part : List Line) : Prop :=
  ∃ (before : List Line) (sp : Line) (after : List Line),
    file = before ++ ("nav:".toList ++ sp) :: (part ++ after) ∧
    (∀ c ∈ sp, isSpace c = true) ∧
    (∀ l ∈ before, ∀ sp' : Line, (∀ c ∈ sp', isSpace c = true) → l ≠ "nav:".toList ++ sp') ∧
    (∀ l ∈ part, ¬ NewKey l) ∧ (∀ l, after.head? = some l → NewKey l)

end S2S.Nav
