import Verif.Model.Amalgam
/-
What a header means by the headers it includes, and the orders they can be put in.
-/
namespace S2S.Spec

/-- One file brings in another, `inc` being what each includes. -/
inductive Brings {α : Type} (inc : α → α → Prop) : α → α → Prop
  | direct {a b} : inc a b → Brings inc a b
  | step {a b c} : inc a b → Brings inc b c → Brings inc a c

/-- The file itself, or one it brings in. -/
def Needs {α : Type} (inc : α → α → Prop) (a b : α) : Prop := a = b ∨ Brings inc a b

/-- Nothing a file needs brings itself in. -/
def NoCycle {α : Type} (inc : α → α → Prop) (entry : α) : Prop :=
  ∀ a, Needs inc entry a → ¬ Brings inc a a

/-- Every file comes after those it includes. -/
def AfterIncludes {α : Type} (inc : α → α → Prop) (order : List α) : Prop :=
  ∀ before file after, order = before ++ file :: after → ∀ d, inc file d → d ∈ before

/-- All there is in a graph: its files and what they include. -/
def Covers {α : Type} (inc : α → α → Prop) (files : List α) : Prop :=
  ∀ a ∈ files, ∀ b, inc a b → b ∈ files

/-! ### Text -/

/-- The lines of a text, without what ends them. -/
def linesOf : List Char → List (List Char)
  | [] => [[]]
  | c :: cs =>
      if c = '\n' then [] :: linesOf cs
      else
        match linesOf cs with
        | [] => [[c]]
        | l :: ls => (c :: l) :: ls

def Blank (t : List Char) : Prop := ∀ c ∈ t, Amalgam.isSpace c = true

instance : DecidablePred Blank := fun t => inferInstanceAs (Decidable (∀ c ∈ t, _))

/-- The lines there is something on. -/
def content (t : List Char) : List (List Char) := (linesOf t).filter fun l => !decide (Blank l)

/-- A line that includes a header of the project. -/
def Quoted (name l : List Char) : Prop :=
  name ≠ [] ∧ '"' ∉ name ∧ ∃ a b c, Blank a ∧ Blank b ∧ Blank c ∧
    l = a ++ Amalgam.keywordText ++ b ++ '"' :: name ++ '"' :: c

/-- A line that includes a header of the standard library. -/
def Angled (name l : List Char) : Prop :=
  name ≠ [] ∧ (∀ c ∈ name, Amalgam.isWord c = true) ∧ ∃ a b c, Blank a ∧ Blank b ∧ Blank c ∧
    l = a ++ Amalgam.keywordText ++ b ++ '<' :: name ++ '>' :: c

/-- A line that starts an include and does not say of what: no C++ has one. -/
def Dangling (l : List Char) : Prop :=
  ∃ a b, Blank a ∧ Blank b ∧
    (l = a ++ Amalgam.keywordText ++ b ∨ ∃ c, '"' ∉ c ∧ l = a ++ Amalgam.keywordText ++ b ++ '"' :: c)

/-- No line starts an include and leaves it open. -/
def Tidy (t : List Char) : Prop := ∀ l ∈ linesOf t, ¬ Dangling l

/-! ### Directories of headers -/

/-- One file includes another. -/
def Includes {α : Type} (T : Amalgam.Tree α) (a b : α) : Prop :=
  ∃ l ∈ linesOf (T.text a), ∃ name, Quoted name l ∧ T.resolve a name = some b

/-- A file includes a header of the standard library. -/
def UsesStd {α : Type} (T : Amalgam.Tree α) (a : α) (name : List Char) : Prop :=
  ∃ l ∈ linesOf (T.text a), Angled name l

open Classical in
/-- What there is on the lines of a file, besides including others. -/
noncomputable def ownLines (t : List Char) : List (List Char) :=
  (content t).filter fun l => !decide ((∃ name, Quoted name l) ∨ ∃ name, Angled name l)

/-- A line that asks for a header of the project, in whatever form. -/
def Asks (l : List Char) : Prop :=
  ∃ a b c, Blank a ∧ Blank b ∧ l = a ++ Amalgam.keywordText ++ b ++ '"' :: c

end S2S.Spec
