import Verif.Model.Amalgam
/-
The script that compares the navigation of the documentation with its pages.
/repo/scripts/check_nav.py.

Simplified: the file system, and the splitting of the text into lines. `docs/mkdocs.yml` is its
lines, if it exists, without their ends; the pages under `docs/` are a list of paths. What is
printed is left out, but the problems found are not. `\w` is taken to be ASCII.
-/
namespace S2S.Nav
open Amalgam (isSpace isWord)

abbrev Line := List Char

/-- The characters of a name (20): `\w`, the full stop, the slash, the hyphen. -/
def isNameChar (c : Char) : Bool := isWord c || c == '.' || c == '/' || c == '-'

/-- The part of `NAV_ENTRY` (20) behind the colon: spaces, a name that ends in `.md`, spaces, the end. Neither class has a character of the other, so
the first run of spaces ends where it has to and the name is all of the next run. -/
def entryAfter (t : Line) : Option Line :=
  let t := t.dropWhile isSpace
  let name := t.takeWhile isNameChar
  if (t.dropWhile isNameChar).all isSpace && 3 < name.length &&
      name.drop (name.length - 3) == ".md".toList then some name else none

/-- `NAV_ENTRY.search(line)` (38): from the first colon with a match behind it. -/
def searchEntry : Line → Option Line
  | [] => none
  | c :: cs =>
      if c = ':' then
        match entryAfter cs with
        | some name => some name
        | none => searchEntry cs
      else searchEntry cs

/-- `line.rstrip()`. -/
def rstrip (t : Line) : Line := (t.reverse.dropWhile isSpace).reverse

/-- A top-level key (36): not empty, not indented, no comment. -/
def isKey (line : Line) : Bool :=
  match line with
  | [] => false
  | c :: _ => !isSpace c && !("#".toList.isPrefixOf (line.dropWhile isSpace))

/-- The loop over the lines behind `nav:` (34-40). -/
def pagesOf : List Line → List Line
  | [] => []
  | line :: lines =>
      if isKey line then []
      else
        match searchEntry line with
        | some page => page :: pagesOf lines
        | none => pagesOf lines

/-- `nav_pages` (23-41). -/
def navPages : List Line → List Line
  | [] => []
  | line :: lines => if rstrip line == "nav:".toList then pagesOf lines else navPages lines

/-- What is wrong (55-69). -/
inductive Problem
  | unlisted (page : Line)
  | missing (page : Line)
  | twice (page : Line)
deriving DecidableEq

/-- `problems` (55-69). The duplicates are a set; here they are in the order of the navigation. -/
def problems (listed onDisk : List Line) : List Problem :=
  (onDisk.filter fun p => !listed.contains p).map .unlisted ++
  (listed.filter fun p => !onDisk.contains p).map .missing ++
  ((listed.filter fun p => 1 < listed.count p).eraseDups).map .twice

/-- `main` (44-77): what the script returns. -/
def main (yml : Option (List Line)) (onDisk : List Line) : Nat :=
  match yml with
  | none => 1
  | some lines => if (problems (navPages lines) onDisk).isEmpty then 0 else 1

end S2S.Nav
