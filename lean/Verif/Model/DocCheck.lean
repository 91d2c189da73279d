import Verif.Model.Nav
/-
The script that compares the programs in the documentation with the sources that are compiled.
/repo/scripts/check_doc_examples.py.

Simplified: the file system, and the splitting of texts into lines. A page is its lines without
their ends; `files` gives the lines of the file a path names, if there is one. What is printed is
left out, but the failures found are not.
-/
namespace S2S.DocCheck
open Amalgam (isSpace isWord literal)

abbrev Line := List Char

/-- `FENCE.match` (25). -/
def isFence (line : Line) : Bool := "```".toList.isPrefixOf line

/-- `\s*-->\s*$`. -/
def closes (t : Line) : Bool :=
  match literal "-->".toList (t.dropWhile isSpace) with
  | some rest => rest.all isSpace
  | none => false

/-- `BINDING.match(line)`, and its group (24, 42-44). `\S+` takes all of the run if the end of the
comment is behind it, and gives back three characters if those are the end of the comment. -/
def bindingOf (line : Line) : Option Line :=
  match literal "<!--".toList line with
  | none => none
  | some t =>
    match literal "docs:".toList (t.dropWhile isSpace) with
    | none => none
    | some t =>
      let t := t.dropWhile isSpace
      let run := t.takeWhile fun c => !isSpace c
      let rest := t.dropWhile fun c => !isSpace c
      if !run.isEmpty && closes rest then some run
      else if 3 < run.length && run.drop (run.length - 3) == "-->".toList && rest.all isSpace then
        some (run.take (run.length - 3))
      else none

/-- A fenced block: the number of its first line, the file it is bound to, its lines. -/
structure Block where
  lineNo : Nat
  binding : Option Line
  body : List Line
deriving DecidableEq

/-- `doc_blocks` (33-53), from line `i` on. `above` is the line before; the loops are the two
arguments of the recursion: `none` outside of a block, in one its head and the lines so far. -/
def blocksFrom : Option Line → Option Block → Nat → List Line → List Block
  | _, none, _, [] => []
  | _, some b, _, [] => [b]
  | above, none, i, line :: lines =>
      if isFence line then blocksFrom (some line) (some ⟨i + 1, above.bind bindingOf, []⟩) (i + 1) lines
      else blocksFrom (some line) none (i + 1) lines
  | _, some b, i, line :: lines =>
      if isFence line then b :: blocksFrom (some line) none (i + 1) lines
      else blocksFrom (some line) (some { b with body := b.body ++ [line] }) (i + 1) lines

def docBlocks (page : List Line) : List Block := blocksFrom none none 0 page

/-- `l.strip()`. -/
def strip (t : Line) : Line := Nav.rstrip (t.dropWhile isSpace)

/-- `source_region` (56-63). A slice whose end is before its start is empty. -/
def sourceRegion (src : List Line) : Option (List Line) :=
  match src.findIdx? fun l => strip l == "// docs-begin".toList,
      src.findIdx? fun l => strip l == "// docs-end".toList with
  | some b, some e => some ((src.take e).drop (b + 1))
  | _, _ => none

/-- `\s*\(`. -/
def opens (t : Line) : Bool := (t.dropWhile isSpace).head? == some '('

/-- `ENTRY_POINT.search(l)` (30): the first argument is the character before. -/
def hasEntry : Option Char → Line → Bool
  | _, [] => false
  | before, c :: cs =>
      (!(before.any isWord) &&
        match literal "main".toList (c :: cs) with
        | some rest => opens rest
        | none => false) || hasEntry (some c) cs

/-- What is wrong with a block (74-102). -/
inductive Failure
  | unbound
  | noSource
  | noMarkers
  | drifted
deriving DecidableEq

/-- The body of the loop (74-102). -/
def check (files : Line → Option (List Line)) (b : Block) : Option Failure :=
  match b.binding with
  | none => if b.body.any (hasEntry none) then some .unbound else none
  | some path =>
    match files path with
    | none => some .noSource
    | some src =>
      match sourceRegion src with
      | none => some .noMarkers
      | some region => if region = b.body then none else some .drifted

def endOfBlock : Line := "<end of block>".toList
def endOfRegion : Line := "<end of region>".toList

/-- `_first_difference` (121-131): the index of the line it shows; the other text without one. -/
def firstDifference (doc src : List Line) : Option Nat :=
  (List.range (max doc.length src.length)).find? fun i =>
    (doc[i]?).getD endOfBlock != (src[i]?).getD endOfRegion

/-- `main` (66-118): what the script returns. `pages` are `README.md`, if there is one, and the
pages under `docs/`. -/
def main (files : Line → Option (List Line)) (pages : List (List Line)) : Nat :=
  if (pages.flatMap fun page => (docBlocks page).filterMap (check files)).isEmpty then 0 else 1

end S2S.DocCheck
