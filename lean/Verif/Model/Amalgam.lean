/-
The script that makes the shipped single header.
/repo/scripts/amalgam.py.

A path is an element of `α`. The graph is a Python `dict`; `sets` are lists of which only
membership is used. Python gives up on recursion that is too deep; `none` is that
(`RecursionError`), and the numbers the functions recurse on are the frames left.

Simplified: the file system. `os.path.join`, `os.path.isfile` and `os.path.abspath` together
are the function `resolve`, which says what file an include written in a file stands for, if
there is one. All files can be read. What is printed is left out. `\\w` is taken to be ASCII.
-/
namespace S2S.Amalgam

variable {α : Type} [DecidableEq α]

/-- `graph` (32-53): what each file includes. -/
abbrev Graph (α : Type) := List (α × List α)

/-- `graph.get(file, [])`. -/
def Graph.get (g : Graph α) (f : α) : List α := (List.lookup f g).getD []

/-- `get_all_transitive_dependencies` (55-67). The first list is the set returned, the
second `visited`, which all calls share. -/
def deps (g : Graph α) : Nat → α → List α → Option (List α × List α)
  | 0, _, _ => none
  | n + 1, file, visited =>
      if file ∈ visited then some ([], visited)
      else
        (g.get file).foldlM (fun (acc : List α × List α) dep =>
          (deps g n dep acc.2).map fun r => (acc.1 ++ r.1, r.2)) (g.get file, file :: visited)

/-- Lines 74-77: what the includes of a file bring in. Every call starts with nothing
visited. -/
def transitive (g : Graph α) (n : Nat) (includes : List α) : Option (List α) :=
  includes.foldlM (fun acc inc => (deps g n inc []).map fun r => acc ++ r.1) []

/-- `remove_redundant_includes` (69-82). -/
def optimize (n : Nat) (g : Graph α) : Option (Graph α) :=
  g.mapM fun entry =>
    (transitive g n entry.2).map fun ds => (entry.1, entry.2.filter fun inc => !decide (inc ∈ ds))

/-- `visit` (89-95): `visited` and `stack`. -/
def visit (g : Graph α) : Nat → α → List α × List α → Option (List α × List α)
  | 0, _, _ => none
  | n + 1, file, (visited, stack) =>
      if file ∈ visited then some (visited, stack)
      else
        ((g.get file).foldlM (fun st inc => visit g n inc st) (file :: visited, stack)).map
          fun st => (st.1, st.2 ++ [file])

/-- `topological_sort` (84-99). -/
def topologicalSort (n : Nat) (g : Graph α) (start : α) : Option (List α) :=
  (visit g n start ([], [])).map (·.2)

/-- `main` (153-163): the order the files are written in. -/
def fileOrder (n : Nat) (g : Graph α) (entry : α) : Option (List α) :=
  (optimize n g).bind fun g' => topologicalSort n g' entry

/-! ### The patterns (7-8) -/

/-- `\s`: `str.isspace`. -/
def isSpace (c : Char) : Bool :=
  let n := c.toNat
  (9 ≤ n && n ≤ 13) || (28 ≤ n && n ≤ 32) || n == 0x85 || n == 0xa0 || n == 0x1680 ||
  (0x2000 ≤ n && n ≤ 0x200a) || n == 0x2028 || n == 0x2029 || n == 0x202f || n == 0x205f || n == 0x3000

/-- `\w`. -/
def isWord (c : Char) : Bool := c.isAlphanum || c == '_'

/-- `\s*$`: the longest run of spaces with a line end behind it. What is left. -/
def lineEnd (t : List Char) : Option (List Char) :=
  let spaces := t.takeWhile isSpace
  let rest := t.dropWhile isSpace
  if rest.isEmpty then some []
  else if '\n' ∈ spaces then
    some ('\n' :: (spaces.reverse.takeWhile (· != '\n')).reverse ++ rest)
  else none

/-- A literal. -/
def literal : List Char → List Char → Option (List Char)
  | [], t => some t
  | _ :: _, [] => none
  | c :: cs, d :: t => if c = d then literal cs t else none

/-- `#include`. -/
def keywordText : List Char := ['#', 'i', 'n', 'c', 'l', 'u', 'd', 'e']

/-- `\s*#include\s*`, at the start of a line. What comes before and after the runs of
spaces is no space, so there is one way to match. -/
def keyword (t : List Char) : Option (List Char) :=
  (literal keywordText (t.dropWhile isSpace)).map (·.dropWhile isSpace)

/-- `include_pattern`: the name, and what is left. -/
def quoted (t : List Char) : Option (List Char × List Char) :=
  (keyword t).bind fun t =>
  (literal ['"'] t).bind fun t =>
  let name := t.takeWhile (· != '"')
  if name.isEmpty then none
  else (literal ['"'] (t.dropWhile (· != '"'))).bind fun t => (lineEnd t).map fun rest => (name, rest)

/-- `std_include_pattern`. -/
def angled (t : List Char) : Option (List Char × List Char) :=
  (keyword t).bind fun t =>
  (literal ['<'] t).bind fun t =>
  let name := t.takeWhile isWord
  if name.isEmpty then none
  else (literal ['>'] (t.dropWhile isWord)).bind fun t => (lineEnd t).map fun rest => (name, rest)

/-- `re.sub(pattern, ' ', text, flags=re.MULTILINE)`. The first argument: at the start of a
line. -/
def sub (pattern : List Char → Option (List Char × List Char)) : Bool → List Char → List Char
  | _, [] => []
  | true, c :: cs =>
      match pattern (c :: cs) with
      | some (_, rest) =>
          if rest.length ≤ cs.length then
            ' ' :: sub pattern (((c :: cs).take (cs.length + 1 - rest.length)).getLast? == some '\n') rest
          else c :: sub pattern (c == '\n') cs
      | none => c :: sub pattern (c == '\n') cs
  | false, c :: cs => c :: sub pattern (c == '\n') cs
  termination_by _ t => t.length
  decreasing_by all_goals simp only [List.length_cons]; omega

/-- `for line in file`. -/
def readlines : List Char → List (List Char)
  | [] => []
  | c :: cs =>
      if c = '\n' then [c] :: readlines cs
      else
        match readlines cs with
        | [] => [[c]]
        | l :: ls => (c :: l) :: ls

/-! ### The files -/

/-- What the script is run on. `walked` are the files `os.walk` finds with one of the four
extensions (37-39). -/
structure Tree (α : Type) where
  walked : List α
  text : α → List Char
  resolve : α → List Char → Option α
  rel : α → List Char

/-- `process_file` (11-28). -/
def processFile (T : Tree α) (f : α) : List (List Char) × List (List Char) :=
  ((readlines (T.text f)).filterMap fun l => (quoted l).map (·.1),
   (readlines (T.text f)).filterMap fun l => (angled l).map (·.1))

/-- `process_directory` (30-53). -/
def processDirectory (T : Tree α) : Graph α × List (List Char) :=
  (T.walked.map fun f => (f, (processFile T f).1.filterMap (T.resolve f)),
   T.walked.flatMap fun f => (processFile T f).2)

/-- `sorted` of a set. -/
def insertSorted (x : List Char) : List (List Char) → List (List Char)
  | [] => [x]
  | y :: ys => if x < y then x :: y :: ys else if x = y then y :: ys else y :: insertSorted x ys

def sortedSet (xs : List (List Char)) : List (List Char) := xs.foldr insertSorted []

/-- What is written of a file (118-126). -/
def block (T : Tree α) (f : α) : List Char :=
  '\n' :: "// Begin ".toList ++ T.rel f ++ '\n' ::
  sub angled true (sub quoted true (T.text f)) ++
  '\n' :: "// End ".toList ++ T.rel f ++ ['\n']

/-- `concatenate_files` (101-134). The files of the order are all different
(`fileOrder_sound`), so `seen_files` makes no difference. -/
def concatenate (T : Tree α) (order : List α) (std : List (List Char)) : List Char :=
  (sortedSet std).flatMap (fun i => keywordText ++ ' ' :: '<' :: i ++ ['>', '\n']) ++
  order.flatMap (block T)

/-- `main` (136-171). -/
def main (n : Nat) (T : Tree α) (entry : α) : Option (List Char) :=
  if entry ∈ T.walked then
    let (g, std) := processDirectory T
    (fileOrder n g entry).map fun order => concatenate T order std
  else none

end S2S.Amalgam
