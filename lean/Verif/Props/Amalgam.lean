import Verif.Lemmas.Amalgam
import Verif.Lemmas.AmalgamText
/-
The shipped single header (C109-C111).
-/
namespace S2S.Props
open S2S.Amalgam S2S.Spec

variable {α : Type} [DecidableEq α]

/-! ### The graph is what the files include -/

omit [DecidableEq α] in
theorem mem_quoted_names {T : Tree α} {f : α} {name : List Char} :
    name ∈ (processFile T f).1 ↔ ∃ l ∈ linesOf (T.text f), Quoted name l := by
  simp only [processFile, List.mem_filterMap, Option.map_eq_some_iff]
  constructor
  · rintro ⟨x, hx, ⟨_, r⟩, h, rfl⟩
    obtain ⟨l, hl, hn, e⟩ := mem_readlines hx
    obtain ⟨⟨h1, h2⟩, h3⟩ := (line_match quoted_shape hn e).1 ⟨r, h⟩
    exact ⟨l, hl, h1, h2, h3⟩
  · rintro ⟨l, hl, h1, h2, h3⟩
    have hne : l ≠ [] := by
      obtain ⟨a, b, c, _, _, _, rfl⟩ := h3
      simp
    obtain ⟨hn, hx⟩ := readlines_mem hl hne
    rcases hx with hx | hx
    · obtain ⟨r, hr⟩ := (line_match quoted_shape hn (.inl rfl)).2 ⟨⟨h1, h2⟩, h3⟩
      exact ⟨_, hx, _, hr, rfl⟩
    · obtain ⟨r, hr⟩ := (line_match quoted_shape hn (.inr rfl)).2 ⟨⟨h1, h2⟩, h3⟩
      exact ⟨_, hx, _, hr, rfl⟩

omit [DecidableEq α] in
theorem mem_angled_names {T : Tree α} {f : α} {name : List Char} :
    name ∈ (processFile T f).2 ↔ UsesStd T f name := by
  simp only [processFile, List.mem_filterMap, Option.map_eq_some_iff]
  constructor
  · rintro ⟨x, hx, ⟨_, r⟩, h, rfl⟩
    obtain ⟨l, hl, hn, e⟩ := mem_readlines hx
    obtain ⟨⟨h1, h2⟩, h3⟩ := (line_match angled_shape hn e).1 ⟨r, h⟩
    exact ⟨l, hl, h1, h2, h3⟩
  · rintro ⟨l, hl, h1, h2, h3⟩
    have hne : l ≠ [] := by
      obtain ⟨a, b, c, _, _, _, rfl⟩ := h3
      simp
    obtain ⟨hn, hx⟩ := readlines_mem hl hne
    rcases hx with hx | hx
    · obtain ⟨r, hr⟩ := (line_match angled_shape hn (.inl rfl)).2 ⟨⟨h1, h2⟩, h3⟩
      exact ⟨_, hx, _, hr, rfl⟩
    · obtain ⟨r, hr⟩ := (line_match angled_shape hn (.inr rfl)).2 ⟨⟨h1, h2⟩, h3⟩
      exact ⟨_, hx, _, hr, rfl⟩

theorem lookup_map {β : Type} (h : α → β) (f : α) : ∀ (l : List α),
    List.lookup f (l.map fun x => (x, h x)) = if f ∈ l then some (h f) else none
  | [] => rfl
  | x :: l => by
      rw [List.map_cons, List.lookup_cons, lookup_map h f l]
      by_cases hx : f = x
      · subst hx
        simp
      · have : (f == x) = false := by simpa using hx
        rw [this]
        by_cases hl : f ∈ l <;> simp [hl, hx]

theorem get_graph {T : Tree α} {f : α} (hf : f ∈ T.walked) :
    (processDirectory T).1.get f = (processFile T f).1.filterMap (T.resolve f) := by
  simp [Graph.get, processDirectory, lookup_map, hf]

theorem incl_graph {T : Tree α} {f d : α} (hf : f ∈ T.walked) :
    (processDirectory T).1.incl f d ↔ Includes T f d := by
  unfold Graph.incl
  rw [get_graph hf]
  simp only [List.mem_filterMap, mem_quoted_names, Includes]
  constructor
  · rintro ⟨name, ⟨l, hl, hq⟩, hr⟩
    exact ⟨l, hl, name, hq, hr⟩
  · rintro ⟨l, hl, name, hq, hr⟩
    exact ⟨name, ⟨l, hl, hq⟩, hr⟩

theorem incl_walked {T : Tree α} {f d : α} (h : (processDirectory T).1.incl f d) : f ∈ T.walked := by
  unfold Graph.incl Graph.get processDirectory at h
  simp only [lookup_map] at h
  by_cases hf : f ∈ T.walked
  · exact hf
  · simp [hf] at h

theorem brings_graph {T : Tree α} {a b : α} (h : Brings (processDirectory T).1.incl a b) :
    Brings (Includes T) a b := by
  induction h with
  | direct h => exact .direct ((incl_graph (incl_walked h)).1 h)
  | step h _ ih => exact .step ((incl_graph (incl_walked h)).1 h) ih

omit [DecidableEq α] in
theorem walked_step {T : Tree α} {a b : α} (hw : ∀ f, Needs (Includes T) a f → f ∈ T.walked)
    (h : Includes T a b) : ∀ f, Needs (Includes T) b f → f ∈ T.walked := fun f hf =>
  hw f (needs_trans (.inr (.direct h)) hf)

theorem graph_brings {T : Tree α} {a b : α} (hw : ∀ f, Needs (Includes T) a f → f ∈ T.walked)
    (h : Brings (Includes T) a b) : Brings (processDirectory T).1.incl a b := by
  induction h with
  | direct h => exact .direct ((incl_graph (hw _ (.inl rfl))).2 h)
  | step h _ ih => exact .step ((incl_graph (hw _ (.inl rfl))).2 h) (ih (walked_step hw h))

/-! ### The standard headers -/

theorem mem_insertSorted {x y : List Char} : ∀ {l : List (List Char)}, y ∈ insertSorted x l ↔ y = x ∨ y ∈ l
  | [] => by simp [insertSorted]
  | z :: zs => by
      unfold insertSorted
      split
      · simp
      · split
        · rename_i h
          subst h
          simp
        · simp only [List.mem_cons, mem_insertSorted]
          grind

theorem mem_sortedSet {y : List Char} : ∀ {l : List (List Char)}, y ∈ sortedSet l ↔ y ∈ l
  | [] => by simp [sortedSet]
  | x :: xs => by
      show y ∈ insertSorted x (sortedSet xs) ↔ _
      rw [mem_insertSorted, mem_sortedSet]
      simp

theorem sorted_insert {x : List Char} : ∀ {l : List (List Char)}, l.Pairwise (· < ·) →
    (insertSorted x l).Pairwise (· < ·)
  | [], _ => by simp [insertSorted]
  | z :: zs, h => by
      have hz := List.pairwise_cons.1 h
      unfold insertSorted
      split
      · rename_i hx
        refine List.pairwise_cons.2 ⟨?_, h⟩
        intro y hy
        rcases List.mem_cons.1 hy with rfl | hy
        · exact hx
        · exact List.lt_trans hx (hz.1 y hy)
      · split
        · exact h
        · rename_i h1 h2
          refine List.pairwise_cons.2 ⟨?_, sorted_insert hz.2⟩
          intro y hy
          rcases mem_insertSorted.1 hy with rfl | hy
          · rcases Std.lt_trichotomy y z with h | h | h
            · exact absurd h h1
            · exact absurd h h2
            · exact h
          · exact hz.1 y hy

theorem sorted_sortedSet : ∀ (l : List (List Char)), (sortedSet l).Pairwise (· < ·)
  | [] => by simp [sortedSet]
  | x :: xs => by
      show (insertSorted x (sortedSet xs)).Pairwise _
      exact sorted_insert (sorted_sortedSet xs)

/-- A set has one sorted list. -/
theorem sorted_unique : ∀ {l m : List (List Char)}, l.Pairwise (· < ·) → m.Pairwise (· < ·) →
    (∀ x, x ∈ l ↔ x ∈ m) → l = m
  | [], [], _, _, _ => rfl
  | [], y :: ys, _, _, h => by have := (h y).2 (by simp); simp at this
  | x :: xs, [], _, _, h => by have := (h x).1 (by simp); simp at this
  | x :: xs, y :: ys, hl, hm, h => by
      have hl := List.pairwise_cons.1 hl
      have hm := List.pairwise_cons.1 hm
      have hxy : x = y := by
        rcases List.mem_cons.1 ((h x).1 (by simp)) with e | e
        · exact e
        · rcases List.mem_cons.1 ((h y).2 (by simp)) with e' | e'
          · exact e'.symm
          · exact absurd (List.lt_trans (hm.1 x e) (hl.1 y e')) (List.lt_irrefl _)
      subst hxy
      rw [sorted_unique hl.2 hm.2]
      intro z
      constructor
      · intro hz
        rcases List.mem_cons.1 ((h z).1 (by simp [hz])) with rfl | e
        · exact absurd (hl.1 z hz) (List.lt_irrefl _)
        · exact e
      · intro hz
        rcases List.mem_cons.1 ((h z).2 (by simp [hz])) with rfl | e
        · exact absurd (hm.1 z hz) (List.lt_irrefl _)
        · exact e

/-! ### The text -/

/-- The lines written for a file, and for a standard header. -/
noncomputable def blockLines (T : Tree α) (f : α) : List (List Char) :=
  ("// Begin ".toList ++ T.rel f) :: ownLines (T.text f) ++ ["// End ".toList ++ T.rel f]

def stdLine (name : List Char) : List Char := keywordText ++ ' ' :: '<' :: name ++ ['>']

theorem content_cons {l : List Char} (hl : '\n' ∉ l) (hb : ¬ Blank l) (t : List Char) :
    content (l ++ '\n' :: t) = l :: content t := by
  rw [content_split, content_line hl, if_neg hb]
  rfl

omit [DecidableEq α] in
theorem content_block {T : Tree α} {f : α} (ht : Tidy (T.text f)) (hr : '\n' ∉ T.rel f) (rest : List Char) :
    content (block T f ++ rest) = blockLines T f ++ content rest := by
  have h1 : '\n' ∉ "// Begin ".toList ++ T.rel f := by
    simp only [List.mem_append, not_or]
    exact ⟨by decide, hr⟩
  have h2 : '\n' ∉ "// End ".toList ++ T.rel f := by
    simp only [List.mem_append, not_or]
    exact ⟨by decide, hr⟩
  have b1 : ¬ Blank ("// Begin ".toList ++ T.rel f) := fun h =>
    absurd (blank_append.1 h).1 (by decide)
  have b2 : ¬ Blank ("// End ".toList ++ T.rel f) := fun h =>
    absurd (blank_append.1 h).1 (by decide)
  have e : block T f ++ rest = [] ++ '\n' :: (("// Begin ".toList ++ T.rel f) ++ '\n' ::
      (sub angled true (sub quoted true (T.text f)) ++ '\n' :: (("// End ".toList ++ T.rel f) ++ '\n' :: rest))) := by
    simp only [block, List.append_assoc, List.cons_append, List.nil_append]
  rw [e, content_split, content_cons h1 b1, content_split, content_cons h2 b2, (strip_content ht).1]
  have e0 : content [] = [] := rfl
  simp only [blockLines, e0, List.nil_append, List.append_assoc, List.cons_append]

omit [DecidableEq α] in
theorem content_blocks {T : Tree α} : ∀ {order : List α}, (∀ f ∈ order, Tidy (T.text f) ∧ '\n' ∉ T.rel f) →
    content (order.flatMap (block T)) = order.flatMap (blockLines T)
  | [], _ => rfl
  | f :: fs, h => by
      have := h f (by simp)
      rw [List.flatMap_cons, content_block this.1 this.2, List.flatMap_cons,
        content_blocks fun g hg => h g (by simp [hg])]

theorem content_std {t : List Char} : ∀ {l : List (List Char)}, (∀ i ∈ l, '\n' ∉ i) →
    content (l.flatMap (fun i => keywordText ++ ' ' :: '<' :: i ++ ['>', '\n']) ++ t) = l.map stdLine ++ content t
  | [], _ => rfl
  | i :: l, h => by
      have h1 : '\n' ∉ stdLine i := by
        simp only [stdLine, List.mem_append, not_or]
        exact ⟨⟨by decide, by have := h i (by simp); simp_all⟩, by decide⟩
      have b1 : ¬ Blank (stdLine i) := fun h =>
        absurd (blank_append.1 (blank_append.1 h).1).1 (by decide)
      have e : (i :: l).flatMap (fun i => keywordText ++ ' ' :: '<' :: i ++ ['>', '\n']) ++ t =
          stdLine i ++ '\n' :: (l.flatMap (fun i => keywordText ++ ' ' :: '<' :: i ++ ['>', '\n']) ++ t) := by
        simp only [stdLine, List.flatMap_cons, List.append_assoc, List.cons_append, List.nil_append]
      rw [e, content_cons h1 b1, content_std fun j hj => h j (by simp [hj])]
      rfl

omit [DecidableEq α] in
theorem std_word {T : Tree α} {f : α} {name : List Char} (h : UsesStd T f name) : '\n' ∉ name := by
  obtain ⟨l, _, _, hw, _⟩ := h
  intro hm
  have := hw _ hm
  revert this
  decide

/-! ### The words the specification shares with the script -/

/-- What starts an include. -/
theorem C109_keyword : keywordText = "#include".toList := by decide

/-- The characters of a name in angle brackets: ASCII letters, digits, the underscore. -/
theorem C109_word (c : Char) : isWord c = true ↔
    ('a' ≤ c ∧ c ≤ 'z') ∨ ('A' ≤ c ∧ c ≤ 'Z') ∨ ('0' ≤ c ∧ c ≤ '9') ∨ c = '_' := by
  simp only [isWord, Char.isAlphanum, Char.isAlpha, Char.isUpper, Char.isLower, Char.isDigit, Bool.or_eq_true,
    Bool.and_eq_true, decide_eq_true_eq, beq_iff_eq, Char.le_def, ge_iff_le]
  constructor
  · rintro (((h | h) | h) | h)
    · exact .inr (.inl h)
    · exact .inl h
    · exact .inr (.inr (.inl h))
    · exact .inr (.inr (.inr h))
  · rintro (h | h | h | h)
    · exact .inl (.inl (.inr h))
    · exact .inl (.inl (.inl h))
    · exact .inl (.inr h)
    · exact .inr h

/-- White space, as Python has it: `White_Space` of Unicode and the four separators. -/
def whiteSpace : List Nat :=
  [9, 10, 11, 12, 13, 28, 29, 30, 31, 32, 0x85, 0xa0, 0x1680, 0x2000, 0x2001, 0x2002, 0x2003, 0x2004, 0x2005, 0x2006,
   0x2007, 0x2008, 0x2009, 0x200a, 0x2028, 0x2029, 0x202f, 0x205f, 0x3000]

theorem C109_space (c : Char) : isSpace c = true ↔ c.toNat ∈ whiteSpace := by
  simp only [isSpace, Bool.or_eq_true, Bool.and_eq_true, decide_eq_true_eq, beq_iff_eq, whiteSpace, List.mem_cons,
    List.not_mem_nil, or_false]
  omega

/-! ### C109 -/

/-- What the script writes, for a directory without cycles of includes where every file
needed has one of the extensions: the standard headers of all files, sorted; then the files
the entry needs, each once and after those it includes, with everything on their lines but
the includes. -/
theorem C109_header (n : Nat) (T : Tree α) (entry : α) (out : List Char) (h : main n T entry = some out)
    (hw : ∀ f, Needs (Includes T) entry f → f ∈ T.walked) (hac : NoCycle (Includes T) entry)
    (ht : ∀ f, Needs (Includes T) entry f → Tidy (T.text f) ∧ '\n' ∉ T.rel f) :
    ∃ (std : List (List Char)) (order : List α), content out = std.map stdLine ++ order.flatMap (blockLines T) ∧
      order.Nodup ∧ (∀ f, f ∈ order ↔ Needs (Includes T) entry f) ∧ AfterIncludes (Includes T) order ∧
      std.Pairwise (· < ·) ∧ ∀ name, name ∈ std ↔ ∃ f ∈ T.walked, UsesStd T f name := by
  unfold main at h
  split at h
  · simp only [Option.map_eq_some_iff] at h
    obtain ⟨order, ho, rfl⟩ := h
    have hac' : NoCycle (processDirectory T).1.incl entry := fun a ha hb =>
      hac a (ha.imp_right brings_graph) (brings_graph hb)
    have s := fileOrder_sound ho
    have c := fileOrder_complete ho hac'
    have needs : ∀ f, f ∈ order ↔ Needs (Includes T) entry f := fun f =>
      ⟨fun hf => (s.2.2 f hf).imp_right brings_graph, fun hf => c.1 f (hf.imp_right (graph_brings hw))⟩
    have hstd : ∀ name, name ∈ sortedSet (processDirectory T).2 ↔ ∃ f ∈ T.walked, UsesStd T f name := by
      intro name
      rw [mem_sortedSet]
      simp only [processDirectory, List.mem_flatMap, mem_angled_names]
    refine ⟨sortedSet (processDirectory T).2, order, ?_, s.1, needs, ?_, sorted_sortedSet _, hstd⟩
    · unfold concatenate
      rw [content_std, content_blocks]
      · exact fun f hf => ht f ((needs f).1 hf)
      · intro i hi
        obtain ⟨f, _, hu⟩ := (hstd i).1 hi
        exact std_word hu
    · intro before file after e d hd
      have hf : file ∈ order := by rw [e]; simp
      exact c.2 before file after e d ((incl_graph (hw _ ((needs file).1 hf))).2 hd)
  · cases h

/-- It does write something, if Python allows as deep a recursion as there are files. -/
theorem C109_runs (n : Nat) (T : Tree α) (entry : α) (he : entry ∈ T.walked)
    (hw : ∀ f ∈ T.walked, ∀ d, Includes T f d → d ∈ T.walked) (hn : T.walked.length < n) :
    ∃ out, main n T entry = some out := by
  have hcov : Covers (processDirectory T).1.incl T.walked := fun a ha b hb => hw a ha b ((incl_graph ha).1 hb)
  obtain ⟨order, ho⟩ := fileOrder_total hcov (g := (processDirectory T).1) (by
    intro p hp i hi
    simp only [processDirectory, List.mem_map] at hp
    obtain ⟨f, hf, rfl⟩ := hp
    refine hcov f hf i ?_
    unfold Graph.incl
    rw [get_graph hf]
    exact hi) hn he
  exact ⟨_, by unfold main; rw [if_pos he]; simp [ho]; rfl⟩

/-! ### C110: nothing else matters -/

/-- The same directory elsewhere, found in another order: `φ` says where the files are. -/
structure Moved {β : Type} (φ : α → β) (T : Tree α) (T' : Tree β) : Prop where
  inj : ∀ a b, φ a = φ b → a = b
  walked : T'.walked.Perm (T.walked.map φ)
  text : ∀ f, T'.text (φ f) = T.text f
  resolve : ∀ f name, T'.resolve (φ f) name = (T.resolve f name).map φ
  rel : ∀ f, T'.rel (φ f) = T.rel f

section moved
variable {β : Type} [DecidableEq β] {φ : α → β}

omit [DecidableEq α] [DecidableEq β] in
theorem mem_map_inj (hφ : ∀ a b, φ a = φ b → a = b) {x : α} {l : List α} : φ x ∈ l.map φ ↔ x ∈ l := by
  rw [List.mem_map]
  constructor
  · rintro ⟨y, hy, e⟩
    exact hφ _ _ e ▸ hy
  · exact fun h => ⟨x, h, rfl⟩

theorem deps_moved (hφ : ∀ a b, φ a = φ b → a = b) {g : Graph α} {g' : Graph β}
    (hg : ∀ f, g'.get (φ f) = (g.get f).map φ) : ∀ (n : Nat) (f : α) (v : List α),
    deps g' n (φ f) (v.map φ) = (deps g n f v).map fun r => (r.1.map φ, r.2.map φ)
  | 0, _, _ => rfl
  | n + 1, f, v => by
      unfold deps
      simp only [mem_map_inj hφ]
      split
      · rfl
      · have key : ∀ (is acc w : List α),
            (is.map φ).foldlM (fun (acc : List β × List β) dep =>
              (deps g' n dep acc.2).map fun r => (acc.1 ++ r.1, r.2)) (acc.map φ, w.map φ) =
            (is.foldlM (fun (acc : List α × List α) dep =>
              (deps g n dep acc.2).map fun r => (acc.1 ++ r.1, r.2)) (acc, w)).map
                fun r => (r.1.map φ, r.2.map φ) := by
          intro is
          induction is with
          | nil => intro acc w; rfl
          | cons i is ih =>
              intro acc w
              simp only [List.map_cons, List.foldlM_cons, deps_moved hφ hg n i w]
              cases deps g n i w with
              | none => rfl
              | some r =>
                  have := ih (acc ++ r.1) r.2
                  simp only [List.map_append] at this
                  simpa using this
        rw [hg]
        exact key (g.get f) (g.get f) (f :: v)

theorem transitive_moved (hφ : ∀ a b, φ a = φ b → a = b) {g : Graph α} {g' : Graph β}
    (hg : ∀ f, g'.get (φ f) = (g.get f).map φ) (n : Nat) (is : List α) :
    transitive g' n (is.map φ) = (transitive g n is).map (·.map φ) := by
  unfold transitive
  have key : ∀ (is acc : List α),
      (is.map φ).foldlM (fun acc inc => (deps g' n inc []).map fun r => acc ++ r.1) (acc.map φ) =
      (is.foldlM (fun acc inc => (deps g n inc []).map fun r => acc ++ r.1) acc).map (·.map φ) := by
    intro is
    induction is with
    | nil => intro acc; rfl
    | cons i is ih =>
        intro acc
        have e : deps g' n (φ i) [] = _ := deps_moved hφ hg n i []
        simp only [List.map_cons, List.foldlM_cons, e]
        cases deps g n i [] with
        | none => rfl
        | some r =>
            have := ih (acc ++ r.1)
            simp only [List.map_append] at this
            simpa using this
  exact key is []

theorem visit_moved (hφ : ∀ a b, φ a = φ b → a = b) {g : Graph α} {g' : Graph β}
    (hg : ∀ f, g'.get (φ f) = (g.get f).map φ) : ∀ (n : Nat) (f : α) (v st : List α),
    visit g' n (φ f) (v.map φ, st.map φ) = (visit g n f (v, st)).map fun r => (r.1.map φ, r.2.map φ)
  | 0, _, _, _ => rfl
  | n + 1, f, v, st => by
      unfold visit
      simp only [mem_map_inj hφ]
      split
      · rfl
      · have key : ∀ (is w s : List α),
            (is.map φ).foldlM (fun st inc => visit g' n inc st) (w.map φ, s.map φ) =
            (is.foldlM (fun st inc => visit g n inc st) (w, s)).map fun r => (r.1.map φ, r.2.map φ) := by
          intro is
          induction is with
          | nil => intro w s; rfl
          | cons i is ih =>
              intro w s
              simp only [List.map_cons, List.foldlM_cons, visit_moved hφ hg n i w s]
              cases visit g n i (w, s) with
              | none => rfl
              | some r => simpa using ih r.1 r.2
        rw [hg]
        have := key (g.get f) (f :: v) st
        rw [List.map_cons] at this
        rw [this]
        cases (g.get f).foldlM (fun st inc => visit g n inc st) (f :: v, st) with
        | none => rfl
        | some r => simp

theorem mapM_isSome {β γ : Type} {f : β → Option γ} : ∀ {l : List β},
    (l.mapM f).isSome ↔ ∀ x ∈ l, (f x).isSome
  | [] => by simp
  | x :: xs => by
      simp only [List.mapM_cons, List.mem_cons, forall_eq_or_imp, ← mapM_isSome (l := xs)]
      cases f x <;> cases xs.mapM f <;> simp

/-- The table of what the files include is the same, whatever the order. -/
theorem fileOrder_moved (hφ : ∀ a b, φ a = φ b → a = b) {g : Graph α} {g' : Graph β} (n : Nat) (e : α)
    (hg : ∀ f, g'.get (φ f) = (g.get f).map φ)
    (hk : ∀ is', (∃ k, (k, is') ∈ g') ↔ ∃ k is, (k, is) ∈ g ∧ is' = is.map φ) :
    fileOrder n g' (φ e) = (fileOrder n g e).map (·.map φ) := by
  have ho : (optimize n g').isSome ↔ (optimize n g).isSome := by
    unfold optimize
    rw [mapM_isSome, mapM_isSome]
    simp only [Option.isSome_map]
    constructor
    · rintro h ⟨k, is⟩ hx
      obtain ⟨k', hk'⟩ := (hk (is.map φ)).2 ⟨k, is, hx, rfl⟩
      have := h _ hk'
      rw [transitive_moved hφ hg] at this
      simpa using this
    · rintro h ⟨k', is'⟩ hx
      obtain ⟨k, is, hm, rfl⟩ := (hk is').1 ⟨k', hx⟩
      have := h _ hm
      rw [transitive_moved hφ hg]
      simpa using this
  unfold fileOrder
  cases h1 : optimize n g with
  | none =>
      rw [h1] at ho
      cases h2 : optimize n g' with
      | none => rfl
      | some x => rw [h2] at ho; simp at ho
  | some o =>
      rw [h1] at ho
      cases h2 : optimize n g' with
      | none => rw [h2] at ho; simp at ho
      | some o' =>
          have hoo : ∀ f, o'.get (φ f) = (o.get f).map φ := by
            intro f
            have a := lookup_mapM (n := n) (g := g) f g o h1
            have b := lookup_mapM (n := n) (g := g') (φ f) g' o' h2
            have c := hg f
            unfold Graph.get at c ⊢
            cases hl : List.lookup f g with
            | none =>
                rw [hl] at a c
                simp only at a
                rw [a]
                cases hl' : List.lookup (φ f) g' with
                | none =>
                    rw [hl'] at b
                    simp only at b
                    rw [b]
                    rfl
                | some is' =>
                    rw [hl'] at b c
                    obtain ⟨ds, _, b⟩ := b
                    simp only [Option.getD_some, Option.getD_none, List.map_nil] at c
                    rw [b, c]
                    rfl
            | some is =>
                rw [hl] at a c
                obtain ⟨ds, hds, a⟩ := a
                rw [a]
                cases hl' : List.lookup (φ f) g' with
                | none =>
                    rw [hl'] at b c
                    simp only at b
                    simp only [Option.getD_some, Option.getD_none] at c
                    have : is = [] := by simpa using c.symm
                    rw [b, this]
                    rfl
                | some is' =>
                    rw [hl'] at b c
                    obtain ⟨ds', hds', b⟩ := b
                    simp only [Option.getD_some] at c
                    rw [b]
                    subst c
                    rw [transitive_moved hφ hg, hds] at hds'
                    simp only [Option.map_some, Option.some.injEq] at hds'
                    subst hds'
                    simp only [Option.getD_some, List.filter_map]
                    congr 1
                    apply List.filter_congr
                    intro x _
                    simp only [Function.comp, mem_map_inj hφ]
          simp only [Option.bind_some, topologicalSort]
          have := visit_moved hφ hoo n e [] []
          simp only [List.map_nil] at this
          rw [this]
          cases visit o n e ([], []) <;> rfl

end moved

/-- What is written does not depend on the order in which the files are found, nor on where
they are. -/
theorem C110_deterministic {β : Type} [DecidableEq β] (φ : α → β) (T : Tree α) (T' : Tree β)
    (hm : Moved φ T T') (n : Nat) (entry : α) : main n T' (φ entry) = main n T entry := by
  have files : ∀ f, processFile T' (φ f) = processFile T f := by
    intro f
    simp only [processFile, hm.text]
  have hw : ∀ f, φ f ∈ T'.walked ↔ f ∈ T.walked := fun f => by
    rw [hm.walked.mem_iff, mem_map_inj hm.inj]
  have filter : ∀ (f : α) (ns : List (List Char)),
      ns.filterMap (T'.resolve (φ f)) = (ns.filterMap (T.resolve f)).map φ := by
    intro f ns
    rw [List.map_filterMap]
    congr 1
    funext name
    exact hm.resolve f name
  have hg : ∀ f, (processDirectory T').1.get (φ f) = ((processDirectory T).1.get f).map φ := by
    intro f
    simp only [processDirectory, Graph.get, lookup_map, hw]
    split
    · simp only [Option.getD_some, files, filter]
    · rfl
  have hk : ∀ is', (∃ k, (k, is') ∈ (processDirectory T').1) ↔
      ∃ k is, (k, is) ∈ (processDirectory T).1 ∧ is' = is.map φ := by
    intro is'
    simp only [processDirectory, List.mem_map, Prod.mk.injEq]
    constructor
    · rintro ⟨k, f', hf', rfl, rfl⟩
      obtain ⟨f, hf, rfl⟩ := List.mem_map.1 (hm.walked.mem_iff.1 hf')
      exact ⟨f, _, ⟨f, hf, rfl, rfl⟩, by rw [files, filter]⟩
    · rintro ⟨k, is, ⟨f, hf, rfl, rfl⟩, rfl⟩
      exact ⟨φ f, φ f, (hw f).2 hf, rfl, by rw [files, filter]⟩
  have hs : sortedSet (processDirectory T').2 = sortedSet (processDirectory T).2 := by
    apply sorted_unique (sorted_sortedSet _) (sorted_sortedSet _)
    intro x
    rw [mem_sortedSet, mem_sortedSet]
    simp only [processDirectory, List.mem_flatMap]
    constructor
    · rintro ⟨f', hf', hx⟩
      obtain ⟨f, hf, rfl⟩ := List.mem_map.1 (hm.walked.mem_iff.1 hf')
      exact ⟨f, hf, by rwa [files] at hx⟩
    · rintro ⟨f, hf, hx⟩
      exact ⟨φ f, (hw f).2 hf, by rwa [files]⟩
  have hb : ∀ f, block T' (φ f) = block T f := fun f => by simp only [block, hm.text, hm.rel]
  unfold main
  simp only [hw]
  split
  · rw [fileOrder_moved hm.inj n entry hg hk]
    cases fileOrder n (processDirectory T).1 entry with
    | none => rfl
    | some order =>
        simp only [Option.map_some, concatenate, hs, Option.some.injEq, List.append_cancel_left_eq]
        rw [List.flatMap_map]
        congr 1
        funext f
        exact hb f
  · rfl

/-! ### C111: nothing else is needed -/

theorem keyword_asks {a b c : List Char} (ha : Blank a) (hb : Blank b) :
    keyword (a ++ keywordText ++ b ++ '"' :: c) = some ('"' :: c) :=
  keyword_eq ha hb (by simp; decide)

/-- If nothing stands behind the names in the includes, the header asks for no header of
the project. -/
theorem C111_selfContained (n : Nat) (T : Tree α) (entry : α) (out : List Char) (h : main n T entry = some out)
    (hw : ∀ f, Needs (Includes T) entry f → f ∈ T.walked) (hac : NoCycle (Includes T) entry)
    (ht : ∀ f, Needs (Includes T) entry f → Tidy (T.text f) ∧ '\n' ∉ T.rel f)
    (hq : ∀ f, Needs (Includes T) entry f → ∀ l ∈ linesOf (T.text f), Asks l → ∃ name, Quoted name l) :
    ∀ l ∈ linesOf out, ¬ Asks l := by
  obtain ⟨std, order, hc, _, hn, _, _, _⟩ := C109_header n T entry out h hw hac ht
  rintro l hl ⟨a, b, c, ha, hb, e⟩
  have hl' : l ∈ content out := content_mem.2 ⟨hl, by rw [e]; exact not_blank_directive⟩
  have hkw : keyword l = some ('"' :: c) := by rw [e]; exact keyword_asks ha hb
  rw [hc] at hl'
  rcases List.mem_append.1 hl' with h1 | h1
  · obtain ⟨i, _, rfl⟩ := List.mem_map.1 h1
    have : keyword (stdLine i) = some ('<' :: (i ++ ['>'])) := by
      have := keyword_eq (a := []) (b := [' ']) (r := '<' :: (i ++ ['>'])) (by simp [Blank]) (by decide)
        (by simp; decide)
      simpa [stdLine] using this
    rw [this] at hkw
    simp at hkw
  · obtain ⟨f, hf, h2⟩ := List.mem_flatMap.1 h1
    have none_of : ∀ s, keyword ('/' :: s) = none := by
      intro s
      unfold keyword
      rw [List.dropWhile_cons, if_neg (by decide)]
      simp [literal, keywordText]
    simp only [blockLines, List.cons_append, List.mem_cons, List.mem_append, List.not_mem_nil, or_false] at h2
    rcases h2 with rfl | h2 | rfl
    · rw [show "// Begin ".toList ++ T.rel f = '/' :: ("/ Begin ".toList ++ T.rel f) from rfl, none_of] at hkw
      cases hkw
    · classical
      unfold ownLines at h2
      obtain ⟨h3, h4⟩ := List.mem_filter.1 h2
      have := hq f ((hn f).1 hf) l (content_mem.1 h3).1 ⟨a, b, c, ha, hb, e⟩
      simp [this] at h4
    · rw [show "// End ".toList ++ T.rel f = '/' :: ("/ End ".toList ++ T.rel f) from rfl, none_of] at hkw
      cases hkw

/-! ### Examples and where they fail -/

/-- Three headers: 0 includes 1 and 2, 1 includes 2. -/
def threeText : Nat → List Char
  | 0 => "#pragma once\n#include <array>\n#include \"one.hpp\"\n  #include \"two.hpp\"  \n\nint zero;\n".toList
  | 1 => "#include\"two.hpp\"\n#include <bit>\nint one;".toList
  | _ => "#include <bit>\nint two;\n".toList

def byName (f : List Char) : Option Nat :=
  if f = "zero.hpp".toList then some 0 else if f = "one.hpp".toList then some 1
  else if f = "two.hpp".toList then some 2 else if f = "two.ipp".toList then some 3 else none

def nameOf : Nat → List Char
  | 0 => "zero.hpp".toList
  | 1 => "one.hpp".toList
  | _ => "two.hpp".toList

def three : Tree Nat := ⟨[2, 0, 1], threeText, fun _ => byName, nameOf⟩

def threeOut : List Char :=
  ("#include <array>\n#include <bit>\n\n// Begin two.hpp\n \nint two;\n\n// End two.hpp\n" ++
   "\n// Begin one.hpp\n \nint one;\n// End one.hpp\n" ++
   "\n// Begin zero.hpp\n#pragma once\n \nint zero;\n\n// End zero.hpp\n").toList

theorem three_out : main 4 three 0 = some threeOut := by decide +kernel

/-- The same with the files found in another order, and two further frames. -/
example : main 6 { three with walked := [1, 0, 2] } 0 = some threeOut := by decide +kernel

/-- Moved to the even numbers and found in another order. -/
def evens : Tree Nat :=
  ⟨[0, 2, 4], fun f => threeText (f / 2), fun _ name => (byName name).map (2 * ·), fun f => nameOf (f / 2)⟩

example : main 4 evens 0 = some threeOut := by
  rw [← three_out]
  refine C110_deterministic (2 * ·) three evens ⟨fun a b h => by omega, ?_, ?_, ?_, ?_⟩ 4 0
  · decide
  · intro f; simp [evens, three]
  · intro f name; rfl
  · intro f; simp [evens, three]

/-- The lines of a text of which a decidable property holds. -/
example : content threeOut = ["#include <array>", "#include <bit>", "// Begin two.hpp", "int two;", "// End two.hpp",
    "// Begin one.hpp", "int one;", "// End one.hpp", "// Begin zero.hpp", "#pragma once", "int zero;",
    "// End zero.hpp"].map String.toList := by decide +kernel

theorem dangling_keyword {l : List Char} (h : Dangling l) :
    keyword l = some [] ∨ ∃ c, '"' ∉ c ∧ keyword l = some ('"' :: c) := by
  obtain ⟨a, b, ha, hb, e | ⟨c, hc, e⟩⟩ := h
  · left
    have := keyword_eq ha hb (r := []) (by simp)
    rw [List.append_nil] at this
    rw [e, this]
  · exact .inr ⟨c, hc, by rw [e]; exact keyword_asks ha hb⟩

/-- Checked line by line. -/
theorem tidy_of {t : List Char}
    (h : ∀ l ∈ linesOf t, keyword l = none ∨ ∃ c r, keyword l = some (c :: r) ∧ (c ≠ '"' ∨ '"' ∈ r)) : Tidy t := by
  intro l hl hd
  rcases h l hl with h1 | ⟨c, r, h1, h2⟩ <;> rcases dangling_keyword hd with h3 | ⟨c', h3, h4⟩
  · rw [h1] at h3; cases h3
  · rw [h1] at h4; cases h4
  · rw [h1] at h3; cases h3
  · rw [h1] at h4
    cases h4
    rcases h2 with h2 | h2
    · exact h2 rfl
    · exact h3 h2

theorem three_includes {a b : Nat} (h : Includes three a b) : (a = 0 ∧ (b = 1 ∨ b = 2)) ∨ (a = 1 ∧ b = 2) := by
  obtain ⟨l, hl, name, hq, hr⟩ := h
  have hm : name ∈ (processFile three a).1 := mem_quoted_names.2 ⟨l, hl, hq⟩
  match a with
  | 0 =>
      have e : (processFile three 0).1 = ["one.hpp".toList, "two.hpp".toList] := by decide +kernel
      rw [e] at hm
      simp only [List.mem_cons, List.not_mem_nil, or_false] at hm
      rcases hm with rfl | rfl
      · have e : three.resolve 0 "one.hpp".toList = some 1 := by decide +kernel
        rw [e] at hr
        exact .inl ⟨rfl, .inl (Option.some.inj hr).symm⟩
      · have e : three.resolve 0 "two.hpp".toList = some 2 := by decide +kernel
        rw [e] at hr
        exact .inl ⟨rfl, .inr (Option.some.inj hr).symm⟩
  | 1 =>
      have e : (processFile three 1).1 = ["two.hpp".toList] := by decide +kernel
      rw [e] at hm
      simp only [List.mem_cons, List.not_mem_nil, or_false] at hm
      subst hm
      have e : three.resolve 1 "two.hpp".toList = some 2 := by decide +kernel
      rw [e] at hr
      exact .inr ⟨rfl, (Option.some.inj hr).symm⟩
  | n + 2 =>
      have e : (processFile three 2).1 = [] := by decide +kernel
      rw [show (processFile three (n + 2)).1 = (processFile three 2).1 from rfl, e] at hm
      cases hm

theorem three_brings {a b : Nat} (h : Brings (Includes three) a b) : a < b ∧ b ≤ 2 := by
  induction h with
  | direct h => have := three_includes h; omega
  | step h _ ih => have := three_includes h; omega

theorem three_tidy : ∀ f, Needs (Includes three) 0 f → f ∈ three.walked ∧ Tidy (three.text f) ∧ '\n' ∉ three.rel f := by
  intro f h
  have : f ≤ 2 := by
    rcases h with rfl | h
    · decide
    · exact (three_brings h).2
  have tidy : ∀ f, f ≤ 2 → Tidy (three.text f) := by
    intro f hf
    apply tidy_of
    have key : ∀ g < 3, ∀ l ∈ linesOf (three.text g), (match keyword l with
        | none => true | some [] => false | some (c :: r) => decide (c ≠ '"' ∨ '"' ∈ r)) = true := by
      decide +kernel
    intro l hl
    have := key f (by omega) l hl
    revert this
    split
    · intro _; left; assumption
    · intro h; cases h
    · rename_i c r e
      intro h
      exact .inr ⟨c, r, e, of_decide_eq_true h⟩
  have walked : ∀ g < 3, g ∈ three.walked ∧ '\n' ∉ three.rel g := by decide +kernel
  exact ⟨(walked f (by omega)).1, tidy f this, (walked f (by omega)).2⟩

/-- All that the theorem asks for, these three have. -/
example : ∃ (std : List (List Char)) (order : List Nat),
    content threeOut = std.map stdLine ++ order.flatMap (blockLines three) ∧ order.Nodup ∧
      (∀ f, f ∈ order ↔ Needs (Includes three) 0 f) ∧ AfterIncludes (Includes three) order ∧
      std.Pairwise (· < ·) ∧ ∀ name, name ∈ std ↔ ∃ f ∈ three.walked, UsesStd three f name :=
  C109_header 4 three 0 threeOut three_out (fun f h => (three_tidy f h).1)
    (fun _ _ h => absurd (three_brings h).1 (Nat.lt_irrefl _)) (fun f h => (three_tidy f h).2)

/-- Four levels of recursion are enough for them. -/
example : ∃ out, main 4 three 0 = some out :=
  C109_runs 4 three 0 (by decide) (fun _ _ d h => by
    have h1 := (three_brings (.direct h)).2
    have : ∀ g < 3, g ∈ three.walked := by decide
    exact this d (by omega)) (by decide)

theorem linesOf_no_newline : ∀ {t l : List Char}, l ∈ linesOf t → '\n' ∉ l
  | [], l, h => by simp only [linesOf, List.mem_singleton] at h; subst h; simp
  | c :: cs, l, h => by
      unfold linesOf at h
      split at h
      · rcases List.mem_cons.1 h with rfl | h
        · simp
        · exact linesOf_no_newline h
      · rename_i hc
        split at h
        · exact absurd (by assumption) (linesOf_ne cs)
        · rename_i x xs e
          rcases List.mem_cons.1 h with rfl | h
          · have := linesOf_no_newline (t := cs) (l := x) (by rw [e]; simp)
            simp [this, Ne.symm hc]
          · exact linesOf_no_newline (t := cs) (by rw [e]; simp [h])

theorem asks_of {t : List Char} (h : ∀ l ∈ linesOf t, keyword l = none ∨ (keyword l).bind (·.head?) ≠ some '"' ∨
    (quoted l).isSome) : ∀ l ∈ linesOf t, Asks l → ∃ name, Quoted name l := by
  rintro l hl ⟨a, b, c, ha, hb, e⟩
  have hk : keyword l = some ('"' :: c) := by rw [e]; exact keyword_asks ha hb
  rcases h l hl with h1 | h1 | h1
  · rw [h1] at hk; cases hk
  · rw [hk] at h1; exact absurd rfl h1
  · cases hq : quoted l with
    | none => rw [hq] at h1; cases h1
    | some p =>
        obtain ⟨h1, h2⟩ := (line_match quoted_shape (name := p.1) (linesOf_no_newline hl) (.inl rfl)).1 ⟨p.2, hq⟩
        exact ⟨p.1, h1.1, h1.2, h2⟩

/-- And it needs nothing but itself. -/
example : ∀ l ∈ linesOf threeOut, ¬ Asks l := by
  refine C111_selfContained 4 three 0 threeOut three_out (fun f h => (three_tidy f h).1)
    (fun _ _ h => absurd (three_brings h).1 (Nat.lt_irrefl _)) (fun f h => (three_tidy f h).2) ?_
  intro f h
  have hf : f < 3 := by
    rcases h with rfl | h
    · decide
    · have := (three_brings h).2; omega
  have key : ∀ g < 3, ∀ l ∈ linesOf (three.text g), keyword l = none ∨ (keyword l).bind (·.head?) ≠ some '"' ∨
      (quoted l).isSome := by decide +kernel
  exact asks_of (key f hf)

/-- Two headers that include each other, as guards allow: both are left out, and what the
entry said about them too. -/
def circularText : Nat → List Char
  | 0 => "#include \"one.hpp\"\nint zero;".toList
  | 1 => "#pragma once\n#include \"two.hpp\"\nint one;".toList
  | _ => "#pragma once\n#include \"one.hpp\"\nint two;".toList

def circular : Tree Nat := ⟨[0, 1, 2], circularText, fun _ => byName, nameOf⟩

theorem C109_fails_cycle : main 10 circular 0 = some "\n// Begin zero.hpp\n \nint zero;\n// End zero.hpp\n".toList := by
  decide +kernel

/-- A header with an extension the walk does not look for: what it includes is left out. -/
def otherText : Nat → List Char
  | 0 => "#include \"two.ipp\"\nint zero;".toList
  | 3 => "#include \"one.hpp\"\nint two;".toList
  | _ => "int one;".toList

def otherName : Nat → List Char
  | 0 => "zero.hpp".toList
  | 3 => "two.ipp".toList
  | _ => "one.hpp".toList

def other : Tree Nat := ⟨[0, 1], otherText, fun _ => byName, otherName⟩

theorem C109_fails_extension : main 10 other 0 =
    some ("\n// Begin two.ipp\n \nint two;\n// End two.ipp\n" ++
      "\n// Begin zero.hpp\n \nint zero;\n// End zero.hpp\n").toList := by decide +kernel

/-- A comment behind an include: it is neither followed nor taken out. -/
def comment : Tree Nat :=
  ⟨[0, 1], fun | 0 => "#include \"one.hpp\" // for one\nint zero;".toList | _ => "int one;".toList,
   fun _ => byName, nameOf⟩

theorem C111_fails_comment : ∃ out, main 10 comment 0 = some out ∧ ∃ l ∈ linesOf out, Asks l :=
  ⟨"\n// Begin zero.hpp\n#include \"one.hpp\" // for one\nint zero;\n// End zero.hpp\n".toList, by decide +kernel,
   "#include \"one.hpp\" // for one".toList, by decide +kernel,
   [], [' '], "one.hpp\" // for one".toList, by simp [Blank], by decide, by decide⟩

/-- The order is not always that of the preprocessor: 0 includes 1, then 2, which includes 3
and 1. A compiler reads 1 before 3; the header has 3 first. -/
theorem C109_order_differs : fileOrder 10 [(0, [1, 2]), (1, []), (2, [3, 1]), (3, [])] 0 = some [3, 1, 2, 0] := by
  decide +kernel

end S2S.Props
