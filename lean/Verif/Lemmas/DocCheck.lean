import Verif.Spec.DocCheck
import Verif.Lemmas.Nav
import Verif.Lemmas.Amalgam
/-
The pages and sources, as the script sees them.
-/
namespace S2S.DocCheck
open Amalgam (isSpace isWord literal)
open Nav (span_eq mem_takeWhile dropWhile_head)

theorem isFence_iff (line : Line) : isFence line = true ↔ Fence line := by
  rw [isFence, List.isPrefixOf_iff_prefix]
  constructor
  · rintro ⟨t, rfl⟩; exact ⟨t, rfl⟩
  · rintro ⟨t, rfl⟩; exact ⟨t, rfl⟩

theorem literal_some (p t r : Line) : literal p t = some r ↔ t = p ++ r := by
  induction p generalizing t with
  | nil => simp [literal]
  | cons c cs ih =>
    cases t with
    | nil => simp [literal]
    | cons d t =>
      rw [literal]
      split
      · rename_i h; subst h; simp [ih]
      · rename_i h; simp; intro h'; exact absurd h'.symm h

theorem all_spaces (t : Line) : t.all isSpace = true ↔ Spaces t := by simp [Spaces]

theorem closes_iff (t : Line) : closes t = true ↔
    ∃ c d : Line, t = c ++ "-->".toList ++ d ∧ Spaces c ∧ Spaces d := by
  rw [closes]
  constructor
  · intro h
    cases hl : literal "-->".toList (t.dropWhile isSpace) with
    | none => rw [hl] at h; cases h
    | some rest =>
      rw [hl] at h
      rw [literal_some] at hl
      exact ⟨t.takeWhile isSpace, rest, by rw [List.append_assoc, ← hl, List.takeWhile_append_dropWhile],
        fun c hc => mem_takeWhile hc, (all_spaces rest).1 h⟩
  · rintro ⟨c, d, rfl, hc, hd⟩
    rw [List.append_assoc, (span_eq (p := isSpace) hc (fun x hx => by cases hx; decide)).2,
      (literal_some _ _ d).2 rfl]
    exact (all_spaces d).2 hd

theorem end_not_space : ∀ c ∈ "-->".toList, isSpace c = false := by decide

/-- The rest of the comment behind `docs:`. -/
def boundBy (t : Line) : Option Line :=
  let t := t.dropWhile isSpace
  let run := t.takeWhile fun c => !isSpace c
  let rest := t.dropWhile fun c => !isSpace c
  if !run.isEmpty && closes rest then some run
  else if 3 < run.length && run.drop (run.length - 3) == "-->".toList && rest.all isSpace then
    some (run.take (run.length - 3))
  else none

theorem boundBy_iff (t path : Line) : boundBy t = some path ↔
    ∃ b c d : Line, t = b ++ path ++ c ++ "-->".toList ++ d ∧ Spaces b ∧ Spaces c ∧ Spaces d ∧
      path ≠ [] ∧ ∀ x ∈ path, isSpace x = false := by
  constructor
  · intro h
    simp only [boundBy] at h
    have e1 : t = t.takeWhile isSpace ++ t.dropWhile isSpace := List.takeWhile_append_dropWhile.symm
    generalize ht : t.dropWhile isSpace = t' at *
    have e2 : t' = t'.takeWhile (fun c => !isSpace c) ++ t'.dropWhile (fun c => !isSpace c) :=
      List.takeWhile_append_dropWhile.symm
    have hrun : ∀ x ∈ t'.takeWhile (fun c => !isSpace c), isSpace x = false := fun x hx => by
      simpa using mem_takeWhile hx
    generalize t'.takeWhile (fun c => !isSpace c) = run at *
    generalize t'.dropWhile (fun c => !isSpace c) = rest at *
    split at h
    · rename_i hc
      simp only [Bool.and_eq_true, Bool.not_eq_true', List.isEmpty_eq_false_iff, closes_iff] at hc
      obtain ⟨hne, c, d, rfl, hc, hd⟩ := hc
      cases h
      refine ⟨t.takeWhile isSpace, c, d, ?_, fun c hc => mem_takeWhile hc, hc, hd, hne, hrun⟩
      conv => lhs; rw [e1, e2]
      simp only [List.append_assoc]
    · split at h
      · rename_i hc
        simp only [Bool.and_eq_true, decide_eq_true_eq, beq_iff_eq, all_spaces] at hc
        obtain ⟨⟨h1, h2⟩, h3⟩ := hc
        cases h
        refine ⟨t.takeWhile isSpace, [], rest, ?_, fun c hc => mem_takeWhile hc, nofun, h3, ?_, fun x hx => hrun x (List.mem_of_mem_take hx)⟩
        · rw [← h2]
          conv => lhs; rw [e1, e2]
          simp only [List.append_nil, List.append_assoc]
          rw [← List.append_assoc (List.take _ run), List.take_append_drop]
        · intro h
          have := congrArg List.length h
          simp at this
          omega
      · cases h
  · rintro ⟨b, c, d, rfl, hb, hc, hd, hne, hp⟩
    simp only [boundBy]
    have e1 : (b ++ path ++ c ++ "-->".toList ++ d).dropWhile isSpace = path ++ (c ++ ("-->".toList ++ d)) := by
      simp only [List.append_assoc]
      refine (span_eq (p := isSpace) hb fun x hx => ?_).2
      cases path with
      | nil => exact absurd rfl hne
      | cons y ys => cases hx; exact hp _ (by simp)
    rw [e1]
    have hp' : ∀ x ∈ path, (!isSpace x) = true := fun x hx => by simp [hp x hx]
    cases c with
    | nil =>
      have e2 := span_eq (p := fun c => !isSpace c) (a := path ++ "-->".toList) (b := d)
        (fun x hx => by
          rcases List.mem_append.1 hx with hx | hx
          · exact hp' x hx
          · simp [end_not_space x hx])
        (fun x hx => by simp [hd x (List.mem_of_mem_head? hx)])
      rw [List.nil_append, ← List.append_assoc, e2.1, e2.2, if_neg, if_pos]
      · have : (path ++ "-->".toList).length - 3 = path.length := by simp
        rw [this, List.take_left]
      · have : (path ++ "-->".toList).length - 3 = path.length := by simp
        rw [this, List.drop_left]
        have : 0 < path.length := List.length_pos_iff.2 hne
        simp only [Bool.and_eq_true, decide_eq_true_eq, beq_self_eq_true, and_true, all_spaces]
        exact ⟨by simp; omega, hd⟩
      · simp only [Bool.and_eq_true, closes_iff, not_and]
        rintro _ ⟨c, d', rfl, _, _⟩
        exact absurd (hd '-' (by simp)) (by decide)
    | cons y ys =>
      have e2 := span_eq (p := fun c => !isSpace c) (a := path) (b := y :: ys ++ ("-->".toList ++ d)) hp'
        (fun x hx => by cases hx; simp [hc y (by simp)])
      rw [e2.1, e2.2, if_pos]
      simp only [Bool.and_eq_true, Bool.not_eq_true', List.isEmpty_eq_false_iff, closes_iff]
      exact ⟨hne, y :: ys, d, by simp, hc, hd⟩

theorem bindingOf_iff (line path : Line) : bindingOf line = some path ↔ Binds line path := by
  have h0 : bindingOf line =
      match literal "<!--".toList line with
      | none => none
      | some t =>
        match literal "docs:".toList (t.dropWhile isSpace) with
        | none => none
        | some t => boundBy t := rfl
  rw [h0]
  constructor
  · intro h
    split at h
    · cases h
    · rename_i t ht
      split at h
      · cases h
      · rename_i t' ht'
        rw [literal_some] at ht ht'
        obtain ⟨b, c, d, rfl, hb, hc, hd, hne, hp⟩ := (boundBy_iff t' path).1 h
        refine ⟨t.takeWhile isSpace, b, c, d, ?_, fun c hc => mem_takeWhile hc, hb, hc, hd, hne, hp⟩
        rw [ht]
        conv => lhs; rw [← List.takeWhile_append_dropWhile (p := isSpace) (l := t), ht']
        simp only [List.append_assoc]
  · rintro ⟨a, b, c, d, rfl, ha, hb, hc, hd, hne, hp⟩
    have e1 : literal "<!--".toList ("<!--".toList ++ a ++ "docs:".toList ++ b ++ path ++ c ++ "-->".toList ++ d) =
        some (a ++ ("docs:".toList ++ (b ++ path ++ c ++ "-->".toList ++ d))) :=
      (literal_some _ _ _).2 (by simp only [List.append_assoc])
    have e2 : (a ++ ("docs:".toList ++ (b ++ path ++ c ++ "-->".toList ++ d))).dropWhile isSpace =
        "docs:".toList ++ (b ++ path ++ c ++ "-->".toList ++ d) :=
      (span_eq (p := isSpace) ha fun x hx => by cases hx; decide).2
    rw [e1]
    simp only
    rw [e2, (literal_some _ _ (b ++ path ++ c ++ "-->".toList ++ d)).2 rfl]
    exact (boundBy_iff _ _).2 ⟨b, c, d, rfl, hb, hc, hd, hne, hp⟩

theorem fence_no_binding {line : Line} (h : Fence line) : bindingOf line = none := by
  obtain ⟨t, rfl⟩ := h
  rfl

/-! ### Blocks -/

theorem blocksFrom_text (above : Option Line) (i : Nat) (text rest : List Line) (h : ∀ l ∈ text, ¬ Fence l) :
    blocksFrom above none i (text ++ rest) =
      blocksFrom (text.getLast?.or above) none (i + text.length) rest := by
  induction text generalizing above i with
  | nil => rfl
  | cons l ls ih =>
    rw [List.cons_append, blocksFrom, if_neg (fun hf => h l (by simp) ((isFence_iff l).1 hf)),
      ih _ _ fun l h' => h l (by simp [h'])]
    congr 1
    · cases hls : ls.getLast? with
      | none => rw [List.getLast?_eq_none_iff] at hls; subst hls; rfl
      | some x => simp [List.getLast?_cons, hls]
    · simp only [List.length_cons]; omega

theorem blocksFrom_body (above : Option Line) (i : Nat) (b : Block) (body rest : List Line)
    (h : ∀ l ∈ body, ¬ Fence l) :
    blocksFrom above (some b) i (body ++ rest) =
      blocksFrom (body.getLast?.or above) (some { b with body := b.body ++ body }) (i + body.length) rest := by
  induction body generalizing above i b with
  | nil => simp
  | cons l ls ih =>
    rw [List.cons_append, blocksFrom, if_neg (fun hf => h l (by simp) ((isFence_iff l).1 hf)),
      ih _ _ _ fun l h' => h l (by simp [h'])]
    congr 1
    · cases hls : ls.getLast? with
      | none => rw [List.getLast?_eq_none_iff] at hls; subst hls; rfl
      | some x => simp [List.getLast?_cons, hls]
    · simp
    · simp only [List.length_cons]; omega

theorem bound_eq {above : Option Line} (ha : above.bind bindingOf = none) {text : List Line}
    {bound : Option Line} (h : ∀ path, bound = some path ↔ ∃ l, text.getLast? = some l ∧ Binds l path) :
    (text.getLast?.or above).bind bindingOf = bound := by
  cases hl : text.getLast? with
  | none =>
    rw [Option.none_or, ha]
    cases bound with
    | none => rfl
    | some p => obtain ⟨l, h1, _⟩ := (h p).1 rfl; rw [hl] at h1; cases h1
  | some l =>
    rw [Option.some_or, Option.bind_some]
    cases hb : bindingOf l with
    | some p => exact ((h p).2 ⟨l, hl, (bindingOf_iff l p).1 hb⟩).symm
    | none =>
      cases bound with
      | none => rfl
      | some p =>
        obtain ⟨l', h1, h2⟩ := (h p).1 rfl
        rw [hl] at h1
        cases h1
        rw [(bindingOf_iff l p).2 h2] at hb
        cases hb

theorem blocksFrom_shows {i : Nat} {page : List Line} {blocks : List Block} (h : Shows i page blocks)
    (above : Option Line) (ha : above.bind bindingOf = none) : blocksFrom above none i page = blocks := by
  induction h generalizing above with
  | @none i text ht =>
    have := blocksFrom_text above i text [] ht
    rw [List.append_nil] at this
    rw [this, blocksFrom]
  | @block i text o body c rest bound blocks ht ho hb hc hbound _ ih =>
    rw [blocksFrom_text _ _ _ _ ht, blocksFrom, if_pos ((isFence_iff o).2 ho), blocksFrom_body _ _ _ _ _ hb,
      blocksFrom, if_pos ((isFence_iff c).2 hc), bound_eq ha hbound, ih _ (by simp [fence_no_binding hc])]
    simp
  | @unclosed i text o body bound ht ho hb hbound =>
    have := blocksFrom_body (some o) (i + text.length + 1) ⟨i + text.length + 1, bound, []⟩ body [] hb
    rw [List.append_nil] at this
    rw [blocksFrom_text _ _ _ _ ht, blocksFrom, if_pos ((isFence_iff o).2 ho), bound_eq ha hbound, this,
      blocksFrom]
    simp

/-- Every line before the first fence. -/
theorem split_fence (lines : List Line) : (∀ l ∈ lines, ¬ Fence l) ∨
    ∃ text f rest, lines = text ++ f :: rest ∧ (∀ l ∈ text, ¬ Fence l) ∧ Fence f := by
  induction lines with
  | nil => exact .inl nofun
  | cons l ls ih =>
    cases hf : isFence l with
    | true => exact .inr ⟨[], l, ls, rfl, nofun, (isFence_iff l).1 hf⟩
    | false =>
      have hl : ¬ Fence l := fun h => by rw [(isFence_iff l).2 h] at hf; cases hf
      rcases ih with ih | ⟨text, f, rest, rfl, h1, h2⟩
      · exact .inl fun x hx => by
          rcases List.mem_cons.1 hx with rfl | hx
          · exact hl
          · exact ih x hx
      · exact .inr ⟨l :: text, f, rest, rfl, fun x hx => by
          rcases List.mem_cons.1 hx with rfl | hx
          · exact hl
          · exact h1 x hx, h2⟩

theorem bound_spec (text : List Line) (path : Line) : text.getLast?.bind bindingOf = some path ↔
    ∃ l, text.getLast? = some l ∧ Binds l path := by
  rw [Option.bind_eq_some_iff]
  simp only [bindingOf_iff]

theorem shows_exists (n : Nat) (i : Nat) (page : List Line) (hn : page.length ≤ n) : ∃ blocks, Shows i page blocks := by
  induction n generalizing i page with
  | zero =>
    obtain rfl : page = [] := List.length_eq_zero_iff.1 (by omega)
    exact ⟨[], .none nofun⟩
  | succ n ih =>
    rcases split_fence page with h | ⟨text, o, rest, rfl, h1, h2⟩
    · exact ⟨[], .none h⟩
    · rcases split_fence rest with h | ⟨body, c, rest', rfl, h3, h4⟩
      · exact ⟨_, .unclosed h1 h2 h (bound_spec text)⟩
      · obtain ⟨blocks, hb⟩ := ih (i + text.length + 1 + body.length + 1) rest' (by simp at hn; omega)
        exact ⟨_, .block h1 h2 h3 h4 (bound_spec text) hb⟩

theorem docBlocks_iff (page : List Line) (blocks : List Block) : docBlocks page = blocks ↔ Shows 0 page blocks := by
  constructor
  · rintro rfl
    obtain ⟨bs, h⟩ := shows_exists _ 0 page (Nat.le_refl _)
    rw [docBlocks, blocksFrom_shows h none rfl]
    exact h
  · intro h
    exact blocksFrom_shows h none rfl

/-! ### Regions -/

theorem strip_iff {m : Line} (hm : m ≠ []) (h0 : ∀ c, m.head? = some c → isSpace c = false)
    (h1 : ∀ c, m.getLast? = some c → isSpace c = false) (l : Line) : strip l = m ↔ Marker m l := by
  constructor
  · intro h
    refine ⟨l.takeWhile isSpace, ((l.dropWhile isSpace).reverse.takeWhile isSpace).reverse, ?_,
      fun c hc => mem_takeWhile hc, fun c hc => mem_takeWhile (List.mem_reverse.1 hc)⟩
    rw [← h, strip, Nav.rstrip, List.append_assoc, ← List.reverse_append, List.takeWhile_append_dropWhile,
      List.reverse_reverse, List.takeWhile_append_dropWhile]
  · rintro ⟨a, b, rfl, ha, hb⟩
    rw [strip, List.append_assoc, (span_eq (p := isSpace) ha ?_).2, Nav.rstrip, List.reverse_append,
      (span_eq (p := isSpace) (fun c hc => hb c (List.mem_reverse.1 hc)) ?_).2, List.reverse_reverse]
    · intro c hc
      rw [List.head?_reverse] at hc
      exact h1 c hc
    · intro c hc
      cases m with
      | nil => exact absurd rfl hm
      | cons d ds => cases hc; exact h0 _ rfl

theorem begin_iff (l : Line) : strip l = "// docs-begin".toList ↔ Marker "// docs-begin".toList l :=
  strip_iff (by decide) (fun c hc => by cases hc; decide) (fun c hc => by
    have : ("// docs-begin".toList).getLast? = some 'n' := by decide
    rw [this] at hc; cases hc; decide) l
theorem end_iff (l : Line) : strip l = "// docs-end".toList ↔ Marker "// docs-end".toList l :=
  strip_iff (by decide) (fun c hc => by cases hc; decide) (fun c hc => by
    have : ("// docs-end".toList).getLast? = some 'd' := by decide
    rw [this] at hc; cases hc; decide) l

theorem markers_differ {l : Line} (hb : Marker "// docs-begin".toList l) : ¬ Marker "// docs-end".toList l := by
  rw [← begin_iff] at hb
  rw [← end_iff, hb]
  decide

/-- The first line with the property. -/
theorem findIdx_split {p : Line → Bool} {ls : List Line} {i : Nat} : ls.findIdx? p = some i ↔
    ∃ before x after, ls = before ++ x :: after ∧ before.length = i ∧ p x = true ∧ ∀ l ∈ before, p l = false := by
  induction ls generalizing i with
  | nil => simp
  | cons l ls ih =>
    rw [List.findIdx?_cons]
    cases hp : p l with
    | true =>
      simp only [if_true, Option.some.injEq]
      constructor
      · rintro rfl; exact ⟨[], l, ls, rfl, rfl, hp, nofun⟩
      · rintro ⟨before, x, after, h, rfl, h1, h2⟩
        cases before with
        | nil => rfl
        | cons y ys => cases h; rw [h2 _ (by simp)] at hp; cases hp
    | false =>
      simp only [Bool.false_eq_true, if_false, Option.map_eq_some_iff]
      constructor
      · rintro ⟨j, hj, rfl⟩
        obtain ⟨before, x, after, rfl, rfl, h1, h2⟩ := ih.1 hj
        exact ⟨l :: before, x, after, rfl, rfl, h1, fun y hy => by
          rcases List.mem_cons.1 hy with rfl | hy
          · exact hp
          · exact h2 y hy⟩
      · rintro ⟨before, x, after, h, rfl, h1, h2⟩
        cases before with
        | nil => cases h; rw [h1] at hp; cases hp
        | cons y ys =>
          cases h
          exact ⟨ys.length, ih.2 ⟨ys, x, after, rfl, rfl, h1, fun y hy => h2 y (by simp [hy])⟩, rfl⟩

theorem split_lt {a b c d : List Line} {x y : Line} (h : a ++ x :: b = c ++ y :: d) (hlt : a.length < c.length) :
    ∃ m, c = a ++ x :: m ∧ b = m ++ y :: d := by
  rcases List.append_eq_append_iff.1 h with ⟨a', h1, h2⟩ | ⟨c', h1, h2⟩
  · cases a' with
    | nil => rw [h1] at hlt; simp at hlt
    | cons z zs => cases h2; exact ⟨zs, h1, rfl⟩
  · rw [h1] at hlt; simp at hlt; omega

theorem sourceRegion_marks {src region : List Line} (h : Marks src region) : sourceRegion src = some region := by
  obtain ⟨before, b, e, after, rfl, hb, he, h1, h2⟩ := h
  have hbi : (before ++ b :: (region ++ e :: after)).findIdx? (fun l => strip l == "// docs-begin".toList) =
      some before.length :=
    findIdx_split.2 ⟨before, b, _, rfl, rfl, by rw [beq_iff_eq, begin_iff]; exact hb, fun l hl => by
      rw [beq_eq_false_iff_ne, ne_eq, begin_iff]; exact (h1 l hl).1⟩
  have hei : (before ++ b :: (region ++ e :: after)).findIdx? (fun l => strip l == "// docs-end".toList) =
      some (before ++ b :: region).length :=
    findIdx_split.2 ⟨before ++ b :: region, e, after, by simp, rfl, by rw [beq_iff_eq, end_iff]; exact he,
      fun l hl => by
        rw [beq_eq_false_iff_ne, ne_eq, end_iff]
        rcases List.mem_append.1 hl with hl | hl
        · exact (h1 l hl).2
        · rcases List.mem_cons.1 hl with rfl | hl
          · exact markers_differ hb
          · exact h2 l hl⟩
  rw [sourceRegion, hbi, hei]
  simp only [Option.some.injEq]
  have e1 : before ++ b :: (region ++ e :: after) = (before ++ b :: region) ++ e :: after := by simp
  rw [e1, List.take_left]
  have e2 : before ++ b :: region = (before ++ [b]) ++ region := by simp
  rw [e2, show before.length + 1 = (before ++ [b]).length by simp, List.drop_left]

theorem sourceRegion_iff (src region : List Line) : sourceRegion src = some region ↔
    Marks src region ∨ Reversed src ∧ region = [] := by
  constructor
  · intro h
    simp only [sourceRegion] at h
    split at h
    · rename_i b e hb he
      cases h
      obtain ⟨before, x, after, hs, rfl, h1, h2⟩ := findIdx_split.1 hb
      obtain ⟨before', y, after', hs', rfl, h3, h4⟩ := findIdx_split.1 he
      simp only [beq_iff_eq, begin_iff, end_iff, beq_eq_false_iff_ne, ne_eq] at h1 h2 h3 h4
      rcases Nat.lt_trichotomy before.length before'.length with hlt | heq | hgt
      · left
        obtain ⟨m, rfl, rfl⟩ := split_lt (hs.symm.trans hs') hlt
        have e1 : (src.take (before ++ x :: m).length).drop (before.length + 1) = m := by
          rw [hs', List.take_left, List.append_cons, show before.length + 1 = (before ++ [x]).length by simp,
            List.drop_left]
        rw [e1]
        exact ⟨before, x, y, after', hs, h1, h3, fun l hl => ⟨h2 l hl, h4 l (by simp [hl])⟩,
          fun l hl => h4 l (by simp [hl])⟩
      · exfalso
        rw [hs] at hs'
        have := (List.append_inj hs' heq).2
        cases this
        exact markers_differ h1 h3
      · right
        refine ⟨?_, ?_⟩
        · obtain ⟨m, rfl, rfl⟩ := split_lt (hs'.symm.trans hs) hgt
          exact ⟨before', y, m, x, after, hs', h3, h1, fun l hl => h2 l (by simp [hl])⟩
        · rw [List.drop_eq_nil_iff, List.length_take]; omega
    · cases h
  · rintro (h | ⟨⟨before, e, between, b, after, rfl, he, hb, h1⟩, rfl⟩)
    · exact sourceRegion_marks h
    · have n1 : before.findIdx? (fun l => strip l == "// docs-begin".toList) = none := by
        rw [List.findIdx?_eq_none_iff]
        intro l hl
        rw [beq_eq_false_iff_ne, ne_eq, begin_iff]
        exact h1 l hl
      obtain ⟨i, hi, hlt⟩ : ∃ i, (before ++ e :: (between ++ b :: after)).findIdx?
          (fun l => strip l == "// docs-begin".toList) = some i ∧ before.length < i := by
        have h2 : (strip e == "// docs-begin".toList) = false := by
          rw [beq_eq_false_iff_ne, ne_eq, begin_iff]
          exact fun h => markers_differ h he
        cases hf : (between ++ b :: after).findIdx? (fun l => strip l == "// docs-begin".toList) with
        | none =>
          rw [List.findIdx?_eq_none_iff] at hf
          have := hf b (by simp)
          rw [beq_eq_false_iff_ne, ne_eq, begin_iff] at this
          exact absurd hb this
        | some k =>
          refine ⟨k + 1 + before.length, ?_, by omega⟩
          rw [List.findIdx?_append, n1, List.findIdx?_cons, h2, hf]
          simp
      obtain ⟨j, hj, hle⟩ : ∃ j, (before ++ e :: (between ++ b :: after)).findIdx?
          (fun l => strip l == "// docs-end".toList) = some j ∧ j ≤ before.length := by
        have h2 : (strip e == "// docs-end".toList) = true := by rw [beq_iff_eq, end_iff]; exact he
        rw [List.findIdx?_append]
        cases hf : before.findIdx? (fun l => strip l == "// docs-end".toList) with
        | some k =>
          obtain ⟨a, x, c, rfl, rfl, _⟩ := findIdx_split.1 hf
          exact ⟨_, rfl, by simp⟩
        | none => exact ⟨before.length, by rw [List.findIdx?_cons, h2]; simp, Nat.le_refl _⟩
      rw [sourceRegion, hi, hj]
      simp only [Option.some.injEq]
      rw [List.drop_eq_nil_iff, List.length_take]
      omega

/-! ### Entry points -/

theorem opens_iff (t : Line) : opens t = true ↔ ∃ b c : Line, t = b ++ '(' :: c ∧ Spaces b := by
  rw [opens, beq_iff_eq]
  constructor
  · intro h
    obtain ⟨c, hc⟩ : ∃ c, t.dropWhile isSpace = '(' :: c := by
      cases hd : t.dropWhile isSpace with
      | nil => rw [hd] at h; cases h
      | cons x xs => rw [hd] at h; cases h; exact ⟨xs, rfl⟩
    exact ⟨t.takeWhile isSpace, c, by rw [← hc, List.takeWhile_append_dropWhile], fun c hc => mem_takeWhile hc⟩
  · rintro ⟨b, c, rfl, hb⟩
    rw [(span_eq (p := isSpace) hb fun x hx => by cases hx; decide).2]
    rfl

theorem hasEntry_iff (before : Option Char) (line : Line) : hasEntry before line = true ↔
    ∃ a b c : Line, line = a ++ "main".toList ++ b ++ '(' :: c ∧ Spaces b ∧
      ∀ x, (a.getLast?.or before) = some x → isWord x = false := by
  induction line generalizing before with
  | nil => simp [hasEntry]
  | cons d ds ih =>
    rw [hasEntry, Bool.or_eq_true, ih]
    have h1 : (!(before.any isWord)) = true ↔ ∀ x, before = some x → isWord x = false := by
      cases before <;> simp
    have h0 : (match literal "main".toList (d :: ds) with
        | some rest => opens rest
        | none => false) = true ↔ ∃ b c : Line, d :: ds = "main".toList ++ b ++ '(' :: c ∧ Spaces b := by
      constructor
      · intro h
        split at h
        · rename_i rest hr
          obtain ⟨b, c, rfl, hb⟩ := (opens_iff rest).1 h
          exact ⟨b, c, by rw [(literal_some _ _ _).1 hr, List.append_assoc], hb⟩
        · cases h
      · rintro ⟨b, c, h, hb⟩
        rw [(literal_some _ _ (b ++ '(' :: c)).2 (by rw [h, List.append_assoc])]
        exact (opens_iff _).2 ⟨b, c, rfl, hb⟩
    refine Iff.trans (or_congr_left (((Bool.and_eq_true _ _).to_iff).trans (and_congr h1 h0))) ?_
    constructor
    · rintro (⟨h2, b, c, h3, hb⟩ | ⟨a, b, c, rfl, hb, h2⟩)
      · exact ⟨[], b, c, by rw [h3]; rfl, hb, by simpa using h2⟩
      · refine ⟨d :: a, b, c, rfl, hb, fun x hx => h2 x ?_⟩
        rw [← hx]
        cases hl : a.getLast? with
        | none => rw [List.getLast?_eq_none_iff] at hl; subst hl; rfl
        | some y => simp [List.getLast?_cons, hl]
    · rintro ⟨a, b, c, h3, hb, h2⟩
      cases a with
      | nil => exact .inl ⟨by simpa using h2, b, c, by rw [h3]; rfl, hb⟩
      | cons y ys =>
        cases h3
        refine .inr ⟨ys, b, c, rfl, hb, fun x hx => h2 x ?_⟩
        rw [← hx]
        cases hl : ys.getLast? with
        | none => rw [List.getLast?_eq_none_iff] at hl; subst hl; rfl
        | some z => simp [List.getLast?_cons, hl]

/-! ### The first difference -/

theorem firstDifference_none {doc src : List Line} (h : firstDifference doc src = none) :
    ∀ i, i < max doc.length src.length → (doc[i]?).getD endOfBlock = (src[i]?).getD endOfRegion := by
  intro i hi
  rw [firstDifference, List.find?_eq_none] at h
  simpa using h i (List.mem_range.2 hi)

theorem firstDifference_some {doc src : List Line} {i : Nat} : firstDifference doc src = some i ↔
    i < max doc.length src.length ∧ (doc[i]?).getD endOfBlock ≠ (src[i]?).getD endOfRegion ∧
    ∀ j < i, (doc[j]?).getD endOfBlock = (src[j]?).getD endOfRegion := by
  rw [firstDifference, List.find?_range_eq_some]
  simp only [bne_iff_ne, ne_eq, List.mem_range, bne_eq_false_iff_eq, Bool.not_eq_true', Bool.not_eq_eq_eq_not,
    Bool.not_true]
  constructor
  · rintro ⟨a, b, c⟩; exact ⟨b, a, c⟩
  · rintro ⟨a, b, c⟩; exact ⟨b, a, c⟩

theorem hasEntry_none (line : Line) : hasEntry none line = true ↔ Entry line := by
  rw [hasEntry_iff]
  simp only [Option.or_none, Entry]

end S2S.DocCheck
