import Verif.Spec.Amalgam
/-
The include graph and the order of the files.
-/
namespace S2S.Amalgam
open S2S.Spec

variable {α : Type}

theorem brings_trans {inc : α → α → Prop} {a b c : α} (h : Brings inc a b) (h' : Brings inc b c) :
    Brings inc a c := by
  induction h with
  | direct h => exact .step h h'
  | step h _ ih => exact .step h (ih h')

theorem needs_brings {inc : α → α → Prop} {a b c : α} (h : Needs inc a b) (h' : Brings inc b c) :
    Brings inc a c := by
  rcases h with rfl | h
  · exact h'
  · exact brings_trans h h'

theorem brings_needs {inc : α → α → Prop} {a b c : α} (h : Brings inc a b) (h' : Needs inc b c) :
    Brings inc a c := by
  rcases h' with rfl | h'
  · exact h
  · exact brings_trans h h'

theorem needs_trans {inc : α → α → Prop} {a b c : α} (h : Needs inc a b) (h' : Needs inc b c) :
    Needs inc a c := by
  rcases h with rfl | h
  · exact h'
  · exact .inr (brings_needs h h')

theorem brings_of {inc : α → α → Prop} {a b c : α} (h : inc a b) (h' : Needs inc b c) :
    Brings inc a c := brings_needs (.direct h) h'

theorem brings_first {inc : α → α → Prop} {a c : α} (h : Brings inc a c) :
    ∃ b, inc a b ∧ Needs inc b c := by
  cases h with
  | direct h => exact ⟨_, h, .inl rfl⟩
  | step h h' => exact ⟨_, h, .inr h'⟩

/-- What is closed under including has all that is brought in. -/
theorem closed_brings {inc : α → α → Prop} {P : α → Prop} (hc : ∀ a, P a → ∀ b, inc a b → P b) {a b : α}
    (ha : P a) (h : Brings inc a b) : P b := by
  induction h with
  | direct h => exact hc _ ha _ h
  | step h _ ih => exact ih (hc _ ha _ h)

variable [DecidableEq α]

/-- What a file includes. -/
abbrev Graph.incl (g : Graph α) (a b : α) : Prop := b ∈ g.get a

/-! ### get_all_transitive_dependencies -/

/-- What one call adds. -/
structure DepsPost (g : Graph α) (roots : List α) (v : List α) (s v' : List α) : Prop where
  keeps : ∀ x ∈ v, x ∈ v'
  visits : ∀ r ∈ roots, r ∈ v'
  sound : ∀ x ∈ s, ∃ r ∈ roots, Brings g.incl r x
  closed : ∀ y ∈ v', y ∉ v → ∀ d ∈ g.get y, d ∈ s ∧ d ∈ v'

theorem deps_fold {g : Graph α} {n : Nat}
    (ih : ∀ f v s v', deps g n f v = some (s, v') → DepsPost g [f] v s v') (ds : List α) :
    ∀ (acc v acc' v' : List α),
      ds.foldlM (fun (acc : List α × List α) dep =>
        (deps g n dep acc.2).map fun r => (acc.1 ++ r.1, r.2)) (acc, v) = some (acc', v') →
      ∃ s, acc' = acc ++ s ∧ DepsPost g ds v s v' := by
  induction ds with
  | nil =>
      intro acc v acc' v' h
      simp only [List.foldlM_nil, Option.pure_def, Option.some.injEq, Prod.mk.injEq] at h
      obtain ⟨rfl, rfl⟩ := h
      exact ⟨[], by simp, fun x hx => hx, by simp, by simp, fun y hy hn => absurd hy hn⟩
  | cons d ds ihd =>
      intro acc v acc' v' h
      simp only [List.foldlM_cons, Option.bind_eq_bind, Option.bind_eq_some_iff] at h
      obtain ⟨⟨a1, v1⟩, h1, h2⟩ := h
      simp only [Option.map_eq_some_iff, Prod.mk.injEq] at h1
      obtain ⟨⟨s1, w1⟩, hd, rfl, rfl⟩ := h1
      have p1 := ih _ _ _ _ hd
      obtain ⟨s2, rfl, p2⟩ := ihd _ _ _ _ h2
      refine ⟨s1 ++ s2, by simp, ⟨fun x hx => p2.keeps _ (p1.keeps _ hx), ?_, ?_, ?_⟩⟩
      · intro r hr
        rcases List.mem_cons.1 hr with rfl | hr
        · exact p2.keeps _ (p1.visits _ (by simp))
        · exact p2.visits _ hr
      · intro x hx
        rcases List.mem_append.1 hx with hx | hx
        · obtain ⟨r, hr, hb⟩ := p1.sound _ hx
          simp only [List.mem_singleton] at hr
          exact ⟨r, by simp [hr], hb⟩
        · obtain ⟨r, hr, hb⟩ := p2.sound _ hx
          exact ⟨r, by simp [hr], hb⟩
      · intro y hy hn e he
        by_cases h1 : y ∈ w1
        · have := p1.closed _ h1 hn e he
          exact ⟨List.mem_append_left _ this.1, p2.keeps _ this.2⟩
        · have := p2.closed _ hy h1 e he
          exact ⟨List.mem_append_right _ this.1, this.2⟩

theorem deps_post {g : Graph α} : ∀ (n : Nat) (f : α) (v s v' : List α),
    deps g n f v = some (s, v') → DepsPost g [f] v s v'
  | 0, _, _, _, _, h => by simp [deps] at h
  | n + 1, f, v, s, v', h => by
      unfold deps at h
      split at h
      · rename_i hf
        simp only [Option.some.injEq, Prod.mk.injEq] at h
        obtain ⟨rfl, rfl⟩ := h
        exact ⟨fun x hx => hx, by simpa using hf, by simp, fun y hy hn => absurd hy hn⟩
      · rename_i hf
        obtain ⟨s1, rfl, p⟩ := deps_fold (fun f v s v' => deps_post n f v s v') _ _ _ _ _ h
        refine ⟨fun x hx => p.keeps _ (List.mem_cons_of_mem _ hx),
          fun r hr => p.keeps _ (by simp_all), ?_, ?_⟩
        · intro x hx
          refine ⟨f, by simp, ?_⟩
          rcases List.mem_append.1 hx with hx | hx
          · exact .direct hx
          · obtain ⟨r, hr, hb⟩ := p.sound _ hx
            exact .step hr hb
        · intro y hy hn e he
          by_cases hyf : y = f
          · subst hyf
            exact ⟨List.mem_append_left _ he, p.visits _ he⟩
          · have := p.closed _ hy (by simp [hyf, hn]) e he
            exact ⟨List.mem_append_right _ this.1, this.2⟩

/-- It returns what the file brings in. -/
theorem mem_deps {g : Graph α} {n : Nat} {f : α} {s v' : List α} (h : deps g n f [] = some (s, v'))
    (x : α) : x ∈ s ↔ Brings g.incl f x := by
  have p := deps_post n f [] s v' h
  constructor
  · intro hx
    obtain ⟨r, hr, hb⟩ := p.sound x hx
    simp only [List.mem_singleton] at hr
    exact hr ▸ hb
  · intro hb
    have hc : ∀ a, a ∈ v' → ∀ b ∈ g.get a, b ∈ v' := fun a ha b hb => (p.closed a ha (by simp) b hb).2
    have hf : f ∈ v' := p.visits f (by simp)
    clear h
    induction hb with
    | direct h => exact (p.closed _ hf (by simp) _ h).1
    | @step a b c h hb' ih =>
        have hv : ∀ y, Brings g.incl b y → y ∈ v' := fun y hy => closed_brings hc (hc _ hf _ h) hy
        clear ih
        have hbv := hc _ hf _ h
        clear h hf
        induction hb' with
        | direct h => exact (p.closed _ hbv (by simp) _ h).1
        | step h _ ih => exact ih (fun y hy => hv y (.step h hy)) (hc _ hbv _ h)

theorem transitive_fold {g : Graph α} {n : Nat} : ∀ (is acc ds : List α),
    is.foldlM (fun acc inc => (deps g n inc []).map fun r => acc ++ r.1) acc = some ds →
    ∀ x, x ∈ ds ↔ x ∈ acc ∨ ∃ i ∈ is, Brings g.incl i x
  | [], acc, ds, h, x => by
      simp only [List.foldlM_nil, Option.pure_def, Option.some.injEq] at h
      subst h
      simp
  | i :: is, acc, ds, h, x => by
      simp only [List.foldlM_cons, Option.bind_eq_bind, Option.bind_eq_some_iff, Option.map_eq_some_iff] at h
      obtain ⟨a, ⟨⟨s, v⟩, hd, rfl⟩, h2⟩ := h
      rw [transitive_fold is _ _ h2 x]
      simp only [List.mem_append, mem_deps hd, List.mem_cons, exists_eq_or_imp, or_assoc]

theorem mem_transitive {g : Graph α} {n : Nat} {is ds : List α} (h : transitive g n is = some ds) (x : α) :
    x ∈ ds ↔ ∃ i ∈ is, Brings g.incl i x := by
  rw [transitive_fold is [] ds h x]
  simp

/-! ### remove_redundant_includes -/

/-- An include is kept if no other brings it in. -/
def Kept (g : Graph α) (f d : α) : Prop := d ∈ g.get f ∧ ∀ i ∈ g.get f, ¬ Brings g.incl i d

theorem lookup_mapM {n : Nat} {g : Graph α} (f : α) : ∀ (h h' : Graph α),
    h.mapM (fun entry => (transitive g n entry.2).map fun ds =>
      (entry.1, entry.2.filter fun inc => !decide (inc ∈ ds))) = some h' →
    match List.lookup f h with
    | none => List.lookup f h' = none
    | some is => ∃ ds, transitive g n is = some ds ∧
        List.lookup f h' = some (is.filter fun inc => !decide (inc ∈ ds))
  | [], h', hh => by
      simp only [List.mapM_nil, Option.pure_def, Option.some.injEq] at hh
      subst hh
      simp
  | (k, is) :: h, h', hh => by
      simp only [List.mapM_cons, Option.bind_eq_bind, Option.pure_def, Option.bind_eq_some_iff,
        Option.map_eq_some_iff, Option.some.injEq] at hh
      obtain ⟨_, ⟨ds, hds, rfl⟩, t, ht, rfl⟩ := hh
      have := lookup_mapM f h t ht
      simp only [List.lookup_cons]
      by_cases hk : f == k
      · simp only [hk]
        exact ⟨ds, hds, rfl⟩
      · simp only [hk]
        exact this

theorem mem_optimize {n : Nat} {g g' : Graph α} (h : optimize n g = some g') (f d : α) :
    d ∈ g'.get f ↔ Kept g f d := by
  have := lookup_mapM (n := n) (g := g) f g g' h
  unfold Kept Graph.get
  cases hl : List.lookup f g with
  | none =>
      rw [hl] at this
      simp only at this
      simp [this]
  | some is =>
      rw [hl] at this
      obtain ⟨ds, hds, h2⟩ := this
      simp only [h2, Option.getD_some, List.mem_filter, Bool.not_eq_true', decide_eq_false_iff_not,
        mem_transitive hds]
      simp only [not_exists, not_and]

/-! ### Removing redundant includes loses nothing -/

open Classical in
/-- How many files of a list a file brings in. -/
noncomputable def weight (inc : α → α → Prop) (files : List α) (a : α) : Nat :=
  (files.filter fun b => decide (Brings inc a b)).length

omit [DecidableEq α] in
theorem weight_lt {inc : α → α → Prop} {files : List α} {a b : α} (h : Brings inc a b) (hb : ¬ Brings inc b b)
    (hf : b ∈ files) : weight inc files b < weight inc files a := by
  unfold weight
  induction files with
  | nil => cases hf
  | cons x xs ih =>
      have mono : ∀ l : List α, (l.filter fun c => @decide (Brings inc b c) (Classical.propDecidable _)).length ≤
          (l.filter fun c => @decide (Brings inc a c) (Classical.propDecidable _)).length := by
        intro l
        induction l with
        | nil => simp
        | cons y ys ih =>
            simp only [List.filter_cons]
            by_cases h1 : Brings inc b y
            · have h2 := brings_trans h h1
              simp only [h1, h2, decide_true, if_true, List.length_cons]
              omega
            · by_cases h2 : Brings inc a y
              · simp only [h1, h2, decide_true, decide_false, if_true, List.length_cons,
                  Bool.false_eq_true, if_false]
                omega
              · simp only [h1, h2, decide_false, Bool.false_eq_true, if_false]
                exact ih
      simp only [List.filter_cons]
      by_cases hx : b = x
      · subst hx
        simp only [h, hb, decide_true, decide_false, if_true, List.length_cons, Bool.false_eq_true, if_false]
        have := mono xs
        omega
      · have hf' : b ∈ xs := by
          rcases List.mem_cons.1 hf with h | h
          · exact absurd h hx
          · exact h
        have ih := ih hf'
        by_cases h1 : Brings inc b x
        · have h2 := brings_trans h h1
          simp only [h1, h2, decide_true, if_true, List.length_cons]
          omega
        · by_cases h2 : Brings inc a x
          · simp only [h1, h2, decide_true, decide_false, if_true, List.length_cons,
              Bool.false_eq_true, if_false]
            omega
          · simp only [h1, h2, decide_false, Bool.false_eq_true, if_false]
            exact ih

/-- Of the includes that need a file, one is kept. -/
theorem kept_exists {g : Graph α} {files : List α} (hcov : Covers g.incl files) {a d c : α}
    (ha : a ∈ files) (hac : ∀ b, Brings g.incl a b → ¬ Brings g.incl b b) :
    ∀ (k : Nat), weight g.incl files a ≤ weight g.incl files c + k → c ∈ g.get a → Needs g.incl c d →
      ∃ c', Kept g a c' ∧ Needs g.incl c' d
  | 0, hk, hc, hd => by
      have := weight_lt (files := files) (Brings.direct hc) (hac _ (.direct hc)) (hcov _ ha _ hc)
      omega
  | k + 1, hk, hc, hd => by
      by_cases h : ∃ i ∈ g.get a, Brings g.incl i c
      · obtain ⟨i, hi, hb⟩ := h
        have := weight_lt (files := files) hb (hac _ (.direct hc)) (hcov _ ha _ hc)
        exact kept_exists hcov ha hac k (by omega) hi (.inr (brings_needs hb hd))
      · exact ⟨c, ⟨hc, fun i hi hb => h ⟨i, hi, hb⟩⟩, hd⟩

/-- What the files of an acyclic graph bring in is what they bring in by the includes
kept. -/
theorem kept_brings {g : Graph α} {inc' : α → α → Prop} (hk : ∀ f d, inc' f d ↔ Kept g f d)
    {files : List α} (hcov : Covers g.incl files) : ∀ (k : Nat) (a : α), a ∈ files →
      (∀ b, Needs g.incl a b → ¬ Brings g.incl b b) → weight g.incl files a ≤ k →
      ∀ d, Brings g.incl a d → Brings inc' a d
  | 0, a, ha, hac, hw, d, hd => by
      obtain ⟨b, hb, hn⟩ := brings_first hd
      have := weight_lt (files := files) (Brings.direct hb) (hac _ (.inr (.direct hb))) (hcov _ ha _ hb)
      omega
  | k + 1, a, ha, hac, hw, d, hd => by
      obtain ⟨b, hb, hn⟩ := brings_first hd
      obtain ⟨c, hc, hcd⟩ := kept_exists hcov ha (fun b hb => hac b (.inr hb)) _ (Nat.le_add_left _ _) hb hn
      have hcf := hcov _ ha _ hc.1
      rcases hcd with rfl | hcd
      · exact .direct ((hk _ _).2 hc)
      · have hlt := weight_lt (files := files) (Brings.direct hc.1) (hac _ (.inr (.direct hc.1))) hcf
        exact .step ((hk _ _).2 hc)
          (kept_brings hk hcov k c hcf (fun b hb => hac b (.inr (brings_of hc.1 hb))) (by omega) d hcd)

theorem brings_of_kept {g : Graph α} {inc' : α → α → Prop} (hk : ∀ f d, inc' f d ↔ Kept g f d) {a d : α}
    (h : Brings inc' a d) : Brings g.incl a d := by
  induction h with
  | direct h => exact .direct ((hk _ _).1 h).1
  | step h _ ih => exact .step ((hk _ _).1 h).1 ih

/-- Nothing is brought in that is not in the graph. -/
theorem covers_graph (g : Graph α) (e : α) : Covers g.incl (e :: g.flatMap fun p => p.1 :: p.2) := by
  intro a ha b hb
  clear ha
  unfold Graph.incl Graph.get at hb
  cases hl : List.lookup a g with
  | none => rw [hl] at hb; simp at hb
  | some is =>
      rw [hl] at hb
      simp only [Option.getD_some] at hb
      refine List.mem_cons_of_mem _ (List.mem_flatMap.2 ⟨(a, is), ?_, List.mem_cons_of_mem _ hb⟩)
      clear hb
      induction g with
      | nil => simp at hl
      | cons p g ih =>
          obtain ⟨k, v⟩ := p
          simp only [List.lookup_cons] at hl
          by_cases hk : a == k
          · simp only [hk, Option.some.injEq] at hl
            simp only [beq_iff_eq] at hk
            simp [hk, hl]
          · simp only [hk] at hl
            exact List.mem_cons_of_mem _ (ih hl)

/-! ### topological_sort -/

/-- What a call of `visit` adds to the stack. -/
structure VisitPost (g : Graph α) (roots : List α) (v st v' st' : List α) : Prop where
  keeps : ∀ x ∈ v, x ∈ v'
  more : ∃ t, st' = st ++ t ∧ (∀ x ∈ t, x ∉ v ∧ ∃ r ∈ roots, Needs g.incl r x) ∧ t.Nodup ∧
    (∀ x, x ∈ v' ↔ x ∈ v ∨ x ∈ t)
  visits : ∀ r ∈ roots, r ∈ v'

theorem visit_fold {g : Graph α} {n : Nat}
    (ih : ∀ f v st v' st', visit g n f (v, st) = some (v', st') → VisitPost g [f] v st v' st') (is : List α) :
    ∀ (v st v' st' : List α),
      is.foldlM (fun st inc => visit g n inc st) (v, st) = some (v', st') → VisitPost g is v st v' st' := by
  induction is with
  | nil =>
      intro v st v' st' h
      simp only [List.foldlM_nil, Option.pure_def, Option.some.injEq, Prod.mk.injEq] at h
      obtain ⟨rfl, rfl⟩ := h
      exact ⟨fun x hx => hx, ⟨[], by simp, by simp, by simp, by simp⟩, by simp⟩
  | cons i is ihi =>
      intro v st v' st' h
      simp only [List.foldlM_cons, Option.bind_eq_bind, Option.bind_eq_some_iff] at h
      obtain ⟨⟨v1, st1⟩, h1, h2⟩ := h
      have p1 := ih _ _ _ _ _ h1
      have p2 := ihi _ _ _ _ h2
      obtain ⟨t1, rfl, a1, n1, m1⟩ := p1.more
      obtain ⟨t2, rfl, a2, n2, m2⟩ := p2.more
      refine ⟨fun x hx => p2.keeps _ (p1.keeps _ hx), ⟨t1 ++ t2, by simp, ?_, ?_, ?_⟩, ?_⟩
      · intro x hx
        rcases List.mem_append.1 hx with hx | hx
        · obtain ⟨hv, r, hr, hn⟩ := a1 x hx
          simp only [List.mem_singleton] at hr
          exact ⟨hv, r, by simp [hr], hn⟩
        · obtain ⟨hv, r, hr, hn⟩ := a2 x hx
          exact ⟨fun h => hv (p1.keeps _ h), r, by simp [hr], hn⟩
      · refine List.nodup_append.2 ⟨n1, n2, ?_⟩
        intro x hx y hy hxy
        subst hxy
        exact (a2 x hy).1 ((m1 x).2 (.inr hx))
      · intro x
        rw [m2, m1, List.mem_append, or_assoc]
      · intro r hr
        rcases List.mem_cons.1 hr with rfl | hr
        · exact p2.keeps _ (p1.visits _ (by simp))
        · exact p2.visits _ hr

theorem visit_post {g : Graph α} : ∀ (n : Nat) (f : α) (v st v' st' : List α),
    visit g n f (v, st) = some (v', st') → VisitPost g [f] v st v' st'
  | 0, _, _, _, _, _, h => by simp [visit] at h
  | n + 1, f, v, st, v', st', h => by
      unfold visit at h
      split at h
      · rename_i hf
        simp only [Option.some.injEq, Prod.mk.injEq] at h
        obtain ⟨rfl, rfl⟩ := h
        exact ⟨fun x hx => hx, ⟨[], by simp, by simp, by simp, by simp⟩, by simpa using hf⟩
      · rename_i hf
        simp only [Option.map_eq_some_iff, Prod.mk.injEq] at h
        obtain ⟨⟨v1, st1⟩, h1, rfl, rfl⟩ := h
        have p := visit_fold (fun f v st v' st' => visit_post n f v st v' st') _ _ _ _ _ h1
        obtain ⟨t, rfl, a, nd, m⟩ := p.more
        refine ⟨fun x hx => p.keeps _ (List.mem_cons_of_mem _ hx), ⟨t ++ [f], by simp, ?_, ?_, ?_⟩,
          fun r hr => p.keeps _ (by simp_all)⟩
        · intro x hx
          rcases List.mem_append.1 hx with hx | hx
          · obtain ⟨hv, r, hr, hn⟩ := a x hx
            exact ⟨fun h => hv (List.mem_cons_of_mem _ h), f, by simp, .inr (brings_of hr hn)⟩
          · simp only [List.mem_singleton] at hx
            subst hx
            exact ⟨hf, x, by simp, .inl rfl⟩
        · refine List.nodup_append.2 ⟨nd, by simp, ?_⟩
          intro x hx y hy hxy
          simp only [List.mem_singleton] at hy
          exact (a x hx).1 (by simp [hxy, hy])
        · intro x
          simp only [m, List.mem_cons, List.mem_append, List.not_mem_nil, or_false]
          grind

/-- `st` is in order; what is visited and not on the stack brings the file in. -/
theorem visit_order {g : Graph α} : ∀ (n : Nat) (f : α) (v st v' st' : List α),
    visit g n f (v, st) = some (v', st') → (∀ a, Needs g.incl f a → ¬ Brings g.incl a a) →
    (∀ x ∈ v, x ∈ st ∨ Brings g.incl x f) → AfterIncludes g.incl st → f ∈ st' ∧ AfterIncludes g.incl st'
  | 0, _, _, _, _, _, h, _, _, _ => by simp [visit] at h
  | n + 1, f, v, st, v', st', h, hac, hv, hst => by
      unfold visit at h
      split at h
      · rename_i hf
        simp only [Option.some.injEq, Prod.mk.injEq] at h
        obtain ⟨rfl, rfl⟩ := h
        rcases hv f hf with h | h
        · exact ⟨h, hst⟩
        · exact absurd h (hac f (.inl rfl))
      · rename_i hf
        simp only [Option.map_eq_some_iff, Prod.mk.injEq] at h
        obtain ⟨⟨v1, st1⟩, h1, rfl, rfl⟩ := h
        have key : ∀ (is : List α), (∀ i ∈ is, i ∈ g.get f) → ∀ (w s w' s' : List α),
            is.foldlM (fun st inc => visit g n inc st) (w, s) = some (w', s') →
            (∀ x ∈ w, x ∈ s ∨ x = f ∨ Brings g.incl x f) → AfterIncludes g.incl s →
            (∀ i ∈ is, i ∈ s') ∧ AfterIncludes g.incl s' ∧ (∀ x ∈ s, x ∈ s') := by
          intro is
          induction is with
          | nil =>
              intro _ w s w' s' h _ hs
              simp only [List.foldlM_nil, Option.pure_def, Option.some.injEq, Prod.mk.injEq] at h
              obtain ⟨rfl, rfl⟩ := h
              exact ⟨by simp, hs, fun _ h => h⟩
          | cons i is ih =>
              intro his w s w' s' h hw hs
              simp only [List.foldlM_cons, Option.bind_eq_bind, Option.bind_eq_some_iff] at h
              obtain ⟨⟨w1, s1⟩, h1, h2⟩ := h
              have hi := his i (by simp)
              have p := visit_post _ _ _ _ _ _ h1
              obtain ⟨t, rfl, a, _, m⟩ := p.more
              have o := visit_order n i w s w1 _ h1 (fun a ha => hac a (.inr (brings_of hi ha)))
                (fun x hx => by
                  rcases hw x hx with h | rfl | h
                  · exact .inl h
                  · exact .inr (.direct hi)
                  · exact .inr (brings_trans h (.direct hi))) hs
              have r := ih (fun j hj => his j (List.mem_cons_of_mem _ hj)) w1 _ w' s' h2
                (fun x hx => by
                  rcases (m x).1 hx with h | h
                  · rcases hw x h with h | h
                    · exact .inl (List.mem_append_left _ h)
                    · exact .inr h
                  · exact .inl (List.mem_append_right _ h)) o.2
              refine ⟨?_, r.2.1, fun x hx => r.2.2 x (List.mem_append_left _ hx)⟩
              intro j hj
              rcases List.mem_cons.1 hj with rfl | hj
              · exact r.2.2 _ o.1
              · exact r.1 j hj
        have r := key (g.get f) (fun _ h => h) (f :: v) st v1 st1 h1
          (fun x hx => by
            rcases List.mem_cons.1 hx with h | h
            · exact .inr (.inl h)
            · exact (hv x h).imp_right .inr) hst
        refine ⟨by simp, ?_⟩
        intro before file after heq d hd
        rcases List.eq_nil_or_concat after with rfl | ⟨after', z, rfl⟩
        · have := List.append_inj' heq (by simp)
          simp only [List.cons.injEq, and_true] at this
          obtain ⟨rfl, rfl⟩ := this
          exact r.1 d hd
        · rw [List.concat_eq_append, ← List.cons_append, ← List.append_assoc] at heq
          have := List.append_inj' heq (by simp)
          exact r.2.1 _ _ _ this.1 d hd

/-- The stack has all that the file needs. -/
theorem visit_complete {g : Graph α} {n : Nat} {e : α} {v st : List α} (h : visit g n e ([], []) = some (v, st))
    (ho : AfterIncludes g.incl st) (he : e ∈ st) (x : α) (hx : Needs g.incl e x) : x ∈ st := by
  have hc : ∀ a, a ∈ st → ∀ b ∈ g.get a, b ∈ st := by
    intro a ha b hb
    obtain ⟨s, t, rfl⟩ := List.append_of_mem ha
    exact List.mem_append_left _ (ho s a t rfl b hb)
  rcases hx with rfl | hx
  · exact he
  · exact closed_brings hc he hx

/-! ### The recursion ends -/

/-- How many files of a list are not visited. -/
def unseen (files v : List α) : Nat := (files.filter fun x => !decide (x ∈ v)).length

theorem unseen_le (files : List α) {v w : List α} (h : ∀ x ∈ v, x ∈ w) : unseen files w ≤ unseen files v := by
  unfold unseen
  induction files with
  | nil => simp
  | cons x xs ih =>
      simp only [List.filter_cons]
      by_cases hx : x ∈ v
      · have := h x hx
        simp only [hx, this, decide_true, Bool.not_true, Bool.false_eq_true, if_false]
        exact ih
      · by_cases hw : x ∈ w
        · simp only [hx, hw, decide_true, decide_false, Bool.not_true, Bool.not_false, Bool.false_eq_true,
            if_false, if_true, List.length_cons]
          omega
        · simp only [hx, hw, decide_false, Bool.not_false, if_true, List.length_cons]
          omega

theorem unseen_lt {files v : List α} {f : α} (hf : f ∈ files) (hv : f ∉ v) :
    unseen files (f :: v) < unseen files v := by
  induction files with
  | nil => cases hf
  | cons x xs ih =>
      have le := unseen_le xs (v := v) (w := f :: v) fun x h => List.mem_cons_of_mem _ h
      unfold unseen at le ih ⊢
      simp only [List.filter_cons]
      by_cases hx : f = x
      · subst hx
        simp only [List.mem_cons, true_or, decide_true, Bool.not_true, Bool.false_eq_true, if_false, hv,
          decide_false, Bool.not_false, if_true, List.length_cons] at le ⊢
        omega
      · have ih := ih (by
          rcases List.mem_cons.1 hf with h | h
          · exact absurd h hx
          · exact h)
        have hx' : ¬ x = f := fun h => hx h.symm
        by_cases hxv : x ∈ v
        · simp only [List.mem_cons, hxv, or_true, decide_true, Bool.not_true, Bool.false_eq_true, if_false] at ih ⊢
          exact ih
        · simp only [List.mem_cons, hxv, hx', or_false, decide_false, Bool.not_false, if_true,
            List.length_cons] at ih ⊢
          omega

theorem deps_total {g : Graph α} {files : List α} (hcov : Covers g.incl files) : ∀ (n : Nat) (f : α) (v : List α),
    f ∈ files → unseen files v < n → ∃ r, deps g n f v = some r
  | 0, _, _, _, h => by omega
  | n + 1, f, v, hf, h => by
      unfold deps
      split
      · exact ⟨_, rfl⟩
      · rename_i hv
        have hlt := unseen_lt hf hv
        have key : ∀ (is : List α), (∀ i ∈ is, i ∈ files) → ∀ (acc w : List α), unseen files w < n →
            ∃ r, is.foldlM (fun (acc : List α × List α) dep =>
              (deps g n dep acc.2).map fun r => (acc.1 ++ r.1, r.2)) (acc, w) = some r := by
          intro is
          induction is with
          | nil => intro _ acc w _; exact ⟨_, rfl⟩
          | cons i is ih =>
              intro his acc w hw
              obtain ⟨⟨s, w'⟩, hr⟩ := deps_total hcov n i w (his i (by simp)) hw
              have p := deps_post _ _ _ _ _ hr
              obtain ⟨r, h2⟩ := ih (fun j hj => his j (List.mem_cons_of_mem _ hj)) (acc ++ s) w'
                (Nat.lt_of_le_of_lt (unseen_le files p.keeps) hw)
              exact ⟨r, by simp [List.foldlM_cons, hr, h2]⟩
        exact key _ (hcov f hf) _ _ (by omega)

theorem transitive_total {g : Graph α} {files : List α} (hcov : Covers g.incl files) {n : Nat}
    (hn : files.length < n) : ∀ (is : List α), (∀ i ∈ is, i ∈ files) → ∀ acc : List α,
    ∃ r, is.foldlM (fun acc inc => (deps g n inc []).map fun r => acc ++ r.1) acc = some r
  | [], _, _ => ⟨_, rfl⟩
  | i :: is, his, acc => by
      have : unseen files [] < n := by
        unfold unseen
        have := List.length_filter_le (fun x => !decide (x ∈ ([] : List α))) files
        omega
      obtain ⟨⟨s, w'⟩, hr⟩ := deps_total hcov n i [] (his i (by simp)) this
      obtain ⟨r, h2⟩ := transitive_total hcov hn is (fun j hj => his j (List.mem_cons_of_mem _ hj)) (acc ++ s)
      exact ⟨r, by simp [List.foldlM_cons, hr, h2]⟩

theorem mapM_total {β γ : Type} {f : β → Option γ} : ∀ {l : List β}, (∀ x ∈ l, ∃ y, f x = some y) →
    ∃ r, l.mapM f = some r
  | [], _ => ⟨_, rfl⟩
  | x :: xs, h => by
      obtain ⟨y, hy⟩ := h x (by simp)
      obtain ⟨r, hr⟩ := mapM_total fun z hz => h z (List.mem_cons_of_mem _ hz)
      exact ⟨y :: r, by simp [List.mapM_cons, hy, hr]⟩

theorem visit_total {g : Graph α} {files : List α} (hcov : Covers g.incl files) :
    ∀ (n : Nat) (f : α) (v st : List α), f ∈ files → unseen files v < n → ∃ r, visit g n f (v, st) = some r
  | 0, _, _, _, _, h => by omega
  | n + 1, f, v, st, hf, h => by
      unfold visit
      split
      · exact ⟨_, rfl⟩
      · rename_i hv
        have hlt := unseen_lt hf hv
        have key : ∀ (is : List α), (∀ i ∈ is, i ∈ files) → ∀ (w s : List α), unseen files w < n →
            ∃ r, is.foldlM (fun st inc => visit g n inc st) (w, s) = some r := by
          intro is
          induction is with
          | nil => intro _ acc w _; exact ⟨_, rfl⟩
          | cons i is ih =>
              intro his w s hw
              obtain ⟨⟨w', s'⟩, hr⟩ := visit_total hcov n i w s (his i (by simp)) hw
              have p := visit_post _ _ _ _ _ _ hr
              obtain ⟨r, h2⟩ := ih (fun j hj => his j (List.mem_cons_of_mem _ hj)) w' s'
                (Nat.lt_of_le_of_lt (unseen_le files p.keeps) hw)
              exact ⟨r, by simp [List.foldlM_cons, hr, h2]⟩
        obtain ⟨r, hr⟩ := key _ (hcov f hf) (f :: v) st (by omega)
        exact ⟨(r.1, r.2 ++ [f]), by simp [hr]⟩

theorem fileOrder_total {g : Graph α} {files : List α} (hcov : Covers g.incl files)
    (hk : ∀ p ∈ g, ∀ i ∈ p.2, i ∈ files) {n : Nat} (hn : files.length < n) {e : α} (he : e ∈ files) :
    ∃ order, fileOrder n g e = some order := by
  obtain ⟨g', hg⟩ : ∃ g', optimize n g = some g' := by
    apply mapM_total
    intro p hp
    obtain ⟨r, hr⟩ := transitive_total hcov hn p.2 (hk p hp) []
    exact ⟨_, by unfold transitive; rw [hr]; rfl⟩
  have hcov' : Covers g'.incl files := fun a ha b hb => hcov a ha b ((mem_optimize hg a b).1 hb).1
  obtain ⟨⟨v, st⟩, h⟩ := visit_total hcov' n e [] [] he (by
    unfold unseen
    have := List.length_filter_le (fun x => !decide (x ∈ ([] : List α))) files
    omega)
  exact ⟨st, by simp [fileOrder, hg, topologicalSort, h]⟩

/-- In general: files once, none that is not needed, the entry among them. -/
theorem fileOrder_sound {g : Graph α} {n : Nat} {e : α} {order : List α} (h : fileOrder n g e = some order) :
    order.Nodup ∧ e ∈ order ∧ ∀ x ∈ order, Needs g.incl e x := by
  simp only [fileOrder, Option.bind_eq_some_iff, topologicalSort, Option.map_eq_some_iff] at h
  obtain ⟨g', hg, ⟨v, st⟩, hv, rfl⟩ := h
  have p := visit_post _ _ _ _ _ _ hv
  obtain ⟨t, ht, a, nd, m⟩ := p.more
  simp only [List.nil_append] at ht
  subst ht
  refine ⟨nd, ?_, ?_⟩
  · have := (m e).1 (p.visits e (by simp))
    simpa using this
  · intro x hx
    obtain ⟨_, r, hr, hn⟩ := a x hx
    simp only [List.mem_singleton] at hr
    subst hr
    rcases hn with rfl | hn
    · exact .inl rfl
    · exact .inr (brings_of_kept (mem_optimize hg) hn)

/-- Without cycles: all that is needed, after what it includes. -/
theorem fileOrder_complete {g : Graph α} {n : Nat} {e : α} {order : List α} (h : fileOrder n g e = some order)
    (hac : NoCycle g.incl e) : (∀ x, Needs g.incl e x → x ∈ order) ∧ AfterIncludes g.incl order := by
  simp only [fileOrder, Option.bind_eq_some_iff, topologicalSort, Option.map_eq_some_iff] at h
  obtain ⟨g', hg, ⟨v, st⟩, hv, rfl⟩ := h
  have hk := mem_optimize hg
  have hcov := covers_graph g e
  have hin : ∀ x, Needs g.incl e x → x ∈ e :: g.flatMap fun p => p.1 :: p.2 := by
    intro x hx
    rcases hx with rfl | hx
    · simp
    · exact closed_brings (P := fun y => y ∈ e :: g.flatMap fun (p : α × List α) => p.1 :: p.2) hcov (by simp) hx
  have same : ∀ a, Needs g.incl e a → ∀ d, Brings g.incl a d → Brings g'.incl a d := fun a ha d hd =>
    kept_brings hk hcov _ a (hin a ha) (fun b hb => hac b (needs_trans ha hb)) (Nat.le_refl _) d hd
  have needs' : ∀ a, Needs g'.incl e a → Needs g.incl e a := fun a ha => ha.imp_right (brings_of_kept hk)
  have o := visit_order n e [] [] v st hv (fun a ha hb => hac a (needs' a ha) (brings_of_kept hk hb)) (by simp)
    (by intro b f a h; simp at h)
  have all : ∀ x, Needs g.incl e x → x ∈ st := fun x hx =>
    visit_complete hv o.2 o.1 x (hx.imp_right (same e (.inl rfl) x))
  refine ⟨all, ?_⟩
  intro before file after heq d hd
  replace heq : st = before ++ file :: after := heq
  have hfile : Needs g.incl e file := by
    have p := visit_post _ _ _ _ _ _ hv
    obtain ⟨t, ht, a, _, m⟩ := p.more
    simp only [List.nil_append] at ht
    obtain ⟨_, r, hr, hn⟩ := a file (by rw [← ht, heq]; simp)
    simp only [List.mem_singleton] at hr
    exact needs' _ (hr ▸ hn)
  have hb := same file hfile d (.direct hd)
  -- what is brought in by files in order is before
  clear hd
  induction hb generalizing before after with
  | direct h => exact o.2 _ _ _ heq _ h
  | @step a b c h _ ih =>
      have hbm := o.2 _ _ _ heq _ h
      obtain ⟨s, t, rfl⟩ := List.append_of_mem hbm
      have := ih s (t ++ a :: after) (by simp [heq]) (needs_trans hfile (.inr (.direct ((hk _ _).1 h).1)))
      exact List.mem_append_left _ this

end S2S.Amalgam
