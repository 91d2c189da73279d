import Verif.Spec.LabelSets
import Verif.Props.Labels
import Verif.Props.Alike
import Verif.Lemmas.Decl
/-
C131: which labels `variance` takes.
-/
namespace S2S.Props
open Spec Compare Demo

theorem toSz_iff (cfg : Cfg) (v : Int) (n : Nat) :
    cfg.toSz v = n ↔ n < cfg.szMod ∧ ∃ k : Int, v = n + k * cfg.szMod := by
  have h0 := pow256_pos cfg.szBytes
  rw [Cfg.toSz, Cfg.szMod]
  constructor
  · rintro rfl
    refine ⟨residue_lt _ _, v / (256 ^ cfg.szBytes : Nat), ?_⟩
    rw [residue_cast]
    have := Int.emod_add_mul_ediv v (256 ^ cfg.szBytes : Nat)
    rw [Int.mul_comm (v / _)]
    exact this.symm
  · rintro ⟨h, k, rfl⟩
    have h1 := residue_cast cfg.szBytes (n + k * (256 ^ cfg.szBytes : Nat))
    rw [Int.add_mul_emod_self_right, Int.emod_eq_of_lt (by omega) (by omega)] at h1
    omega

theorem converts_stored {cfg : Cfg} {l : Label} {n : Nat} :
    Converts cfg l n ↔ ∃ a, l.stored cfg = some a ∧ cfg.toSz a.2 = n := by
  cases l with
  | int t v => simp [Converts, Label.stored, toSz_iff]
  | float b k =>
    simp only [Converts, C127_stored]
    constructor
    · rintro ⟨h1, h2⟩
      refine ⟨(.int cfg.szBytes false, n), ⟨rfl, h2, by simp, by simp only; omega⟩, ?_⟩
      exact (toSz_iff cfg n n).2 ⟨h1, 0, by simp⟩
    · rintro ⟨⟨t, z⟩, ⟨_, h2, h3, h4⟩, h5⟩
      simp only at *
      obtain ⟨m, rfl⟩ : ∃ m : Nat, z = m := ⟨z.toNat, by omega⟩
      have h6 := (toSz_iff cfg m m).2 ⟨by omega, 0, by simp⟩
      rw [h6] at h5
      subst h5
      exact ⟨by omega, h2⟩
  | object f c =>
    simp only [Converts, Label.stored, Option.map_eq_some_iff]
    constructor
    · rintro ⟨v, rfl, h⟩
      refine ⟨_, ⟨v, rfl, rfl⟩, ?_⟩
      have h1 := (toSz_iff cfg v n).2 h
      simp only [h1]
      exact (toSz_iff cfg n n).2 ⟨h.1, 0, by simp⟩
    · rintro ⟨a, ⟨v, rfl, rfl⟩, h⟩
      refine ⟨v, rfl, (toSz_iff cfg v n).1 ?_⟩
      have h1 := ((toSz_iff cfg v _).1 rfl).1
      simp only at h
      rw [(toSz_iff cfg (cfg.toSz v) (cfg.toSz v)).2 ⟨h1, 0, by simp⟩] at h
      exact h

theorem storedLabels_iff {cfg : Cfg} {ls : List Label} {as : List (ScalarTy × Int)} :
    storedLabels cfg ls = some as ↔ as.length = ls.length ∧
      ∀ (i : Nat) (l : Label), ls[i]? = some l → ∃ a, as[i]? = some a ∧ l.stored cfg = some a := by
  refine ⟨storedLabels_some, ?_⟩
  induction ls generalizing as with
  | nil => rintro ⟨h, _⟩; cases as <;> simp_all [storedLabels]
  | cons l ls ih =>
    rintro ⟨h1, h2⟩
    cases as with
    | nil => cases h1
    | cons a as =>
      obtain ⟨a', h3, h4⟩ := h2 0 l rfl
      cases h3
      rw [storedLabels, h4, ih ⟨by simpa using h1, fun i l' hl => h2 (i + 1) l' hl⟩]

theorem uniqueLabels_eq {cfg : Cfg} {ls : List Label} {as : List (ScalarTy × Int)}
    (h : storedLabels cfg ls = some as) :
    uniqueLabels cfg ls = some (decide (as.map fun a => cfg.toSz a.2).Nodup) := by
  rw [uniqueLabels, h, Option.bind_some]
  exact Decl.distinct_eq _ _ (by simp [(storedLabels_some h).1])

/-- C131, what is taken: lists of labels that all convert to `std::size_t`, to different
values. -/
theorem C131_accepts (cfg : Cfg) (ls : List Label) :
    uniqueLabels cfg ls = some true ↔ ∃ ns : List Nat, ns.length = ls.length ∧ ns.Nodup ∧
      ∀ (i : Nat) (l : Label), ls[i]? = some l → ∃ n, ns[i]? = some n ∧ Converts cfg l n := by
  constructor
  · intro h
    cases hs : storedLabels cfg ls with
    | none => rw [uniqueLabels, hs] at h; cases h
    | some as =>
      rw [uniqueLabels_eq hs] at h
      simp only [Option.some.injEq, decide_eq_true_eq] at h
      obtain ⟨h1, h2⟩ := storedLabels_some hs
      refine ⟨_, by simpa using h1, h, fun i l hl => ?_⟩
      obtain ⟨a, ha, hla⟩ := h2 i l hl
      exact ⟨cfg.toSz a.2, by simp [ha], converts_stored.2 ⟨a, hla, rfl⟩⟩
  · rintro ⟨ns, h1, h2, h3⟩
    have h4 : ∀ l ∈ ls, ∃ a, l.stored cfg = some a := fun l hl => by
      obtain ⟨i, hi⟩ := List.getElem?_of_mem hl
      obtain ⟨n, _, hn⟩ := h3 i l hi
      obtain ⟨a, ha, _⟩ := converts_stored.1 hn
      exact ⟨a, ha⟩
    obtain ⟨as, hs⟩ : ∃ as, storedLabels cfg ls = some as := by
      clear h1 h2 h3
      induction ls with
      | nil => exact ⟨[], rfl⟩
      | cons l ls ih =>
        obtain ⟨a, ha⟩ := h4 l (by simp)
        obtain ⟨as, has⟩ := ih fun l hl => h4 l (by simp [hl])
        exact ⟨a :: as, by rw [storedLabels, ha, has]⟩
    obtain ⟨h5, h6⟩ := storedLabels_some hs
    have h7 : as.map (fun a => cfg.toSz a.2) = ns := by
      refine List.ext_getElem? fun i => ?_
      cases hl : ls[i]? with
      | none =>
        rw [List.getElem?_eq_none_iff] at hl
        rw [List.getElem?_eq_none (by simp; omega), List.getElem?_eq_none (by omega)]
      | some l =>
        obtain ⟨n, hn, hc⟩ := h3 i l hl
        obtain ⟨a, ha, hla⟩ := h6 i l hl
        obtain ⟨a', ha', hc⟩ := converts_stored.1 hc
        rw [hla] at ha'
        cases ha'
        rw [List.getElem?_map, ha, hn, Option.map_some, hc]
    rw [uniqueLabels_eq hs, h7]
    simp [h2]

/-- C131, integers: for them it is what `Model/Decl` says (C76). -/
theorem C131_integers (cfg : Cfg) (g : Decl.Guide) (hg : g ≠ .ladder) (ks : List Decl.Case)
    (as : List (ScalarTy × Int)) (hk : ks.map Decl.Case.cond = as.map fun a => .label a.1 a.2) :
    uniqueLabels cfg (as.map fun a => .int a.1 a.2) = Decl.uniqueMatchValues cfg g ks := by
  have hs : storedLabels cfg (as.map fun a => .int a.1 a.2) = some as := by
    clear hk
    induction as with
    | nil => rfl
    | cons a as ih => simp [storedLabels, Label.stored, ih]
  have hm : Decl.matchValues cfg g ks = as.map fun a => cfg.toSz a.2 := by
    have h1 : Decl.matchValues cfg g ks = (ks.map Decl.Case.cond).filterMap fun c =>
        match c with
        | .label _ v => some (cfg.toSz v)
        | .when _ => none := by
      cases g <;> first | exact absurd rfl hg | simp only [Decl.matchValues, List.filterMap_map]; rfl
    rw [h1, hk, List.filterMap_map, ← List.filterMap_eq_map]
    rfl
  rw [uniqueLabels_eq hs, Decl.uniqueMatchValues_eq, hm]

/-- C131, unambiguous: where comparing rounds nothing, no value of the field is equal to two of
the labels taken. -/
theorem C131_unambiguous (cfg : Cfg) (R : Rounding) (t : ScalarTy) (ls : List Label)
    (h : uniqueLabels cfg ls = some true) (hc : ∀ l ∈ ls, Comparable t l) (x : Int)
    (hx : t.InRange x) (i j : Nat) (l l' : Label) (hi : ls[i]? = some l) (hj : ls[j]? = some l')
    (hm : l.matched R t x = true) (hm' : l'.matched R t x = true) : i = j := by
  obtain ⟨ns, h1, h2, h3⟩ := (C131_accepts cfg ls).1 h
  have key : ∀ (i : Nat) (l : Label), ls[i]? = some l → l.matched R t x = true → ns[i]? = some (cfg.toSz x) := by
    intro i l hi hm
    obtain ⟨n, hn, hcn⟩ := h3 i l hi
    obtain ⟨a, ha, rfl⟩ := converts_stored.1 hcn
    rw [hn, stored_whole ha ((matched_iff hx (hc l (List.mem_of_getElem? hi))).1 hm)]
  have hi' := key i l hi hm
  have hj' := key j l' hj hm'
  obtain ⟨hi1, hi2⟩ := List.getElem?_eq_some_iff.1 hi'
  obtain ⟨hj1, hj2⟩ := List.getElem?_eq_some_iff.1 hj'
  exact (List.getElem_inj h2).1 (hi2.trans hj2.symm)

/-- C131, one case each: then the case selected is the one whose label is the value. -/
theorem C131_selects (cfg : Cfg) (R : Rounding) (t : ScalarTy) (ls : List Label)
    (h : uniqueLabels cfg ls = some true) (hc : ∀ l ∈ ls, Comparable t l) (x : Int)
    (hx : t.InRange x) (i : Nat) : Picks R t x ls i ↔ ∃ l, ls[i]? = some l ∧ IsWhole l x := by
  constructor
  · rintro ⟨⟨l, hl, hm⟩, _⟩
    exact ⟨l, hl, (matched_iff hx (hc l (List.mem_of_getElem? hl))).1 hm⟩
  · rintro ⟨l, hl, hw⟩
    have hm := (matched_iff (R := R) hx (hc l (List.mem_of_getElem? hl))).2 hw
    refine ⟨⟨l, hl, hm⟩, fun j l' hj hl' => ?_⟩
    cases hm' : l'.matched R t x with
    | false => rfl
    | true => have := C131_unambiguous cfg R t ls h hc x hx i j l l' hl hl' hm hm'; omega

/-- C131, the writer: different alternatives are written with different tags. -/
theorem C131_stored (cfg : Cfg) (ls : List Label) (h : uniqueLabels cfg ls = some true) :
    ∃ as, storedLabels cfg ls = some as ∧ (as.map Prod.snd).Nodup := by
  cases hs : storedLabels cfg ls with
  | none => rw [uniqueLabels, hs] at h; cases h
  | some as =>
    rw [uniqueLabels_eq hs] at h
    simp only [Option.some.injEq, decide_eq_true_eq] at h
    refine ⟨as, rfl, ?_⟩
    have : as.map (fun a => cfg.toSz a.2) = (as.map Prod.snd).map cfg.toSz := by simp
    rw [this] at h
    exact List.Pairwise.of_map cfg.toSz (fun a b h h' => h (congrArg _ h')) h

example : uniqueLabels be64 mixedLabels = some true := by decide +kernel
example : ∃ as, storedLabels be64 mixedLabels = some as ∧ (as.map Prod.snd).Nodup :=
  C131_stored be64 mixedLabels (by decide +kernel)
example : ∃ ns : List Nat, ns.length = mixedLabels.length ∧ ns.Nodup ∧
    ∀ (i : Nat) (l : Label), mixedLabels[i]? = some l → ∃ n, ns[i]? = some n ∧ Converts be64 l n :=
  (C131_accepts be64 mixedLabels).1 (by decide +kernel)
example (i j : Nat) (l l' : Label) (hi : mixedLabels[i]? = some l) (hj : mixedLabels[j]? = some l')
    (hm : l.matched ieee u8 1 = true) (hm' : l'.matched ieee u8 1 = true) : i = j :=
  C131_unambiguous be64 ieee u8 mixedLabels (by decide +kernel) mixed_comparable 1 (by decide) i j l l' hi hj hm hm'
example (x : Int) (hx : u8.InRange x) (i : Nat) :
    Picks ieee u8 x mixedLabels i ↔ ∃ l, mixedLabels[i]? = some l ∧ IsWhole l x :=
  C131_selects be64 ieee u8 mixedLabels (by decide +kernel) mixed_comparable x hx i
example : uniqueLabels be64 [.int i32 (-1), .int u16 3] = Decl.uniqueMatchValues be64 (.matchField "t")
    [.mk (.label i32 (-1)) (.int u8) (.bytes 1) .none none, .mk (.label u16 3) (.int u16) (.bytes 2) .none none] :=
  C131_integers be64 (.matchField "t") nofun _ [(i32, -1), (u16, 3)] rfl

/-- Labels of a computed `double` that are different are refused: 1.25 and 1.5, 0.25 and -0.25.
No number is equal to two of them. -/
theorem C131_fails_fraction :
    uniqueLabels be64 [.float 8 0x3ff4000000000000, .float 8 0x3ff8000000000000] = some false ∧
    uniqueLabels be64 [.float 8 0x3fd0000000000000, .float 8 0xbfd0000000000000] = some false ∧
    real 8 0x3ff4000000000000 = .fin (5 * 2 ^ 1072) ∧ real 8 0x3ff8000000000000 = .fin (6 * 2 ^ 1072) ∧
    ∀ x : Real, ¬ ((x.cmp (real 8 0x3ff4000000000000) == some .eq) = true ∧
      (x.cmp (real 8 0x3ff8000000000000) == some .eq) = true) := by
  have h1 : real 8 0x3ff4000000000000 = .fin (5 * 2 ^ 1072) := by decide +kernel
  have h2 : real 8 0x3ff8000000000000 = .fin (6 * 2 ^ 1072) := by decide +kernel
  refine ⟨by decide +kernel, by decide +kernel, h1, h2, fun x ⟨h3, h4⟩ => ?_⟩
  rw [beq_iff_eq, ← same_iff] at h3 h4
  rw [h1] at h3
  rw [h2] at h4
  have := h3.1.symm.trans h4.1
  rw [Real.fin.injEq] at this
  omega

/-- A label of -1.0 is no label at all, while -1 is one; nor are infinity and NaN. -/
theorem C131_fails_negative :
    uniqueLabels be64 [.float 8 0xbff0000000000000] = none ∧ uniqueLabels be64 [.int i32 (-1)] = some true ∧
    uniqueLabels be64 [.float 4 0x7f800000] = none ∧ uniqueLabels be64 [.float 4 0x7fc00000] = none := by
  decide +kernel

/-- Where comparing rounds, two labels that are taken are equal to one value. -/
theorem C131_fails_rounding : uniqueLabels be64 roundLabels = some true ∧
    ∀ l ∈ roundLabels, l.matched ieee (.int 8 false) (2 ^ 53 + 1) = true := by
  decide +kernel

end S2S.Props
