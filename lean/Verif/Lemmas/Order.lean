import Verif.Lemmas.Contrib
import Verif.Lemmas.Append
import Verif.Spec.Order
import Verif.Props.Reading
/-
Encodings, byte by byte.
-/
namespace S2S
open Spec Props

theorem byteAt_toNat (x : Int) (i : Nat) :
    ((byteAt x i).toNat : Int) = x / (256 ^ i : Nat) % 256 := by
  unfold byteAt
  have h1 := Int.emod_nonneg (x / (256 ^ i : Nat)) (by decide : (256 : Int) ≠ 0)
  have h2 := Int.emod_lt_of_pos (x / (256 ^ i : Nat)) (by decide : (0 : Int) < 256)
  generalize x / (256 ^ i : Nat) % 256 = y at h1 h2
  rw [UInt8.toNat_ofNat', Nat.mod_eq_of_lt (by omega)]
  omega

theorem inOrder_wireScalar (o : Endian) (n : Nat) (x : Int) : InOrder o n x (wireScalar o n n x) := by
  refine ⟨wireScalar_length .., fun i hi => ⟨byteAt x i, ?_, byteAt_toNat x i⟩⟩
  cases o with
  | little => simp [wireScalar, place, hi]
  | big =>
    simp only [wireScalar, place, List.getElem?_map]
    rw [List.getElem?_range (by omega), Option.map_some]
    congr 2
    omega

theorem inOrder_unique {o : Endian} {n : Nat} {x : Int} {r r' : List Byte} (h : InOrder o n x r)
    (h' : InOrder o n x r') : r = r' := by
  obtain ⟨hl, h⟩ := h
  obtain ⟨hl', h'⟩ := h'
  apply List.ext_getElem?
  intro j
  by_cases hj : j < n
  · obtain ⟨i, hi, rfl⟩ : ∃ i, i < n ∧ place o n i = j := by
      cases o with
      | little => exact ⟨j, hj, rfl⟩
      | big => exact ⟨n - 1 - j, by omega, by simp only [place]; omega⟩
    obtain ⟨b, hb, he⟩ := h i hi
    obtain ⟨b', hb', he'⟩ := h' i hi
    rw [hb, hb']
    congr 1
    exact UInt8.toNat_inj.1 (by omega)
  · rw [List.getElem?_eq_none (by omega), List.getElem?_eq_none (by omega)]

theorem each_nil (o : Endian) (n : Nat) : EachInOrder o n [] [] :=
  ⟨[], rfl, rfl, fun i x b h => by simp at h⟩

theorem each_append {o : Endian} {n : Nat} {xs ys : List Int} {r s : List Byte}
    (h : EachInOrder o n xs r) (h' : EachInOrder o n ys s) : EachInOrder o n (xs ++ ys) (r ++ s) := by
  obtain ⟨rs, rfl, hl, h⟩ := h
  obtain ⟨ss, rfl, hl', h'⟩ := h'
  refine ⟨rs ++ ss, by simp, by simp [hl, hl'], fun i x b hx hb => ?_⟩
  by_cases hi : i < xs.length
  · rw [List.getElem?_append_left hi] at hx
    rw [List.getElem?_append_left (by omega)] at hb
    exact h i x b hx hb
  · rw [List.getElem?_append_right (by omega)] at hx
    rw [List.getElem?_append_right (by omega), hl] at hb
    exact h' _ x b hx hb

theorem each_one {o : Endian} {n : Nat} {x : Int} {r : List Byte} (h : InOrder o n x r) :
    EachInOrder o n [x] r := by
  refine ⟨[r], by simp, rfl, fun i y b hy hb => ?_⟩
  cases i with
  | zero => cases hy; cases hb; exact h
  | succ i => simp at hy

theorem each_flatMap {o : Endian} {n : Nat} (f : Val → List Int) (g : Val → List Byte)
    (h : ∀ v, EachInOrder o n (f v) (g v)) (vs : List Val) :
    EachInOrder o n (vs.flatMap f) (vs.flatMap g) := by
  induction vs with
  | nil => exact each_nil o n
  | cons v vs ih => exact each_append (h v) ih

theorem each_wireElem (o : Endian) (e : ElemTy) (v : Val) :
    EachInOrder o (baseTy e).size (numbersOf e v) (wireElem o e v) := by
  induction e generalizing v with
  | scalar t =>
    cases v with
    | int x => exact each_one (inOrder_wireScalar o t.size x)
    | _ => exact each_nil o _
  | arr e n ih =>
    cases v with
    | seq vs => exact each_flatMap _ _ ih vs
    | _ => exact each_nil o _

theorem each_wireKind (o : Endian) {k : Kind} {u : Val} {t : ScalarTy} {xs : List Int}
    (h : MadeOf k u t xs) : EachInOrder o t.size xs (wireKind o k u) := by
  cases h with
  | num => rw [wireKind]; exact each_one (inOrder_wireScalar o _ _)
  | fbuf => rw [wireKind]; exact each_flatMap _ _ (each_wireElem o _) _
  | fstr => rw [wireKind]; exact each_flatMap _ _ (each_wireElem o (.scalar u8)) _
  | vec => rw [wireKind]; exact each_flatMap _ _ (each_wireElem o _) _

theorem each_unique {o : Endian} {n : Nat} {xs : List Int} {r r' : List Byte}
    (h : EachInOrder o n xs r) (h' : EachInOrder o n xs r') : r = r' := by
  obtain ⟨rs, rfl, hl, h⟩ := h
  obtain ⟨rs', rfl, hl', h'⟩ := h'
  congr 1
  apply List.ext_getElem?
  intro i
  by_cases hi : i < xs.length
  · have h1 := List.getElem?_eq_getElem hi
    have h2 := List.getElem?_eq_getElem (show i < rs.length by omega)
    have h3 := List.getElem?_eq_getElem (show i < rs'.length by omega)
    rw [h2, h3]
    congr 1
    exact inOrder_unique (h i _ _ h1 h2) (h' i _ _ h1 h3)
  · rw [List.getElem?_eq_none (by omega), List.getElem?_eq_none (by omega)]

/-- One byte has no order. -/
theorem each_byte {o : Endian} (o' : Endian) {xs : List Int} {r : List Byte}
    (h : EachInOrder o 1 xs r) : EachInOrder o' 1 xs r := by
  obtain ⟨rs, rfl, hl, h⟩ := h
  refine ⟨rs, rfl, hl, fun i x b hx hb => ?_⟩
  obtain ⟨h1, h2⟩ := h i x b hx hb
  refine ⟨h1, fun j hj => ?_⟩
  obtain rfl : j = 0 := by omega
  obtain ⟨y, hy, he⟩ := h2 0 hj
  refine ⟨y, ?_, he⟩
  cases o <;> cases o' <;> exact hy

theorem wireField_payload (o : Endian) {f : Field} {v : Val} {k : Kind} {u : Val} (h : Payload f v k u) :
    wireField o f v = wireKind o k u := by
  cases h with
  | plain => rw [wireField]
  | maybe => rw [wireField]
  | @union id d alts c i v k c' h =>
    rw [wireField]
    induction alts generalizing i with
    | nil => simp at h
    | cons a alts ih =>
      cases i with
      | zero => cases h; rw [wireAlts]
      | succ i => rw [wireAlts]; exact ih (by simpa using h)

theorem wireFields_append (o : Endian) (fs gs : List Field) (vs ws : List Val)
    (h : vs.length = fs.length) :
    wireFields o (fs ++ gs) (vs ++ ws) = wireFields o fs vs ++ wireFields o gs ws := by
  induction fs generalizing vs with
  | nil => cases vs with
    | nil => simp [wireFields]
    | cons v vs => simp at h
  | cons f fs ih =>
    cases vs with
    | nil => simp at h
    | cons v vs =>
      simp only [List.cons_append, wireFields, ih vs (by simpa using h), List.append_assoc]

/-- What a parse of a list begins with is a parse of a first part of it. -/
theorem runOn_prefix {cfg : Cfg} {pre post : List Field} (hwf : WellFormed (pre ++ post))
    {vpre vpost : List Val} (hl : vpre.length = pre.length) {S : InStream} {s s' : S.State}
    (h : (structCast cfg (pre ++ post)).runOn S s = (.done (.ok (vpre ++ vpost)), s')) :
    ∃ mid, (structCast cfg pre).runOn S s = (.done (.ok vpre), mid) := by
  rw [structCast_append cfg pre post hwf, RdE.runOn_andThen] at h
  cases hr : Rd.runOn S (structCast cfg pre) s with
  | mk o mid =>
    rw [hr] at h
    cases o with
    | stuck w => cases h
    | done a =>
      cases a with
      | error e => cases h
      | ok vs =>
        simp only at h
        rw [RdE.runOn_andThen] at h
        cases hr2 : Rd.runOn S (readFields cfg (setAll (dfltEnv (pre ++ post)) pre vs) post) mid with
        | mk o rest' =>
          rw [hr2] at h
          cases o with
          | stuck w => cases h
          | done a =>
            cases a with
            | error e => cases h
            | ok ws =>
              have hlen := length_of_run hr
              have h : vs ++ ws = vpre ++ vpost := by
                have := congrArg Prod.fst h
                simp only [RdE.ok, Rd.runOn, Outcome.done.injEq, Except.ok.injEq] at this
                exact this
              obtain ⟨rfl, -⟩ := List.append_inj h (by omega)
              exact ⟨mid, rfl⟩

theorem run_prefix {cfg : Cfg} {pre post : List Field} (hwf : WellFormed (pre ++ post))
    {vpre vpost : List Val} (hl : vpre.length = pre.length) {inp rest : List Byte}
    (h : (structCast cfg (pre ++ post)).run inp = (.done (.ok (vpre ++ vpost)), rest)) :
    ∃ mid, (structCast cfg pre).run inp = (.done (.ok vpre), mid) :=
  runOn_prefix (S := listIn) hwf hl h

mutual
theorem typedKind_congr {cfg cfg' : Cfg} (h : cfg.ptrdiffMax = cfg'.ptrdiffMax) : (k : Kind) →
    (v : Val) → TypedKind cfg k v → TypedKind cfg' k v
  | .num t w, v, hv => by cases v <;> simp only [TypedKind] at hv ⊢; exact hv
  | .fbuf e n, v, hv => by cases v <;> simp only [TypedKind] at hv ⊢; exact hv
  | .fstr n, v, hv => by cases v <;> simp only [TypedKind] at hv ⊢; exact hv
  | .vec e len b, v, hv => by cases v <;> simp only [TypedKind] at hv ⊢; rwa [← h]
  | .record fs, v, hv => by
      cases v <;> simp only [TypedKind] at hv ⊢
      exact typedFields_congr h fs _ hv
  | .arrRec fs n, v, hv => by
      cases v <;> simp only [TypedKind] at hv ⊢
      refine ⟨hv.1, fun v hm => ?_⟩
      obtain ⟨ws, rfl, hw⟩ := hv.2 v hm
      exact ⟨ws, rfl, typedFields_congr h fs ws hw⟩
  | .vecRec fs len b sz, v, hv => by
      cases v <;> simp only [TypedKind] at hv ⊢
      refine ⟨h ▸ hv.1, fun v hm => ?_⟩
      obtain ⟨ws, rfl, hw⟩ := hv.2 v hm
      exact ⟨ws, rfl, typedFields_congr h fs ws hw⟩
theorem typedField_congr {cfg cfg' : Cfg} (h : cfg.ptrdiffMax = cfg'.ptrdiffMax) : (f : Field) →
    (v : Val) → TypedField cfg f v → TypedField cfg' f v
  | .plain id k c, v, hv => by
      simp only [TypedField] at hv ⊢
      exact typedKind_congr h k v hv
  | .maybe id k p, v, hv => by
      cases v <;> simp only [TypedField] at hv ⊢
      exact typedKind_congr h k _ hv
  | .union id d alts c, v, hv => by
      cases v <;> simp only [TypedField] at hv ⊢
      exact typedAlts_congr h alts _ _ hv
theorem typedAlts_congr {cfg cfg' : Cfg} (h : cfg.ptrdiffMax = cfg'.ptrdiffMax) : (alts : List Alt) →
    (i : Nat) → (v : Val) → TypedAlts cfg alts i v → TypedAlts cfg' alts i v
  | [], i, v, hv => by simp only [TypedAlts] at hv
  | .mk k c :: alts, 0, v, hv => by
      simp only [TypedAlts] at hv ⊢
      exact typedKind_congr h k v hv
  | .mk k c :: alts, i + 1, v, hv => by
      simp only [TypedAlts] at hv ⊢
      exact typedAlts_congr h alts i v hv
theorem typedFields_congr {cfg cfg' : Cfg} (h : cfg.ptrdiffMax = cfg'.ptrdiffMax) :
    (fs : List Field) → (vs : List Val) → TypedFields cfg fs vs → TypedFields cfg' fs vs
  | [], vs, hv => by cases vs <;> simp only [TypedFields] at hv ⊢
  | f :: fs, vs, hv => by
      cases vs with
      | nil => simp only [TypedFields] at hv
      | cons v vs =>
        simp only [TypedFields] at hv ⊢
        exact ⟨typedField_congr h f v hv.1, typedFields_congr h fs vs hv.2⟩
end

theorem typed_congr {cfg cfg' : Cfg} (h : cfg.ptrdiffMax = cfg'.ptrdiffMax) {fs : List Field}
    {vs : List Val} (hv : Typed cfg fs vs) : Typed cfg' fs vs := typedFields_congr h fs vs hv

end S2S
