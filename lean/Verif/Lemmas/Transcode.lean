import Verif.Spec.Transcode
import Verif.Spec.Rewrite
import Verif.Lemmas.Wellformed
/-
Byte orders carry the same structs if numbers have their full width.
-/
namespace S2S
open Spec

theorem wireElem_order (o o' : Endian) : ∀ (e : ElemTy) (v : Val), (wireElem o e v).length = (wireElem o' e v).length
  | .scalar t, v => by cases v <;> simp only [wireElem] <;> cases o <;> cases o' <;> simp [wireScalar]
  | .arr e n, v => by
      cases v <;> simp only [wireElem]
      simp only [List.length_flatMap, wireElem_order o o' e]

mutual
theorem wireKind_order (o o' : Endian) : ∀ (k : Kind) (v : Val), (wireKind o k v).length = (wireKind o' k v).length
  | .num t w, v => by cases v <;> simp only [wireKind] <;> cases o <;> cases o' <;> simp [wireScalar]
  | .fbuf e n, v => by
      cases v <;> simp only [wireKind]
      simp only [List.length_flatMap, wireElem_order o o']
  | .fstr n, v => by
      cases v <;> simp only [wireKind]
      simp only [List.length_flatMap, wireElem_order o o']
  | .vec e len b, v => by
      cases v <;> simp only [wireKind]
      simp only [List.length_flatMap, wireElem_order o o']
  | .record fs, v => by
      cases v <;> simp only [wireKind]
      exact wireFields_order o o' fs _
  | .arrRec fs n, v => by
      cases v <;> simp only [wireKind]
      rw [List.length_flatMap, List.length_flatMap]
      congr 1
      refine List.map_congr_left fun u _ => ?_
      cases u <;> simp only [recordBytes]
      exact wireFields_order o o' fs _
  | .vecRec fs len b sz, v => by
      cases v <;> simp only [wireKind]
      rw [List.length_flatMap, List.length_flatMap]
      congr 1
      refine List.map_congr_left fun u _ => ?_
      cases u <;> simp only [recordBytes]
      exact wireFields_order o o' fs _
termination_by structural k => k
theorem wireField_order (o o' : Endian) : ∀ (f : Field) (v : Val), (wireField o f v).length = (wireField o' f v).length
  | .plain id k c, v => by simp only [wireField]; exact wireKind_order o o' k v
  | .maybe id k p, v => by
      cases v <;> simp only [wireField]
      exact wireKind_order o o' k _
  | .union id d alts c, v => by
      cases v <;> simp only [wireField]
      exact wireAlts_order o o' alts _ _
termination_by structural f => f
theorem wireAlts_order (o o' : Endian) : ∀ (alts : List Alt) (i : Nat) (v : Val),
    (wireAlts o alts i v).length = (wireAlts o' alts i v).length
  | [], i, v => by simp only [wireAlts]
  | .mk k c :: alts, 0, v => by simp only [wireAlts]; exact wireKind_order o o' k v
  | .mk k c :: alts, i + 1, v => by simp only [wireAlts]; exact wireAlts_order o o' alts i v
termination_by structural alts => alts
theorem wireFields_order (o o' : Endian) : ∀ (fs : List Field) (vs : List Val),
    (wireFields o fs vs).length = (wireFields o' fs vs).length
  | [], vs => by simp only [wireFields]
  | f :: fs, vs => by
      cases vs <;> simp only [wireFields]
      rw [List.length_append, List.length_append, wireField_order o o' f, wireFields_order o o' fs]
termination_by structural fs => fs
end

def fullKind (k : Kind) : Prop :=
  match k with
  | .num t w => w = t.size
  | _ => True

theorem scalarFits_full (o o' : Endian) (t : ScalarTy) (x : Int) :
    ScalarFits o t t.size x ↔ ScalarFits o' t t.size x := by
  unfold ScalarFits
  simp

mutual
theorem fitsKind_order (cfg : Cfg) (o : Endian) : ∀ (k : Kind) (v : Val), fullKind k → EveryKind FullNums k →
    (FitsKind (inOrder cfg o) k v ↔ FitsKind cfg k v)
  | .num t w, v, h, _ => by
      cases h
      cases v <;> simp only [FitsKind]
      exact scalarFits_full _ _ t _
  | .fbuf e n, v, _, _ => by cases v <;> simp only [FitsKind]
  | .fstr n, v, _, _ => by cases v <;> simp only [FitsKind]
  | .vec e len b, v, _, _ => by cases v <;> simp only [FitsKind]; rfl
  | .record fs, v, _, h => by
      cases v <;> simp only [FitsKind]
      exact fitsFields_order cfg o fs _ h.1 h.2
  | .arrRec fs n, v, _, h => by
      cases v <;> simp only [FitsKind, fitsFields_order cfg o fs _ h.1 h.2]
  | .vecRec fs len b sz, v, _, h => by
      cases v <;> simp only [FitsKind, fitsFields_order cfg o fs _ h.1 h.2]
      rfl
termination_by structural k => k
theorem fitsField_order (cfg : Cfg) (o : Endian) : ∀ (f : Field) (v : Val), (∀ k ∈ fieldKinds f, fullKind k) →
    EveryField FullNums f → (FitsField (inOrder cfg o) f v ↔ FitsField cfg f v)
  | .plain id k c, v, hk, h => by
      simp only [FitsField]; exact fitsKind_order cfg o k v (hk k (by simp [fieldKinds])) h
  | .maybe id k p, v, hk, h => by
      cases v <;> simp only [FitsField]
      exact fitsKind_order cfg o k _ (hk k (by simp [fieldKinds])) h
  | .union id d alts c, v, hk, h => by
      cases v <;> simp only [FitsField]
      exact fitsAlts_order cfg o alts _ _ hk h
termination_by structural f => f
theorem fitsAlts_order (cfg : Cfg) (o : Endian) : ∀ (alts : List Alt) (i : Nat) (v : Val),
    (∀ k ∈ alts.map Alt.kind, fullKind k) → EveryAlts FullNums alts →
    (FitsAlts (inOrder cfg o) alts i v ↔ FitsAlts cfg alts i v)
  | [], i, v, _, _ => by simp only [FitsAlts]
  | .mk k c :: alts, 0, v, hk, h => by
      simp only [FitsAlts]; exact fitsKind_order cfg o k v (hk k (by simp)) h.1
  | .mk k c :: alts, i + 1, v, hk, h => by
      simp only [FitsAlts]
      exact fitsAlts_order cfg o alts i v (fun k hm => hk k (by rw [List.map_cons]; exact .tail _ hm)) h.2
termination_by structural alts => alts
theorem fitsFields_order (cfg : Cfg) (o : Endian) : ∀ (fs : List Field) (vs : List Val), FullNums fs →
    EveryFields FullNums fs → (FitsFields (inOrder cfg o) fs vs ↔ FitsFields cfg fs vs)
  | [], vs, _, _ => by cases vs <;> simp only [FitsFields]
  | f :: fs, vs, hk, h => by
      cases vs <;> simp only [FitsFields]
      rw [fitsField_order cfg o f _ (hk f (by simp)) h.1,
        fitsFields_order cfg o fs _ (fun g hg => hk g (by simp [hg])) h.2]
termination_by structural fs => fs
end

mutual
theorem shapedKind_order (cfg : Cfg) (o : Endian) (env : Env) : ∀ (k : Kind) (v : Val),
    ShapedKind (inOrder cfg o) env k v ↔ ShapedKind cfg env k v
  | .num t w, v => by cases v <;> simp only [ShapedKind]
  | .fbuf e n, v => by cases v <;> simp only [ShapedKind]
  | .fstr n, v => by cases v <;> simp only [ShapedKind]
  | .vec e len b, v => by cases v <;> simp only [ShapedKind]; cases len <;> rfl
  | .record fs, v => by cases v <;> simp only [ShapedKind, shapedFields_order cfg o _ fs]
  | .arrRec fs n, v => by cases v <;> simp only [ShapedKind, shapedFields_order cfg o _ fs]
  | .vecRec fs len b sz, v => by
      cases v <;> simp only [ShapedKind, shapedFields_order cfg o _ fs]
      cases len <;> rfl
termination_by structural k => k
theorem shapedField_order (cfg : Cfg) (o : Endian) (env : Env) : ∀ (f : Field) (v : Val),
    ShapedField (inOrder cfg o) env f v ↔ ShapedField cfg env f v
  | .plain id k c, v => by simp only [ShapedField, shapedKind_order cfg o env k]
  | .maybe id k p, v => by cases v <;> simp only [ShapedField, shapedKind_order cfg o env k]
  | .union id d alts c, v => by cases v <;> simp only [ShapedField, shapedAlts_order cfg o env alts]
termination_by structural f => f
theorem shapedAlts_order (cfg : Cfg) (o : Endian) (env : Env) : ∀ (alts : List Alt) (i : Nat) (v : Val),
    ShapedAlts (inOrder cfg o) env alts i v ↔ ShapedAlts cfg env alts i v
  | [], i, v => by simp only [ShapedAlts]
  | .mk k c :: alts, 0, v => by simp only [ShapedAlts, shapedKind_order cfg o env k]
  | .mk k c :: alts, i + 1, v => by simp only [ShapedAlts, shapedAlts_order cfg o env alts]
termination_by structural alts => alts
theorem shapedFields_order (cfg : Cfg) (o : Endian) (env : Env) : ∀ (fs : List Field) (vs : List Val),
    ShapedFields (inOrder cfg o) env fs vs ↔ ShapedFields cfg env fs vs
  | [], vs => by simp only [ShapedFields]
  | f :: fs, vs => by
      cases vs <;> simp only [ShapedFields, shapedField_order cfg o env f, shapedFields_order cfg o env fs]
termination_by structural fs => fs
end

/-- **The same structs in both orders.** -/
theorem valid_order (cfg : Cfg) (o : Endian) {fs : List Field} (h : Everywhere FullNums fs) (vs : List Val) :
    Valid (inOrder cfg o) fs vs ↔ Valid cfg fs vs := by
  unfold Valid
  rw [fitsFields_order cfg o fs vs h.1 h.2, shapedFields_order]

theorem rewritable_order {cfg : Cfg} (o : Endian) {fs : List Field} (h : Everywhere FullNums fs)
    (hr : Rewritable cfg fs) : Rewritable (inOrder cfg o) fs := by
  refine ⟨hr.1, (Everywhere.and.2 ⟨h, hr.2⟩).mono fun gs hg => ?_⟩
  obtain ⟨hf, h1, h2, h3, h4⟩ := hg
  refine ⟨h1, h2, fun f hfm => ?_, fun f hfm => ?_⟩
  · have a := h3 f hfm
    have b := hf f hfm
    split
    · rename_i id t w c
      exact fun hs => ⟨(a hs).1, .inl (b (.num t w) (by simp [fieldKinds]))⟩
    · trivial
  · have a := h4 f hfm
    have b := hf f hfm
    split
    · rename_i id k c
      intro u hu v hv hh
      refine a u hu v ?_ hh
      have hk := b k (by simp [fieldKinds])
      cases k with
      | num t w => cases hk; cases v <;> simp only [FitsKind] at hv ⊢; exact (scalarFits_full _ _ t _).1 hv
      | fbuf e n => cases v <;> simp only [FitsKind] at hv ⊢ <;> exact hv
      | fstr n => cases v <;> simp only [FitsKind] at hv ⊢ <;> exact hv
      | _ => cases c <;> simp [typedConst] at hu
    · trivial

end S2S
