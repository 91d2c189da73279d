import Verif.Spec.Hollow
import Verif.Lemmas.Unsent
/-
Writing structs in which a variant has no value.
-/
namespace S2S
open Spec

theorem emits_recs_each {one : List Val → WrE CastError Unit} {vs : List Val} {p : List Byte}
    (h : (writeRecs one vs).Emits p ()) {ws : List Val} (hm : .seq ws ∈ vs) :
    ∃ q, (one ws).Emits q () := by
  induction vs generalizing p with
  | nil => cases hm
  | cons v vs ih =>
    cases v with
    | seq xs =>
      rw [writeRecs, WrE.emits_andThen] at h
      obtain ⟨_, q, s, rfl, h1, h2⟩ := h
      rcases List.mem_cons.1 hm with h3 | h3
      · cases h3; exact ⟨q, emits_untag.1 h1⟩
      · exact ih h2 h3
    | _ => simp only [writeRecs] at h; exact ((WrE.emits_stuck _ _ _).1 h).elim

mutual
theorem hollow_kind (cfg : Cfg) : (k : Kind) → ∀ ctx m id c v p, HollowKind k v →
    ¬ (writeKind cfg ctx m id c k v).Emits p ()
  | .num _ _, _, _, _, _, v, _, hh => by cases v <;> simp [HollowKind] at hh
  | .fbuf _ _, _, _, _, _, v, _, hh => by cases v <;> simp [HollowKind] at hh
  | .fstr _, _, _, _, _, v, _, hh => by cases v <;> simp [HollowKind] at hh
  | .vec _ _ _, _, _, _, _, v, _, hh => by cases v <;> simp [HollowKind] at hh
  | .record fs, ctx, m, id, c, v, p, hh => by
      cases v with
      | seq vs =>
        simp only [HollowKind] at hh
        rw [writeKind, emits_untag]
        exact hollow_fields cfg fs _ vs p hh
      | _ => simp [HollowKind] at hh
  | .arrRec fs n, ctx, m, id, c, v, p, hh => by
      cases v with
      | seq vs =>
        simp only [HollowKind] at hh
        obtain ⟨ws, h1, h2⟩ := hh
        rw [writeKind]
        split
        · exact fun h => (WrE.emits_stuck _ _ _).1 h
        · intro h
          obtain ⟨q, h3⟩ := emits_recs_each h h1
          exact hollow_fields cfg fs _ ws q h2 h3
      | _ => simp [HollowKind] at hh
  | .vecRec fs len b sz, ctx, m, id, c, v, p, hh => by
      cases v with
      | seq vs =>
        simp only [HollowKind] at hh
        obtain ⟨ws, h1, h2⟩ := hh
        rw [writeKind, emits_computed]
        intro h
        obtain ⟨q, h3⟩ := emits_recs_each h.2 h1
        exact hollow_fields cfg fs _ ws q h2 h3
      | _ => simp [HollowKind] at hh
theorem hollow_field (cfg : Cfg) : (f : Field) → ∀ ctx v p, HollowField f v →
    ¬ (writeField cfg ctx f v).Emits p ()
  | .plain id k c, ctx, v, p, hh => by
      rw [HollowField] at hh
      rw [writeField]
      exact hollow_kind cfg k ctx true id c v p hh
  | .maybe id k pr, ctx, v, p, hh => by
      cases v with
      | present w =>
        rw [HollowField] at hh
        rw [writeField, WrE.emits_andThen]
        rintro ⟨b, q, s, rfl, -, h2⟩
        cases b with
        | false => exact (WrE.emits_err _ _ _).1 h2
        | true => exact hollow_kind cfg k ctx false id .none w s hh h2
      | _ => simp [HollowField] at hh
  | .union id d alts c, ctx, v, p, hh => by
      cases v with
      | var i w =>
        rw [HollowField] at hh
        intro h
        have h1 := (emits_union h).1
        rcases hh with hh | hh
        · obtain ⟨k, c', h2, -⟩ := emits_alts_get h1
          have := (List.getElem?_eq_some_iff.1 h2).1
          omega
        · exact hollow_alts cfg alts ctx id i w p hh h1
      | _ => simp [HollowField] at hh
theorem hollow_alts (cfg : Cfg) : (alts : List Alt) → ∀ ctx id i v p, HollowAlts alts i v →
    ¬ (writeAlts cfg ctx id alts i v).Emits p ()
  | [], ctx, id, i, v, p, hh => by simp [HollowAlts] at hh
  | .mk k c :: alts, ctx, id, 0, v, p, hh => by
      rw [HollowAlts] at hh
      rw [writeAlts, emits_checked]
      exact fun h => hollow_kind cfg k ctx false id c v p hh h.2
  | .mk k c :: alts, ctx, id, i + 1, v, p, hh => by
      rw [HollowAlts] at hh
      rw [writeAlts]
      exact hollow_alts cfg alts ctx id i v p hh
theorem hollow_fields (cfg : Cfg) : (fs : List Field) → ∀ ctx vs p, HollowFields fs vs →
    ¬ (writeFields cfg ctx fs vs).Emits p ()
  | [], ctx, vs, p, hh => by cases vs <;> simp [HollowFields] at hh
  | f :: fs, ctx, [], p, hh => by simp [HollowFields] at hh
  | f :: fs, ctx, v :: vs, p, hh => by
      rw [HollowFields] at hh
      rw [emits_writeFields_cons]
      rintro ⟨q, r, rfl, h1, h2⟩
      rcases hh with hh | hh
      · exact hollow_field cfg f ctx v q hh (emits_writeStep.1 h1).1
      · exact hollow_fields cfg fs ctx vs r hh h2
end

mutual
theorem whole_kind (cfg : Cfg) : (k : Kind) → ∀ v, TypedKind cfg k v → ¬ HollowKind k v
  | .num _ _, v, _ => by cases v <;> simp [HollowKind]
  | .fbuf _ _, v, _ => by cases v <;> simp [HollowKind]
  | .fstr _, v, _ => by cases v <;> simp [HollowKind]
  | .vec _ _ _, v, _ => by cases v <;> simp [HollowKind]
  | .record fs, v, ht => by
      cases v with
      | seq vs =>
        rw [TypedKind] at ht
        simp only [HollowKind]
        exact whole_fields cfg fs vs ht
      | _ => simp [HollowKind]
  | .arrRec fs n, v, ht => by
      cases v with
      | seq vs =>
        rw [TypedKind] at ht
        simp only [HollowKind]
        rintro ⟨ws, h1, h2⟩
        obtain ⟨ws', h3, h4⟩ := ht.2 _ h1
        cases h3
        exact whole_fields cfg fs ws h4 h2
      | _ => simp [HollowKind]
  | .vecRec fs len b sz, v, ht => by
      cases v with
      | seq vs =>
        rw [TypedKind] at ht
        simp only [HollowKind]
        rintro ⟨ws, h1, h2⟩
        obtain ⟨ws', h3, h4⟩ := ht.2 _ h1
        cases h3
        exact whole_fields cfg fs ws h4 h2
      | _ => simp [HollowKind]
theorem whole_field (cfg : Cfg) : (f : Field) → ∀ v, TypedField cfg f v → ¬ HollowField f v
  | .plain id k c, v, ht => by
      rw [TypedField] at ht
      rw [HollowField]
      exact whole_kind cfg k v ht
  | .maybe id k pr, v, ht => by
      cases v with
      | present w =>
        rw [TypedField] at ht
        rw [HollowField]
        exact whole_kind cfg k w ht
      | _ => simp [HollowField]
  | .union id d alts c, v, ht => by
      cases v with
      | var i w =>
        rw [TypedField] at ht
        rw [HollowField]
        exact whole_alts cfg alts i w ht
      | _ => simp [HollowField]
theorem whole_alts (cfg : Cfg) : (alts : List Alt) → ∀ i v, TypedAlts cfg alts i v →
    ¬ (alts.length ≤ i ∨ HollowAlts alts i v)
  | [], i, v, ht => by simp [TypedAlts] at ht
  | .mk k c :: alts, 0, v, ht => by
      rw [TypedAlts] at ht
      rw [HollowAlts]
      simpa using whole_kind cfg k v ht
  | .mk k c :: alts, i + 1, v, ht => by
      rw [TypedAlts] at ht
      rw [HollowAlts]
      have := whole_alts cfg alts i v ht
      simpa using this
theorem whole_fields (cfg : Cfg) : (fs : List Field) → ∀ vs, TypedFields cfg fs vs →
    ¬ HollowFields fs vs
  | [], vs, _ => by cases vs <;> simp [HollowFields]
  | f :: fs, [], _ => by simp [HollowFields]
  | f :: fs, v :: vs, ht => by
      rw [TypedFields] at ht
      rw [HollowFields]
      rintro (h | h)
      · exact whole_field cfg f v ht.1 h
      · exact whole_fields cfg fs vs ht.2 h
end

/-! ### where it stops -/

theorem deducer_lt {d : Deducer} {env : Env} {j : Nat} (hd : ∀ i t ls, d ≠ .matchField i t ls)
    (h : d.eval env = .ok (some j)) : j < arity d := by
  cases d with
  | matchField i t ls => exact absurd rfl (hd i t ls)
  | matchCompute comp t ls =>
    simp only [Deducer.eval] at h
    split at h
    · simp only [Except.ok.injEq] at h
      exact switchIdx_lt _ _ _ _ h
    · cases h
  | ladder ps => exact ladderIdx_lt _ _ _ h

/-- The producer of a label that has none stops the scan. -/
theorem deriveScan_hollow {cfg : Cfg} {m id : String} {t : ScalarTy} {ls : List (ScalarTy × Int)}
    {alts : List Alt} {c : Constraint} {i : Nat} {x : Val} (hi : ls.length ≤ i) :
    ∀ (fs : List Field) (vs : List Val), (Field.union id (.matchField m t ls) alts c, Val.var i x) ∈ fs.zip vs →
    ∀ d, ∃ w, deriveScan cfg m fs vs d = .error w
  | [], vs, hm, d => by simp at hm
  | _ :: _, [], hm, d => by simp at hm
  | f :: fs, v :: vs, hm, d => by
      rw [deriveScan]
      rw [List.zip_cons_cons] at hm
      rcases List.mem_cons.1 hm with h | h
      · cases h
        refine ⟨.outOfBounds, ?_⟩
        simp only [Field.implies, if_true]
        rw [List.getElem?_eq_none hi]
      · have ih := deriveScan_hollow (cfg := cfg) hi fs vs h
        split
        · exact ⟨_, rfl⟩
        · exact ih _
        · exact ih _

end S2S
