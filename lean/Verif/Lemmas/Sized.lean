import Verif.Spec.Sized
import Verif.Lemmas.Counted
/-
Records that are given a size and vectors of records that are given no length: reading and writing
are those of the list without.
-/
namespace S2S
open Spec

theorem as_id (a : List Field → Nat → Option LenSpec → Kind) (f : SzField) (v : Val) :
    ((f.as v).seen a).id = f.id := by
  cases f with
  | union id d alts c => cases v <;> simp [SzField.as, SzField.id, CtField.seen, Field.id]
  | _ => simp [SzField.as, SzField.id, CtField.seen, Field.id]

mutual
theorem asKind_reads : (k : SzKind) → ∀ v, readsKind k = true → k.as v = k.as .absent
  | .leaf k, v, _ => by simp only [SzKind.as]
  | .record fs len, v, h => by
      rw [readsKind] at h
      simp only [SzKind.as, asFields_reads fs v.members h, asFields_reads fs (Val.members .absent) h]
  | .arrRec fs n len, v, _ => by simp only [SzKind.as]
  | .vecRec fs len bound sz, v, _ => by simp only [SzKind.as]
  | .bare fs, v, h => by simp [readsKind] at h
termination_by structural k => k
theorem asField_reads : (f : SzField) → ∀ v, readsField f = true → f.as v = f.as .absent
  | .plain id k c, v, h => by
      rw [readsField] at h
      simp only [SzField.as, asKind_reads k v h]
  | .maybe id k p, v, h => by
      rw [readsField] at h
      simp only [SzField.as, asKind_reads k v.held h, asKind_reads k (Val.held .absent) h]
  | .union id d alts c, v, h => by
      rw [readsField] at h
      cases v with
      | var i w => simp only [SzField.as, asAlts_reads alts i w h]
      | _ => simp only [SzField.as]
termination_by structural f => f
theorem asAlts_reads : (alts : List SzAlt) → ∀ i w, readsAlts alts = true →
    asAlts alts i w = asAlts alts alts.length .absent
  | [], i, w, _ => by simp only [asAlts]
  | .mk k c :: alts, 0, w, h => by
      rw [readsAlts, Bool.and_eq_true] at h
      simp only [asAlts, asKind_reads k w h.1, List.length_cons]
  | .mk k c :: alts, i + 1, w, h => by
      rw [readsAlts, Bool.and_eq_true] at h
      simp only [asAlts, asAlts_reads alts i w h.2, List.length_cons]
termination_by structural alts => alts
theorem asFields_reads : (fs : List SzField) → ∀ vs, reads fs = true → asFields fs vs = asFields fs []
  | [], vs, _ => by simp only [asFields]
  | f :: fs, vs, h => by
      rw [reads, Bool.and_eq_true] at h
      simp only [asFields, asField_reads f (vs.headD .absent) h.1, asFields_reads fs vs.tail h.2,
        List.headD_nil, List.tail_nil]
termination_by structural fs => fs
end

/-! ### Reading -/

mutual
theorem readSzKind_eq (cfg : Cfg) (env : Env) : (k : SzKind) → readsKind k = true →
    readSzKind cfg env k = readCtKind cfg env (k.as .absent)
  | .leaf k, _ => by simp only [readSzKind, SzKind.as, readCtKind]
  | .record fs len, h => by
      rw [readsKind] at h
      simp only [readSzKind, SzKind.as, readCtKind, readSzFields_eq cfg _ fs h, Val.members]
  | .arrRec fs n len, h => by
      rw [readsKind] at h
      simp only [readSzKind, SzKind.as, readCtKind, readSzFields_eq cfg _ fs h]
  | .vecRec fs len bound sz, h => by
      rw [readsKind] at h
      simp only [readSzKind, SzKind.as, readCtKind, readSzFields_eq cfg _ fs h]; rfl
  | .bare fs, h => by simp [readsKind] at h
termination_by structural k => k
theorem readSzField_eq (cfg : Cfg) (env : Env) : (f : SzField) → readsField f = true →
    readSzField cfg env f = readCtField cfg env (f.as .absent)
  | .plain id k c, h => by
      rw [readsField] at h
      simp only [readSzField, SzField.as, readCtField, readSzKind_eq cfg env k h]
  | .maybe id k p, h => by
      rw [readsField] at h
      simp only [readSzField, SzField.as, readCtField, readSzKind_eq cfg env k h, Val.held]
  | .union id d alts c, h => by
      rw [readsField] at h
      simp only [readSzField, SzField.as, readCtField, readSzAlts_eq cfg env alts _ h]; rfl
termination_by structural f => f
theorem readSzAlts_eq (cfg : Cfg) (env : Env) : (alts : List SzAlt) → ∀ i, readsAlts alts = true →
    readSzAlts cfg env alts i = readCtAlts cfg env (asAlts alts alts.length .absent) i
  | [], i, _ => by simp only [readSzAlts, asAlts, readCtAlts]
  | .mk k c :: alts, 0, h => by
      rw [readsAlts, Bool.and_eq_true] at h
      simp only [readSzAlts, List.length_cons, asAlts, readCtAlts, readSzKind_eq cfg env k h.1]
  | .mk k c :: alts, i + 1, h => by
      rw [readsAlts, Bool.and_eq_true] at h
      simp only [readSzAlts, List.length_cons, asAlts, readCtAlts, readSzAlts_eq cfg env alts i h.2]
termination_by structural alts => alts
theorem readSzFields_eq (cfg : Cfg) (env : Env) : (fs : List SzField) → reads fs = true →
    readSzFields cfg env fs = readCtFields cfg env (asFields fs [])
  | [], _ => by simp only [readSzFields, asFields, readCtFields]
  | f :: fs, h => by
      rw [reads, Bool.and_eq_true] at h
      simp only [readSzFields, asFields, readCtFields, readSzField_eq cfg env f h.1, List.headD_nil,
        List.tail_nil, as_id]
      simp only [readSzFields_eq cfg _ fs h.2]
termination_by structural fs => fs
end

/-! ### Writing -/

/-- What the writer of something asks of the list it is in. -/
def slotOk (cs : List SzField) (member : Bool) (id : String) (k : SzKind) : Prop :=
  (∀ l, k = .leaf l → (l.isFixedSized && (recordLens cs).contains id) = false) ∧
    (member = true → k.lenOfRecord = none)

def fieldOk (cs : List SzField) : SzField → Prop
  | .plain id k _ => slotOk cs true id k
  | .maybe id k _ => slotOk cs false id k
  | .union id _ alts _ => ∀ k c, .mk k c ∈ alts → slotOk cs false id k

theorem fieldOk_of_writes {cs : List SzField} (h : writesHere cs = true) : ∀ f ∈ cs, fieldOk cs f := by
  intro f hf
  have := List.all_eq_true.1 h f hf
  rw [Bool.and_eq_true, Bool.not_eq_true'] at this
  cases f with
  | plain id k c =>
    refine ⟨?_, fun _ => by simpa using this.2⟩
    rintro l rfl
    exact this.1
  | maybe id k p =>
    refine ⟨?_, fun h => by cases h⟩
    rintro l rfl
    exact this.1
  | union id d alts c =>
    rintro k c hm
    refine ⟨?_, fun h => by cases h⟩
    rintro l rfl
    have h1 := this.1
    simp only [SzField.fixedSized, SzField.id, Bool.and_eq_false_iff] at h1 ⊢
    rcases h1 with h1 | h1
    · exact .inl (by simpa using List.any_eq_false.1 h1 _ hm)
    · exact .inr h1

mutual
theorem even_of_readsKind : (k : SzKind) → readsKind k = true → evenKind k = true
  | .leaf _, _ => by simp only [evenKind]
  | .record fs _, h => by rw [readsKind] at h; rw [evenKind]; exact even_of_reads fs h
  | .arrRec fs _ _, h => by rw [readsKind] at h; rw [evenKind]; exact h
  | .vecRec fs _ _ _, h => by rw [readsKind] at h; rw [evenKind]; exact h
  | .bare fs, h => by simp [readsKind] at h
termination_by structural k => k
theorem even_of_readsField : (f : SzField) → readsField f = true → evenField f = true
  | .plain _ k _, h => by rw [readsField] at h; rw [evenField]; exact even_of_readsKind k h
  | .maybe _ k _, h => by rw [readsField] at h; rw [evenField]; exact even_of_readsKind k h
  | .union _ _ alts _, h => by rw [readsField] at h; rw [evenField]; exact even_of_readsAlts alts h
termination_by structural f => f
theorem even_of_readsAlts : (alts : List SzAlt) → readsAlts alts = true → evenAlts alts = true
  | [], _ => by simp only [evenAlts]
  | .mk k _ :: alts, h => by
      rw [readsAlts, Bool.and_eq_true] at h
      rw [evenAlts, Bool.and_eq_true]
      exact ⟨even_of_readsKind k h.1, even_of_readsAlts alts h.2⟩
termination_by structural alts => alts
theorem even_of_reads : (fs : List SzField) → reads fs = true → even fs = true
  | [], _ => by simp only [even]
  | f :: fs, h => by
      rw [reads, Bool.and_eq_true] at h
      rw [even, Bool.and_eq_true]
      exact ⟨even_of_readsField f h.1, even_of_reads fs h.2⟩
termination_by structural fs => fs
end

mutual
theorem writeSzKind_eq (cfg : Cfg) (ctx : SzCtx) (member : Bool) (id : String) (c : Constraint) :
    (k : SzKind) → ∀ v, evenKind k = true → writesKind k = true → slotOk ctx.cs member id k →
    writeSzKind cfg ctx member id c k v = writeCtKind cfg ctx.base member id c (k.as v) v
  | .leaf k, v, _, _, hs => by
      simp only [writeSzKind, SzKind.as, writeCtKind, hs.1 k rfl, Bool.false_eq_true, if_false]
  | .record fs len, v, he, hw, hs => by
      rw [evenKind] at he
      rw [writesKind, Bool.and_eq_true] at hw
      cases v with
      | seq vs =>
        have := writeSzFields_eq cfg ⟨fs, asVectors (asFields fs vs), vs⟩ fs vs he hw.2 (fieldOk_of_writes hw.1)
        rcases len with _ | (s | g)
        · simp only [writeSzKind, SzKind.as, writeCtKind, Val.members, this]
        · cases member with
          | true => have := hs.2 rfl; simp [SzKind.lenOfRecord] at this
          | false =>
            simp only [writeSzKind, SzKind.as, writeCtKind, Val.members, this, Bool.false_eq_true, if_false]
        · simp only [writeSzKind, SzKind.as, writeCtKind, Val.members, this]
      | _ => simp only [writeSzKind, SzKind.as, writeCtKind]
  | .arrRec fs n len, v, he, hw, hs => by
      rw [evenKind] at he
      rw [writesKind, Bool.and_eq_true] at hw
      cases v with
      | seq vs =>
        have := writeRecs_congr (one := fun ws => writeSzFields cfg ⟨fs, asVectors (asFields fs ws), ws⟩ fs ws)
          (one' := fun ws => writeCtFields cfg ⟨asVectors (asFields fs []), ws⟩ (asFields fs []) ws) vs fun ws _ => by
            rw [writeSzFields_eq cfg ⟨fs, asVectors (asFields fs ws), ws⟩ fs ws (even_of_reads fs he) hw.2
              (fieldOk_of_writes hw.1), asFields_reads fs ws he]
        simp only [writeSzKind, SzKind.as, writeCtKind, this]
      | _ => simp only [writeSzKind, SzKind.as, writeCtKind]
  | .vecRec fs len bound sz, v, he, hw, hs => by
      rw [evenKind] at he
      rw [writesKind, Bool.and_eq_true] at hw
      cases v with
      | seq vs =>
        have := writeRecs_congr (one := fun ws => writeSzFields cfg ⟨fs, asVectors (asFields fs ws), ws⟩ fs ws)
          (one' := fun ws => writeCtFields cfg ⟨asVectors (asFields fs []), ws⟩ (asFields fs []) ws) vs fun ws _ => by
            rw [writeSzFields_eq cfg ⟨fs, asVectors (asFields fs ws), ws⟩ fs ws (even_of_reads fs he) hw.2
              (fieldOk_of_writes hw.1), asFields_reads fs ws he]
        simp only [writeSzKind, SzKind.as, writeCtKind, this]
      | _ => simp only [writeSzKind, SzKind.as, writeCtKind]
  | .bare fs, v, he, hw, hs => by
      rw [evenKind] at he
      rw [writesKind, Bool.and_eq_true] at hw
      cases v with
      | seq vs =>
        have := writeRecs_congr (one := fun ws => writeSzFields cfg ⟨fs, asVectors (asFields fs ws), ws⟩ fs ws)
          (one' := fun ws => writeCtFields cfg ⟨asVectors (asFields fs []), ws⟩ (asFields fs []) ws) vs fun ws _ => by
            rw [writeSzFields_eq cfg ⟨fs, asVectors (asFields fs ws), ws⟩ fs ws (even_of_reads fs he) hw.2
              (fieldOk_of_writes hw.1), asFields_reads fs ws he]
        simp only [writeSzKind, SzKind.as, writeCtKind, this, Val.members, ne_eq, not_true_eq_false, if_false]
      | _ => simp only [writeSzKind, SzKind.as, writeCtKind]
termination_by structural k => k
theorem writeSzField_eq (cfg : Cfg) (ctx : SzCtx) : (f : SzField) → ∀ v, evenField f = true →
    writesField f = true → fieldOk ctx.cs f →
    writeSzField cfg ctx f v = writeCtField cfg ctx.base (f.as v) v
  | .plain id k c, v, he, hw, hs => by
      rw [evenField] at he
      rw [writesField] at hw
      simp only [writeSzField, SzField.as, writeCtField, writeSzKind_eq cfg ctx true id c k v he hw hs]
  | .maybe id k p, v, he, hw, hs => by
      rw [evenField] at he
      rw [writesField] at hw
      cases v with
      | present w =>
        simp only [writeSzField, SzField.as, writeCtField, Val.held,
          writeSzKind_eq cfg ctx false id .none k w he hw hs]
      | _ => simp only [writeSzField, SzField.as, writeCtField]
  | .union id d alts c, v, he, hw, hs => by
      rw [evenField] at he
      rw [writesField] at hw
      cases v with
      | var i w =>
        simp only [writeSzField, SzField.as, writeCtField,
          writeSzAlts_eq cfg ctx id alts i w he hw hs]
        cases d <;> rfl
      | _ => simp only [writeSzField, SzField.as, writeCtField]
termination_by structural f => f
theorem writeSzAlts_eq (cfg : Cfg) (ctx : SzCtx) (id : String) : (alts : List SzAlt) → ∀ i w,
    evenAlts alts = true → writesAlts alts = true → (∀ k c, .mk k c ∈ alts → slotOk ctx.cs false id k) →
    writeSzAlts cfg ctx id alts i w = writeCtAlts cfg ctx.base id (asAlts alts i w) i w
  | [], i, w, _, _, _ => by simp only [writeSzAlts, asAlts, writeCtAlts]
  | .mk k c :: alts, 0, w, he, hw, hs => by
      rw [evenAlts, Bool.and_eq_true] at he
      rw [writesAlts, Bool.and_eq_true] at hw
      simp only [writeSzAlts, asAlts, writeCtAlts,
        writeSzKind_eq cfg ctx false id c k w he.1 hw.1 (hs k c (List.mem_cons_self ..))]
  | .mk k c :: alts, i + 1, w, he, hw, hs => by
      rw [evenAlts, Bool.and_eq_true] at he
      rw [writesAlts, Bool.and_eq_true] at hw
      simp only [writeSzAlts, asAlts, writeCtAlts,
        writeSzAlts_eq cfg ctx id alts i w he.2 hw.2 fun k c h => hs k c (List.mem_cons_of_mem _ h)]
termination_by structural alts => alts
theorem writeSzFields_eq (cfg : Cfg) (ctx : SzCtx) : (fs : List SzField) → ∀ vs, even fs = true →
    writesBelow fs = true → (∀ f ∈ fs, fieldOk ctx.cs f) →
    writeSzFields cfg ctx fs vs = writeCtFields cfg ctx.base (asFields fs vs) vs
  | [], [], _, _, _ => by simp only [writeSzFields, asFields, writeCtFields]
  | [], _ :: _, _, _, _ => by simp only [writeSzFields, asFields, writeCtFields]
  | _ :: _, [], _, _, _ => by simp only [writeSzFields, asFields, writeCtFields]
  | f :: fs, v :: vs, he, hw, hs => by
      rw [even, Bool.and_eq_true] at he
      rw [writesBelow, Bool.and_eq_true] at hw
      simp only [writeSzFields, asFields, writeCtFields, List.headD_cons, List.tail_cons, as_id,
        writeSzField_eq cfg ctx f v he.1 hw.1 (hs f (List.mem_cons_self ..)),
        writeSzFields_eq cfg ctx fs vs he.2 hw.2 fun g hg => hs g (List.mem_cons_of_mem _ hg)]
termination_by structural fs => fs
end

end S2S
