import Verif.Lemmas.Wr
import Verif.Lemmas.ReadPrim
import Verif.Model.Write
/-
What the primitives of write_impl.hpp emit when every write is accepted.
-/
namespace S2S
open Spec

theorem WrE.emits_lift (o : Except Stuck α) (p : List Byte) (a : α) :
    (WrE.lift o : WrE ε α).Emits p a ↔ p = [] ∧ o = .ok a := by
  cases o <;> simp [WrE.lift, and_comm, eq_comm]

/-- The outcome with every write accepted is a function. -/
theorem WrE.emits_inj {w : WrE ε α} {p q : List Byte} {a b : α} (h : w.Emits p a)
    (h' : w.Emits q b) : p = q ∧ a = b := by
  rw [WrE.Emits] at h h'
  rw [h] at h'
  simp only [Prod.mk.injEq, Outcome.done.injEq, Except.ok.injEq] at h'
  exact ⟨h'.2, h'.1⟩

theorem emits_writeNativeImpl (mem : List Byte) (n : Nat) (p : List Byte) :
    (writeNativeImpl mem n).Emits p () ↔ n ≤ mem.length ∧ p = mem.take n := by
  unfold writeNativeImpl
  split
  · simp only [WrE.emits_stuck, false_iff]; omega
  · rename_i h
    have hn : n ≤ mem.length := by omega
    simp only [WrE.Emits, Wr.out, WrE.out_ok, List.append_nil, Prod.mk.injEq, true_and, hn, eq_comm]

theorem emits_writeNum (cfg : Cfg) (t : ScalarTy) (w : Nat) (x : Int) (p : List Byte) :
    (writeNum cfg t w x).Emits p () ↔ w ≤ t.size ∧ p = wireScalar cfg.wire t.size w x := by
  unfold writeNum
  rw [emits_writeNativeImpl, ScalarTy.toMem_length, toMem_swapped]
  constructor
  · rintro ⟨h, rfl⟩
    exact ⟨h, (wireScalar_eq _ _ _ _ h).symm⟩
  · rintro ⟨h, rfl⟩
    exact ⟨h, wireScalar_eq _ _ _ _ h⟩

theorem emits_all {g : Val → WrE ε Unit} {W : Val → List Byte} (vs : List Val)
    (h : ∀ v ∈ vs, (g v).Emits (W v) ()) : (WrE.all (vs.map g)).Emits (vs.flatMap W) () := by
  induction vs with
  | nil => rfl
  | cons v vs ih =>
    simp only [List.map_cons, WrE.all, WrE.emits_andThen, List.flatMap_cons]
    exact ⟨(), _, _, rfl, h v (by simp), ih fun u hu => h u (by simp [hu])⟩

theorem encodeN_some {f : Val → Option (List Byte)} {W : Val → List Byte} (vs : List Val)
    (h : ∀ v ∈ vs, f v = some (W v)) : encodeN f vs = some (vs.flatMap W) := by
  induction vs with
  | nil => rfl
  | cons v vs ih =>
    simp only [encodeN, h v (by simp), ih fun u hu => h u (by simp [hu]), List.flatMap_cons]

theorem toMem_native (cfg : Cfg) (hf : cfg.foreign = false) (t : ScalarTy) (x : Int) :
    t.toMem cfg.host x = wireScalar cfg.wire t.size t.size x := by
  have h := toMem_swapped cfg t x
  rw [hf] at h
  simp only [Bool.false_eq_true, if_false] at h
  rw [h, wireScalar_eq _ _ _ _ (Nat.le_refl _), List.take_of_length_le (by simp)]

theorem toMem_elem (cfg : Cfg) (hf : cfg.foreign = false) (e : ElemTy) (v : Val)
    (h : ElemFits e v) : e.toMem cfg.host v = some (wireElem cfg.wire e v) := by
  induction e generalizing v with
  | scalar t =>
    cases v <;> simp only [ElemFits] at h
    simp only [ElemTy.toMem, wireElem, toMem_native cfg hf]
  | arr e n ih =>
    cases v <;> simp only [ElemFits] at h
    simp only [ElemTy.toMem, wireElem, h.1, if_true]
    exact encodeN_some _ fun u hu => ih u (h.2 u hu)

theorem emits_foreignElem (cfg : Cfg) (hf : cfg.foreign = true) (e : ElemTy) (v : Val)
    (h : ElemFits e v) : (writeForeignElem cfg e v).Emits (wireElem cfg.wire e v) () := by
  induction e generalizing v with
  | scalar t =>
    cases v <;> simp only [ElemFits] at h
    rename_i x
    rw [writeForeignElem, emits_writeNativeImpl, wireElem]
    refine ⟨Nat.le_of_eq (ScalarTy.toMem_length _ _ _).symm, ?_⟩
    rw [wireScalar_eq _ _ _ _ (Nat.le_refl _)]
    have hs := toMem_swapped cfg t x
    rw [hf, if_pos rfl] at hs
    split
    · rw [hs]
    · rename_i hsz
      simp only [ScalarTy.toMem]
      rw [order_short _ _ (by simp; omega), order_short _ _ (by simp; omega)]
  | arr e n ih =>
    cases v <;> simp only [ElemFits] at h
    rw [writeForeignElem, if_pos h.1, wireElem]
    exact emits_all _ fun u hu => ih u (h.2 u hu)

theorem emits_writeFixedBuf (cfg : Cfg) (e : ElemTy) (n : Nat) (vs : List Val)
    (hn : vs.length = n) (h : ∀ v ∈ vs, ElemFits e v) :
    (writeFixedBuf cfg e n vs).Emits (vs.flatMap (wireElem cfg.wire e)) () := by
  unfold writeFixedBuf
  rw [if_neg (by simp [hn])]
  cases hf : cfg.foreign with
  | true => exact emits_all _ fun u hu => emits_foreignElem cfg hf e u (h u hu)
  | false =>
    simp only [Bool.false_eq_true, if_false]
    rw [encodeN_some _ fun u hu => toMem_elem cfg hf e u (h u hu)]
    have hl := flatMap_length (wireElem cfg.wire e) e.size vs
      fun v hv => wireElem_length _ _ _ (h v hv)
    rw [writeNative, emits_writeNativeImpl, hl, hn]
    exact ⟨Nat.le_refl _, by rw [List.take_of_length_le (by rw [hl, hn]; exact Nat.le_refl _)]⟩

theorem toMem_u8 (o : Endian) (v : Val) (h : ElemFits (.scalar u8) v) :
    (ElemTy.scalar u8).toMem .little v = some (wireElem o (.scalar u8) v) := by
  cases v <;> simp only [ElemFits] at h
  rename_i x
  simp only [ElemTy.toMem, wireElem, ScalarTy.toMem]
  rw [wireScalar_eq _ _ _ _ (Nat.le_refl _), order_short _ _ (by simp [ScalarTy.size]),
    order_short _ _ (by simp [ScalarTy.size]), List.take_of_length_le (by simp)]

theorem emits_writeFixedStr (o : Endian) (n : Nat) (vs : List Val)
    (hn : vs.length = n + 1) (h : ∀ v ∈ vs, ElemFits (.scalar u8) v) :
    (writeFixedStr n vs).Emits (vs.flatMap (wireElem o (.scalar u8))) () := by
  unfold writeFixedStr
  rw [if_neg (by simp [hn]), encodeN_some _ fun u hu => toMem_u8 o u (h u hu)]
  have hl := flatMap_length (wireElem o (.scalar u8)) 1 vs
    fun v hv => wireElem_length _ _ _ (h v hv)
  rw [writeNative, emits_writeNativeImpl, hl, hn]
  exact ⟨by omega, by rw [List.take_of_length_le (by rw [hl, hn]; omega)]⟩

theorem emits_writeVec (cfg : Cfg) (e : ElemTy) (vs : List Val)
    (hlen : vs.length * e.size < cfg.szMod) (h : ∀ v ∈ vs, ElemFits e v) :
    (writeVec cfg e vs).Emits (vs.flatMap (wireElem cfg.wire e)) () := by
  unfold writeVec
  cases hf : cfg.foreign with
  | true => exact emits_all _ fun u hu => emits_foreignElem cfg hf e u (h u hu)
  | false =>
    have hl := flatMap_length (wireElem cfg.wire e) e.size vs
      fun v hv => wireElem_length _ _ _ (h v hv)
    simp only [Bool.false_eq_true, if_false]
    split
    · refine emits_all _ fun u hu => ?_
      rw [toMem_elem cfg hf e u (h u hu), writeNative, emits_writeNativeImpl]
      have := wireElem_length cfg.wire e u (h u hu)
      exact ⟨by omega, by rw [List.take_of_length_le (by omega)]⟩
    · rw [encodeN_some _ fun u hu => toMem_elem cfg hf e u (h u hu), writeNative,
        emits_writeNativeImpl, hl, Nat.mod_eq_of_lt hlen]
      exact ⟨Nat.le_refl _, by rw [List.take_of_length_le (by omega)]⟩

/-- A fixed-size value that fits is emitted as the wire format says. -/
theorem emits_emitFixed (cfg : Cfg) (k : Kind) (v : Val) (hk : k.isFixed = true)
    (h : FitsKind cfg k v) : (emitFixed cfg k v).Emits (wireKind cfg.wire k v) () := by
  cases k <;> simp only [Kind.isFixed, Bool.false_eq_true] at hk
  · cases v <;> simp only [FitsKind] at h
    rw [emitFixed, emits_writeNum, wireKind]
    refine ⟨?_, rfl⟩
    rcases h.2 with h | h <;> omega
  · cases v <;> simp only [FitsKind] at h
    rw [emitFixed, wireKind]
    exact emits_writeFixedBuf cfg _ _ _ h.1 h.2
  · cases v <;> simp only [FitsKind] at h
    rw [emitFixed, wireKind]
    exact emits_writeFixedStr _ _ _ h.1 h.2

end S2S
