import Verif.Model.Hand
import Verif.Props.Reading
import Verif.Lemmas.WritePrim
/-
C135: fields of fixed size whose byte count is not the size of the type.
-/
namespace S2S.Props
open Spec Demo

/-- What is made of the memory of the object. -/
private def interp (cfg : Cfg) : FixedTy → List Byte → RdE Reason Val
  | .num t, mem =>
      (RdE.value (t.ofMem cfg.host mem)).andThen fun x =>
      RdE.ok (.int (if cfg.foreign then t.byteswap x else x))
  | .buf e n, mem =>
      (RdE.value (decodeN (e.ofMem cfg.host) e.size n mem)).andThen fun vs =>
      RdE.ok (.seq (swapIfForeign cfg e vs))
  | .str _, mem => RdE.ok (.seq (mem.map fun b => .int b.toNat))

private theorem readCount_eq (cfg : Cfg) (k : Nat) (t : FixedTy) :
    readCount cfg k t = (readNativeImpl t.size k).andThen (interp cfg t) := by
  cases t <;> rfl

private theorem readKind_eq (cfg : Cfg) (env : Env) (t : FixedTy) :
    readKind cfg env t.kind = readCount cfg t.size t := by
  cases t <;> simp only [FixedTy.kind, readKind] <;> rfl

private theorem interp_run (cfg : Cfg) (t : FixedTy) (mem inp : List Byte) :
    (interp cfg t mem).run inp = (((interp cfg t mem).run []).1, inp) := by
  cases t with
  | num t => simp only [interp]; cases t.ofMem cfg.host mem <;> rfl
  | buf e n =>
    simp only [interp]; cases decodeN (e.ofMem cfg.host) e.size n mem <;> rfl
  | str n => rfl

private theorem readCount_run (cfg : Cfg) (k : Nat) (t : FixedTy) (hk : k ≤ t.size)
    (bs rest : List Byte) (hb : bs.length = k) :
    (readCount cfg k t).run (bs ++ rest) =
      (((interp cfg t (bs ++ List.replicate (t.size - k) 0)).run []).1, rest) := by
  rw [readCount_eq, ← interp_run cfg t _ rest]
  unfold readNativeImpl
  rw [if_neg (by omega)]
  show Rd.run (Rd.read k _) (bs ++ rest) = _
  rw [Rd.run_read, if_pos (by simp; omega)]
  subst hb
  rw [List.take_left, List.drop_left]
  rfl

private theorem ok_gives (a v : Val) : ((RdE.ok a : RdE Reason Val).run []).1 = .done (.ok v) ↔
    RdE.Gives (RdE.ok a : RdE Reason Val) [] v := by
  rw [RdE.gives_ok]
  show (Outcome.done (Except.ok a) : Outcome (Except Reason Val)) = _ ↔ _
  simp [eq_comm]

private theorem stuck_gives (w : Stuck) (v : Val) :
    ((Rd.stuck w : RdE Reason Val).run []).1 = .done (.ok v) ↔
    RdE.Gives (Rd.stuck w : RdE Reason Val) [] v := by
  rw [RdE.gives_stuck]
  show (Outcome.stuck w : Outcome (Except Reason Val)) = _ ↔ _
  simp

private theorem interp_gives (cfg : Cfg) (t : FixedTy) (mem : List Byte) (v : Val) :
    ((interp cfg t mem).run []).1 = .done (.ok v) ↔ RdE.Gives (interp cfg t mem) [] v := by
  cases t with
  | num t =>
    simp only [interp]
    cases t.ofMem cfg.host mem with
    | none => exact stuck_gives _ v
    | some x => exact ok_gives _ v
  | buf e n =>
    simp only [interp]
    cases decodeN (e.ofMem cfg.host) e.size n mem with
    | none => exact stuck_gives _ v
    | some x => exact ok_gives _ v
  | str n => exact ok_gives _ v

private theorem gives_readCount (cfg : Cfg) (k : Nat) (t : FixedTy) (p : List Byte) (v : Val) :
    RdE.Gives (readCount cfg k t) p v ↔
      k ≤ t.size ∧ p.length = k ∧
        RdE.Gives (interp cfg t (p ++ List.replicate (t.size - k) 0)) [] v := by
  rw [readCount_eq, RdE.gives_andThen]
  simp only [gives_readNativeImpl]
  constructor
  · rintro ⟨mem, q, s, rfl, ⟨h1, h2, rfl⟩, h3⟩
    have : s = [] := by
      cases t with
      | num t =>
        simp only [interp, RdE.gives_andThen, gives_value, RdE.gives_ok] at h3
        obtain ⟨_, _, _, rfl, ⟨rfl, _⟩, rfl, _⟩ := h3
        rfl
      | buf e n =>
        simp only [interp, RdE.gives_andThen, gives_value, RdE.gives_ok] at h3
        obtain ⟨_, _, _, rfl, ⟨rfl, _⟩, rfl, _⟩ := h3
        rfl
      | str n => exact (RdE.gives_ok _ _ _ |>.1 h3).1
    subst this
    rw [List.append_nil]
    exact ⟨h1, h2, h3⟩
  · rintro ⟨h1, h2, h3⟩
    exact ⟨_, p, [], by simp, ⟨h1, h2, rfl⟩, h3⟩

private theorem gives_full (cfg : Cfg) (t : FixedTy) (p : List Byte) (v : Val) :
    RdE.Gives (readCount cfg t.size t) p v ↔
      FitsKind cfg t.kind v ∧ p = wireKind cfg.wire t.kind v := by
  cases t with
  | num t =>
    show RdE.Gives (readNum cfg t t.size) p v ↔ _
    rw [gives_readNum]
    cases v <;> simp [FixedTy.kind, FitsKind, wireKind]
  | buf e n =>
    show RdE.Gives (readFixedBuf cfg e n) p v ↔ _
    rw [gives_readFixedBuf]
    cases v <;> simp [FixedTy.kind, FitsKind, wireKind]
  | str n =>
    show RdE.Gives (readFixedStr n) p v ↔ _
    rw [gives_readFixedStr cfg.wire]
    cases v <;> simp [FixedTy.kind, FitsKind, wireKind]

private theorem interp_iff (cfg : Cfg) (t : FixedTy) (mem : List Byte) (h : mem.length = t.size)
    (v : Val) : RdE.Gives (interp cfg t mem) [] v ↔
      FitsKind cfg t.kind v ∧ mem = wireKind cfg.wire t.kind v := by
  rw [← gives_full, gives_readCount]
  simp [h]

private theorem wire_size (cfg : Cfg) (t : FixedTy) (v : Val) (h : FitsKind cfg t.kind v) :
    (wireKind cfg.wire t.kind v).length = t.size :=
  ((gives_readCount cfg _ t _ v).1 ((gives_full cfg t _ v).2 ⟨h, rfl⟩)).2.1

/-- Reading with a byte count, characterised: of a value of the type, the first bytes of its
encoding, where those that are left out are zeros. -/
theorem gives_count (cfg : Cfg) (k : Nat) (t : FixedTy) (p : List Byte) (v : Val) :
    RdE.Gives (readCount cfg k t) p v ↔
      k ≤ t.size ∧ FitsKind cfg t.kind v ∧ p = (wireKind cfg.wire t.kind v).take k ∧
        ∀ b ∈ (wireKind cfg.wire t.kind v).drop k, b = 0 := by
  rw [gives_readCount]
  refine and_congr_right fun hk => ?_
  constructor
  · rintro ⟨h1, h2⟩
    obtain ⟨h3, h4⟩ := (interp_iff cfg t _ (by simp; omega) v).1 h2
    refine ⟨h3, by rw [← h4, ← h1, List.take_left], ?_⟩
    rw [← h4, ← h1, List.drop_left]
    exact fun b hb => (List.mem_replicate.1 hb).2
  · rintro ⟨h1, rfl, h2⟩
    have hl := wire_size cfg t v h1
    refine ⟨by simp; omega, (interp_iff cfg t _ (by simp; omega) v).2 ⟨h1, ?_⟩⟩
    have e : List.replicate (t.size - k) 0 = (wireKind cfg.wire t.kind v).drop k := by
      rw [eq_comm, List.eq_replicate_iff]
      exact ⟨by simp; omega, h2⟩
    rw [e, List.take_append_drop]

/-! ## C135 -/

/-- C135. With the size of the type as byte count the field is the one of the descriptors. -/
theorem C135_usual (cfg : Cfg) (env : Env) (t : FixedTy) (v : Val) :
    readCount cfg t.size t = readKind cfg env t.kind ∧
    writeCount cfg t.size t v = emitFixed cfg t.kind v := by
  refine ⟨(readKind_eq cfg env t).symm, ?_⟩
  cases t <;> cases v <;> rfl

/-- C135. With a smaller byte count the field takes that many bytes and is read as if zeros
followed them. -/
theorem C135_read (cfg : Cfg) (env : Env) (k : Nat) (t : FixedTy) (hk : k ≤ t.size)
    (bs rest : List Byte) (hb : bs.length = k) :
    (readCount cfg k t).run (bs ++ rest) =
      (((readKind cfg env t.kind).run (bs ++ List.replicate (t.size - k) 0)).1, rest) := by
  rw [readCount_run cfg k t hk bs rest hb, readKind_eq]
  have := readCount_run cfg t.size t (Nat.le_refl _) (bs ++ List.replicate (t.size - k) 0) []
    (by simp; omega)
  rw [List.append_nil] at this
  rw [this]
  simp

/-- C135. Where fewer bytes are left, the read fails with `buffer_exhaustion`. -/
theorem C135_short (cfg : Cfg) (k : Nat) (t : FixedTy) (hk : k ≤ t.size) (inp : List Byte)
    (h : inp.length < k) : (readCount cfg k t).run inp = (.done (.error .bufferExhaustion), inp) := by
  rw [readCount_eq]
  unfold readNativeImpl
  rw [if_neg (by omega)]
  show Rd.run (Rd.read k _) inp = _
  rw [Rd.run_read, if_neg (by omega)]
  rfl

/-- C135. With a byte count above the size of the type the read leaves the object. -/
theorem C135_beyond (cfg : Cfg) (k : Nat) (t : FixedTy) (hk : t.size < k) (inp : List Byte) :
    (readCount cfg k t).run inp = (.stuck .outOfBounds, inp) := by
  rw [readCount_eq]
  unfold readNativeImpl
  rw [if_pos hk]
  rfl

/-- C135. What a write of a value of the type sends: the first bytes of its encoding, as many as
the byte count says; of an array in foreign byte order all of them; and with a byte count above
the size it leaves the object, except there. -/
theorem C135_write (cfg : Cfg) (k : Nat) (t : FixedTy) (v : Val) (h : FitsKind cfg t.kind v) :
    (writeCount cfg k t v).run =
      if (cfg.foreign && FixedTy.isBuf t) = true then
        (.done (.ok ()), wireKind cfg.wire t.kind v)
      else if k ≤ t.size then (.done (.ok ()), (wireKind cfg.wire t.kind v).take k)
      else (.stuck .outOfBounds, []) := by
  have native : ∀ mem : List Byte, mem.length = t.size → (writeNativeImpl mem k).run =
      if k ≤ t.size then (.done (.ok ()), mem.take k) else (.stuck .outOfBounds, []) := by
    intro mem hm
    unfold writeNativeImpl
    rw [hm]
    split
    · rw [if_neg (by omega)]; rfl
    · rw [if_pos (by omega)]; rfl
  have hlen := wire_size cfg t v h
  cases t with
  | num t =>
    cases v <;> simp only [FixedTy.kind, FitsKind] at h
    rename_i x
    simp only [FixedTy.isBuf, Bool.and_false, Bool.false_eq_true, if_false]
    show (writeNum cfg t k x).run = _
    unfold writeNum
    rw [toMem_swapped]
    simp only [FixedTy.kind, wireKind] at hlen ⊢
    have hw : wireScalar cfg.wire t.size t.size x = cfg.wire.order (leBytes t.size (residue t.size x)) := by
      rw [wireScalar_eq _ _ _ _ (Nat.le_refl _), List.take_of_length_le (by simp)]
    rw [hw] at hlen ⊢
    exact native _ hlen
  | buf e n =>
    cases v <;> simp only [FixedTy.kind, FitsKind] at h
    rename_i vs
    simp only [FixedTy.isBuf, Bool.and_true]
    simp only [writeCount, h.1, ne_eq, not_true_eq_false, if_false]
    cases hf : cfg.foreign with
    | true =>
      simp only [if_true, Wr.run_eq]
      exact emits_all _ fun u hu => emits_foreignElem cfg hf e u (h.2 u hu)
    | false =>
      simp only [Bool.false_eq_true, if_false]
      rw [encodeN_some _ fun u hu => toMem_elem cfg hf e u (h.2 u hu)]
      exact native _ hlen
  | str n =>
    cases v <;> simp only [FixedTy.kind, FitsKind] at h
    rename_i vs
    simp only [FixedTy.isBuf, Bool.and_false, Bool.false_eq_true, if_false]
    simp only [writeCount, h.1, ne_eq, not_true_eq_false, if_false]
    rw [encodeN_some _ fun u hu => toMem_u8 cfg.wire u (h.2 u hu)]
    exact native _ hlen

/-- C135. The first bytes of an encoding are read back as the value exactly if those that are
left out are zeros. -/
theorem C135_round (cfg : Cfg) (k : Nat) (t : FixedTy) (hk : k ≤ t.size) (v : Val)
    (h : FitsKind cfg t.kind v) (rest : List Byte) :
    (readCount cfg k t).run ((wireKind cfg.wire t.kind v).take k ++ rest) = (.done (.ok v), rest) ↔
      (wireKind cfg.wire t.kind v).drop k = List.replicate (t.size - k) 0 := by
  have hlen := wire_size cfg t v h
  rw [readCount_run cfg k t hk _ rest (by simp; omega), Prod.mk.injEq, interp_gives,
    interp_iff cfg t _ (by simp; omega)]
  simp only [h, true_and, and_true]
  conv => lhs; rhs; rw [← List.take_append_drop k (wireKind cfg.wire t.kind v)]
  rw [List.append_cancel_left_eq]
  exact eq_comm

/-- The string of these characters. -/
def ofBytes (l : List Byte) : Val := .seq (l.map fun b => .int b.toNat)

/-- C135. A string on the wire without its terminator: `field<id, fixed_string<n>, byte_count{n}>`
reads any `n` bytes as the string of these characters and writes the characters of a string;
what is written is read back exactly if the last character of the object is the terminator. -/
theorem C135_unterminated (cfg : Cfg) (n : Nat) (bs rest : List Byte) (hb : bs.length = n) (z : Byte) :
    (readCount cfg n (.str n)).run (bs ++ rest) = (.done (.ok (ofBytes (bs ++ [0]))), rest) ∧
    (writeCount cfg n (.str n) (ofBytes (bs ++ [z]))).run = (.done (.ok ()), bs) ∧
    ((readCount cfg n (.str n)).run (bs ++ rest) = (.done (.ok (ofBytes (bs ++ [z]))), rest) ↔ z = 0) := by
  have hr : (readCount cfg n (.str n)).run (bs ++ rest) =
      (.done (.ok (ofBytes (bs ++ [0]))), rest) := by
    rw [readCount_run cfg n (.str n) (by simp [FixedTy.size]) bs rest hb]
    rw [show (FixedTy.str n).size - n = 1 from Nat.add_sub_cancel_left n 1]
    rfl
  refine ⟨hr, ?_, ?_⟩
  · have hf : FitsKind cfg (FixedTy.kind (.str n))
        (ofBytes (bs ++ [z])) := by
      simp only [FixedTy.kind, ofBytes, FitsKind]
      refine ⟨by simp [hb], fun v hv => ?_⟩
      obtain ⟨b, _, rfl⟩ := List.mem_map.1 hv
      have := b.toNat_lt
      simp only [ElemFits, ScalarTy.InRange]
      simp
      omega
    rw [C135_write cfg n (.str n) _ hf]
    simp only [FixedTy.isBuf, Bool.and_false, Bool.false_eq_true, if_false]
    rw [if_pos (by simp [FixedTy.size])]
    have hw : wireKind cfg.wire (FixedTy.kind (.str n))
        (ofBytes (bs ++ [z])) = bs ++ [z] := by
      simp only [FixedTy.kind, ofBytes, wireKind, List.flatMap_map]
      simp [wireElem_u8, List.flatMap_singleton']
    rw [hw, ← hb, List.take_left]
  · rw [hr]
    simp only [ofBytes, Prod.mk.injEq, Outcome.done.injEq, Except.ok.injEq, Val.seq.injEq, and_true,
      List.map_append, List.append_cancel_left_eq, List.map_cons, List.map_nil, List.cons.injEq,
      Val.int.injEq]
    constructor
    · intro h
      exact (UInt8.toNat_inj.1 (by omega)).symm
    · rintro rfl
      rfl

/-- C135 fails for arrays in foreign byte order: `field<"a", std::array<u8, 2>, 1_B, ...>` written
in little endian is one byte on a little-endian host and two on a big-endian one; both hosts read
one. So does a big-endian cast the other way round, and the byte too many is what the next field
is read from. -/
theorem C135_fails_foreign :
    let t : FixedTy := .buf (.scalar u8) 2
    let v : Val := .seq [.int 7, .int 0]
    (writeCount le64 1 t v).run = (.done (.ok ()), [7]) ∧
    (writeCount { le64 with host := .big } 1 t v).run = (.done (.ok ()), [7, 0]) ∧
    (readCount le64 1 t).run [7, 0] = (.done (.ok v), [0]) ∧
    (readCount { le64 with host := .big } 1 t).run [7, 0] = (.done (.ok v), [0]) :=
  ⟨rfl, rfl, rfl, rfl⟩

example : (readCount be64 3 (.buf (.scalar (.int 2 false)) 2)).run [1, 2, 3, 9] =
    (.done (.ok (.seq [.int 0x0102, .int 0x0300])), [9]) :=
  (C135_read be64 (fun _ => none) 3 (.buf (.scalar (.int 2 false)) 2) (by decide) [1, 2, 3] [9] rfl).trans
    rfl

example : (writeCount le64 3 (.buf (.scalar (.int 2 false)) 2) (.seq [.int 0x0102, .int 0x0304])).run =
    (.done (.ok ()), [2, 1, 4]) :=
  (C135_write le64 3 (.buf (.scalar (.int 2 false)) 2) _
    (by simp [FixedTy.kind, FitsKind, ElemFits, ScalarTy.InRange])).trans rfl

example : (readCount le64 3 (.buf (.scalar (.int 2 false)) 2)).run ([2, 1, 4] ++ [5]) ≠
    (.done (.ok (.seq [.int 0x0102, .int 0x0304])), [5]) :=
  fun h => absurd ((C135_round le64 3 (.buf (.scalar (.int 2 false)) 2) (by decide)
    (.seq [.int 0x0102, .int 0x0304]) (by simp [FixedTy.kind, FitsKind, ElemFits, ScalarTy.InRange]) [5]).1 h) (by decide +kernel)

example : (readCount le64 5 (.num (.int 4 false))).run [1, 2, 3, 4, 5] = (.stuck .outOfBounds, [1, 2, 3, 4, 5]) :=
  C135_beyond le64 5 _ (by decide) _

example : (readCount be64 3 (.str 3)).run ([83, 50] : List Byte) = (.done (.error .bufferExhaustion), [83, 50]) :=
  C135_short be64 3 (.str 3) (by decide) _ (by decide)

/-- `field<"magic", fixed_string<3>, 3_B, eq{"S2S"}>`: three bytes, no terminator. -/
example : (writeCount be64 3 (.str 3) (ofBytes [83, 50, 83, 0])).run = (.done (.ok ()), [83, 50, 83]) ∧
    (readCount be64 3 (.str 3)).run [83, 50, 83, 1] = (.done (.ok (ofBytes [83, 50, 83, 0])), [1]) :=
  ⟨(C135_unterminated be64 3 [83, 50, 83] [1] rfl 0).2.1, (C135_unterminated be64 3 [83, 50, 83] [1] rfl 0).1⟩

example : readCount be64 4 (.str 3) = readKind be64 (fun _ => none) (.fstr 3) :=
  (C135_usual be64 _ (.str 3) (.seq [])).1

end S2S.Props
