import Verif.Spec.Vacant
import Verif.Props.Sent
/-
C145: arrays and vectors whose elements have no elements.
-/
namespace S2S.Props
open Spec Demo

theorem u8_ofMem (host : Endian) (mem : List Byte) :
    (ElemTy.scalar u8).ofMem host (mem.take 1) = some (.int (mem.getD 0 (0 : Byte)).toNat) := by
  cases mem with
  | nil => cases host <;> rfl
  | cons b mem =>
    have : mem.take 0 = [] := rfl
    simp only [List.take_succ_cons, this, ElemTy.ofMem, ScalarTy.ofMem, List.getD_cons_zero]
    have hb := b.toNat_lt
    cases host <;> simp [Endian.order, leNat, ScalarTy.conv, residue_ofNat] <;> omega

theorem decode_bytes (host : Endian) : ∀ (size : Nat) (mem : List Byte),
    decodeN ((ElemTy.scalar u8).ofMem host) 1 size mem =
      some ((List.range size).map fun i => .int (mem.getD i (0 : Byte)).toNat)
  | 0, mem => rfl
  | size + 1, mem => by
      simp only [decodeN, u8_ofMem, decode_bytes host size, List.range_succ_eq_map, List.map_cons, List.map_map]
      simp [Function.comp_def]

theorem decode_storage (host : Endian) (size : Nat) : ∀ (n : Nat) (mem : List Byte),
    decodeN ((ElemTy.arr (.scalar u8) size).ofMem host) (ElemTy.arr (.scalar u8) size).size n mem =
      some (storage size n mem)
  | 0, mem => rfl
  | n + 1, mem => by
      have hs : (ElemTy.arr (.scalar u8) size).size = size := by simp [ElemTy.size, ScalarTy.size]
      have ih := decode_storage host size n (mem.drop size)
      rw [hs] at ih ⊢
      have h1 : (ElemTy.arr (.scalar u8) size).ofMem host (mem.take size) =
          some (.seq ((List.range size).map fun i => .int (mem.getD i (0 : Byte)).toNat)) := by
        have : (ElemTy.scalar u8).size = 1 := rfl
        rw [ElemTy.ofMem, this, decode_bytes]
        simp only [Option.map_some, Option.some.injEq, Val.seq.injEq]
        refine List.map_congr_left fun i hi => ?_
        have := List.mem_range.1 hi
        simp [List.getD_eq_getElem?_getD, List.getElem?_take, this]
      simp only [decodeN, h1, ih, storage]

theorem swap_storage (size : Nat) : ∀ (n : Nat) (mem : List Byte),
    (storage size n mem).map (ElemTy.arr (.scalar u8) size).swap = storage size n mem
  | 0, _ => rfl
  | n + 1, mem => by
      simp only [storage, List.map_cons, swap_storage size n]
      congr 1
      simp only [ElemTy.swap, List.map_map, Val.seq.injEq]
      exact List.map_congr_left fun i _ => by simp [ElemTy.swap, ScalarTy.size]

theorem swapIf_storage (cfg : Cfg) (size n : Nat) (mem : List Byte) :
    swapIfForeign cfg (.arr (.scalar u8) size) (storage size n mem) = storage size n mem := by
  unfold swapIfForeign
  split
  · exact swap_storage size n mem
  · rfl

theorem readVacant_eq (cfg : Cfg) (hc : cfg.constexprStream = false) (env : Env) (h : VField) :
    readVacant cfg env h = readField cfg env h.asBytes := by
  have hs : ∀ size, (ElemTy.arr (.scalar u8) size).size = size := fun size => by
    simp [ElemTy.size, ScalarTy.size]
  cases h with
  | std f => rfl
  | array id n size =>
    have hd := fun n mem => decode_storage cfg.host size n mem
    simp only [hs] at hd
    simp only [readVacant, VField.asBytes, readField, readKind, readFixedBuf, hc, hd,
      RdE.value, RdE.ok_andThen, swapIf_storage, hs, Bool.false_eq_true, if_false]
  | vector id size len bound =>
    have hd := fun n mem => decode_storage cfg.host size n mem
    simp only [hs] at hd
    simp only [readVacant, VField.asBytes, readField, readKind, readVec, hc, hd,
      RdE.value, RdE.ok_andThen, swapIf_storage, hs, Bool.false_eq_true, if_false]
    rfl

theorem readVacants_eq (cfg : Cfg) (hc : cfg.constexprStream = false) : ∀ (hs : List VField) (env : Env),
    readVacants cfg env hs = readFields cfg env (hs.map VField.asBytes)
  | [], _ => rfl
  | h :: hs, env => by
      simp only [readVacants, List.map_cons, readFields, readVacant_eq cfg hc]
      congr 1
      funext v
      rw [readVacants_eq cfg hc hs]

/-- C145. Reading counts an element without elements as `sizeof` bytes, in both orders: the cast
of a list with such fields is that of the list with as many bytes in their places. -/
theorem C145_read (cfg : Cfg) (hc : cfg.constexprStream = false) (hs : List VField) :
    structCastVacant cfg hs = structCast cfg (hs.map VField.asBytes) :=
  readVacants_eq cfg hc hs _

/-! ### Writing -/

theorem u8_toMem (host : Endian) : ∀ vs : List Val,
    encodeN ((ElemTy.scalar u8).toMem host) vs = encodeN ((ElemTy.scalar u8).toMem .little) vs
  | [] => rfl
  | v :: vs => by
      have h : (ElemTy.scalar u8).toMem host v = (ElemTy.scalar u8).toMem .little v := by
        cases v <;> simp only [ElemTy.toMem]
        cases host <;> simp [ScalarTy.toMem, Endian.order, ScalarTy.size, leBytes]
      simp only [encodeN, h, u8_toMem host vs]

theorem storageBytes_eq (host : Endian) (size : Nat) : ∀ vs : List Val,
    encodeN ((ElemTy.arr (.scalar u8) size).toMem host) vs = storageBytes size vs
  | [] => rfl
  | v :: vs => by
      cases v <;> simp only [encodeN, ElemTy.toMem, storageBytes]
      rename_i ws
      rw [storageBytes_eq host size vs, u8_toMem]
      by_cases hl : ws.length = size
      · simp only [hl, if_true]
        rfl
      · simp only [hl, if_false]

theorem writeVacant_host (cfg : Cfg) (hc : cfg.constexprStream = false) (hf : cfg.foreign = false)
    (ctx : WCtx) (h : VField) (u : Val) (ht : TypedField cfg h.asBytes u) :
    writeVacant cfg ctx h u = writeField cfg ctx h.asBytes u := by
  have hs : ∀ size, (ElemTy.arr (.scalar u8) size).size = size := fun size => by
    simp [ElemTy.size, ScalarTy.size]
  cases h with
  | std f => rfl
  | array id n size =>
    cases u <;> simp only [VField.asBytes, TypedField, TypedKind] at ht
    rename_i vs
    simp only [writeVacant, VField.asBytes, writeField, writeKind, writeFixed, verifyThenWrite, frozenVal, if_true,
      emitFixed, writeFixedBuf, hf, storageBytes_eq, hs, writeStorage, hc, Bool.false_eq_true, if_false, ht.1]
    cases isDerived ctx.fs id <;> cases hasConditional ctx.fs id <;> simp
  | vector id size len bound =>
    cases u <;> simp only [VField.asBytes, TypedField, TypedKind] at ht
    simp only [writeVacant, VField.asBytes, writeField, writeKind, writeVec, hf, storageBytes_eq, hs,
      writeStorage, hc, Bool.false_eq_true, if_false]

theorem writeVacants_host (cfg : Cfg) (hc : cfg.constexprStream = false) (hf : cfg.foreign = false)
    (ctx : WCtx) : ∀ (hs : List VField) (us : List Val), TypedFields cfg (hs.map VField.asBytes) us →
    writeVacants cfg ctx hs us = writeFields cfg ctx (hs.map VField.asBytes) us
  | [], [], _ => rfl
  | [], _ :: _, ht => by simp [TypedFields] at ht
  | _ :: _, [], ht => by simp [TypedFields] at ht
  | h :: hs, u :: us, ht => by
      simp only [List.map_cons, TypedFields] at ht
      simp only [writeVacants, List.map_cons, writeFields, writeVacant_host cfg hc hf ctx h u ht.1,
        writeVacants_host cfg hc hf ctx hs us ht.2]

/-- C145. In host order writing counts them the same. -/
theorem C145_write_host (cfg : Cfg) (hc : cfg.constexprStream = false) (hf : cfg.host = cfg.wire)
    (hs : List VField) (us : List Val) (ht : Typed cfg (hs.map VField.asBytes) us) :
    streamCastVacant cfg hs us = streamCast cfg (hs.map VField.asBytes) us :=
  writeVacants_host cfg hc (by simp [Cfg.foreign, hf]) _ hs us ht

theorem all_nothing {ε : Type} : ∀ vs : List Val,
    WrE.all (vs.map fun _ => (WrE.all [] : WrE ε Unit)) = WrE.ok ()
  | [] => rfl
  | _ :: vs => by
      have ih : WrE.all (vs.map fun _ => (WrE.all [] : WrE ε Unit)) = WrE.ok () := all_nothing vs
      show (WrE.all []).andThen (fun _ => WrE.all (vs.map fun _ => (WrE.all [] : WrE ε Unit))) = _
      rw [ih]
      rfl

/-- One field with its check. -/
abbrev vacantStep (cfg : Cfg) (ctx : WCtx) (h : VField) (u : Val) : WrE CastError Unit :=
  (if isDerived ctx.fs h.asBytes.id || h.asBytes.isFrozen then writeVacant cfg ctx h u
    else WrE.checked h.asBytes.constraint u (writeVacant cfg ctx h u)).tag h.asBytes.id

/-- What a field of the list adds in foreign order. -/
def VField.adds (o : Endian) : VField → Val → List Byte
  | .std f, u => wireField o f u
  | _, _ => []

theorem emits_vacantStep {cfg : Cfg} (hf : cfg.foreign = true) {ctx : WCtx} {h : VField} {u : Val}
    (he : (writeStep cfg ctx h.asBytes u).Emits (wireField cfg.wire h.asBytes u) ()) :
    (vacantStep cfg ctx h u).Emits (VField.adds cfg.wire h u) () := by
  cases h with
  | std f => exact he
  | array id n size =>
    rw [emits_writeStep] at he
    obtain ⟨he, -⟩ := he
    simp only [VField.asBytes, writeField, writeKind] at he
    rw [emits_writeFixed] at he
    rcases he with ⟨-, _, _, _, hk, -⟩ | ⟨hd, he⟩
    · cases hk
    · rw [emits_verifyThenWrite] at he
      simp only [frozenVal] at he
      obtain ⟨he, hcond⟩ := he
      cases u <;> simp only [emitFixed, if_true, Option.getD_none, WrE.emits_stuck] at he
      rename_i vs
      have hcond : hasConditional ctx.fs id = false := by
        cases hh : hasConditional ctx.fs id with
        | false => rfl
        | true => obtain ⟨x, hx, -⟩ := hcond hh; simp at hx
      have hn : vs.length = n := by
        unfold writeFixedBuf at he
        split at he
        · simp [WrE.emits_stuck] at he
        · omega
      rw [← isDerived_eq] at hd
      simp only [vacantStep, VField.asBytes, Field.id, hd, Field.isFrozen, frozenVal, Option.isSome_none,
        Bool.or_self, Bool.false_eq_true, if_false, Field.constraint, writeVacant, hcond, hn,
        writeStorage, hf, if_true, all_nothing, VField.adds]
      simp [WrE.checked, Constraint.check]
      rfl
  | vector id size len bound =>
    rw [emits_writeStep] at he
    obtain ⟨he, -⟩ := he
    simp only [VField.asBytes, writeField] at he
    cases u <;> simp only [writeKind, WrE.emits_stuck] at he
    rename_i vs
    have hv : (verifyComputed cfg ctx.env len vs.length (WrE.ok ())).Emits [] () := by
      cases len with
      | fromField i => rfl
      | computed cl =>
        simp only [verifyComputed] at he ⊢
        cases hl : (LenSpec.computed cl).eval cfg ctx.env with
        | error w => rw [hl] at he; cases he
        | ok m =>
          rw [hl] at he
          replace he : (if m ≠ vs.length then WrE.err .foundContradictingLength else
            writeVec cfg (.arr (.scalar u8) size) vs : WrE Reason Unit).Emits _ () := he
          show (if m ≠ vs.length then WrE.err .foundContradictingLength else
            WrE.ok () : WrE Reason Unit).Emits [] ()
          split at he
          · cases he
          · rename_i hm
            rw [if_neg hm]
            rfl
    unfold vacantStep WrE.tag
    rw [WrE.emits_mapErr]
    simp only [writeVacant, writeStorage, hf, if_true, all_nothing]
    split
    · exact hv
    · rw [emits_checked]
      exact ⟨by simp [Holds, VField.asBytes, Field.constraint, Constraint.check], hv⟩

theorem emits_writeVacants {cfg : Cfg} (hfor : cfg.foreign = true) : ∀ (hs : List VField),
    saneFields (hs.map VField.asBytes) = true →
    ∀ seen, uniqueFields seen (hs.map VField.asBytes) = true →
    EveryFields (RewritableList cfg) (hs.map VField.asBytes) →
    ∀ ctx us, ValidList cfg ctx.fs ctx.vs →
    (∀ f v, (f, v) ∈ (hs.map VField.asBytes).zip us → (f, v) ∈ ctx.fs.zip ctx.vs) →
    FitsFields cfg (hs.map VField.asBytes) us → OkFields (hs.map VField.asBytes) us →
    ShapedFields cfg ctx.env (hs.map VField.asBytes) us →
    (writeVacants cfg ctx hs us).Emits (usualBytes cfg.wire hs us) ()
  | [], _, _, _, _, _, [], _, _, _, _, _ => rfl
  | [], _, _, _, _, _, _ :: _, _, _, hf, _, _ => by simp [FitsFields] at hf
  | _ :: _, _, _, _, _, _, [], _, _, hf, _, _ => by simp [FitsFields] at hf
  | h :: hs, hsane, seen, hu, he, ctx, u :: us, hin, hm, hf, ho, hsh => by
      have hall := complete_fields cfg _ hsane seen hu he ctx _ hin hm hf ho hsh
      simp only [List.map_cons, saneFields, Bool.and_eq_true] at hsane
      simp only [List.map_cons, uniqueFields, Bool.and_eq_true] at hu
      rw [List.map_cons, EveryFields] at he
      rw [List.map_cons, FitsFields] at hf
      rw [List.map_cons, OkFields] at ho
      rw [List.map_cons, ShapedFields] at hsh
      have hm' : ∀ f v, (f, v) ∈ (hs.map VField.asBytes).zip us → (f, v) ∈ ctx.fs.zip ctx.vs :=
        fun f v hfv => hm f v (by simp [hfv])
      have htail := complete_fields cfg _ hsane.2 _ hu.2 he.2 ctx us hin hm' hf.2 ho.2 hsh.2
      have ih := emits_writeVacants hfor hs hsane.2 _ hu.2 he.2 ctx us hin hm' hf.2 ho.2 hsh.2
      rw [List.map_cons, emits_writeFields_cons] at hall
      obtain ⟨q, r, hqr, h1, h2⟩ := hall
      have hr : r = wireFields cfg.wire (hs.map VField.asBytes) us := by
        have := htail.symm.trans h2
        simpa using (Prod.mk.inj this).2.symm
      rw [wireFields, hr] at hqr
      have hq : q = wireField cfg.wire h.asBytes u := (List.append_cancel_right hqr).symm
      rw [hq] at h1
      have hstep := emits_vacantStep hfor h1
      show ((vacantStep cfg ctx h u).andThen fun _ => writeVacants cfg ctx hs us).Emits _ ()
      rw [WrE.emits_andThen]
      refine ⟨(), _, _, ?_, hstep, ih⟩
      cases h <;> simp [usualBytes, VField.adds]

/-- C145. In foreign order writing leaves them out: of a struct that reading could have given
goes over the wire what its fields of the usual kinds have, and nothing for the others. -/
theorem C145_write_foreign_partial (cfg : Cfg) (hf : cfg.host ≠ cfg.wire) (hs : List VField)
    (hrw : Rewritable cfg (hs.map VField.asBytes)) (us : List Val)
    (hv : Valid cfg (hs.map VField.asBytes) us) :
    (streamCastVacant cfg hs us).run = (.done (.ok ()), usualBytes cfg.wire hs us) := by
  rw [Wr.run_eq]
  obtain ⟨⟨hs1, hu, _⟩, h1, h2⟩ := hrw
  obtain ⟨hfit, ho, hsh⟩ := hv
  exact emits_writeVacants (by simp [Cfg.foreign, hf]) hs hs1 [] hu h2 ⟨_, us⟩ us
    ⟨h1, hs1, hu, hfit, ho, hsh⟩ (fun _ _ hm => hm) hfit ho hsh

theorem storage_weight (o : Endian) (size : Nat) : ∀ (vs : List Val),
    (∀ v ∈ vs, ElemFits (.arr (.scalar u8) size) v) →
    (vs.flatMap (wireElem o (.arr (.scalar u8) size))).length = vs.length * size
  | [], _ => by simp
  | v :: vs, h => by
      have h1 := wireElem_length o _ v (h v (by simp))
      have h2 := storage_weight o size vs fun w hw => h w (by simp [hw])
      simp only [ElemTy.size, ScalarTy.size] at h1
      rw [List.flatMap_cons, List.length_append, h1, h2, List.length_cons, Nat.add_mul]
      omega

theorem wire_weight (cfg : Cfg) (o : Endian) : ∀ (hs : List VField) (us : List Val),
    FitsFields cfg (hs.map VField.asBytes) us →
    (wireFields o (hs.map VField.asBytes) us).length = (usualBytes o hs us).length + weights hs us
  | [], [], _ => rfl
  | [], _ :: _, hf => by simp [FitsFields] at hf
  | _ :: _, [], hf => by simp [FitsFields] at hf
  | h :: hs, u :: us, hf => by
      rw [List.map_cons, FitsFields] at hf
      have ih := wire_weight cfg o hs us hf.2
      cases h with
      | std f => simp [wireFields, usualBytes, weights, VField.weight, VField.asBytes, ih]; omega
      | array id n size =>
        cases u <;> simp only [VField.asBytes, FitsField, FitsKind, false_and] at hf
        have := storage_weight o size _ hf.1.2
        simp [wireFields, wireField, wireKind, usualBytes, weights, VField.weight, VField.asBytes, ih, this, hf.1.1]
        omega
      | vector id size len bound =>
        cases u <;> simp only [VField.asBytes, FitsField, FitsKind, false_and] at hf
        have := storage_weight o size _ hf.1.2
        simp [wireFields, wireField, wireKind, usualBytes, weights, VField.weight, VField.asBytes, ih, this]
        omega

theorem visible_same (cfg : Cfg) (o : Endian) : ∀ (hs : List VField) (us us' : List Val),
    FitsFields cfg (hs.map VField.asBytes) us → FitsFields cfg (hs.map VField.asBytes) us' →
    visible hs us = visible hs us' →
    usualBytes o hs us = usualBytes o hs us' ∧ weights hs us = weights hs us'
  | [], [], [], _, _, _ => ⟨rfl, rfl⟩
  | [], _ :: _, _, hf, _, _ => by simp [FitsFields] at hf
  | [], [], _ :: _, _, hf, _ => by simp [FitsFields] at hf
  | _ :: _, [], _, hf, _, _ => by simp [FitsFields] at hf
  | _ :: _, _ :: _, [], _, hf, _ => by simp [FitsFields] at hf
  | h :: hs, u :: us, u' :: us', hf, hf', he => by
      rw [List.map_cons, FitsFields] at hf hf'
      have ih := visible_same cfg o hs us us' hf.2 hf'.2
      cases h with
      | std f =>
        simp only [visible, List.cons.injEq] at he
        obtain ⟨rfl, he⟩ := he
        simp only [usualBytes, weights, VField.weight, ih he, and_self]
      | array id n size =>
        cases u <;> simp only [VField.asBytes, FitsField, FitsKind, false_and] at hf
        cases u' <;> simp only [VField.asBytes, FitsField, FitsKind, false_and] at hf'
        simp only [visible, List.cons.injEq] at he
        simp only [usualBytes, weights, VField.weight, ih he.2, and_self]
      | vector id size len bound =>
        cases u <;> simp only [VField.asBytes, FitsField, FitsKind, false_and] at hf
        cases u' <;> simp only [VField.asBytes, FitsField, FitsKind, false_and] at hf'
        simp only [visible, List.cons.injEq, Val.seq.injEq] at he
        have hl := congrArg List.length he.1
        simp only [List.length_map] at hl
        simp only [usualBytes, weights, VField.weight, ih he.2, hl, and_self]

/-- C145. So no struct with such an element comes back from what foreign order writes of it:
whatever lies in the storage, reading does not give the fields that were written. -/
theorem C145_no_return_partial (cfg : Cfg) (hc : cfg.constexprStream = false) (hf : cfg.host ≠ cfg.wire)
    (hs : List VField) (hrw : Rewritable cfg (hs.map VField.asBytes)) (us : List Val)
    (hv : Valid cfg (hs.map VField.asBytes) us) (hw : 0 < weights hs us) (p : List Byte)
    (hp : (streamCastVacant cfg hs us).run = (.done (.ok ()), p)) (us' : List Val) (rest : List Byte)
    (hr : (structCastVacant cfg hs).run p = (.done (.ok us'), rest)) :
    visible hs us' ≠ visible hs us := by
  intro he
  rw [C145_write_foreign_partial cfg hf hs hrw us hv] at hp
  cases hp
  rw [C145_read cfg hc, read_iff cfg _ hrw.1] at hr
  obtain ⟨hv', hr⟩ := hr
  have h1 := wire_weight cfg cfg.wire hs us' hv'.1
  have h2 := visible_same cfg cfg.wire hs us' us hv'.1 hv.1 he
  have h3 := congrArg List.length hr
  rw [List.length_append, wire, h1, h2.1, h2.2] at h3
  omega

/-- C145. In host order it comes back, storage and all. -/
theorem C145_round_trip_partial (cfg : Cfg) (hc : cfg.constexprStream = false) (hf : cfg.host = cfg.wire)
    (hs : List VField) (hrw : Rewritable cfg (hs.map VField.asBytes)) (us : List Val)
    (hv : Valid cfg (hs.map VField.asBytes) us) :
    ∃ p, (streamCastVacant cfg hs us).run = (.done (.ok ()), p) ∧
      (structCastVacant cfg hs).run p = (.done (.ok us), []) ∧
      p.length = (usualBytes cfg.wire hs us).length + weights hs us := by
  refine ⟨wire cfg (hs.map VField.asBytes) us, ?_, ?_, wire_weight cfg cfg.wire hs us hv.1⟩
  · rw [C145_write_host cfg hc hf hs us (typedFields_of_fits cfg _ _ hv.1), Wr.run_eq]
    exact streamCast_complete hrw hv
  · rw [C145_read cfg hc, read_iff cfg _ hrw.1]
    exact ⟨hv, by simp⟩

/-! ### A list: a byte, an array of three `std::array<std::uint8_t, 0>`, a byte. -/

def gappy : List VField :=
  [.std (.plain "a" (.num u8 1) .none), .array "e" 3 1, .std (.plain "b" (.num u8 1) .none)]

/-- Little-endian host, big-endian wire: the two bytes alone are written. -/
example : (streamCastVacant be64 gappy [.int 1, .seq [.seq [.int 0], .seq [.int 0], .seq [.int 0]], .int 2]).run =
    (.done (.ok ()), [1, 2]) := by rfl
/-- Five are read. -/
example : (structCastVacant be64 gappy).run [1, 2] = (.done (.error ⟨.bufferExhaustion, "e"⟩), [2]) := by rfl
example : (structCastVacant be64 gappy).run [1, 7, 8, 9, 2] =
    (.done (.ok [.int 1, .seq [.seq [.int 7], .seq [.int 8], .seq [.int 9]], .int 2]), []) := by rfl
/-- In host order five are written. -/
example : (streamCastVacant le64 gappy [.int 1, .seq [.seq [.int 7], .seq [.int 8], .seq [.int 9]], .int 2]).run =
    (.done (.ok ()), [1, 7, 8, 9, 2]) := by rfl
/-- A vector of them, with its length before it. -/
example : (streamCastVacant be64 [.std (.plain "n" (.num u8 1) .none), .vector "e" 1 (.fromField "n") none]
    [.int 0, .seq [.seq [.int 0], .seq [.int 0]]]).run = (.done (.ok ()), [2]) := by rfl
example : Rewritable be64 (gappy.map VField.asBytes) :=
  rewritable_of_checked (by decide +kernel)

example : structCastVacant be64 gappy = structCast be64 (gappy.map VField.asBytes) := C145_read be64 rfl gappy
example := C145_write_host le64 rfl rfl gappy
  [.int 1, .seq [.seq [.int 7], .seq [.int 8], .seq [.int 9]], .int 2] (by decide +kernel)
example := C145_write_foreign_partial be64 (by decide) gappy (rewritable_of_checked (by decide +kernel))
  [.int 1, .seq [.seq [.int 7], .seq [.int 8], .seq [.int 9]], .int 2] (by decide +kernel)
/-- Where reading finds five bytes at all, they are not those of the struct. -/
example (us' : List Val) (rest : List Byte) (h : (structCastVacant be64 gappy).run [1, 2] = (.done (.ok us'), rest)) :
    visible gappy us' ≠ visible gappy [.int 1, .seq [.seq [.int 7], .seq [.int 8], .seq [.int 9]], .int 2] :=
  C145_no_return_partial be64 rfl (by decide) gappy (rewritable_of_checked (by decide +kernel)) _ (by decide +kernel)
    (by decide +kernel) [1, 2] (by rfl) us' rest h

end S2S.Props
