import Verif.Spec.Leaf
import Verif.Lemmas.Flat
import Verif.Lemmas.WriteMain
/-
Types of the same bytes.
-/
namespace S2S
open Spec

/-! ### Signs -/

@[simp] theorem withSign_size (s : Bool) (t : ScalarTy) : (withSign s t).size = t.size := by cases t <;> rfl

@[simp] theorem elemSign_size (s : Bool) : ∀ e : ElemTy, (elemSign s e).size = e.size
  | .scalar t => by simp [elemSign, ElemTy.size]
  | .arr e n => by simp [elemSign, ElemTy.size, elemSign_size s e]

theorem conv_sign (b : Nat) (s u : Bool) (x : Int) :
    (ScalarTy.int b s).conv ((ScalarTy.int b u).conv x) = (ScalarTy.int b s).conv x := by
  rw [← conv_residue, residue_conv, conv_residue]

theorem ofMem_sign (s : Bool) (host : Endian) (t : ScalarTy) (mem : List Byte) :
    (withSign s t).ofMem host mem = (t.ofMem host mem).map (signInt s t) := by
  cases t with
  | int b u => simp only [withSign, ScalarTy.ofMem, Option.map_some, signInt, conv_sign]
  | bool =>
    have h : signInt s .bool = id := rfl
    rw [h, Option.map_id]
    rfl

theorem byteswap_sign (s : Bool) (t : ScalarTy) (x : Int) :
    (withSign s t).byteswap (signInt s t x) = signInt s t (t.byteswap x) := by
  cases t with
  | int b u => simp only [withSign, ScalarTy.byteswap, signInt, residue_conv, conv_sign]
  | bool => rfl

theorem toMem_sign (s : Bool) (host : Endian) (t : ScalarTy) (x : Int) :
    (withSign s t).toMem host (signInt s t x) = t.toMem host x := by
  cases t with
  | int b u => simp only [withSign, ScalarTy.toMem, ScalarTy.size, signInt, residue_conv]
  | bool => rfl

theorem decodeN_map {f f' : List Byte → Option Val} {g : Val → Val} (h : ∀ mem, f' mem = (f mem).map g) (z : Nat) :
    ∀ n mem, decodeN f' z n mem = (decodeN f z n mem).map (List.map g)
  | 0, _ => rfl
  | n + 1, mem => by
      rw [decodeN, decodeN, h, decodeN_map h z n]
      cases f (mem.take z) <;> cases decodeN f z n (mem.drop z) <;> rfl

theorem elem_ofMem_sign (s : Bool) (host : Endian) : ∀ (e : ElemTy) mem,
    (elemSign s e).ofMem host mem = (e.ofMem host mem).map (signElem s e)
  | .scalar t, mem => by
      simp only [elemSign, ElemTy.ofMem, ofMem_sign]
      cases t.ofMem host mem <;> rfl
  | .arr e n, mem => by
      simp only [elemSign, ElemTy.ofMem, elemSign_size, decodeN_map (elem_ofMem_sign s host e)]
      cases decodeN (e.ofMem host) e.size n mem <;> simp [signElem]

theorem elem_swap_sign (s : Bool) : ∀ (e : ElemTy) (v : Val),
    (elemSign s e).swap (signElem s e v) = signElem s e (e.swap v)
  | .scalar t, .int x => by
      simp only [elemSign, signElem, ElemTy.swap, withSign_size]
      split <;> simp [byteswap_sign]
  | .arr e n, .seq vs => by
      simp only [elemSign, signElem, ElemTy.swap, List.map_map]
      congr 2
      funext v
      exact elem_swap_sign s e v
  | .scalar _, .seq _ => rfl
  | .scalar _, .absent => rfl
  | .scalar _, .present _ => rfl
  | .scalar _, .var _ _ => rfl
  | .arr _ _, .int _ => rfl
  | .arr _ _, .absent => rfl
  | .arr _ _, .present _ => rfl
  | .arr _ _, .var _ _ => rfl

theorem swapIfForeign_sign (s : Bool) (cfg : Cfg) (e : ElemTy) (vs : List Val) :
    swapIfForeign cfg (elemSign s e) (vs.map (signElem s e)) = (swapIfForeign cfg e vs).map (signElem s e) := by
  unfold swapIfForeign
  split
  · rw [List.map_map, List.map_map]
    congr 1
    funext v
    exact elem_swap_sign s e v
  · rfl

theorem repeatE_mapOk {r r' : RdE ε Val} {g : Val → Val} (h : r' = r.mapOk g) : ∀ n,
    repeatE r' n = (repeatE r n).mapOk (List.map g)
  | 0 => rfl
  | n + 1 => by
      subst h
      rw [repeatE, repeatE, repeatE_mapOk rfl n]
      unfold RdE.mapOk
      simp only [RdE.andThen_assoc, RdE.ok_andThen, List.map_cons]

theorem value_map (o : Option α) (g : α → β) : (RdE.value (o.map g) : RdE ε β) = (RdE.value o).mapOk g := by
  cases o <;> rfl

theorem resize_mapOk (cfg : Cfg) (n : Nat) (r : RdE ε α) (g : α → β) :
    resize cfg n (r.mapOk g) = (resize cfg n r).mapOk g := by
  unfold resize
  split <;> rfl

theorem readVec_sign (s : Bool) (cfg : Cfg) (e : ElemTy) (len : LenSpec) (bound : Option Nat) (c n : Nat) :
    readVec cfg (elemSign s e) c n = (readVec cfg e c n).mapOk (signVal s (.vec e len bound)) := by
  unfold readVec
  rw [elemSign_size]
  cases checkedByteCount cfg e.size c n with
  | error r => rfl
  | ok m =>
    simp only [← resize_mapOk]
    congr 1
    cases cfg.constexprStream with
    | true =>
      simp only [if_true]
      have h : readElem cfg (elemSign s e) = (readElem cfg e).mapOk (signElem s e) := by
        unfold readElem RdE.mapOk
        simp only [elemSign_size, elem_ofMem_sign, value_map, RdE.andThen_assoc]
        rfl
      rw [repeatE_mapOk h]
      unfold RdE.mapOk
      simp only [RdE.andThen_assoc, RdE.ok_andThen, swapIfForeign_sign, signVal]
    | false =>
      simp only [Bool.false_eq_true, if_false, decodeN_map (elem_ofMem_sign s cfg.host e), value_map]
      unfold RdE.mapOk
      simp only [RdE.andThen_assoc, RdE.ok_andThen, swapIfForeign_sign, signVal]

theorem readKind_sign (s : Bool) (cfg : Cfg) (env : Env) (k : Kind) :
    readKind cfg env (kindSign s k) = (readKind cfg env k).mapOk (signVal s k) := by
  cases k with
  | num t w =>
    simp only [kindSign, readKind, readNum, withSign_size, ofMem_sign, value_map]
    unfold RdE.mapOk
    simp only [RdE.andThen_assoc, RdE.ok_andThen, signVal]
    congr 1
    funext mem
    congr 1
    funext x
    split <;> simp [byteswap_sign]
  | fbuf e n =>
    simp only [kindSign, readKind, readFixedBuf, elemSign_size, decodeN_map (elem_ofMem_sign s cfg.host e), value_map]
    unfold RdE.mapOk
    simp only [RdE.andThen_assoc, RdE.ok_andThen, swapIfForeign_sign, signVal]
  | vec e len b =>
    simp only [kindSign, readKind, readVec_sign s cfg e len b]
    unfold RdE.mapOk
    simp only [RdE.andThen_assoc]
  | _ => exact (RdE.mapOk_id _ fun v => by simp [signVal]).symm

theorem encodeN_map {f f' : Val → Option (List Byte)} {g : Val → Val} (h : ∀ v, f' (g v) = f v) : ∀ vs,
    encodeN f' (vs.map g) = encodeN f vs
  | [] => rfl
  | v :: vs => by rw [List.map_cons, encodeN, encodeN, h, encodeN_map h vs]

theorem elem_toMem_sign (s : Bool) (host : Endian) : ∀ (e : ElemTy) (v : Val),
    (elemSign s e).toMem host (signElem s e v) = e.toMem host v
  | .scalar t, .int x => by simp only [elemSign, signElem, ElemTy.toMem, toMem_sign]
  | .arr e n, .seq vs => by
      simp only [elemSign, signElem, ElemTy.toMem, List.length_map, encodeN_map (elem_toMem_sign s host e)]
  | .scalar _, .seq _ => rfl
  | .scalar _, .absent => rfl
  | .scalar _, .present _ => rfl
  | .scalar _, .var _ _ => rfl
  | .arr _ _, .int _ => rfl
  | .arr _ _, .absent => rfl
  | .arr _ _, .present _ => rfl
  | .arr _ _, .var _ _ => rfl

theorem foreignElem_sign (s : Bool) (cfg : Cfg) : ∀ (e : ElemTy) (v : Val),
    writeForeignElem cfg (elemSign s e) (signElem s e v) = writeForeignElem cfg e v
  | .scalar t, .int x => by
      simp only [elemSign, signElem, writeForeignElem, withSign_size]
      split <;> simp [byteswap_sign, toMem_sign]
  | .arr e n, .seq vs => by
      simp only [elemSign, signElem, writeForeignElem, List.length_map, List.map_map]
      congr 2
      apply congrArg (fun f => vs.map f)
      funext v
      exact foreignElem_sign s cfg e v
  | .scalar _, .seq _ => rfl
  | .scalar _, .absent => rfl
  | .scalar _, .present _ => rfl
  | .scalar _, .var _ _ => rfl
  | .arr _ _, .int _ => rfl
  | .arr _ _, .absent => rfl
  | .arr _ _, .present _ => rfl
  | .arr _ _, .var _ _ => rfl

theorem foreign_sign (s : Bool) (cfg : Cfg) (e : ElemTy) (vs : List Val) :
    (vs.map (signElem s e)).map (writeForeignElem cfg (elemSign s e)) = vs.map (writeForeignElem cfg e) := by
  rw [List.map_map]
  apply congrArg (fun f => vs.map f)
  funext v
  exact foreignElem_sign s cfg e v

theorem emitFixed_sign (s : Bool) (cfg : Cfg) (k : Kind) (v : Val) :
    emitFixed cfg (kindSign s k) (signVal s k v) = emitFixed cfg k v := by
  cases k with
  | num t w =>
    cases v with
    | int x =>
      simp only [kindSign, signVal, emitFixed, writeNum]
      split <;> simp [byteswap_sign, toMem_sign]
    | _ => rfl
  | fbuf e n =>
    cases v with
    | seq vs =>
      simp only [kindSign, signVal, emitFixed, writeFixedBuf, List.length_map, foreign_sign, elemSign_size,
        encodeN_map (elem_toMem_sign s cfg.host e)]
    | _ => rfl
  | vec e len b => cases v <;> rfl
  | _ => rfl

theorem writeVec_sign (s : Bool) (cfg : Cfg) (e : ElemTy) (vs : List Val) :
    writeVec cfg (elemSign s e) (vs.map (signElem s e)) = writeVec cfg e vs := by
  simp only [writeVec, foreignElem_sign, elemSign_size, List.length_map, encodeN_map (elem_toMem_sign s cfg.host e),
    List.map_map, Function.comp_def, elem_toMem_sign]

/-! ### Other types -/

theorem sameOn_native {S : InStream} {n a b : Nat} (ha : n ≤ a) (hb : n ≤ b) {f f' : List Byte → RdE Reason α}
    (h : ∀ bs, bs.length = n → Rd.SameOn S (f (bs ++ List.replicate (a - n) 0)) (f' (bs ++ List.replicate (b - n) 0))) :
    Rd.SameOn S ((readNativeImpl a n).andThen f) ((readNativeImpl b n).andThen f') := by
  intro s
  rw [readNativeImpl, readNativeImpl, if_neg (by omega), if_neg (by omega)]
  have hl := S.len s n
  simp only [RdE.andThen, Rd.bind, Rd.runOn]
  rcases hr : S.read s n with ⟨_ | bs, s'⟩
  · rfl
  · exact h bs (hl bs s' hr) s'

theorem decodeN_one (f : List Byte → Option Val) (z : Nat) (mem : List Byte) :
    decodeN f z 1 mem = (f (mem.take z)).map fun v => [v] := by
  rw [decodeN, decodeN]
  cases f (mem.take z) <;> rfl

theorem byteswap_small (t : ScalarTy) (h : ¬ t.size > 1) (x : Int) (hx : t.InRange x) : t.byteswap x = x := by
  cases t with
  | bool => rfl
  | int b s =>
    have hr : (leBytes b (residue b x)).reverse = leBytes b (residue b x) := by
      simp only [ScalarTy.size] at h
      have : b = 0 ∨ b = 1 := by omega
      rcases this with rfl | rfl <;> rfl
    rw [ScalarTy.byteswap, hr, leNat_leBytes, Nat.mod_eq_of_lt (residue_lt b x), conv_residue,
      ScalarTy.conv_of_inRange _ _ hx]

theorem ofMem_rangeOf {host : Endian} {t : ScalarTy} {mem : List Byte} {x : Int} (h : t.ofMem host mem = some x) :
    t.InRange x := by
  cases t with
  | int b s =>
    simp only [ScalarTy.ofMem, Option.some.injEq] at h
    subst h
    exact ScalarTy.conv_inRange _ _
  | bool =>
    simp only [ScalarTy.ofMem] at h
    split at h
    · split at h
      · exact .inl (by simpa using h.symm)
      · split at h
        · exact .inr (by simpa using h.symm)
        · simp at h
    · simp at h

theorem readNum_one {S : InStream} (cfg : Cfg) (t : ScalarTy) :
    Rd.SameOn S (readFixedBuf cfg (.scalar t) 1) ((readNum cfg t t.size).mapOk fun v => .seq [v]) := by
  unfold readFixedBuf readNum RdE.mapOk
  rw [RdE.andThen_assoc]
  simp only [ElemTy.size, Nat.one_mul]
  refine sameOn_native (Nat.le_refl _) (Nat.le_refl _) fun bs hb => ?_
  intro s
  have ht : bs.take t.size = bs := List.take_of_length_le (by omega)
  simp only [Nat.sub_self, List.replicate_zero, List.append_nil, decodeN_one, ht, ElemTy.ofMem]
  cases hm : t.ofMem cfg.host bs with
  | none => rfl
  | some x =>
    simp only [Option.map_some, RdE.value, RdE.ok_andThen, swapIfForeign]
    split
    · simp only [List.map_cons, List.map_nil, ElemTy.swap]
      split
      · rfl
      · rename_i h
        rw [byteswap_small t h x (ofMem_rangeOf hm)]
    · rfl

theorem readStr_chars {S : InStream} (cfg : Cfg) (n : Nat) :
    Rd.SameOn S (readFixedBuf cfg (.scalar u8) (n + 1)) ((readFixedStr n).mapOk id) := by
  rw [RdE.mapOk_id (g := id) _ fun _ => rfl]
  unfold readFixedBuf readFixedStr
  simp only [ElemTy.size, ScalarTy.size, Nat.mul_one]
  refine sameOn_native (Nat.le_refl _) (Nat.le_refl _) fun bs hb => ?_
  simp only [Nat.sub_self, List.replicate_zero, List.append_nil]
  have h : ∀ m (bs : List Byte), bs.length = m → decodeN ((ElemTy.scalar u8).ofMem cfg.host) 1 m bs =
      some (bs.map fun b => .int b.toNat) := by
    intro m
    induction m with
    | zero => intro bs h; rw [List.length_eq_zero_iff.1 h]; rfl
    | succ m ih =>
      intro bs h
      cases bs with
      | nil => simp at h
      | cons b bs =>
        rw [decodeN, List.drop_one, List.tail_cons, ih bs (by simpa using h)]
        have hb : (ElemTy.scalar u8).ofMem cfg.host [b] = some (.int b.toNat) := by
          have ho : cfg.host.order [b] = [b] := by cases cfg.host <;> rfl
          have hl : b.toNat < 256 := b.toNat_lt
          simp [ElemTy.ofMem, ScalarTy.ofMem, ho, leNat, ScalarTy.conv, residue]
          omega
        simp [hb]
  rw [h (n + 1) bs hb]
  simp only [RdE.value, RdE.ok_andThen]
  have hs : swapIfForeign cfg (.scalar u8) (bs.map fun b => .int b.toNat) = bs.map fun b => .int b.toNat := by
    unfold swapIfForeign
    split
    · rw [List.map_map]
      rfl
    · rfl
  rw [hs]
  exact fun _ => rfl

theorem readNum_width {S : InStream} (cfg : Cfg) {b b' w : Nat} (h : w ≤ b) (h' : w ≤ b') (hh : cfg.host = .little)
    (hf : cfg.foreign = false) :
    Rd.SameOn S (readNum cfg (.int b' false) w) ((readNum cfg (.int b false) w).mapOk id) := by
  rw [RdE.mapOk_id (g := id) _ fun _ => rfl]
  unfold readNum
  refine sameOn_native h' h fun bs hb => ?_
  have hc : ∀ z, w ≤ z → (ScalarTy.int z false).ofMem cfg.host (bs ++ List.replicate (z - w) 0) = some (leNat bs : Int) := by
    intro z hz
    have hl : leNat bs < 256 ^ z :=
      Nat.lt_of_lt_of_le (leNat_lt bs) (by rw [hb]; exact Nat.pow_le_pow_right (by omega) hz)
    simp only [ScalarTy.ofMem, hh, Endian.order, leNat_append, leNat_replicate, Nat.mul_zero, Nat.add_zero, ScalarTy.conv,
      residue_ofNat, Nat.mod_eq_of_lt hl]
  simp only [ScalarTy.size, hc b h, hc b' h', hf]
  exact fun _ => rfl

section
variable {cfg : Cfg} {k k' : Kind} {g : Val → Val} {ok : Val → Prop}

theorem Spec.LeafKind.read (h : LeafKind cfg k k' g ok) (S : InStream) (env : Env) :
    Rd.SameOn S (readKind cfg env k') ((readKind cfg env k).mapOk g) := by
  cases h with
  | signs s k => rw [readKind_sign]; exact fun _ => rfl
  | flat k => rw [readKind_flat]; exact fun _ => rfl
  | one t => simp only [readKind]; exact readNum_one cfg t
  | chars n _ => simp only [readKind]; exact readStr_chars cfg n
  | width b b' w h h' hh hf => simp only [readKind]; exact readNum_width cfg h h' hh hf

theorem Spec.LeafKind.lenTarget (h : LeafKind cfg k k' g ok) : k'.lenTarget? = k.lenTarget? := by
  cases h with
  | signs s k => cases k <;> rfl
  | flat k => exact lenTarget_flat k
  | _ => rfl

theorem Spec.LeafKind.deps (h : LeafKind cfg k k' g ok) : kindDeps k' = kindDeps k := by
  cases h with
  | signs s k => cases k <;> rfl
  | flat k => exact kindDeps_flat k
  | _ => rfl

theorem Spec.LeafKind.size (h : LeafKind cfg k k' g ok) (hl : k.lenTarget? ≠ none) (v : Val) :
    (g v).size? = v.size? := by
  cases h with
  | signs s k =>
    cases k with
    | num => exact absurd rfl hl
    | fbuf => exact absurd rfl hl
    | vec e len b => cases v <;> simp [signVal, Val.size?]
    | _ => rfl
  | flat k => rw [flatVal_eq hl]
  | one t => exact absurd rfl hl
  | chars n => exact absurd rfl hl
  | width => exact absurd rfl hl

theorem residue_byteswap_small {t : ScalarTy} (h : ¬ t.size > 1) (x : Int) (host : Endian) :
    t.toMem host (t.byteswap x) = t.toMem host x := by
  cases t with
  | bool => rfl
  | int b s =>
    have hr : (leBytes b (residue b x)).reverse = leBytes b (residue b x) := by
      simp only [ScalarTy.size] at h
      have : b = 0 ∨ b = 1 := by omega
      rcases this with rfl | rfl <;> rfl
    simp only [ScalarTy.toMem, ScalarTy.size, ScalarTy.byteswap, hr, residue_conv, leNat_leBytes, residue_ofNat,
      Nat.mod_eq_of_lt (residue_lt b x)]

theorem writeKind_emit {ctx : WCtx} {i : String} (hd : isDerived ctx.fs i = false) (hc : hasConditional ctx.fs i = false)
    {member : Bool} {c : Constraint} {k : Kind} (hz : member = true → frozenVal k c = none)
    (hk : (∃ t w, k = .num t w) ∨ (∃ e n, k = .fbuf e n) ∨ ∃ n, k = .fstr n) (v : Val) :
    writeKind cfg ctx member i c k v = emitFixed cfg k v := by
  have h0 : (if member then frozenVal k c else none) = none := by
    cases member with
    | true => exact hz rfl
    | false => rfl
  rcases hk with ⟨t, w, rfl⟩ | ⟨e, n, rfl⟩ | ⟨n, rfl⟩ <;>
    simp [writeKind, writeFixed, hd, h0, verifyThenWrite, hc]

theorem Spec.LeafKind.write (h : LeafKind cfg k k' g ok) {ctx : WCtx} {i : String}
    (hd : isDerived ctx.fs i = false) (hc : hasConditional ctx.fs i = false)
    {member : Bool} {c : Constraint} (hz : member = true → frozenVal k c = none)
    (hz' : member = true → frozenVal k' c = none) (v : Val) (hv : ok v) :
    writeKind cfg ctx member i c k' (g v) = writeKind cfg ctx member i c k v := by
  cases h with
  | signs s k =>
    have := emitFixed_sign s cfg k v
    cases k with
    | num t w =>
      rw [writeKind_emit hd hc hz (.inl ⟨t, w, rfl⟩), writeKind_emit hd hc hz' (.inl ⟨_, w, rfl⟩), this]
    | fbuf e n =>
      rw [writeKind_emit hd hc hz (.inr (.inl ⟨e, n, rfl⟩)), writeKind_emit hd hc hz' (.inr (.inl ⟨_, n, rfl⟩)), this]
    | vec e len b =>
      cases v with
      | seq vs => simp only [kindSign, signVal, writeKind, writeVec_sign, List.length_map]
      | _ => simp only [kindSign, signVal, writeKind]
    | _ => rfl
  | flat k =>
    have := emitFixed_flat cfg k v hv
    cases k with
    | fbuf e n =>
      rw [writeKind_emit hd hc hz (.inr (.inl ⟨e, n, rfl⟩)), writeKind_emit hd hc hz' (.inr (.inl ⟨_, _, rfl⟩)), this]
    | _ => rfl
  | one t =>
    obtain ⟨x, rfl⟩ := hv
    rw [writeKind_emit hd hc hz (.inl ⟨t, _, rfl⟩), writeKind_emit hd hc hz' (.inr (.inl ⟨_, _, rfl⟩))]
    simp only [emitFixed, writeFixedBuf, writeNum, List.length_singleton, ne_eq, not_true_eq_false, if_false,
      List.map_cons, List.map_nil, WrE.all, writeForeignElem, andThen_unit, encodeN, ElemTy.toMem, writeNative,
      List.append_nil, ElemTy.size, Nat.one_mul]
    cases cfg.foreign with
    | false => rfl
    | true =>
      simp only [if_true]
      split
      · rfl
      · rename_i h
        rw [residue_byteswap_small h]
  | chars n hf =>
    rw [writeKind_emit hd hc hz (.inr (.inr ⟨_, rfl⟩)), writeKind_emit hd hc hz' (.inr (.inl ⟨_, _, rfl⟩))]
    cases v with
    | seq vs =>
      have ho : ∀ v, (ElemTy.scalar u8).toMem cfg.host v = (ElemTy.scalar u8).toMem .little v := by
        intro v
        cases v with
        | int x => cases cfg.host <;> rfl
        | _ => rfl
      simp only [id, emitFixed, writeFixedBuf, writeFixedStr, hf, Bool.false_eq_true, if_false, ElemTy.size, ScalarTy.size,
        Nat.mul_one, funext ho]
    | _ => rfl
  | width b b' w h h' hh hf =>
    rw [writeKind_emit hd hc hz (.inl ⟨_, _, rfl⟩), writeKind_emit hd hc hz' (.inl ⟨_, _, rfl⟩)]
    cases v with
    | int x =>
      have ht : ∀ z, w ≤ z → writeNativeImpl ((ScalarTy.int z false).toMem .little x) w =
          Wr.write (leBytes w (residue w x)) fun
            | true => WrE.ok ()
            | false => WrE.err .bufferExhaustion := by
        intro z hz
        rw [writeNativeImpl, if_neg (by simp [ScalarTy.toMem, Endian.order, ScalarTy.size]; omega), ScalarTy.toMem, ScalarTy.size,
          Endian.order, leBytes_take w z _ hz, ← leBytes_mod w (residue z x)]
        rw [← residue_ofNat, residue_residue hz]
        rfl
      simp only [id, emitFixed, writeNum, hf, Bool.false_eq_true, if_false, hh]
      rw [ht b h, ht b' h']
    | _ => rfl

end
end S2S
