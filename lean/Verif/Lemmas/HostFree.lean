import Verif.Lemmas.ReadPrim
import Verif.Lemmas.RunOn
/-
Reading does not depend on the byte order of the host.
-/
namespace S2S
open Spec

/-! ### Trees that behave alike on every stream -/

namespace Rd

/-- The same calls, the same allocations, the same ends. Streams deliver as many bytes as
asked for, so only continuations on that many bytes count. -/
def Same : Rd α → Rd α → Prop
  | ret a, r => r = ret a
  | stuck w, r => r = stuck w
  | read n k, r => ∃ k', r = read n k' ∧ Same (k none) (k' none) ∧
      ∀ bs : List Byte, bs.length = n → Same (k (some bs)) (k' (some bs))
  | alloc b k, r => ∃ k', r = alloc b k' ∧ Same k k'

theorem Same.refl (r : Rd α) : Same r r := by
  induction r with
  | ret a => rfl
  | stuck w => rfl
  | read n k ih => exact ⟨k, rfl, ih _, fun bs _ => ih _⟩
  | alloc b k ih => exact ⟨k, rfl, ih⟩

theorem Same.of_eq {r r' : Rd α} (h : r = r') : Same r r' := h ▸ .refl r

theorem Same.symm {r r' : Rd α} (h : Same r r') : Same r' r := by
  induction r generalizing r' with
  | ret a => cases h; rfl
  | stuck w => cases h; rfl
  | read n k ih =>
    obtain ⟨k', rfl, h1, h2⟩ := h
    exact ⟨k, rfl, ih _ h1, fun bs hb => ih _ (h2 bs hb)⟩
  | alloc b k ih =>
    obtain ⟨k', rfl, h1⟩ := h
    exact ⟨k, rfl, ih h1⟩

theorem Same.trans {r r' r'' : Rd α} (h : Same r r') (h' : Same r' r'') : Same r r'' := by
  induction r generalizing r' r'' with
  | ret a => cases h; exact h'
  | stuck w => cases h; exact h'
  | read n k ih =>
    obtain ⟨k', rfl, h1, h2⟩ := h
    obtain ⟨k'', rfl, h3, h4⟩ := h'
    exact ⟨k'', rfl, ih _ h1 h3, fun bs hb => ih _ (h2 bs hb) (h4 bs hb)⟩
  | alloc b k ih =>
    obtain ⟨k', rfl, h1⟩ := h
    obtain ⟨k'', rfl, h2⟩ := h'
    exact ⟨k'', rfl, ih h1 h2⟩

theorem Same.bind {r r' : Rd α} {f f' : α → Rd β} (h : Same r r') (hf : ∀ a, Same (f a) (f' a)) :
    Same (r.bind f) (r'.bind f') := by
  induction r generalizing r' with
  | ret a => cases h; exact hf a
  | stuck w => cases h; rfl
  | read n k ih =>
    obtain ⟨k', rfl, h1, h2⟩ := h
    exact ⟨_, rfl, ih _ h1, fun bs hb => ih _ (h2 bs hb)⟩
  | alloc b k ih =>
    obtain ⟨k', rfl, h1⟩ := h
    exact ⟨_, rfl, ih h1⟩

theorem Same.runOn {r r' : Rd α} (h : Same r r') (S : InStream) (s : S.State) :
    r.runOn S s = r'.runOn S s ∧ r.allocsOn S s = r'.allocsOn S s ∧
      r.callsOn S s = r'.callsOn S s := by
  induction r generalizing r' s with
  | ret a => cases h; exact ⟨rfl, rfl, rfl⟩
  | stuck w => cases h; exact ⟨rfl, rfl, rfl⟩
  | read n k ih =>
    obtain ⟨k', rfl, h1, h2⟩ := h
    simp only [Rd.runOn, Rd.allocsOn, Rd.callsOn]
    cases hr : S.read s n with
    | mk o s' =>
      have : Same (k o) (k' o) := by
        cases o with
        | none => exact h1
        | some bs => exact h2 bs (S.len s n bs s' hr)
      obtain ⟨h3, h4, h5⟩ := ih o this s'
      simp only [h3, h4, h5, and_self]
  | alloc b k ih =>
    obtain ⟨k', rfl, h1⟩ := h
    obtain ⟨h3, h4, h5⟩ := ih h1 s
    simp only [Rd.runOn, Rd.allocsOn, Rd.callsOn, h3, h4, h5, and_self]

end Rd

namespace RdE

theorem same_andThen {r r' : RdE ε α} {f f' : α → RdE ε β} (h : Rd.Same r r')
    (hf : ∀ a, Rd.Same (f a) (f' a)) : Rd.Same (r.andThen f) (r'.andThen f') := by
  refine Rd.Same.bind h ?_
  rintro (e | a)
  · rfl
  · exact hf a

theorem same_mapErr {r r' : RdE ε α} (g : ε → ε') (h : Rd.Same r r') :
    Rd.Same (r.mapErr g) (r'.mapErr g) := Rd.Same.bind h fun _ => .refl _

theorem same_mapOk {r r' : RdE ε α} (g : α → β) (h : Rd.Same r r') :
    Rd.Same (r.mapOk g) (r'.mapOk g) := same_andThen h fun _ => .refl _

end RdE

theorem same_repeatE {r r' : RdE ε Val} (h : Rd.Same r r') (n : Nat) :
    Rd.Same (repeatE r n) (repeatE r' n) := by
  induction n with
  | zero => exact .refl _
  | succ n ih =>
    exact RdE.same_andThen h fun _ => RdE.same_andThen ih fun _ => .refl _

theorem same_resize {k k' : RdE ε α} (cfg : Cfg) (n : Nat) (h : Rd.Same k k') :
    Rd.Same (resize cfg n k) (resize cfg n k') := by
  unfold resize
  split
  · rfl
  · exact ⟨_, rfl, h⟩

/-- After a read over a whole object, only its bytes count. -/
theorem same_readNativeImpl {size n : Nat} {f f' : List Byte → RdE Reason α}
    (h : ∀ mem : List Byte, mem.length = size → Rd.Same (f mem) (f' mem)) :
    Rd.Same ((readNativeImpl size n).andThen f) ((readNativeImpl size n).andThen f') := by
  unfold readNativeImpl
  split
  · rfl
  · rename_i hn
    refine ⟨_, rfl, rfl, fun bs hb => ?_⟩
    exact h _ (by simp [hb]; omega)

/-! ### The host -/

/-- The same build on a host of the other byte order, with run-time or compile-time
streams. -/
abbrev Cfg.at (cfg : Cfg) (host : Endian) (cx : Bool) : Cfg :=
  { cfg with host := host, constexprStream := cx }

theorem option_ext_iff {o o' : Option α} {P : α → Prop} (h : ∀ a, o = some a ↔ P a)
    (h' : ∀ a, o' = some a ↔ P a) : o = o' := by
  cases o with
  | none =>
    cases o' with
    | none => rfl
    | some a => exact absurd ((h a).2 ((h' a).1 rfl)) (by simp)
  | some a => exact ((h' a).2 ((h a).1 rfl)).symm

/-- The value of an element, swapped. -/
def elemValue (cfg : Cfg) (e : ElemTy) (m : List Byte) : Option Val :=
  (e.ofMem cfg.host m).map fun v => if cfg.foreign then e.swap v else v

def blockValue (cfg : Cfg) (e : ElemTy) (n : Nat) (m : List Byte) : Option (List Val) :=
  (decodeN (e.ofMem cfg.host) e.size n m).map (swapIfForeign cfg e)

theorem elemValue_iff (cfg : Cfg) (e : ElemTy) (m : List Byte) (hm : m.length = e.size) (v : Val) :
    elemValue cfg e m = some v ↔ ElemFits e v ∧ m = wireElem cfg.wire e v := by
  rw [← ofMem_elem_iff cfg e m hm v, elemValue, Option.map_eq_some_iff]
  constructor <;> rintro ⟨w, h1, h2⟩ <;> exact ⟨w, h1, h2.symm⟩

theorem blockValue_iff (cfg : Cfg) (e : ElemTy) (n : Nat) (m : List Byte)
    (hm : m.length = n * e.size) (vs : List Val) : blockValue cfg e n m = some vs ↔
      vs.length = n ∧ (∀ v ∈ vs, ElemFits e v) ∧ m = vs.flatMap (wireElem cfg.wire e) := by
  rw [← decode_block_iff cfg e n m hm vs, blockValue, Option.map_eq_some_iff]
  constructor <;> rintro ⟨w, h1, h2⟩ <;> exact ⟨w, h1, h2.symm⟩

theorem elemValue_at (cfg : Cfg) (h : Endian) (cx : Bool) (e : ElemTy) (m : List Byte)
    (hm : m.length = e.size) : elemValue cfg e m = elemValue (cfg.at h cx) e m :=
  option_ext_iff (elemValue_iff cfg e m hm) (elemValue_iff (cfg.at h cx) e m hm)

theorem blockValue_at (cfg : Cfg) (h : Endian) (cx : Bool) (e : ElemTy) (n : Nat) (m : List Byte)
    (hm : m.length = n * e.size) : blockValue cfg e n m = blockValue (cfg.at h cx) e n m :=
  option_ext_iff (blockValue_iff cfg e n m hm) (blockValue_iff (cfg.at h cx) e n m hm)

theorem value_mapOk (o : Option α) (g : α → β) :
    ((RdE.value o : RdE ε α).andThen fun a => RdE.ok (g a)) = RdE.value (o.map g) := by
  cases o <;> rfl

/-- The value of a scalar, swapped. -/
def numValue (cfg : Cfg) (t : ScalarTy) (m : List Byte) : Option Int :=
  (t.ofMem cfg.host m).map fun x => if cfg.foreign then t.byteswap x else x

theorem numValue_at (cfg : Cfg) (h : Endian) (cx : Bool) (t : ScalarTy) (m : List Byte)
    (hm : m.length = t.size) : numValue cfg t m = numValue (cfg.at h cx) t m := by
  cases t with
  | int b s =>
    simp only [numValue, ScalarTy.ofMem, Option.map_some]
    rw [swapped_value cfg b s m hm]
    exact congrArg _ (swapped_value (cfg.at h cx) b s m hm).symm
  | bool =>
    simp only [numValue, ScalarTy.ofMem, ScalarTy.byteswap, ite_self]

theorem readNum_eq (cfg : Cfg) (t : ScalarTy) (w : Nat) : readNum cfg t w =
    (readNativeImpl t.size w).andThen fun m => RdE.value ((numValue cfg t m).map .int) := by
  unfold readNum
  congr 1
  funext m
  rw [numValue, Option.map_map, value_mapOk]
  rfl

theorem readFixedBuf_eq (cfg : Cfg) (e : ElemTy) (n : Nat) : readFixedBuf cfg e n =
    (readNativeImpl (n * e.size) (n * e.size)).andThen fun m =>
      RdE.value ((blockValue cfg e n m).map .seq) := by
  unfold readFixedBuf
  congr 1
  funext m
  rw [blockValue, Option.map_map, value_mapOk]
  rfl

theorem andThen_assoc (r : RdE ε α) (f : α → RdE ε β) (g : β → RdE ε γ) :
    (r.andThen f).andThen g = r.andThen fun a => (f a).andThen g := by
  unfold RdE.andThen
  rw [Rd.bind_assoc]
  congr 1
  funext a
  cases a <;> rfl

theorem ok_andThen (a : α) (f : α → RdE ε β) : (RdE.ok a : RdE ε α).andThen f = f a := rfl

theorem repeatE_map (r : RdE ε Val) (g : Val → Val) (n : Nat) (f : List Val → RdE ε β) :
    ((repeatE r n).andThen fun vs => f (vs.map g)) =
      (repeatE (r.andThen fun v => RdE.ok (g v)) n).andThen f := by
  induction n generalizing f with
  | zero => rfl
  | succ n ih =>
    simp only [repeatE, andThen_assoc, ok_andThen, List.map_cons]
    congr 1
    funext v
    exact ih fun vs => f (g v :: vs)

/-- The compile-time path with the swap moved to the element. -/
theorem readElems_eq (cfg : Cfg) (e : ElemTy) (n : Nat) :
    ((repeatE (readElem cfg e) n).andThen fun vs => RdE.ok (.seq (swapIfForeign cfg e vs)) :
      RdE Reason Val) =
    (repeatE ((readNativeImpl e.size e.size).andThen fun m => RdE.value (elemValue cfg e m)) n).andThen
      fun vs => RdE.ok (.seq vs) := by
  simp only [swapIfForeign_eq]
  refine (repeatE_map (readElem cfg e) (fun v' => if cfg.foreign then e.swap v' else v') n
    (fun vs => RdE.ok (Val.seq vs))).trans ?_
  simp only [readElem, andThen_assoc, value_mapOk]
  rfl

theorem same_readNum (cfg : Cfg) (h : Endian) (cx : Bool) (t : ScalarTy) (w : Nat) :
    Rd.Same (readNum cfg t w) (readNum (cfg.at h cx) t w) := by
  rw [readNum_eq, readNum_eq]
  refine same_readNativeImpl fun m hm => ?_
  rw [numValue_at cfg h cx t m hm]
  exact .refl _

theorem same_readFixedBuf (cfg : Cfg) (h : Endian) (cx : Bool) (e : ElemTy) (n : Nat) :
    Rd.Same (readFixedBuf cfg e n) (readFixedBuf (cfg.at h cx) e n) := by
  rw [readFixedBuf_eq, readFixedBuf_eq]
  refine same_readNativeImpl fun m hm => ?_
  rw [blockValue_at cfg h cx e n m hm]
  exact .refl _

theorem readVec_eq (cfg : Cfg) (e : ElemTy) (c n : Nat) : readVec cfg e c n =
    match checkedByteCount cfg e.size c n with
    | .error r => RdE.err r
    | .ok byteCount => resize cfg (n * e.size)
      (if cfg.constexprStream then
        (repeatE ((readNativeImpl e.size e.size).andThen fun m =>
          RdE.value (elemValue cfg e m)) n).andThen fun vs => RdE.ok (.seq vs)
      else (readNativeImpl (n * e.size) byteCount).andThen fun m =>
        RdE.value ((blockValue cfg e n m).map .seq)) := by
  unfold readVec
  rw [readElems_eq]
  simp only [value_mapOk, blockValue, Option.map_map]
  rfl

theorem same_readVec (cfg : Cfg) (h : Endian) (e : ElemTy) (c n : Nat) :
    Rd.Same (readVec cfg e c n) (readVec (cfg.at h cfg.constexprStream) e c n) := by
  rw [readVec_eq, readVec_eq]
  show Rd.Same _ (match checkedByteCount cfg e.size c n with
    | .error r => RdE.err r
    | .ok byteCount => resize cfg (n * e.size) _)
  split
  · exact .refl _
  · refine same_resize _ _ ?_
    simp only [Cfg.at]
    split
    · refine RdE.same_andThen (same_repeatE (same_readNativeImpl fun m hm => ?_) _) fun _ => .refl _
      rw [elemValue_at cfg h cfg.constexprStream e m hm]
      exact .refl _
    · refine same_readNativeImpl fun m hm => ?_
      rw [blockValue_at cfg h cfg.constexprStream e n m hm]
      exact .refl _

theorem lenEval_at (cfg : Cfg) (h : Endian) (cx : Bool) (env : Env) (len : LenSpec) :
    len.eval (cfg.at h cx) env = len.eval cfg env := by
  cases len <;> rfl

mutual
theorem same_readKind (cfg : Cfg) (h : Endian) : (k : Kind) → ∀ env,
    Rd.Same (readKind cfg env k) (readKind (cfg.at h cfg.constexprStream) env k)
  | .num t w, env => by rw [readKind, readKind]; exact same_readNum _ _ _ _ _
  | .fbuf e n, env => by rw [readKind, readKind]; exact same_readFixedBuf _ _ _ _ _
  | .fstr n, env => by rw [readKind, readKind]; exact .refl _
  | .vec e len b, env => by
      rw [readKind, readKind, lenEval_at]
      exact RdE.same_andThen (.refl _) fun n => same_readVec _ _ _ _ _
  | .record fs, env => by
      rw [readKind, readKind]
      exact RdE.same_mapOk _ (RdE.same_mapErr _ (same_readFields cfg h fs _))
  | .arrRec fs n, env => by
      rw [readKind, readKind]
      exact RdE.same_mapOk _ (same_repeatE (RdE.same_mapOk _
        (RdE.same_mapErr _ (same_readFields cfg h fs _))) _)
  | .vecRec fs len b sz, env => by
      rw [readKind, readKind, lenEval_at]
      refine RdE.same_andThen (.refl _) fun n => ?_
      show Rd.Same _ (match checkedByteCount cfg sz (ceilingOf cfg b) n with
        | .error r => RdE.err r
        | .ok _ => resize cfg (n * sz) _)
      cases checkedByteCount cfg sz (ceilingOf cfg b) n
      · exact .refl _
      · exact same_resize _ _ (RdE.same_mapOk _ (same_repeatE (RdE.same_mapOk _
          (RdE.same_mapErr _ (same_readFields cfg h fs _))) _))
theorem same_readField (cfg : Cfg) (h : Endian) : (f : Field) → ∀ env,
    Rd.Same (readField cfg env f) (readField (cfg.at h cfg.constexprStream) env f)
  | .plain id k c, env => by rw [readField, readField]; exact same_readKind cfg h k env
  | .maybe id k p, env => by
      rw [readField, readField]
      refine RdE.same_andThen (.refl _) fun b => ?_
      split
      · exact RdE.same_mapOk _ (same_readKind cfg h k env)
      · exact .refl _
  | .union id d alts c, env => by
      rw [readField, readField]
      refine RdE.same_andThen (.refl _) fun o => ?_
      cases o with
      | none => exact .refl _
      | some i => exact RdE.same_mapOk _ (same_readAlts cfg h alts env i)
theorem same_readAlts (cfg : Cfg) (h : Endian) : (alts : List Alt) → ∀ env i,
    Rd.Same (readAlts cfg env alts i) (readAlts (cfg.at h cfg.constexprStream) env alts i)
  | [], env, i => by rw [readAlts, readAlts]; exact .refl _
  | .mk k c :: alts, env, 0 => by
      rw [readAlts, readAlts]
      exact RdE.same_andThen (same_readKind cfg h k env) fun _ => .refl _
  | .mk k c :: alts, env, i + 1 => by
      rw [readAlts, readAlts]
      exact same_readAlts cfg h alts env i
theorem same_readFields (cfg : Cfg) (h : Endian) : (fs : List Field) → ∀ env,
    Rd.Same (readFields cfg env fs) (readFields (cfg.at h cfg.constexprStream) env fs)
  | [], env => by rw [readFields, readFields]; exact .refl _
  | f :: fs, env => by
      rw [readFields, readFields]
      refine RdE.same_andThen (RdE.same_mapErr _ (RdE.same_andThen (same_readField cfg h f env)
        fun _ => .refl _)) fun _ => ?_
      exact RdE.same_andThen (same_readFields cfg h fs _) fun _ => .refl _
end

theorem same_structCast (cfg : Cfg) (h : Endian) (fs : List Field) :
    Rd.Same (structCast cfg fs) (structCast (cfg.at h cfg.constexprStream) fs) :=
  same_readFields cfg h fs _

end S2S
