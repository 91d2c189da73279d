import Verif.Model.StreamType
import Verif.Lemmas.Bytes
/-
The sizes of the calls a cast makes on a stream, against the objects its templates are
made for.
-/
namespace S2S

/-- Every read that can occur has a size with `P`. -/
def Rd.Within (P : Nat → Prop) : Rd α → Prop
  | .ret _ => True
  | .stuck _ => True
  | .read n k => P n ∧ ∀ o, Rd.Within P (k o)
  | .alloc _ k => Rd.Within P k

/-- Every write that can occur has a size with `P`. -/
def Wr.Within (P : Nat → Prop) : Wr α → Prop
  | .ret _ => True
  | .stuck _ => True
  | .write bs k => P bs.length ∧ ∀ b, Wr.Within P (k b)

theorem Rd.Within.mem {P : Nat → Prop} {r : Rd α} (h : r.Within P) (S : InStream) (s : S.State)
    {n : Nat} (hn : n ∈ r.callsOn S s) : P n := by
  induction r generalizing s with
  | ret => simp [callsOn] at hn
  | stuck => simp [callsOn] at hn
  | read m k ih =>
    simp only [callsOn, List.mem_cons] at hn
    rcases hn with rfl | hn
    · exact h.1
    · exact ih _ (h.2 _) _ hn
  | alloc b k ih => exact ih h _ hn

theorem Wr.Within.mem {P : Nat → Prop} {r : Wr α} (h : r.Within P) (S : OutStream) (s : S.State)
    {n : Nat} (hn : n ∈ r.callsOn S s) : P n := by
  induction r generalizing s with
  | ret => simp [callsOn] at hn
  | stuck => simp [callsOn] at hn
  | write m k ih =>
    simp only [callsOn, List.mem_cons] at hn
    rcases hn with rfl | hn
    · exact h.1
    · exact ih _ (h.2 _) _ hn

theorem Rd.Within.bind {P : Nat → Prop} {r : Rd α} {f : α → Rd β} (h : r.Within P)
    (hf : ∀ a, (f a).Within P) : (r.bind f).Within P := by
  induction r with
  | ret a => exact hf a
  | stuck => trivial
  | read m k ih => exact ⟨h.1, fun o => ih o (h.2 o)⟩
  | alloc b k ih => exact ih h

theorem Wr.Within.bind {P : Nat → Prop} {r : Wr α} {f : α → Wr β} (h : r.Within P)
    (hf : ∀ a, (f a).Within P) : (r.bind f).Within P := by
  induction r with
  | ret a => exact hf a
  | stuck => trivial
  | write m k ih => exact ⟨h.1, fun o => ih o (h.2 o)⟩

theorem Rd.Within.mono {P Q : Nat → Prop} {r : Rd α} (h : r.Within P) (hPQ : ∀ n, P n → Q n) :
    r.Within Q := by
  induction r with
  | ret => trivial
  | stuck => trivial
  | read m k ih => exact ⟨hPQ _ h.1, fun o => ih o (h.2 o)⟩
  | alloc b k ih => exact ih h

theorem Wr.Within.mono {P Q : Nat → Prop} {r : Wr α} (h : r.Within P) (hPQ : ∀ n, P n → Q n) :
    r.Within Q := by
  induction r with
  | ret => trivial
  | stuck => trivial
  | write m k ih => exact ⟨hPQ _ h.1, fun o => ih o (h.2 o)⟩

theorem within_andThen {P : Nat → Prop} {r : RdE ε α} {f : α → RdE ε β} (h : Rd.Within P r)
    (hf : ∀ a, Rd.Within P (f a)) : Rd.Within P (r.andThen f) := by
  refine Rd.Within.bind h fun a => ?_
  cases a with
  | ok a => exact hf a
  | error => trivial

theorem within_mapErr {P : Nat → Prop} {r : RdE ε α} {g : ε → ε'} (h : Rd.Within P r) :
    Rd.Within P (r.mapErr g) := Rd.Within.bind h fun _ => trivial

theorem within_mapOk {P : Nat → Prop} {r : RdE ε α} {g : α → β} (h : Rd.Within P r) :
    Rd.Within P (r.mapOk g) := within_andThen h fun _ => trivial

theorem within_lift {P : Nat → Prop} (r : Except Stuck α) : Rd.Within P (RdE.lift (ε := ε) r) := by
  cases r <;> trivial

theorem within_value {P : Nat → Prop} (r : Option α) : Rd.Within P (RdE.value (ε := ε) r) := by
  cases r <;> trivial

theorem within_checked {P : Nat → Prop} (c : Constraint) (v : Val) :
    Rd.Within P (RdE.checked c v) := by
  refine within_andThen (within_lift _) fun b => ?_
  cases b <;> trivial

theorem within_repeatE {P : Nat → Prop} {r : RdE ε Val} (h : Rd.Within P r) (n : Nat) :
    Rd.Within P (repeatE r n) := by
  induction n with
  | zero => trivial
  | succ n ih => exact within_andThen h fun v => within_andThen ih fun _ => trivial

theorem within_resize {P : Nat → Prop} {cfg : Cfg} {b : Nat} {k : RdE ε α} (h : Rd.Within P k) :
    Rd.Within P (resize cfg b k) := by
  unfold resize
  split
  · trivial
  · exact h

theorem within_native (P : Nat → Prop) (size n : Nat) (h : n ≤ size → P n) :
    Rd.Within P (readNativeImpl size n) := by
  unfold readNativeImpl
  split
  · trivial
  · refine ⟨h (by omega), fun o => ?_⟩
    cases o <;> trivial

theorem within_readVec {cfg : Cfg} (hc : cfg.constexprStream = true) (e : ElemTy) (c n : Nat) :
    Rd.Within (· ≤ e.size) (readVec cfg e c n) := by
  unfold readVec
  split
  · trivial
  · refine within_resize ?_
    simp only [hc, if_true]
    refine within_andThen (within_repeatE ?_ _) fun _ => trivial
    exact within_andThen (within_native _ _ _ id) fun _ => within_value _

/-- A read call is no larger than one of the objects the list's reads are made for. -/
abbrev Under (shapes : List Nat) (n : Nat) : Prop := ∃ N ∈ shapes, n ≤ N

mutual
theorem readKind_within {cfg : Cfg} (hc : cfg.constexprStream = true) (env : Env) :
    (k : Kind) → Rd.Within (Under k.readShapes) (readKind cfg env k)
  | .num t w => by
      simp only [readKind, readNum]
      refine within_andThen (within_native _ _ _ fun h => ⟨t.size, by simp [Kind.readShapes], h⟩) fun _ =>
        within_andThen (within_value _) fun _ => trivial
  | .fbuf e n => by
      simp only [readKind, readFixedBuf]
      refine within_andThen (within_native _ _ _ fun h => ⟨n * e.size, by simp [Kind.readShapes], h⟩) fun _ =>
        within_andThen (within_value _) fun _ => trivial
  | .fstr n => by
      simp only [readKind, readFixedStr]
      exact within_andThen (within_native _ _ _ fun h => ⟨n + 1, by simp [Kind.readShapes], h⟩) fun _ => trivial
  | .vec e len bound => by
      simp only [readKind]
      refine within_andThen (within_lift _) fun _ => ?_
      exact (within_readVec hc _ _ _).mono fun n h => ⟨e.size, by simp [Kind.readShapes], h⟩
  | .record fs => by
      simp only [readKind, RdE.untag, Kind.readShapes]
      exact within_mapOk (within_mapErr (readFields_within hc _ fs))
  | .arrRec fs n => by
      simp only [readKind, RdE.untag, Kind.readShapes]
      exact within_mapOk (within_repeatE (within_mapOk (within_mapErr (readFields_within hc _ fs))) _)
  | .vecRec fs len bound sz => by
      simp only [readKind, RdE.untag, Kind.readShapes]
      refine within_andThen (within_lift _) fun n => ?_
      split
      · trivial
      · exact within_resize (within_mapOk (within_repeatE (within_mapOk (within_mapErr (readFields_within hc _ fs))) _))
  termination_by structural x => x
theorem readField_within {cfg : Cfg} (hc : cfg.constexprStream = true) (env : Env) :
    (f : Field) → Rd.Within (Under f.readShapes) (readField cfg env f)
  | .plain _ k _ => by
      simp only [readField, Field.readShapes]
      exact readKind_within hc env k
  | .maybe _ k p => by
      simp only [readField, Field.readShapes]
      refine within_andThen (within_lift _) fun b => ?_
      cases b
      · trivial
      · exact within_mapOk (readKind_within hc env k)
  | .union _ d alts _ => by
      simp only [readField, Field.readShapes]
      refine within_andThen (within_lift _) fun b => ?_
      cases b
      · trivial
      · exact within_mapOk (readAlts_within hc env alts _)
  termination_by structural x => x
theorem readAlts_within {cfg : Cfg} (hc : cfg.constexprStream = true) (env : Env) :
    (alts : List Alt) → (i : Nat) → Rd.Within (Under (Alt.readShapesAll alts)) (readAlts cfg env alts i)
  | [], i => by simp only [readAlts]; trivial
  | .mk k c :: alts, i => by
      cases i with
      | zero =>
        simp only [readAlts]
        refine within_andThen ((readKind_within hc env k).mono ?_) fun v => within_mapOk (within_checked _ _)
        rintro n ⟨N, hN, h⟩
        exact ⟨N, by simp [Alt.readShapesAll, hN], h⟩
      | succ i =>
        simp only [readAlts]
        refine (readAlts_within hc env alts i).mono ?_
        rintro n ⟨N, hN, h⟩
        exact ⟨N, by simp [Alt.readShapesAll, hN], h⟩
  termination_by structural x => x
theorem readFields_within {cfg : Cfg} (hc : cfg.constexprStream = true) (env : Env) :
    (fs : List Field) → Rd.Within (Under (Field.readShapesAll fs)) (readFields cfg env fs)
  | [] => by simp only [readFields]; trivial
  | f :: fs => by
      simp only [readFields, RdE.tag]
      refine within_andThen (within_mapErr (within_andThen ((readField_within hc env f).mono ?_)
        fun v => within_checked _ _)) fun v => within_andThen ((readFields_within hc _ fs).mono ?_) fun _ => trivial
      · rintro n ⟨N, hN, h⟩
        exact ⟨N, by simp [Field.readShapesAll, hN], h⟩
      · rintro n ⟨N, hN, h⟩
        exact ⟨N, by simp [Field.readShapesAll, hN], h⟩
  termination_by structural x => x
end

/-! ### Writing -/

theorem wwithin_andThen {P : Nat → Prop} {r : WrE ε α} {f : α → WrE ε β} (h : Wr.Within P r)
    (hf : ∀ a, Wr.Within P (f a)) : Wr.Within P (r.andThen f) := by
  refine Wr.Within.bind h fun a => ?_
  cases a with
  | ok a => exact hf a
  | error => trivial

theorem wwithin_mapErr {P : Nat → Prop} {r : WrE ε α} {g : ε → ε'} (h : Wr.Within P r) :
    Wr.Within P (r.mapErr g) := Wr.Within.bind h fun _ => trivial

theorem wwithin_lift {P : Nat → Prop} (r : Except Stuck α) : Wr.Within P (WrE.lift (ε := ε) r) := by
  cases r <;> trivial

theorem wwithin_checked {P : Nat → Prop} (c : Constraint) (v : Val) {k : WrE Reason Unit}
    (h : Wr.Within P k) : Wr.Within P (WrE.checked c v k) := by
  refine wwithin_andThen (wwithin_lift _) fun b => ?_
  cases b
  · trivial
  · exact h

theorem wwithin_native (P : Nat → Prop) (mem : List Byte) (n : Nat) (h : n ≤ mem.length → P n) :
    Wr.Within P (writeNativeImpl mem n) := by
  unfold writeNativeImpl
  split
  · trivial
  · refine ⟨?_, fun o => ?_⟩
    · rw [List.length_take, Nat.min_eq_left (by omega)]; exact h (by omega)
    · cases o <;> trivial

theorem wwithin_nativeOpt (P : Nat → Prop) (mem : Option (List Byte)) (n : Nat) (h : P n) :
    Wr.Within P (writeNative mem n) := by
  unfold writeNative
  split
  · exact wwithin_native _ _ _ fun _ => h
  · trivial

theorem wwithin_all {P : Nat → Prop} {f : Val → WrE ε Unit} (vs : List Val)
    (h : ∀ v, Wr.Within P (f v)) : Wr.Within P (WrE.all (vs.map f)) := by
  induction vs with
  | nil => trivial
  | cons v vs ih => exact wwithin_andThen (h v) fun _ => ih

theorem wwithin_foreign {cfg : Cfg} (e : ElemTy) (v : Val) :
    Wr.Within (· ≤ e.leaf.size) (writeForeignElem cfg e v) := by
  induction e generalizing v with
  | scalar t =>
    cases v <;> simp only [writeForeignElem] <;> try trivial
    exact wwithin_native _ _ _ fun _ => Nat.le_refl _
  | arr e n ih =>
    cases v <;> simp only [writeForeignElem] <;> try trivial
    split
    · exact wwithin_all _ ih
    · trivial

theorem wwithin_fixed {cfg : Cfg} (k : Kind) (v : Val) :
    Wr.Within (Under (k.writeShapes cfg.foreign)) (emitFixed cfg k v) := by
  unfold emitFixed
  split
  · rename_i t w x
    refine wwithin_native _ _ _ fun h => ⟨t.size, by simp [Kind.writeShapes], ?_⟩
    rwa [ScalarTy.toMem_length] at h
  · rename_i e n vs
    unfold writeFixedBuf
    split
    · trivial
    · split
      · rename_i hf
        exact wwithin_all _ fun v => (wwithin_foreign e v).mono fun m h =>
          ⟨e.leaf.size, by simp [Kind.writeShapes, hf], h⟩
      · rename_i hf
        exact wwithin_nativeOpt _ _ _ ⟨n * e.size, by simp [Kind.writeShapes, hf], Nat.le_refl _⟩
  · rename_i n vs
    unfold writeFixedStr
    split
    · trivial
    · exact wwithin_nativeOpt _ _ _ ⟨n + 1, by simp [Kind.writeShapes], Nat.le_refl _⟩
  · trivial

theorem wwithin_verify {cfg : Cfg} {ctx : WCtx} {id : String} {k : Kind} (v : Val) :
    Wr.Within (Under (k.writeShapes cfg.foreign)) (verifyThenWrite cfg ctx id k v) := by
  unfold verifyThenWrite
  split
  · split
    · refine wwithin_andThen (wwithin_lift _) fun b => ?_
      cases b
      · trivial
      · exact wwithin_fixed _ _
    · trivial
  · exact wwithin_fixed _ _

theorem wwithin_writeFixed {cfg : Cfg} {ctx : WCtx} {m : Bool} {id : String} {k : Kind}
    {c : Constraint} (v : Val) :
    Wr.Within (Under (k.writeShapes cfg.foreign)) (writeFixed cfg ctx m id k c v) := by
  unfold writeFixed
  split
  · split
    · refine wwithin_andThen (wwithin_lift _) fun r => ?_
      cases r
      · trivial
      · refine wwithin_andThen (wwithin_lift _) fun b => ?_
        cases b
        · trivial
        · exact wwithin_verify _
    · trivial
  · split
    · exact wwithin_verify _
    · exact wwithin_verify _

theorem wwithin_computed {P : Nat → Prop} {cfg : Cfg} {env : Env} {len : LenSpec} {n : Nat}
    {k : WrE Reason Unit} (h : Wr.Within P k) : Wr.Within P (verifyComputed cfg env len n k) := by
  unfold verifyComputed
  split
  · exact h
  · refine wwithin_andThen (wwithin_lift _) fun m => ?_
    split
    · trivial
    · exact h

theorem wwithin_recs {P : Nat → Prop} {one : List Val → WrE CastError Unit}
    (h : ∀ ws, Wr.Within P (one ws)) (vs : List Val) : Wr.Within P (writeRecs one vs) := by
  induction vs with
  | nil => trivial
  | cons v vs ih =>
    cases v <;> simp only [writeRecs] <;> try trivial
    exact wwithin_andThen (wwithin_mapErr (h _)) fun _ => ih

theorem wwithin_vec {cfg : Cfg} (hc : cfg.constexprStream = true) (e : ElemTy) (len : LenSpec)
    (b : Option Nat) (vs : List Val) :
    Wr.Within (Under (Kind.writeShapes cfg.foreign (.vec e len b))) (writeVec cfg e vs) := by
  unfold writeVec
  simp only [hc]
  split
  · rename_i hf
    exact wwithin_all _ fun v => (wwithin_foreign e v).mono fun m h =>
      ⟨e.leaf.size, by simp [Kind.writeShapes, hf], h⟩
  · rename_i hf
    simp only [if_true]
    exact wwithin_all _ fun v => wwithin_nativeOpt _ _ _
      ⟨e.size, by simp [Kind.writeShapes, hf], Nat.le_refl _⟩

mutual
theorem writeKind_within {cfg : Cfg} (hc : cfg.constexprStream = true) (ctx : WCtx) (m : Bool)
    (id : String) (c : Constraint) : (k : Kind) → (v : Val) →
    Wr.Within (Under (k.writeShapes cfg.foreign)) (writeKind cfg ctx m id c k v)
  | .num t w, v => by simp only [writeKind]; exact wwithin_writeFixed v
  | .fbuf e n, v => by simp only [writeKind]; exact wwithin_writeFixed v
  | .fstr n, v => by simp only [writeKind]; exact wwithin_writeFixed v
  | .vec e len bound, v => by
      cases v <;> simp only [writeKind] <;> try trivial
      exact wwithin_computed (wwithin_vec hc _ _ _ _)
  | .record fs, v => by
      cases v <;> simp only [writeKind, Kind.writeShapes] <;> try trivial
      exact wwithin_mapErr (writeFields_within hc _ fs _)
  | .arrRec fs n, v => by
      cases v <;> simp only [writeKind, Kind.writeShapes] <;> try trivial
      split
      · trivial
      · exact wwithin_recs (fun ws => writeFields_within hc _ fs ws) _
  | .vecRec fs len bound sz, v => by
      cases v <;> simp only [writeKind, Kind.writeShapes] <;> try trivial
      exact wwithin_computed (wwithin_recs (fun ws => writeFields_within hc _ fs ws) _)
  termination_by structural x => x
theorem writeField_within {cfg : Cfg} (hc : cfg.constexprStream = true) (ctx : WCtx) :
    (f : Field) → (v : Val) →
    Wr.Within (Under (f.writeShapes cfg.foreign)) (writeField cfg ctx f v)
  | .plain id k c, v => by
      simp only [writeField, Field.writeShapes]
      exact writeKind_within hc ctx _ _ _ k v
  | .maybe id k p, v => by
      simp only [writeField, Field.writeShapes]
      refine wwithin_andThen (wwithin_lift _) fun b => ?_
      cases v <;> try trivial
      · dsimp only
        split <;> trivial
      · rename_i w
        dsimp only
        split
        · exact writeKind_within hc ctx _ _ _ k w
        · trivial
  | .union id d alts _, v => by
      simp only [writeField, Field.writeShapes]
      cases v <;> try trivial
      rename_i i w
      dsimp only
      split
      · exact writeAlts_within hc ctx id alts i w
      · refine wwithin_andThen (wwithin_lift _) fun j => ?_
        cases j with
        | none => trivial
        | some j =>
          dsimp only
          split
          · trivial
          · exact writeAlts_within hc ctx id alts i w
  termination_by structural x => x
theorem writeAlts_within {cfg : Cfg} (hc : cfg.constexprStream = true) (ctx : WCtx) (id : String) :
    (alts : List Alt) → (i : Nat) → (v : Val) →
    Wr.Within (Under (Alt.writeShapesAll cfg.foreign alts)) (writeAlts cfg ctx id alts i v)
  | [], i, v => by simp only [writeAlts]; trivial
  | .mk k c :: alts, i, v => by
      cases i with
      | zero =>
        simp only [writeAlts]
        refine wwithin_checked _ _ ((writeKind_within hc ctx _ _ _ k v).mono ?_)
        rintro n ⟨N, hN, h⟩
        exact ⟨N, by simp [Alt.writeShapesAll, hN], h⟩
      | succ i =>
        simp only [writeAlts]
        refine (writeAlts_within hc ctx id alts i v).mono ?_
        rintro n ⟨N, hN, h⟩
        exact ⟨N, by simp [Alt.writeShapesAll, hN], h⟩
  termination_by structural x => x
theorem writeFields_within {cfg : Cfg} (hc : cfg.constexprStream = true) (ctx : WCtx) :
    (fs : List Field) → (vs : List Val) →
    Wr.Within (Under (Field.writeShapesAll cfg.foreign fs)) (writeFields cfg ctx fs vs)
  | [], vs => by cases vs <;> simp only [writeFields] <;> trivial
  | f :: fs, vs => by
      cases vs with
      | nil => simp only [writeFields]; trivial
      | cons v vs =>
        simp only [writeFields]
        have h1 : Wr.Within (Under (Field.writeShapesAll cfg.foreign (f :: fs))) (writeField cfg ctx f v) := by
          refine (writeField_within hc ctx f v).mono ?_
          rintro n ⟨N, hN, h⟩
          exact ⟨N, by simp [Field.writeShapesAll, hN], h⟩
        refine wwithin_andThen (wwithin_mapErr ?_) fun _ => (writeFields_within hc ctx fs vs).mono ?_
        · split
          · exact h1
          · exact wwithin_checked _ _ h1
        · rintro n ⟨N, hN, h⟩
          exact ⟨N, by simp [Field.writeShapesAll, hN], h⟩
  termination_by structural x => x
end

end S2S
