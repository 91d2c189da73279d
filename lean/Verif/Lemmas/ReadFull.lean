import Verif.Lemmas.ReadTree
/-
`buffer_exhaustion` is given only when a read failed.
-/
namespace S2S
open Spec

/-- While every read is satisfied, results are in `Q`. -/
def Rd.Full (Q : α → Prop) : Rd α → Prop
  | ret a => Q a
  | stuck _ => True
  | read n k => ∀ q, q.length = n → (k (some q)).Full Q
  | alloc _ k => k.Full Q

theorem Rd.full_bind {Q : α → Prop} {Q' : β → Prop} (r : Rd α) (f : α → Rd β) (hr : r.Full Q)
    (hf : ∀ a, Q a → (f a).Full Q') : (r.bind f).Full Q' := by
  induction r with
  | ret a => exact hf a hr
  | stuck w => trivial
  | read n k ih => exact fun q hq => ih _ (hr q hq)
  | alloc b k ih => exact ih hr

theorem Rd.full_path {Q : α → Prop} {r : Rd α} (h : r.Full Q) {p : List Byte} {a : α}
    (hp : r.Path p (.done a)) : Q a := by
  induction r generalizing p with
  | ret a => obtain ⟨_, h'⟩ := hp; cases h'; exact h
  | stuck w => obtain ⟨_, h'⟩ := hp; cases h'
  | read n k ih => obtain ⟨q, s, _, hq, hp⟩ := hp; exact ih _ (h q hq) hp
  | alloc b k ih => exact ih h hp

/-- Errors, while every read is satisfied, are in `E`. -/
abbrev FullE (E : ε → Prop) (r : RdE ε α) : Prop :=
  Rd.Full (fun | .ok _ => True | .error e => E e) r

theorem full_andThen {E : ε → Prop} {r : RdE ε α} {f : α → RdE ε β} (hr : FullE E r)
    (hf : ∀ a, FullE E (f a)) : FullE E (r.andThen f) :=
  Rd.full_bind _ _ hr fun a ha => by
    cases a with
    | ok a => exact hf a
    | error e => exact ha

theorem full_mapErr {E : ε → Prop} {E' : ε' → Prop} {r : RdE ε α} {g : ε → ε'} (hr : FullE E r)
    (hg : ∀ e, E e → E' (g e)) : FullE E' (r.mapErr g) :=
  Rd.full_bind _ _ hr fun a ha => by
    cases a with
    | ok a => trivial
    | error e => exact hg e ha

theorem full_mapOk {E : ε → Prop} {r : RdE ε α} {g : α → β} (hr : FullE E r) :
    FullE E (r.mapOk g) := full_andThen hr fun _ => trivial

theorem full_lift (E : ε → Prop) (o : Except Stuck α) : FullE E (RdE.lift o : RdE ε α) := by
  cases o <;> trivial

abbrev NotEx : Reason → Prop := fun e => e ≠ .bufferExhaustion
abbrev NotExC : CastError → Prop := fun e => e.reason ≠ .bufferExhaustion

theorem full_readNativeImpl (size n : Nat) : FullE NotEx (readNativeImpl size n) := by
  unfold readNativeImpl
  split
  · trivial
  · exact fun q _ => trivial

theorem full_value (o : Option α) : FullE NotEx (RdE.value o : RdE Reason α) := by
  cases o <;> trivial

theorem full_checked (c : Constraint) (v : Val) : FullE NotEx (RdE.checked c v) := by
  refine full_andThen (full_lift _ _) fun b => ?_
  split
  · trivial
  · show Reason.validationFailure ≠ .bufferExhaustion
    decide

theorem full_repeatE {E : ε → Prop} {r : RdE ε Val} (h : FullE E r) (n : Nat) :
    FullE E (repeatE r n) := by
  induction n with
  | zero => trivial
  | succ n ih => exact full_andThen h fun _ => full_andThen ih fun _ => trivial

theorem full_resize {E : ε → Prop} (cfg : Cfg) (n : Nat) {k : RdE ε α} (h : FullE E k) :
    FullE E (resize cfg n k) := by
  unfold resize
  split
  · trivial
  · exact h

theorem full_excessive {r : Reason} {a b c : Nat} {cfg : Cfg} (α : Type)
    (h : checkedByteCount cfg a b c = .error r) : FullE NotEx (RdE.err r : RdE Reason α) := by
  rw [checkedByteCount_error _ _ _ _ _ h]
  show Reason.excessiveLength ≠ .bufferExhaustion
  decide

theorem full_readVec (cfg : Cfg) (e : ElemTy) (c n : Nat) : FullE NotEx (readVec cfg e c n) := by
  unfold readVec
  split
  · rename_i h
    exact full_excessive _ h
  · apply full_resize
    split
    · exact full_andThen (full_repeatE (full_andThen (full_readNativeImpl _ _)
        fun _ => full_value _) _) fun _ => trivial
    · exact full_andThen (full_readNativeImpl _ _) fun _ =>
        full_andThen (full_value _) fun _ => trivial

mutual
theorem full_readKind (cfg : Cfg) : (k : Kind) → ∀ env, FullE NotEx (readKind cfg env k)
  | .num t w, env => by
      rw [readKind]
      exact full_andThen (full_readNativeImpl _ _) fun _ =>
        full_andThen (full_value _) fun _ => trivial
  | .fbuf e n, env => by
      rw [readKind]
      exact full_andThen (full_readNativeImpl _ _) fun _ =>
        full_andThen (full_value _) fun _ => trivial
  | .fstr n, env => by
      rw [readKind]
      exact full_andThen (full_readNativeImpl _ _) fun _ => trivial
  | .vec e len b, env => by
      rw [readKind]
      exact full_andThen (full_lift _ _) fun _ => full_readVec _ _ _ _
  | .record fs, env => by
      rw [readKind]
      exact full_mapOk (full_mapErr (E' := NotEx) (g := CastError.reason) (full_readFields cfg fs _) fun _ h => h)
  | .arrRec fs n, env => by
      rw [readKind]
      exact full_mapOk (full_repeatE (full_mapOk
        (full_mapErr (E' := NotEx) (g := CastError.reason) (full_readFields cfg fs _) fun _ h => h)) _)
  | .vecRec fs len b sz, env => by
      rw [readKind]
      refine full_andThen (full_lift _ _) fun n => ?_
      split
      · rename_i h
        exact full_excessive _ h
      · exact full_resize _ _ (full_mapOk (full_repeatE (full_mapOk
          (full_mapErr (E' := NotEx) (g := CastError.reason) (full_readFields cfg fs _) fun _ h => h)) _))
theorem full_readField (cfg : Cfg) : (f : Field) → ∀ env, FullE NotEx (readField cfg env f)
  | .plain id k c, env => by rw [readField]; exact full_readKind cfg k env
  | .maybe id k p, env => by
      rw [readField]
      refine full_andThen (full_lift _ _) fun b => ?_
      split
      · exact full_mapOk (full_readKind cfg k env)
      · trivial
  | .union id d alts c, env => by
      rw [readField]
      refine full_andThen (full_lift _ _) fun o => ?_
      cases o with
      | none =>
        show Reason.typeDeductionFailure ≠ .bufferExhaustion
        decide
      | some i => exact full_mapOk (full_readAlts cfg alts env i)
theorem full_readAlts (cfg : Cfg) : (alts : List Alt) → ∀ env i,
    FullE NotEx (readAlts cfg env alts i)
  | [], env, i => by rw [readAlts]; trivial
  | .mk k c :: alts, env, 0 => by
      rw [readAlts]
      exact full_andThen (full_readKind cfg k env) fun _ => full_mapOk (full_checked _ _)
  | .mk k c :: alts, env, i + 1 => by
      rw [readAlts]
      exact full_readAlts cfg alts env i
theorem full_readFields (cfg : Cfg) : (fs : List Field) → ∀ env,
    FullE NotExC (readFields cfg env fs)
  | [], env => by rw [readFields]; trivial
  | f :: fs, env => by
      rw [readFields]
      refine full_andThen (full_mapErr (full_andThen (full_readField cfg f env)
        fun _ => full_checked _ _) fun _ h => h) fun _ => ?_
      exact full_andThen (full_readFields cfg fs _) fun _ => trivial
end

end S2S
