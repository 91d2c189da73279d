import Verif.Model.Read
import Verif.Lemmas.RunOn
import Verif.Spec.Schema
/-
Facts about the read trees that do not depend on what is read: how they end when
a read fails, which reasons they can give, what they allocate.
-/
namespace S2S

/-! ### A failed read ends the cast with `buffer_exhaustion` -/

abbrev ShortR (r : RdE Reason α) : Prop := RdE.ShortE (fun e => e = .bufferExhaustion) r
abbrev ShortC (r : RdE CastError α) : Prop := RdE.ShortE (fun e => e.reason = .bufferExhaustion) r

theorem short_readNativeImpl (size n : Nat) : ShortR (readNativeImpl size n) := by
  unfold readNativeImpl
  split
  · trivial
  · exact ⟨⟨_, rfl, rfl⟩, fun q _ => trivial⟩

theorem short_value (o : Option α) : ShortR (RdE.value o : RdE Reason α) := by
  cases o <;> trivial

theorem short_lift (o : Except Stuck α) (P : ε → Prop) : RdE.ShortE P (RdE.lift o : RdE ε α) := by
  cases o <;> trivial

theorem short_checked (c : Constraint) (v : Val) : ShortR (RdE.checked c v) := by
  refine RdE.short_andThen (short_lift _ _) fun b => ?_
  split <;> trivial

theorem short_readNum (cfg : Cfg) (t : ScalarTy) (w : Nat) : ShortR (readNum cfg t w) :=
  RdE.short_andThen (short_readNativeImpl _ _) fun _ =>
    RdE.short_andThen (short_value _) fun _ => trivial

theorem short_readFixedBuf (cfg : Cfg) (e : ElemTy) (n : Nat) : ShortR (readFixedBuf cfg e n) :=
  RdE.short_andThen (short_readNativeImpl _ _) fun _ =>
    RdE.short_andThen (short_value _) fun _ => trivial

theorem short_readFixedStr (n : Nat) : ShortR (readFixedStr n) :=
  RdE.short_andThen (short_readNativeImpl _ _) fun _ => trivial

theorem short_repeatE {P : ε → Prop} {r : RdE ε Val} (h : RdE.ShortE P r) (n : Nat) :
    RdE.ShortE P (repeatE r n) := by
  induction n with
  | zero => trivial
  | succ n ih => exact RdE.short_andThen h fun _ => RdE.short_andThen ih fun _ => trivial

theorem short_resize {P : ε → Prop} (cfg : Cfg) (n : Nat) {k : RdE ε α} (h : RdE.ShortE P k) :
    RdE.ShortE P (resize cfg n k) := by
  unfold resize
  split
  · trivial
  · exact h

theorem short_readVec (cfg : Cfg) (e : ElemTy) (c n : Nat) : ShortR (readVec cfg e c n) := by
  unfold readVec
  split
  · trivial
  · apply short_resize
    split
    · exact RdE.short_andThen (short_repeatE (RdE.short_andThen (short_readNativeImpl _ _)
        fun _ => short_value _) _) fun _ => trivial
    · exact RdE.short_andThen (short_readNativeImpl _ _) fun _ =>
        RdE.short_andThen (short_value _) fun _ => trivial

mutual
theorem short_readKind (cfg : Cfg) : (k : Kind) → ∀ env, ShortR (readKind cfg env k)
  | .num t w, env => by rw [readKind]; exact short_readNum _ _ _
  | .fbuf e n, env => by rw [readKind]; exact short_readFixedBuf _ _ _
  | .fstr n, env => by rw [readKind]; exact short_readFixedStr _
  | .vec e len b, env => by
      rw [readKind]
      exact RdE.short_andThen (short_lift _ _) fun _ => short_readVec _ _ _ _
  | .record fs, env => by
      rw [readKind]
      exact RdE.short_mapOk (RdE.short_mapErr (short_readFields cfg fs _) fun _ h => h)
  | .arrRec fs n, env => by
      rw [readKind]
      exact RdE.short_mapOk (short_repeatE (RdE.short_mapOk
        (RdE.short_mapErr (short_readFields cfg fs _) fun _ h => h)) _)
  | .vecRec fs len b sz, env => by
      rw [readKind]
      refine RdE.short_andThen (short_lift _ _) fun n => ?_
      split
      · trivial
      · exact short_resize _ _ (RdE.short_mapOk (short_repeatE (RdE.short_mapOk
          (RdE.short_mapErr (short_readFields cfg fs _) fun _ h => h)) _))
theorem short_readField (cfg : Cfg) : (f : Field) → ∀ env, ShortR (readField cfg env f)
  | .plain id k c, env => by rw [readField]; exact short_readKind cfg k env
  | .maybe id k p, env => by
      rw [readField]
      refine RdE.short_andThen (short_lift _ _) fun b => ?_
      split
      · exact RdE.short_mapOk (short_readKind cfg k env)
      · trivial
  | .union id d alts c, env => by
      rw [readField]
      refine RdE.short_andThen (short_lift _ _) fun o => ?_
      cases o with
      | none => trivial
      | some i => exact RdE.short_mapOk (short_readAlts cfg alts env i)
theorem short_readAlts (cfg : Cfg) : (alts : List Alt) → ∀ env i, ShortR (readAlts cfg env alts i)
  | [], env, i => by rw [readAlts]; trivial
  | .mk k c :: alts, env, 0 => by
      rw [readAlts]
      exact RdE.short_andThen (short_readKind cfg k env) fun _ =>
        RdE.short_mapOk (short_checked _ _)
  | .mk k c :: alts, env, i + 1 => by
      rw [readAlts]
      exact short_readAlts cfg alts env i
theorem short_readFields (cfg : Cfg) : (fs : List Field) → ∀ env, ShortC (readFields cfg env fs)
  | [], env => by rw [readFields]; trivial
  | f :: fs, env => by
      rw [readFields]
      refine RdE.short_andThen (RdE.short_mapErr (RdE.short_andThen (short_readField cfg f env)
        fun _ => short_checked _ _) fun _ h => h) fun _ => ?_
      exact RdE.short_andThen (short_readFields cfg fs _) fun _ => trivial
end

theorem short_structCast (cfg : Cfg) (fs : List Field) : ShortC (structCast cfg fs) :=
  short_readFields cfg fs _

/-! ### Reasons and allocations -/

open Spec

/-- The reasons a read can give, for something that contains unions (or not) and
containers with the given ceilings. -/
def ReadReason (union : Bool) (ceilings : List Nat) (r : Reason) : Prop :=
  r ≠ .foundContradictingLength ∧
  (r = .typeDeductionFailure → union = true) ∧
  (r = .excessiveLength → ceilings ≠ [])

/-- Storage within one of the ceilings. -/
def Within (ceilings : List Nat) (b : Nat) : Prop := ∃ c ∈ ceilings, b ≤ c

abbrev Anything {α : Type} : α → Prop := fun _ => True

/-- Anything may be the result; reasons and allocations are limited. -/
abbrev Tame (union : Bool) (ceilings : List Nat) (r : RdE Reason α) : Prop :=
  RdE.AllE Anything (ReadReason union ceilings) (Within ceilings) Anything r

theorem ReadReason.mono {u u' : Bool} {cs cs' : List Nat} {r : Reason}
    (h : ReadReason u cs r) (hu : u = true → u' = true) (hc : ∀ c ∈ cs, c ∈ cs') :
    ReadReason u' cs' r := by
  refine ⟨h.1, fun hr => hu (h.2.1 hr), fun hr hn => ?_⟩
  subst hn
  have := h.2.2 hr
  cases cs with
  | nil => contradiction
  | cons c cs => exact absurd (hc c (by simp)) (by simp)

theorem Tame.mono {u u' : Bool} {cs cs' : List Nat} {r : RdE Reason α}
    (h : Tame u cs r) (hu : u = true → u' = true) (hc : ∀ c ∈ cs, c ∈ cs') : Tame u' cs' r := by
  refine Rd.All.mono h ?_ ?_ (fun _ h => h)
  · rintro (e | a) h
    · exact ReadReason.mono h hu hc
    · trivial
  · rintro b ⟨c, h1, h2⟩
    exact ⟨c, hc c h1, h2⟩

theorem tame_ok (u : Bool) (cs : List Nat) (a : α) : Tame u cs (RdE.ok a) := trivial

theorem tame_value (u : Bool) (cs : List Nat) (o : Option α) : Tame u cs (RdE.value o) := by
  cases o <;> trivial

theorem tame_lift (u : Bool) (cs : List Nat) (o : Except Stuck α) : Tame u cs (RdE.lift o) := by
  cases o <;> trivial

theorem tame_readNativeImpl (u : Bool) (cs : List Nat) (size n : Nat) :
    Tame u cs (readNativeImpl size n) := by
  unfold readNativeImpl
  split
  · trivial
  · exact ⟨⟨by simp, by simp, by simp⟩, fun q _ => trivial⟩

theorem tame_andThen {u : Bool} {cs : List Nat} {r : RdE Reason α} {f : α → RdE Reason β}
    (hr : Tame u cs r) (hf : ∀ a, Tame u cs (f a)) : Tame u cs (r.andThen f) :=
  RdE.all_andThen hr fun a _ => hf a

theorem tame_mapOk {u : Bool} {cs : List Nat} {r : RdE Reason α} {g : α → β}
    (hr : Tame u cs r) : Tame u cs (r.mapOk g) := RdE.all_mapOk hr fun _ _ => trivial

theorem tame_checked (u : Bool) (cs : List Nat) (c : Constraint) (v : Val) :
    Tame u cs (RdE.checked c v) := by
  refine tame_andThen (tame_lift _ _ _) fun b => ?_
  split
  · trivial
  · exact ⟨by simp, by simp, by simp⟩

theorem tame_repeatE {u : Bool} {cs : List Nat} {r : RdE Reason Val} (h : Tame u cs r) (n : Nat) :
    Tame u cs (repeatE r n) := by
  induction n with
  | zero => trivial
  | succ n ih => exact tame_andThen h fun _ => tame_andThen ih fun _ => trivial

theorem checkedByteCount_error (cfg : Cfg) (size ceiling len : Nat) (r : Reason)
    (h : checkedByteCount cfg size ceiling len = .error r) : r = .excessiveLength := by
  unfold checkedByteCount at h
  split at h <;> cases h
  rfl

theorem checkedByteCount_le (cfg : Cfg) (size ceiling len n : Nat)
    (h : checkedByteCount cfg size ceiling len = .ok n) : len * size ≤ ceiling := by
  unfold checkedByteCount at h
  split at h
  · cases h
  · rename_i h'
    have h' : len ≤ ceiling / size := by omega
    have := Nat.mul_le_mul_right size h'
    exact Nat.le_trans this (Nat.div_mul_le_self _ _)

theorem tame_resize {u : Bool} {cs : List Nat} (cfg : Cfg) (n : Nat) {k : RdE Reason α}
    (hn : Within cs n) (h : Tame u cs k) : Tame u cs (resize cfg n k) := by
  unfold resize
  split
  · trivial
  · exact ⟨hn, h⟩

theorem tame_readVec (cfg : Cfg) (e : ElemTy) (c n : Nat) : Tame false [c] (readVec cfg e c n) := by
  unfold readVec
  split
  · rename_i r h
    have := checkedByteCount_error _ _ _ _ _ h
    subst this
    exact ⟨by simp, by simp, by simp⟩
  · rename_i m h
    refine tame_resize _ _ ⟨c, by simp, checkedByteCount_le _ _ _ _ _ h⟩ ?_
    split
    · exact tame_andThen (tame_repeatE (tame_andThen (tame_readNativeImpl _ _ _ _)
        fun _ => tame_value _ _ _) _) fun _ => trivial
    · exact tame_andThen (tame_readNativeImpl _ _ _ _) fun _ =>
        tame_andThen (tame_value _ _ _) fun _ => trivial

/-- Errors of a list: the named field is one of the list and can give that reason. -/
def ListError (cfg : Cfg) (fs : List Field) (e : CastError) : Prop :=
  ∃ f ∈ fs, f.id = e.failedAt ∧ ReadReason (unionInField f) (ceilingsField cfg f) e.reason

abbrev TameList (cfg : Cfg) (fs : List Field) (r : RdE CastError α) : Prop :=
  RdE.AllE Anything (ListError cfg fs) (Within (ceilingsFields cfg fs)) Anything r

theorem unionInFields_of_mem {f : Field} {fs : List Field} (h : f ∈ fs)
    (hu : unionInField f = true) : unionInFields fs = true := by
  induction fs with
  | nil => cases h
  | cons g fs ih =>
    simp only [unionInFields, Bool.or_eq_true]
    rcases List.mem_cons.mp h with rfl | h
    · exact .inl hu
    · exact .inr (ih h)

theorem ceilingsFields_of_mem {cfg : Cfg} {f : Field} {fs : List Field} (h : f ∈ fs) :
    ∀ c ∈ ceilingsField cfg f, c ∈ ceilingsFields cfg fs := by
  induction fs with
  | nil => cases h
  | cons g fs ih =>
    intro c hc
    simp only [ceilingsFields, List.mem_append]
    rcases List.mem_cons.mp h with rfl | h
    · exact .inl hc
    · exact .inr (ih h c hc)

theorem tame_untag {cfg : Cfg} {fs : List Field} {r : RdE CastError α} (h : TameList cfg fs r) :
    Tame (unionInFields fs) (ceilingsFields cfg fs) r.untag := by
  refine RdE.all_mapErr h ?_
  rintro e ⟨f, hf, _, hr⟩
  exact hr.mono (fun hu => unionInFields_of_mem hf hu) (ceilingsFields_of_mem hf)

mutual
theorem tame_readKind (cfg : Cfg) : (k : Kind) → ∀ env,
    Tame (unionInKind k) (ceilingsKind cfg k) (readKind cfg env k)
  | .num t w, env => by
      rw [readKind]
      exact tame_andThen (tame_readNativeImpl _ _ _ _) fun _ =>
        tame_andThen (tame_value _ _ _) fun _ => trivial
  | .fbuf e n, env => by
      rw [readKind]
      exact tame_andThen (tame_readNativeImpl _ _ _ _) fun _ =>
        tame_andThen (tame_value _ _ _) fun _ => trivial
  | .fstr n, env => by
      rw [readKind]
      exact tame_andThen (tame_readNativeImpl _ _ _ _) fun _ => trivial
  | .vec e len b, env => by
      rw [readKind]
      exact tame_andThen (tame_lift _ _ _) fun _ => tame_readVec _ _ _ _
  | .record fs, env => by
      rw [readKind]
      exact tame_mapOk (tame_untag (tame_readFields cfg fs _))
  | .arrRec fs n, env => by
      rw [readKind]
      exact tame_mapOk (tame_repeatE (tame_mapOk (tame_untag (tame_readFields cfg fs _))) _)
  | .vecRec fs len b sz, env => by
      rw [readKind]
      refine tame_andThen (tame_lift _ _ _) fun n => ?_
      split
      · rename_i r h
        have := checkedByteCount_error _ _ _ _ _ h
        subst this
        exact ⟨by simp, by simp, by simp [ceilingsKind]⟩
      · rename_i m h
        refine tame_resize _ _ ⟨ceilingOf cfg b, by simp [ceilingsKind, ceilingOf],
          checkedByteCount_le _ _ _ _ _ h⟩ ?_
        exact (tame_mapOk (tame_repeatE (tame_mapOk (tame_untag (tame_readFields cfg fs _))) _)).mono
          (fun h => h) (fun c hc => by simp [ceilingsKind, hc])
theorem tame_readField (cfg : Cfg) : (f : Field) → ∀ env,
    Tame (unionInField f) (ceilingsField cfg f) (readField cfg env f)
  | .plain id k c, env => by rw [readField]; exact tame_readKind cfg k env
  | .maybe id k p, env => by
      rw [readField]
      refine tame_andThen (tame_lift _ _ _) fun b => ?_
      split
      · exact tame_mapOk (tame_readKind cfg k env)
      · trivial
  | .union id d alts c, env => by
      rw [readField]
      refine tame_andThen (tame_lift _ _ _) fun o => ?_
      cases o with
      | none => exact ⟨by simp, by simp [unionInField], by simp⟩
      | some i => exact tame_mapOk (tame_readAlts cfg alts env i)
theorem tame_readAlts (cfg : Cfg) : (alts : List Alt) → ∀ env i,
    Tame true (ceilingsAlts cfg alts) (readAlts cfg env alts i)
  | [], env, i => by rw [readAlts]; trivial
  | .mk k c :: alts, env, 0 => by
      rw [readAlts]
      exact tame_andThen ((tame_readKind cfg k env).mono (fun _ => rfl)
        (fun c hc => by simp [ceilingsAlts, hc])) fun _ => tame_mapOk (tame_checked _ _ _ _)
  | .mk k c :: alts, env, i + 1 => by
      rw [readAlts]
      exact (tame_readAlts cfg alts env i).mono (fun h => h)
        (fun c hc => by simp [ceilingsAlts, hc])
theorem tame_readFields (cfg : Cfg) : (fs : List Field) → ∀ env,
    TameList cfg fs (readFields cfg env fs)
  | [], env => by rw [readFields]; trivial
  | f :: fs, env => by
      rw [readFields]
      have h1 : Tame (unionInField f) (ceilingsField cfg f)
          ((readField cfg env f).andThen fun v => RdE.checked f.constraint v) :=
        tame_andThen (tame_readField cfg f env) fun _ => tame_checked _ _ _ _
      refine RdE.all_andThen (Q := Anything) ?_ fun v _ => ?_
      · refine Rd.All.mono (RdE.all_mapErr h1 (E' := ListError cfg (f :: fs)) ?_) (fun _ h => h) ?_
          (fun _ h => h)
        · intro e he
          exact ⟨f, by simp, rfl, he⟩
        · rintro b ⟨c, hc, hb⟩
          exact ⟨c, by simp [ceilingsFields, hc], hb⟩
      · refine RdE.all_andThen (Q := Anything) ?_ fun _ _ => trivial
        refine Rd.All.mono (tame_readFields cfg fs _) ?_ ?_ (fun _ h => h)
        · rintro (e | a) h
          · obtain ⟨g, hg, h1, h2⟩ := h
            exact ⟨g, by simp [hg], h1, h2⟩
          · trivial
        · rintro b ⟨c, hc, hb⟩
          exact ⟨c, by simp [ceilingsFields, hc], hb⟩
end

end S2S
