import Verif.Spec.Memory
/-
What a read with its copies costs.
-/
namespace S2S
open Spec

/-! ### Forgetting the copies -/

namespace Mem

theorem erase_ofRd (r : Rd α) : (ofRd r).erase = r := by
  induction r with
  | ret a => rfl
  | stuck w => rfl
  | read n k ih => simp only [ofRd, erase]; congr 1; funext o; exact ih o
  | alloc b k ih => simp only [ofRd, erase, ih]

theorem erase_bind (m : Mem α) (f : α → Mem β) : (m.bind f).erase = m.erase.bind fun a => (f a).erase := by
  induction m with
  | ret a => rfl
  | stuck w => rfl
  | read n k ih => simp only [bind, erase, Rd.bind]; congr 1; funext o; exact ih o
  | grow b k ih => simp only [bind, erase, Rd.bind, ih]
  | copy b k ih => simp only [bind, erase, ih]
  | drop b k ih => simp only [bind, erase, ih]

theorem runOn_erase (S : InStream) (m : Mem α) (s : S.State) (u : Usage) :
    (m.erase.runOn S s) = ((m.runOn S s u).1, (m.runOn S s u).2.1) ∧
    (m.runOn S s u).2.2.grown = u.grown + (m.erase.allocsOn S s).sum := by
  induction m generalizing s u with
  | ret a => exact ⟨rfl, rfl⟩
  | stuck w => exact ⟨rfl, rfl⟩
  | read n k ih => exact ih _ _ u
  | grow b k ih =>
    obtain ⟨h1, h2⟩ := ih s (u.grow b)
    refine ⟨h1, ?_⟩
    simp only [erase, Rd.allocsOn, List.sum_cons, runOn]
    rw [h2]
    show u.grown + b + _ = _
    omega
  | copy b k ih => exact ih s (u.copy b)
  | drop b k ih => exact ih s (u.drop b)

end Mem

namespace MemE

theorem erase_ok (a : α) : (ok a : MemE ε α).erase = RdE.ok a := rfl
theorem erase_err (e : ε) : (err e : MemE ε α).erase = RdE.err e := rfl
theorem erase_ofRd (r : RdE ε α) : (ofRd r).erase = r := Mem.erase_ofRd r

theorem erase_andThen (m : MemE ε α) (f : α → MemE ε β) :
    (m.andThen f).erase = RdE.andThen m.erase fun a => (f a).erase := by
  rw [andThen, Mem.erase_bind, RdE.andThen]
  congr 1
  funext x
  cases x <;> rfl

theorem erase_mapErr (g : ε → ε') (m : MemE ε α) : (m.mapErr g).erase = RdE.mapErr g m.erase := by
  rw [mapErr, Mem.erase_bind, RdE.mapErr, Rd.map]
  congr 1
  funext x
  cases x <;> rfl

theorem erase_mapOk (g : α → β) (m : MemE ε α) : (m.mapOk g).erase = RdE.mapOk g m.erase :=
  erase_andThen _ _

theorem erase_copied (n : Nat) (m : MemE ε α) : (copied n m).erase = m.erase := rfl

end MemE

theorem erase_repeatM {m : MemE ε Val} {r : RdE ε Val} (h : m.erase = r) (n : Nat) :
    (repeatM m n).erase = repeatE r n := by
  induction n with
  | zero => rfl
  | succ n ih => simp only [repeatM, repeatE, MemE.erase_andThen, h, ih, MemE.erase_ok]

theorem erase_resizeM {cfg : Cfg} {n : Nat} {m : MemE ε α} {r : RdE ε α} (h : m.erase = r) :
    (resizeM cfg n m).erase = resize cfg n r := by
  unfold resizeM resize
  split
  · rfl
  · simp only [Mem.erase, h]

theorem andThen_ok (r : RdE ε α) : (r.andThen fun a => RdE.ok a) = r := by
  unfold RdE.andThen
  induction r with
  | ret a => cases a <;> rfl
  | stuck w => rfl
  | read n k ih => simp only [Rd.bind]; congr 1; funext o; exact ih o
  | alloc b k ih => simp only [Rd.bind, ih]

theorem erase_memRecord {fs : List Field} {m : MemE CastError (List Val)} {r : RdE CastError (List Val)}
    (h : m.erase = r) : (memRecord fs m).erase = (r.untag).mapOk .seq := by
  simp only [memRecord, MemE.erase_andThen, MemE.erase_mapErr, MemE.erase_copied, MemE.erase_ok, h,
    andThen_ok]
  rfl

mutual
theorem erase_memKind (cfg : Cfg) (env : Env) : (k : Kind) → (memKind cfg env k).erase = readKind cfg env k
  | .num t w => by simp only [memKind, readKind, MemE.erase_ofRd]
  | .fbuf e n => by simp only [memKind, readKind, MemE.erase_ofRd]
  | .fstr n => by simp only [memKind, readKind, MemE.erase_ofRd]
  | .vec e len bound => by simp only [memKind, readKind, MemE.erase_andThen, MemE.erase_ofRd]
  | .record fs => by
      simp only [memKind, readKind]; exact erase_memRecord (erase_memFields cfg (dfltEnv fs) fs)
  | .arrRec fs n => by
      simp only [memKind, readKind, MemE.erase_mapOk]
      rw [erase_repeatM (erase_memRecord (erase_memFields cfg (dfltEnv fs) fs))]
  | .vecRec fs len bound sz => by
      simp only [memKind, readKind, MemE.erase_andThen, MemE.erase_ofRd]
      congr 1
      funext n
      cases checkedByteCount cfg sz (ceilingOf cfg bound) n with
      | error r => rfl
      | ok b =>
        refine erase_resizeM ?_
        simp only [MemE.erase_mapOk]
        rw [erase_repeatM (erase_memRecord (erase_memFields cfg (dfltEnv fs) fs))]
termination_by structural k => k
theorem erase_memField (cfg : Cfg) (env : Env) : (f : Field) →
    (memField cfg env f).erase = readField cfg env f
  | .plain _ k _ => by simp only [memField, readField]; exact erase_memKind cfg env k
  | .maybe _ k p => by
      simp only [memField, readField, MemE.erase_andThen, MemE.erase_ofRd]
      congr 1
      funext b
      cases b
      · rfl
      · simp only [if_true, MemE.erase_andThen, erase_memKind cfg env k, MemE.erase_copied,
          MemE.erase_ok, RdE.mapOk]
  | .union _ d alts _ => by
      simp only [memField, readField, MemE.erase_andThen, MemE.erase_ofRd]
      congr 1
      funext o
      cases o
      · rfl
      · simp only [MemE.erase_mapOk]
        rw [erase_memAlts cfg env alts]
        rfl
termination_by structural f => f
theorem erase_memAlts (cfg : Cfg) (env : Env) : (alts : List Alt) → (i : Nat) →
    (memAlts cfg env alts i).erase = readAlts cfg env alts i
  | [], _ => rfl
  | .mk k c :: _, 0 => by
      simp only [memAlts, readAlts, MemE.erase_andThen, MemE.erase_mapOk, MemE.erase_ofRd,
        erase_memKind cfg env k]
  | _ :: alts, i + 1 => by simp only [memAlts, readAlts]; exact erase_memAlts cfg env alts i
termination_by structural alts => alts
theorem erase_memFields (cfg : Cfg) : (env : Env) → (fs : List Field) →
    (memFields cfg env fs).erase = readFields cfg env fs
  | _, [] => rfl
  | env, f :: fs => by
      simp only [memFields, readFields, MemE.erase_andThen, MemE.erase_mapErr, MemE.erase_ofRd,
        erase_memField cfg env f, MemE.erase_ok, RdE.tag]
      congr 1
      funext v
      rw [erase_memFields cfg _ fs]
termination_by structural _ fs => fs
end

theorem erase_memCast (cfg : Cfg) (fs : List Field) : (memCast cfg fs).erase = structCast cfg fs := by
  simp only [memCast, MemE.erase_andThen, MemE.erase_copied, MemE.erase_ok, andThen_ok,
    erase_memFields, structCast]

/-! ### Counting -/

/-- Every execution, started with these counts, ends with counts and an outcome that
satisfy `Q`. -/
def Mem.Ends (Q : Usage → Outcome α → Prop) : Mem α → Usage → Prop
  | .ret a, u => Q u (.done a)
  | .stuck w, u => Q u (.stuck w)
  | .read _ k, u => ∀ o, (k o).Ends Q u
  | .grow b k, u => k.Ends Q (u.grow b)
  | .copy b k, u => k.Ends Q (u.copy b)
  | .drop b k, u => k.Ends Q (u.drop b)

theorem Mem.Ends.mono {Q Q' : Usage → Outcome α → Prop} {m : Mem α} {u : Usage}
    (h : m.Ends Q u) (hQ : ∀ u o, Q u o → Q' u o) : m.Ends Q' u := by
  induction m generalizing u with
  | ret a => exact hQ _ _ h
  | stuck w => exact hQ _ _ h
  | read n k ih => exact fun o => ih o (h o)
  | grow b k ih => exact ih h
  | copy b k ih => exact ih h
  | drop b k ih => exact ih h

theorem Mem.ends_bind {Q : Usage → Outcome β → Prop} {m : Mem α} {f : α → Mem β} {u : Usage}
    (h : m.Ends (fun u o => match o with
      | .done a => (f a).Ends Q u
      | .stuck w => Q u (.stuck w)) u) : (m.bind f).Ends Q u := by
  induction m generalizing u with
  | ret a => exact h
  | stuck w => exact h
  | read n k ih => exact fun o => ih o (h o)
  | grow b k ih => exact ih h
  | copy b k ih => exact ih h
  | drop b k ih => exact ih h

theorem Mem.ends_runOn {Q : Usage → Outcome α → Prop} (S : InStream) {m : Mem α} {u : Usage}
    (h : m.Ends Q u) (s : S.State) : Q (m.runOn S s u).2.2 (m.runOn S s u).1 := by
  induction m generalizing u s with
  | ret a => exact h
  | stuck w => exact h
  | read n k ih => exact ih _ (h _) _
  | grow b k ih => exact ih h s
  | copy b k ih => exact ih h s
  | drop b k ih => exact ih h s

/-- From the counts `u` to the counts `u'`: `A` bytes more brought in, at most `c` times as
many copied, at most twice as many in use at a time; after a success those `A` are in use,
and they and the `E` bytes copied are as `R` says. -/
def Usage.Step (c : Nat) (R : α → Nat → Nat → Prop) (u u' : Usage) (o : Outcome (Except ε α)) : Prop :=
  ∃ A E, u'.grown = u.grown + A ∧ u'.copied = u.copied + E ∧ E ≤ c * A ∧
    u'.peak ≤ max u.peak (u.live + 2 * A) ∧
    ∀ v, o = .done (.ok v) → u'.live = u.live + A ∧ R v A E

def Costs (c : Nat) (R : α → Nat → Nat → Prop) (m : MemE ε α) : Prop :=
  ∀ u, m.Ends (u.Step c R) u

theorem Costs.mono {c c' : Nat} {R R' : α → Nat → Nat → Prop} {m : MemE ε α} (h : Costs c R m)
    (hc : c ≤ c') (hR : ∀ v A E, R v A E → R' v A E) : Costs c' R' m :=
  fun u => (h u).mono fun _ _ ⟨A, E, h1, h2, h3, h4, h5⟩ =>
    ⟨A, E, h1, h2, Nat.le_trans h3 (Nat.mul_le_mul_right A hc), h4, fun v hv =>
      ⟨(h5 v hv).1, hR _ _ _ (h5 v hv).2⟩⟩

theorem costs_ok {c : Nat} {R : α → Nat → Nat → Prop} {v : α} (h : R v 0 0) :
    Costs c R (MemE.ok v : MemE ε α) :=
  fun u => ⟨0, 0, rfl, rfl, by omega, by omega, fun w hw => by cases hw; exact ⟨rfl, h⟩⟩

theorem costs_err {c : Nat} {R : α → Nat → Nat → Prop} {e : ε} : Costs c R (MemE.err e : MemE ε α) :=
  fun u => ⟨0, 0, rfl, rfl, by omega, by omega, fun w hw => by cases hw⟩

theorem costs_stuck {c : Nat} {R : α → Nat → Nat → Prop} {w : Stuck} :
    Costs c R (Mem.stuck w : MemE ε α) :=
  fun u => ⟨0, 0, rfl, rfl, by omega, by omega, fun w hw => by cases hw⟩

theorem costs_andThen {c : Nat} {R : α → Nat → Nat → Prop} {R' : β → Nat → Nat → Prop}
    {m : MemE ε α} {f : α → MemE ε β} (h : Costs c R m)
    (hf : ∀ a A E, R a A E → Costs c (fun w A' E' => R' w (A + A') (E + E')) (f a)) :
    Costs c R' (m.andThen f) := by
  intro u
  refine Mem.ends_bind ((h u).mono ?_)
  rintro u1 o ⟨A, E, h1, h2, h3, h4, h5⟩
  match o with
  | .stuck w => exact ⟨A, E, h1, h2, h3, h4, fun v hv => by cases hv⟩
  | .done (.error e) => exact ⟨A, E, h1, h2, h3, h4, fun v hv => by cases hv⟩
  | .done (.ok a) =>
    obtain ⟨hl, hr⟩ := h5 a rfl
    refine (hf a A E hr u1).mono ?_
    rintro u2 o ⟨A', E', g1, g2, g3, g4, g5⟩
    refine ⟨A + A', E + E', by omega, by omega, ?_, ?_, fun v hv => ?_⟩
    · rw [Nat.mul_add]; omega
    · omega
    · obtain ⟨k1, k2⟩ := g5 v hv
      exact ⟨by omega, k2⟩

theorem costs_mapErr {c : Nat} {R : α → Nat → Nat → Prop} {g : ε → ε'} {m : MemE ε α}
    (h : Costs c R m) : Costs c R (m.mapErr g) := by
  intro u
  refine Mem.ends_bind ((h u).mono ?_)
  rintro u1 o ⟨A, E, h1, h2, h3, h4, h5⟩
  match o with
  | .stuck w => exact ⟨A, E, h1, h2, h3, h4, fun v hv => by cases hv⟩
  | .done (.error e) => exact ⟨A, E, h1, h2, h3, h4, fun v hv => by cases hv⟩
  | .done (.ok a) =>
    refine ⟨A, E, h1, h2, h3, h4, fun v hv => ?_⟩
    cases hv
    exact h5 a rfl

theorem costs_mapOk {c : Nat} {R : α → Nat → Nat → Prop} {R' : β → Nat → Nat → Prop} {g : α → β}
    {m : MemE ε α} (h : Costs c R m) (hg : ∀ v A E, R v A E → R' (g v) A E) :
    Costs c R' (m.mapOk g) :=
  costs_andThen h fun a A E hr => costs_ok (hg a A E hr)

/-- What was just brought in is copied. -/
theorem costs_copied {c : Nat} {R : α → Nat → Nat → Prop} {R' : β → Nat → Nat → Prop} {m : MemE ε α}
    {size : α → Nat} {g : α → β} (h : Costs c R m)
    (hs : ∀ v A E, R v A E → size v = A ∧ R' (g v) A (E + A)) :
    Costs (c + 1) R' (m.andThen fun a => MemE.copied (size a) (MemE.ok (g a))) := by
  intro u
  refine Mem.ends_bind ((h u).mono ?_)
  rintro u1 o ⟨A, E, h1, h2, h3, h4, h5⟩
  have hc : c * A + A = (c + 1) * A := by rw [Nat.add_mul, Nat.one_mul]
  match o with
  | .stuck w => exact ⟨A, E, h1, h2, by omega, h4, fun v hv => by cases hv⟩
  | .done (.error e) => exact ⟨A, E, h1, h2, by omega, h4, fun v hv => by cases hv⟩
  | .done (.ok a) =>
    obtain ⟨hl, hr⟩ := h5 a rfl
    obtain ⟨hsz, hr'⟩ := hs a A E hr
    show Usage.Step _ _ _ ((u1.copy (size a)).drop (size a)) _
    rw [hsz]
    refine ⟨A, E + A, h1, ?_, by omega, ?_, fun v hv => ?_⟩
    · simp only [Usage.copy, Usage.drop]; omega
    · simp only [Usage.copy, Usage.drop]; omega
    · cases hv
      refine ⟨?_, hr'⟩
      simp only [Usage.copy, Usage.drop]; omega

theorem costs_grow {c : Nat} {R : α → Nat → Nat → Prop} {m : MemE ε α} (n : Nat)
    (h : Costs c (fun v A E => R v (n + A) E) m) : Costs c R (Mem.grow n m : MemE ε α) := by
  intro u
  refine (h (u.grow n)).mono ?_
  rintro u1 o ⟨A, E, h1, h2, h3, h4, h5⟩
  simp only [Usage.grow] at h1 h2 h4 h5
  refine ⟨n + A, E, by omega, h2, ?_, by omega, fun v hv => ?_⟩
  · rw [Nat.mul_add]; omega
  · obtain ⟨k1, k2⟩ := h5 v hv
    exact ⟨by omega, k2⟩

theorem costs_resizeM {c : Nat} {R : α → Nat → Nat → Prop} {m : MemE ε α} (cfg : Cfg) (n : Nat)
    (h : Costs c (fun v A E => R v (n + A) E) m) : Costs c R (resizeM cfg n m) := by
  unfold resizeM
  split
  · exact costs_stuck
  · exact costs_grow n h

/-! ### Reads that neither allocate nor copy -/

def Rd.Still (P : α → Prop) : RdE ε α → Prop
  | .ret (.ok v) => P v
  | .ret (.error _) => True
  | .stuck _ => True
  | .read _ k => ∀ o, Rd.Still P (k o)
  | .alloc _ _ => False

theorem costs_still {c : Nat} {P : α → Prop} {r : RdE ε α} (h : Rd.Still P r) :
    Costs c (fun v A E => P v ∧ A = 0 ∧ E = 0) (MemE.ofRd r) := by
  unfold MemE.ofRd
  induction r with
  | ret a =>
    cases a with
    | ok v => exact costs_ok ⟨h, rfl, rfl⟩
    | error e => exact costs_err
  | stuck w => exact costs_stuck
  | read n k ih => exact fun u o => ih o (h o) u
  | alloc b k ih => exact h.elim

theorem still_andThen {P : α → Prop} {Q : β → Prop} {r : RdE ε α} {f : α → RdE ε β}
    (h : Rd.Still P r) (hf : ∀ a, P a → Rd.Still Q (f a)) : Rd.Still Q (r.andThen f) := by
  unfold RdE.andThen
  induction r with
  | ret a =>
    cases a with
    | ok v => exact hf v h
    | error e => trivial
  | stuck w => trivial
  | read n k ih => exact fun o => ih o (h o)
  | alloc b k ih => exact h.elim

theorem still_lift {P : α → Prop} {x : Except Stuck α} (h : ∀ v, x = .ok v → P v) :
    Rd.Still P (RdE.lift x : RdE ε α) := by
  cases x with
  | ok v => exact h v rfl
  | error w => trivial

theorem still_value {P : α → Prop} {x : Option α} (h : ∀ v, x = some v → P v) :
    Rd.Still P (RdE.value x : RdE ε α) := by
  cases x with
  | some v => exact h v rfl
  | none => trivial

theorem still_readNativeImpl (size n : Nat) : Rd.Still (fun _ => True) (readNativeImpl size n) := by
  unfold readNativeImpl
  split
  · trivial
  · intro o; cases o <;> trivial

theorem still_checked (c : Constraint) (v : Val) : Rd.Still (· = v) (RdE.checked c v) := by
  refine still_andThen (still_lift (P := fun _ => True) fun _ _ => trivial) fun b _ => ?_
  cases b
  · trivial
  · exact rfl

theorem still_repeatE {r : RdE ε Val} (h : Rd.Still (fun _ => True) r) (n : Nat) :
    Rd.Still (fun vs => vs.length = n) (repeatE r n) := by
  induction n with
  | zero => exact rfl
  | succ n ih =>
    exact still_andThen h fun v _ => still_andThen ih fun vs hl => by
      show (v :: vs).length = n + 1
      rw [List.length_cons, hl]

theorem decodeN_len {f : List Byte → Option Val} {size : Nat} : ∀ {n : Nat} {mem : List Byte} {vs : List Val},
    decodeN f size n mem = some vs → vs.length = n
  | 0, mem, vs, h => by rw [decodeN] at h; cases h; rfl
  | n + 1, mem, vs, h => by
      rw [decodeN] at h
      split at h
      · rename_i h1 h2
        cases h
        rw [List.length_cons, decodeN_len h2]
      · cases h

theorem swap_len (cfg : Cfg) (e : ElemTy) (vs : List Val) : (swapIfForeign cfg e vs).length = vs.length := by
  unfold swapIfForeign
  split
  · rw [List.length_map]
  · rfl

/-! ### The reader -/

/-- The bytes of a value, by its kind. -/
abbrev OfKind (k : Kind) (v : Val) (A E : Nat) : Prop := A = heapKind k v ∧ E = copiedKind k v

theorem costs_readVec (cfg : Cfg) (e : ElemTy) (len : LenSpec) (b : Option Nat) (ceiling n : Nat) :
    Costs c (OfKind (.vec e len b)) (MemE.ofRd (readVec cfg e ceiling n)) := by
  have key : ∀ vs : List Val, vs.length = n →
      n * e.size = heapKind (.vec e len b) (.seq (swapIfForeign cfg e vs)) := by
    intro vs hl
    simp only [heapKind, swap_len, hl]
  unfold readVec
  split
  · exact costs_err
  · unfold resize
    split
    · exact costs_stuck
    · refine costs_grow (m := MemE.ofRd _) _ ?_
      have hq : ∀ {r : RdE Reason Val}, Rd.Still (fun v => n * e.size = heapKind (.vec e len b) v) r →
          Costs c (fun v A E => OfKind (.vec e len b) v (n * e.size + A) E) (MemE.ofRd r) := by
        intro r hr
        refine (costs_still hr).mono (Nat.le_refl _) ?_
        rintro v A E ⟨h1, rfl, rfl⟩
        exact ⟨h1, by simp only [copiedKind]⟩
      split
      · refine hq (still_andThen (still_repeatE (r := readElem cfg e) ?_ n) fun vs hl => key vs hl)
        exact still_andThen (still_readNativeImpl _ _) fun _ _ => still_value fun _ _ => trivial
      · refine hq (still_andThen (still_readNativeImpl _ _) fun mem _ => still_andThen
          (still_value (P := fun vs => vs.length = n) fun vs h => decodeN_len h) fun vs hl => key vs hl)

theorem costs_flat {k : Kind} (hh : ∀ v, heapKind k v = 0) (hc : ∀ v, copiedKind k v = 0)
    {r : RdE Reason Val} (h : Rd.Still (fun _ => True) r) : Costs c (OfKind k) (MemE.ofRd r) := by
  refine (costs_still h).mono (Nat.le_refl _) ?_
  rintro v A E ⟨_, rfl, rfl⟩
  exact ⟨(hh v).symm, (hc v).symm⟩

theorem costs_memRecord {c : Nat} {fs : List Field} {m : MemE CastError (List Val)}
    (h : Costs c (fun vs A E => A = heapFields fs vs ∧ E = copiedFields fs vs) m) :
    Costs (c + 2) (fun v A E => ∃ vs, v = .seq vs ∧ A = heapFields fs vs ∧
      E = copiedFields fs vs + 2 * heapFields fs vs) (memRecord fs m) := by
  refine costs_copied (R := fun vs A E => A = heapFields fs vs ∧
    E = copiedFields fs vs + heapFields fs vs) (costs_mapErr (costs_copied h ?_)) ?_
  · rintro vs A E ⟨rfl, rfl⟩
    exact ⟨rfl, rfl, rfl⟩
  · rintro vs A E ⟨rfl, rfl⟩
    exact ⟨rfl, vs, rfl, rfl, by omega⟩

/-- The sums over the elements of an array or vector of records. -/
abbrev OfRecs (fs : List Field) (rs : List Val) (A E : Nat) : Prop :=
  A = heapKind (.arrRec fs 0) (.seq rs) ∧ E = copiedKind (.arrRec fs 0) (.seq rs)

theorem costs_repeatM {c : Nat} {fs : List Field} {m : MemE ε Val}
    (h : Costs c (fun v A E => ∃ vs, v = .seq vs ∧ A = heapFields fs vs ∧
      E = copiedFields fs vs + 2 * heapFields fs vs) m) (n : Nat) :
    Costs c (fun rs A E => rs.length = n ∧ OfRecs fs rs A E) (repeatM m n) := by
  induction n with
  | zero => exact costs_ok ⟨rfl, by simp [heapKind], by simp [copiedKind]⟩
  | succ n ih =>
    refine costs_andThen h ?_
    rintro v A E ⟨vs, rfl, rfl, rfl⟩
    refine costs_andThen ih ?_
    rintro rs A E ⟨rfl, rfl, rfl⟩
    exact costs_ok ⟨rfl, by simp only [heapKind, List.map_cons, List.sum_cons, Nat.add_zero],
      by simp only [copiedKind, List.map_cons, List.sum_cons, Nat.add_zero]⟩

theorem sum_replicate_zero (n : Nat) : (List.replicate n 0).sum = 0 := by
  induction n with
  | zero => rfl
  | succ n ih => rw [List.replicate_succ, List.sum_cons, ih]

mutual
theorem dflt_kind : (k : Kind) → heapKind k k.dflt = 0 ∧ copiedKind k k.dflt = 0
  | .num _ _ => by simp only [heapKind, copiedKind, and_self]
  | .fbuf _ _ => by simp only [heapKind, copiedKind, and_self]
  | .fstr _ => by simp only [heapKind, copiedKind, and_self]
  | .vec e _ _ => by simp [Kind.dflt, heapKind, copiedKind]
  | .record fs => by
      simp only [Kind.dflt, heapKind, copiedKind, dflt_fields fs, and_self]
  | .arrRec fs n => by
      simp only [Kind.dflt, heapKind, copiedKind, List.map_replicate, dflt_fields fs,
        sum_replicate_zero, Nat.mul_zero, Nat.add_zero, and_self]
  | .vecRec fs _ _ _ => by simp [Kind.dflt, heapKind, copiedKind]
termination_by structural k => k
theorem dflt_field : (f : Field) → heapField f f.dflt = 0 ∧ copiedField f f.dflt = 0
  | .plain _ k _ => by simp only [Field.dflt, heapField, copiedField]; exact dflt_kind k
  | .maybe _ _ _ => by simp only [Field.dflt, heapField, copiedField, and_self]
  | .union _ _ alts _ => by simp only [Field.dflt, heapField, copiedField]; exact dflt_alts alts
termination_by structural f => f
theorem dflt_alts : (alts : List Alt) →
    heapAlts alts 0 (Alt.dfltFirst alts) = 0 ∧ copiedAlts alts 0 (Alt.dfltFirst alts) = 0
  | [] => by simp only [heapAlts, copiedAlts, and_self]
  | .mk k _ :: _ => by simp only [Alt.dfltFirst, heapAlts, copiedAlts]; exact dflt_kind k
termination_by structural alts => alts
theorem dflt_fields : (fs : List Field) →
    heapFields fs (Field.dflts fs) = 0 ∧ copiedFields fs (Field.dflts fs) = 0
  | [] => by simp only [heapFields, copiedFields, and_self]
  | f :: fs => by
      simp only [Field.dflts, heapFields, copiedFields, dflt_field f, dflt_fields fs, and_self]
termination_by structural fs => fs
end

mutual
theorem costs_memKind (cfg : Cfg) (env : Env) : (k : Kind) →
    Costs (copiesKind k) (OfKind k) (memKind cfg env k)
  | .num t w => by
      simp only [memKind]
      refine costs_flat (by simp [heapKind]) (by simp [copiedKind]) ?_
      exact still_andThen (still_readNativeImpl _ _) fun _ _ =>
        still_andThen (still_value (P := fun _ => True) fun _ _ => trivial) fun _ _ => trivial
  | .fbuf e n => by
      simp only [memKind]
      refine costs_flat (by simp [heapKind]) (by simp [copiedKind]) ?_
      exact still_andThen (still_readNativeImpl _ _) fun _ _ =>
        still_andThen (still_value (P := fun _ => True) fun _ _ => trivial) fun _ _ => trivial
  | .fstr n => by
      simp only [memKind]
      refine costs_flat (by simp [heapKind]) (by simp [copiedKind]) ?_
      exact still_andThen (still_readNativeImpl _ _) fun _ _ => trivial
  | .vec e len b => by
      simp only [memKind]
      refine costs_andThen (costs_still (still_lift (P := fun _ => True) fun _ _ => trivial)) ?_
      rintro n A E ⟨_, rfl, rfl⟩
      simp only [Nat.zero_add]
      exact costs_readVec cfg e len b _ n
  | .record fs => by
      simp only [memKind, copiesKind]
      refine (costs_memRecord (costs_memFields cfg (dfltEnv fs) fs)).mono (Nat.le_refl _) ?_
      rintro v A E ⟨vs, rfl, rfl, rfl⟩
      exact ⟨by simp only [heapKind], by simp only [copiedKind]⟩
  | .arrRec fs n => by
      simp only [memKind, copiesKind]
      refine costs_mapOk (costs_repeatM (costs_memRecord (costs_memFields cfg (dfltEnv fs) fs)) n) ?_
      rintro rs A E ⟨_, rfl, rfl⟩
      exact ⟨by simp only [heapKind], by simp only [copiedKind]⟩
  | .vecRec fs len b sz => by
      simp only [memKind, copiesKind]
      refine costs_andThen (costs_still (still_lift (P := fun _ => True) fun _ _ => trivial)) ?_
      rintro n A E ⟨_, rfl, rfl⟩
      simp only [Nat.zero_add]
      split
      · exact costs_err
      · refine costs_resizeM cfg _ (costs_mapOk
          (costs_repeatM (costs_memRecord (costs_memFields cfg (dfltEnv fs) fs)) n) ?_)
        rintro rs A E ⟨rfl, rfl, rfl⟩
        exact ⟨by simp only [heapKind], by simp only [copiedKind]⟩
termination_by structural k => k
theorem costs_memField (cfg : Cfg) (env : Env) : (f : Field) →
    Costs (copiesField f) (fun v A E => A = heapField f v ∧ E = copiedField f v) (memField cfg env f)
  | .plain _ k _ => by
      simp only [memField, copiesField, heapField, copiedField]; exact costs_memKind cfg env k
  | .maybe _ k p => by
      simp only [memField, copiesField]
      refine costs_andThen (costs_still (still_lift (P := fun _ => True) fun _ _ => trivial)) ?_
      rintro b A E ⟨_, rfl, rfl⟩
      simp only [Nat.zero_add]
      cases b
      · exact costs_ok ⟨by simp only [heapField], by simp only [copiedField]⟩
      · refine costs_copied (costs_memKind cfg env k) ?_
        rintro v A E ⟨rfl, rfl⟩
        exact ⟨rfl, by simp only [heapField], by simp only [copiedField]⟩
  | .union _ d alts _ => by
      simp only [memField, copiesField]
      refine costs_andThen (costs_still (still_lift (P := fun _ => True) fun _ _ => trivial)) ?_
      rintro o A E ⟨_, rfl, rfl⟩
      simp only [Nat.zero_add]
      cases o with
      | none => exact costs_err
      | some i =>
        refine costs_mapOk (costs_memAlts cfg env alts i) ?_
        rintro (_ | v) A E h
        · have := dflt_alts alts
          exact ⟨by simp only [heapField]; rw [this.1, h.1], by simp only [copiedField]; rw [this.2, h.2]⟩
        · exact ⟨by simp only [heapField]; exact h.1, by simp only [copiedField]; exact h.2⟩
termination_by structural f => f
theorem costs_memAlts (cfg : Cfg) (env : Env) : (alts : List Alt) → (i : Nat) →
    Costs (copiesAlts alts) (fun o A E => match o with
      | some v => A = heapAlts alts i v ∧ E = copiedAlts alts i v
      | none => A = 0 ∧ E = 0) (memAlts cfg env alts i)
  | [], _ => by simp only [memAlts]; exact costs_ok ⟨rfl, rfl⟩
  | .mk k c :: alts, 0 => by
      simp only [memAlts, copiesAlts]
      refine costs_andThen ((costs_memKind cfg env k).mono (Nat.le_max_left _ _) fun _ _ _ h => h) ?_
      rintro v A E ⟨rfl, rfl⟩
      refine costs_mapOk (costs_still (still_checked c v)) ?_
      rintro w A E ⟨rfl, rfl, rfl⟩
      exact ⟨by simp only [heapAlts, Nat.add_zero], by simp only [copiedAlts, Nat.add_zero]⟩
  | .mk k c :: alts, i + 1 => by
      simp only [memAlts, copiesAlts]
      refine (costs_memAlts cfg env alts i).mono (Nat.le_max_right _ _) ?_
      rintro (_ | v) A E h
      · exact h
      · exact ⟨by simp only [heapAlts]; exact h.1, by simp only [copiedAlts]; exact h.2⟩
termination_by structural alts => alts
theorem costs_memFields (cfg : Cfg) : (env : Env) → (fs : List Field) →
    Costs (copiesFields fs) (fun vs A E => A = heapFields fs vs ∧ E = copiedFields fs vs)
      (memFields cfg env fs)
  | _, [] => by
      simp only [memFields]
      exact costs_ok ⟨by simp only [heapFields], by simp only [copiedFields]⟩
  | env, f :: fs => by
      simp only [memFields, copiesFields]
      refine costs_andThen (R := fun v A E => A = heapField f v ∧ E = copiedField f v)
        (costs_mapErr (costs_andThen
          ((costs_memField cfg env f).mono (Nat.le_max_left _ _) fun _ _ _ h => h) ?_)) ?_
      · rintro v A E ⟨rfl, rfl⟩
        refine (costs_still (still_checked _ v)).mono (Nat.le_refl _) ?_
        rintro w A E ⟨rfl, rfl, rfl⟩
        exact ⟨rfl, rfl⟩
      · rintro v A E ⟨rfl, rfl⟩
        refine costs_andThen ((costs_memFields cfg _ fs).mono (Nat.le_max_right _ _) fun _ _ _ h => h) ?_
        rintro vs A E ⟨rfl, rfl⟩
        exact costs_ok ⟨by simp only [heapFields, Nat.add_zero], by simp only [copiedFields, Nat.add_zero]⟩
termination_by structural _ fs => fs
end

theorem costs_memCast (cfg : Cfg) (fs : List Field) :
    Costs (copiesFields fs + 1) (fun vs A E => A = heapFields fs vs ∧
      E = copiedFields fs vs + heapFields fs vs) (memCast cfg fs) := by
  refine costs_copied (costs_memFields cfg (dfltEnv fs) fs) ?_
  rintro vs A E ⟨rfl, rfl⟩
  exact ⟨rfl, rfl, rfl⟩

/-! ### Allocators that can fail -/

namespace Mem

/-- The state of a stream after these calls. -/
abbrev after (S : InStream) (s : S.State) (calls : List Nat) : S.State :=
  calls.foldl (fun s n => (S.read s n).2) s

theorem tryOn_erase (S : InStream) (M : Allocator) (r : Mem α) (s : S.State) (m : M.State) :
    (r.tryOn S M s m).2 = after S s (r.callsOn S M s m) ∧
    r.callsOn S M s m <+: r.erase.callsOn S s ∧
    ((r.tryOn S M s m).1 = none ∨
      ((r.tryOn S M s m).1 = some (r.erase.runOn S s).1 ∧ (r.tryOn S M s m).2 = (r.erase.runOn S s).2 ∧
        r.callsOn S M s m = r.erase.callsOn S s)) := by
  induction r generalizing s m with
  | ret a => exact ⟨rfl, List.prefix_refl _, .inr ⟨rfl, rfl, rfl⟩⟩
  | stuck w => exact ⟨rfl, List.prefix_refl _, .inr ⟨rfl, rfl, rfl⟩⟩
  | read n k ih =>
    obtain ⟨h1, h2, h3⟩ := ih (S.read s n).1 (S.read s n).2 m
    refine ⟨h1, ?_, h3.imp id fun h => ⟨h.1, h.2.1, ?_⟩⟩
    · simp only [callsOn, erase, Rd.callsOn]
      exact List.cons_prefix_cons.2 ⟨rfl, h2⟩
    · simp only [callsOn, erase, Rd.callsOn, h.2.2]
  | grow b k ih =>
    simp only [tryOn, callsOn, erase, Rd.callsOn, Rd.runOn]
    cases M.take m b with
    | some m' => exact ih s m'
    | none => exact ⟨rfl, List.nil_prefix, .inl rfl⟩
  | copy b k ih =>
    simp only [tryOn, callsOn, erase]
    cases M.take m b with
    | some m' => exact ih s m'
    | none => exact ⟨rfl, List.nil_prefix, .inl rfl⟩
  | drop b k ih => exact ih s (M.give m b)

theorem peak_le (S : InStream) (r : Mem α) (s : S.State) (u : Usage) :
    u.peak ≤ (r.runOn S s u).2.2.peak := by
  induction r generalizing s u with
  | ret a => exact Nat.le_refl _
  | stuck w => exact Nat.le_refl _
  | read n k ih => exact ih _ _ u
  | grow b k ih => exact Nat.le_trans (Nat.le_max_left _ _) (ih s (u.grow b))
  | copy b k ih => exact Nat.le_trans (Nat.le_max_left _ _) (ih s (u.copy b))
  | drop b k ih => exact ih s (u.drop b)

theorem try_take (S : InStream) (limit : Nat) (s : S.State) (u u' : Usage) (b : Nat) (k : Mem α)
    (hl : u'.live = u.live + b) (hp : u'.peak = max u.peak (u.live + b)) (hu : u.peak ≤ limit)
    (ih : u'.peak ≤ limit → (k.tryOn S (bounded limit) s u'.live).1 =
      if (k.runOn S s u').2.2.peak ≤ limit then some (k.runOn S s u').1 else none)
    {X : Option (Outcome α) × S.State}
    (h1 : ∀ m', (bounded limit).take u.live b = some m' → X = k.tryOn S (bounded limit) s m')
    (h2 : (bounded limit).take u.live b = none → X = (none, s)) :
    X.1 = if (k.runOn S s u').2.2.peak ≤ limit then some (k.runOn S s u').1 else none := by
  have hle := peak_le S k s u'
  by_cases hb : u.live + b ≤ limit
  · have ht : (bounded limit).take u.live b = some u'.live := by
      rw [hl]; simp only [bounded, hb, if_true]
    rw [h1 _ ht]
    exact ih (by omega)
  · have ht : (bounded limit).take u.live b = none := by
      simp only [bounded, hb, if_false]
    rw [h2 ht, if_neg (by omega)]

theorem tryOn_bounded (S : InStream) (limit : Nat) (r : Mem α) (s : S.State) (u : Usage)
    (hu : u.peak ≤ limit) :
    (r.tryOn S (bounded limit) s u.live).1 =
      if (r.runOn S s u).2.2.peak ≤ limit then some (r.runOn S s u).1 else none := by
  induction r generalizing s u with
  | ret a => simp only [tryOn, runOn, hu, if_true]
  | stuck w => simp only [tryOn, runOn, hu, if_true]
  | read n k ih => exact ih _ _ u hu
  | grow b k ih =>
    exact try_take S limit s u (u.grow b) b k rfl rfl hu (ih s (u.grow b))
      (fun m' h => by simp only [tryOn, h]) (fun h => by simp only [tryOn, h])
  | copy b k ih =>
    exact try_take S limit s u (u.copy b) b k rfl rfl hu (ih s (u.copy b))
      (fun m' h => by simp only [tryOn, h]) (fun h => by simp only [tryOn, h])
  | drop b k ih => exact ih s (u.drop b) hu

end Mem

end S2S
