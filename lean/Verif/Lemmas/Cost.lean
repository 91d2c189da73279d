import Verif.Spec.Sizes
import Verif.Lemmas.ReadMain
import Verif.Lemmas.Sizes
/-
What a read costs: bytes allocated, bytes delivered, calls of the stream.
-/
namespace S2S
open Spec

namespace Rd

/-- Every execution, started with these counts, ends with counts and an outcome that
satisfy `Q`. Counts: bytes allocated, bytes delivered, calls. -/
def Ends (Q : Nat → Nat → Nat → Outcome α → Prop) : Rd α → Nat → Nat → Nat → Prop
  | ret a, A, D, C => Q A D C (.done a)
  | stuck w, A, D, C => Q A D C (.stuck w)
  | read n k, A, D, C =>
      (k none).Ends Q A D (C + 1) ∧ ∀ q, q.length = n → (k (some q)).Ends Q A (D + n) (C + 1)
  | alloc b k, A, D, C => k.Ends Q (A + b) D C

theorem Ends.mono {Q Q' : Nat → Nat → Nat → Outcome α → Prop} {r : Rd α} {A D C : Nat}
    (h : r.Ends Q A D C) (hQ : ∀ A D C o, Q A D C o → Q' A D C o) : r.Ends Q' A D C := by
  induction r generalizing A D C with
  | ret a => exact hQ _ _ _ _ h
  | stuck w => exact hQ _ _ _ _ h
  | read n k ih => exact ⟨ih _ h.1, fun q hq => ih _ (h.2 q hq)⟩
  | alloc b k ih => exact ih h

theorem ends_bind {Q : Nat → Nat → Nat → Outcome β → Prop} {r : Rd α} {f : α → Rd β} {A D C : Nat}
    (h : r.Ends (fun A D C o => match o with
      | .done a => (f a).Ends Q A D C
      | .stuck w => Q A D C (.stuck w)) A D C) : (r.bind f).Ends Q A D C := by
  induction r generalizing A D C with
  | ret a => exact h
  | stuck w => exact h
  | read n k ih => exact ⟨ih _ h.1, fun q hq => ih _ (h.2 q hq)⟩
  | alloc b k ih => exact ih h

theorem ends_runOn {Q : Nat → Nat → Nat → Outcome α → Prop} (S : InStream) {r : Rd α} {A D C : Nat}
    (h : r.Ends Q A D C) (s : S.State) :
    Q (A + (r.allocsOn S s).sum) (D + deliveredOn S r s) (C + (r.callsOn S s).length)
      (r.runOn S s).1 := by
  induction r generalizing A D C s with
  | ret a => exact h
  | stuck w => exact h
  | read n k ih =>
    rcases hr : S.read s n with ⟨o, s'⟩
    cases o with
    | none =>
      have := ih none h.1 s'
      simp only [allocsOn, deliveredOn, callsOn, runOn, hr, List.length_cons]
      rw [show C + (((k none).callsOn S s').length + 1) = C + 1 + ((k none).callsOn S s').length by omega]
      exact this
    | some bs =>
      have hl := S.len s n bs s' hr
      have := ih (some bs) (h.2 bs hl) s'
      simp only [allocsOn, deliveredOn, callsOn, runOn, hr, List.length_cons, hl]
      rw [show C + (((k (some bs)).callsOn S s').length + 1) =
          C + 1 + ((k (some bs)).callsOn S s').length by omega, ← Nat.add_assoc]
      exact this
  | alloc b k ih =>
    have := ih h s
    simp only [allocsOn, deliveredOn, callsOn, runOn, List.sum_cons, ← Nat.add_assoc]
    exact this

end Rd

/-! ### Budgets -/

/-- `mem` bytes allocated per byte delivered, `ahead` more unless it succeeds; at least
`lo` bytes delivered on success; `rate` calls per byte delivered and `calls` more. -/
structure Budget where
  mem : Nat
  ahead : Nat
  lo : Nat
  rate : Nat
  calls : Nat

/-- The outcome after `d` bytes were delivered, `a` allocated, `c` calls made. -/
def Budget.Meets (b : Budget) (a d c : Nat) (o : Outcome (Except ε α)) : Prop :=
  a ≤ b.mem * d + b.ahead ∧ c ≤ b.rate * d + b.calls ∧
    ∀ x, o = .done (.ok x) → a ≤ b.mem * d ∧ b.lo ≤ d

def Spends (b : Budget) (r : RdE ε α) : Prop :=
  ∀ A D C, Rd.Ends (fun A' D' C' o => ∃ a d c, A' = A + a ∧ D' = D + d ∧ C' = C + c ∧ b.Meets a d c o)
    r A D C

structure Budget.Le (b b' : Budget) : Prop where
  mem : b.mem ≤ b'.mem
  ahead : b.ahead ≤ b'.ahead
  lo : b'.lo ≤ b.lo
  rate : b.rate ≤ b'.rate
  calls : b.calls ≤ b'.calls

theorem Budget.Meets.mono {b b' : Budget} (h : b.Le b') {a d c : Nat} {o : Outcome (Except ε α)}
    (hm : b.Meets a d c o) : b'.Meets a d c o := by
  obtain ⟨h1, h2, h3⟩ := hm
  have hm := Nat.mul_le_mul_right d h.mem
  have hr := Nat.mul_le_mul_right d h.rate
  have := h.ahead
  have := h.calls
  have := h.lo
  refine ⟨by omega, by omega, fun x hx => ?_⟩
  have := h3 x hx
  omega

theorem Spends.mono {b b' : Budget} {r : RdE ε α} (h : Spends b r) (hb : b.Le b') : Spends b' r :=
  fun A D C => (h A D C).mono fun _ _ _ _ ⟨a, d, c, h1, h2, h3, h4⟩ =>
    ⟨a, d, c, h1, h2, h3, h4.mono hb⟩

/-- Nothing is spent. -/
def Budget.none : Budget := ⟨0, 0, 0, 0, 0⟩

theorem spends_ret (b : Budget) (hlo : b.lo = 0) (x : Except ε α) : Spends b (Rd.ret x) :=
  fun A D C => ⟨0, 0, 0, rfl, rfl, rfl, by simp, by simp, by simp [hlo]⟩

theorem spends_err (b : Budget) (e : ε) : Spends b (RdE.err e : RdE ε α) :=
  fun A D C => ⟨0, 0, 0, rfl, rfl, rfl, by simp, by simp, by simp⟩

theorem spends_ok (b : Budget) (hlo : b.lo = 0) (x : α) : Spends b (RdE.ok x : RdE ε α) :=
  spends_ret b hlo _

theorem spends_stuck (b : Budget) (w : Stuck) : Spends b (Rd.stuck w : RdE ε α) :=
  fun A D C => ⟨0, 0, 0, rfl, rfl, rfl, by simp, by simp, by simp⟩

theorem spends_lift (b : Budget) (hlo : b.lo = 0) (x : Except Stuck α) : Spends b (RdE.lift x : RdE ε α) := by
  cases x
  · exact spends_stuck _ _
  · exact spends_ok _ hlo _

theorem spends_value (b : Budget) (hlo : b.lo = 0) (x : Option α) : Spends b (RdE.value x : RdE ε α) := by
  cases x
  · exact spends_stuck _ _
  · exact spends_ok _ hlo _

/-- One after the other at the same rates. -/
theorem spends_andThen {m rt s1 s2 l1 l2 c1 c2 : Nat} {r : RdE ε α} {f : α → RdE ε β}
    (hr : Spends ⟨m, s1, l1, rt, c1⟩ r) (hf : ∀ a, Spends ⟨m, s2, l2, rt, c2⟩ (f a)) :
    Spends ⟨m, max s1 s2, l1 + l2, rt, c1 + c2⟩ (r.andThen f) := by
  intro A D C
  refine Rd.ends_bind ((hr A D C).mono ?_)
  rintro A' D' C' o ⟨a, d, c, rfl, rfl, rfl, h1, h2, h3⟩
  have hs1 := Nat.le_max_left s1 s2
  have hs2 := Nat.le_max_right s1 s2
  simp only at h1 h2 h3
  match o, h3 with
  | .stuck w, _ => exact ⟨a, d, c, rfl, rfl, rfl, by simp only; omega, by simp only; omega, by simp⟩
  | .done (.error e), _ => exact ⟨a, d, c, rfl, rfl, rfl, by simp only; omega, by simp only; omega, by simp⟩
  | .done (.ok x), h3 =>
    have h3 := h3 x rfl
    refine (hf x _ _ _).mono ?_
    rintro A' D' C' o ⟨a', d', c', rfl, rfl, rfl, g1, g2, g3⟩
    simp only at g1 g2 g3
    have e1 := Nat.mul_add m d d'
    have e2 := Nat.mul_add rt d d'
    refine ⟨a + a', d + d', c + c', by omega, by omega, by omega, ?_, ?_, fun y hy => ?_⟩
    · simp only; omega
    · simp only; omega
    · have := g3 y hy
      simp only; omega

theorem spends_mapErr {b : Budget} {g : ε → ε'} {r : RdE ε α} (h : Spends b r) :
    Spends b (r.mapErr g) := by
  intro A D C
  refine Rd.ends_bind ((h A D C).mono ?_)
  rintro A' D' C' o ⟨a, d, c, rfl, rfl, rfl, h1, h2, h3⟩
  match o, h3 with
  | .stuck w, _ => exact ⟨a, d, c, rfl, rfl, rfl, h1, h2, by simp⟩
  | .done (.error e), _ => exact ⟨a, d, c, rfl, rfl, rfl, h1, h2, by simp⟩
  | .done (.ok x), h3 => exact ⟨a, d, c, rfl, rfl, rfl, h1, h2, fun _ _ => h3 x rfl⟩

theorem spends_mapOk {b : Budget} {g : α → β} {r : RdE ε α} (h : Spends b r) :
    Spends b (r.mapOk g) := by
  intro A D C
  refine Rd.ends_bind ((h A D C).mono ?_)
  rintro A' D' C' o ⟨a, d, c, rfl, rfl, rfl, h1, h2, h3⟩
  match o, h3 with
  | .stuck w, _ => exact ⟨a, d, c, rfl, rfl, rfl, h1, h2, by simp⟩
  | .done (.error e), _ => exact ⟨a, d, c, rfl, rfl, rfl, h1, h2, by simp⟩
  | .done (.ok x), h3 => exact ⟨a, d, c, rfl, rfl, rfl, h1, h2, fun _ _ => h3 x rfl⟩

/-- Followed by something that costs nothing. -/
theorem spends_then {b : Budget} {r : RdE ε α} {f : α → RdE ε β}
    (hr : Spends b r) (hf : ∀ a, Spends ⟨b.mem, 0, 0, b.rate, 0⟩ (f a)) : Spends b (r.andThen f) := by
  have := spends_andThen (m := b.mem) (rt := b.rate) (s1 := b.ahead) (l1 := b.lo) (c1 := b.calls) hr hf
  exact this.mono ⟨Nat.le_refl _, by simp, by simp, Nat.le_refl _, by simp⟩

/-- Preceded by something that costs nothing. -/
theorem spends_after {b : Budget} {r : RdE ε α} {f : α → RdE ε β}
    (hr : Spends ⟨b.mem, 0, 0, b.rate, 0⟩ r) (hf : ∀ a, Spends b (f a)) : Spends b (r.andThen f) := by
  have := spends_andThen (m := b.mem) (rt := b.rate) (s2 := b.ahead) (l2 := b.lo) (c2 := b.calls) hr hf
  exact this.mono ⟨Nat.le_refl _, by simp, by simp, Nat.le_refl _, by simp⟩

theorem spends_readNativeImpl (size n : Nat) : Spends ⟨0, 0, n, 0, 1⟩ (readNativeImpl size n) := by
  intro A D C
  unfold readNativeImpl
  split
  · exact spends_stuck _ _ A D C
  · refine ⟨⟨0, 0, 1, rfl, rfl, rfl, by simp, by simp, by simp⟩, fun q hq => ?_⟩
    exact ⟨0, n, 1, rfl, rfl, rfl, by simp, by simp, by simp⟩

theorem spends_readNum (cfg : Cfg) (t : ScalarTy) (w : Nat) : Spends ⟨0, 0, w, 0, 1⟩ (readNum cfg t w) :=
  spends_then (spends_readNativeImpl _ _) fun _ =>
    spends_then (spends_value _ rfl _) fun _ => spends_ok _ rfl _

theorem spends_readFixedBuf (cfg : Cfg) (e : ElemTy) (n : Nat) :
    Spends ⟨0, 0, n * e.size, 0, 1⟩ (readFixedBuf cfg e n) :=
  spends_then (spends_readNativeImpl _ _) fun _ =>
    spends_then (spends_value _ rfl _) fun _ => spends_ok _ rfl _

theorem spends_readFixedStr (n : Nat) : Spends ⟨0, 0, n + 1, 0, 1⟩ (readFixedStr n) :=
  spends_then (spends_readNativeImpl _ _) fun _ => spends_ok _ rfl _

/-- `n` times the same: the bytes add up, calls add up. -/
theorem spends_repeatE {m s l rt c : Nat} {r : RdE ε Val} (h : Spends ⟨m, s, l, rt, c⟩ r) (n : Nat) :
    Spends ⟨m, s, n * l, rt, n * c⟩ (repeatE r n) := by
  induction n with
  | zero => exact spends_ok _ (by simp) _
  | succ n ih =>
    rw [repeatE]
    refine (spends_andThen h fun v => spends_then ih fun vs => spends_ok _ rfl _).mono
      ⟨Nat.le_refl _, by simp, ?_, Nat.le_refl _, ?_⟩
    · simp only [Nat.add_mul, Nat.one_mul]; omega
    · simp only [Nat.add_mul, Nat.one_mul]; omega

/-- `n` times something that takes at least a byte: its fixed calls are paid for by
the bytes. -/
theorem spends_repeatE_solid {m s l rt c : Nat} {r : RdE ε Val} (h : Spends ⟨m, s, l, rt, c⟩ r)
    (hl : 1 ≤ l) (n : Nat) : Spends ⟨m, s, n * l, rt + c, c⟩ (repeatE r n) := by
  induction n with
  | zero => exact spends_ok _ (by simp) _
  | succ n ih =>
    rw [repeatE]
    intro A D C
    refine Rd.ends_bind ((h A D C).mono ?_)
    rintro A' D' C' o ⟨a, d, k, rfl, rfl, rfl, h1, h2, h3⟩
    simp only at h1 h2 h3
    have e0 := Nat.add_mul rt c d
    match o, h3 with
    | .stuck w, _ => exact ⟨a, d, k, rfl, rfl, rfl, h1, by simp only; omega, by simp⟩
    | .done (.error e), _ => exact ⟨a, d, k, rfl, rfl, rfl, h1, by simp only; omega, by simp⟩
    | .done (.ok x), h3 =>
      have h3 := h3 x rfl
      have hc : c ≤ c * d := Nat.le_mul_of_pos_right c (by omega)
      have hih : Spends ⟨m, s, n * l, rt + c, c⟩ ((repeatE r n).andThen fun vs => RdE.ok (x :: vs)) :=
        spends_then ih fun vs => spends_ok _ rfl _
      refine (hih _ _ _).mono ?_
      rintro A' D' C' o ⟨a', d', k', rfl, rfl, rfl, g1, g2, g3⟩
      simp only at g1 g2 g3
      have e1 := Nat.mul_add m d d'
      have e2 := Nat.mul_add (rt + c) d d'
      refine ⟨a + a', d + d', k + k', by omega, by omega, by omega, ?_, ?_, fun y hy => ?_⟩
      · simp only; omega
      · simp only; omega
      · have := g3 y hy
        simp only [Nat.add_mul n 1 l, Nat.one_mul]; omega

/-- `resize`, then a read that on success delivers enough to pay for it. -/
theorem spends_resize {m s l rt c bytes cap : Nat} {cfg : Cfg} {k : RdE ε α}
    (h : bytes ≤ cfg.ptrdiffMax → Spends ⟨m, s, l, rt, c⟩ k) (x : Nat) (hx : bytes ≤ x * l) (hcap : bytes ≤ cap) :
    Spends ⟨x + m, cap + s, l, rt, c⟩ (resize cfg bytes k) := by
  intro A D C
  unfold resize
  split
  · exact spends_stuck _ _ A D C
  · rename_i hle
    refine (h (by omega) (A + bytes) D C).mono ?_
    rintro A' D' C' o ⟨a, d, k, rfl, rfl, rfl, h1, h2, h3⟩
    simp only at h1 h2 h3
    have e0 := Nat.add_mul x m d
    refine ⟨bytes + a, d, k, by omega, rfl, rfl, by simp only; omega, h2, fun y hy => ?_⟩
    have h3 := h3 y hy
    have := Nat.mul_le_mul_left x h3.2
    simp only; omega

theorem Cfg.ptrdiffMax_lt (cfg : Cfg) : cfg.ptrdiffMax < cfg.szMod := by
  have : 0 < cfg.szMod := Nat.pow_pos (by decide)
  unfold Cfg.ptrdiffMax; omega

theorem spends_readVec (cfg : Cfg) (e : ElemTy) (he : 0 < e.size) (cap n : Nat) :
    Spends ⟨1, cap, 0, 1, 1⟩ (readVec cfg e cap n) := by
  unfold readVec checkedByteCount
  split
  · exact spends_err _ _
  · rename_i bc hbc
    split at hbc
    · cases hbc
    · rename_i hle
      simp only [Except.ok.injEq] at hbc
      have hcap : n * e.size ≤ cap := (Nat.le_div_iff_mul_le he).1 (by omega)
      have key : n * e.size ≤ cfg.ptrdiffMax →
          Spends ⟨0, 0, n * e.size, 1, 1⟩
            (if cfg.constexprStream then
              (repeatE (readElem cfg e) n).andThen fun vs => RdE.ok (.seq (swapIfForeign cfg e vs))
             else (readNativeImpl (n * e.size) bc).andThen fun mem =>
              (RdE.value (decodeN (e.ofMem cfg.host) e.size n mem)).andThen fun vs =>
              RdE.ok (.seq (swapIfForeign cfg e vs)) : RdE Reason Val) := by
        intro hp
        split
        · refine spends_then ?_ fun _ => spends_ok _ rfl _
          have : Spends ⟨0, 0, e.size, 0, 1⟩ (readElem cfg e) :=
            spends_then (spends_readNativeImpl _ _) fun _ => spends_value _ rfl _
          exact spends_repeatE_solid this he n
        · have hb : bc = n * e.size := by
            rw [← hbc]; exact Nat.mod_eq_of_lt (Nat.lt_of_le_of_lt hp cfg.ptrdiffMax_lt)
          rw [hb]
          refine spends_then ((spends_readNativeImpl _ _).mono ?_) fun _ =>
            spends_then (spends_value _ rfl _) fun _ => spends_ok _ rfl _
          exact ⟨Nat.le_refl _, Nat.le_refl _, Nat.le_refl _, by simp, Nat.le_refl _⟩
      exact (spends_resize key 1 (by omega) hcap).mono
        ⟨Nat.le_refl _, Nat.le_refl _, Nat.zero_le _, Nat.le_refl _, Nat.le_refl _⟩

theorem spends_checked (b : Budget) (hlo : b.lo = 0) (c : Constraint) (v : Val) :
    Spends b (RdE.checked c v) := by
  have : Spends ⟨b.mem, b.ahead, 0, b.rate, b.calls⟩ (RdE.checked c v) := by
    refine spends_after (spends_lift _ rfl _) fun x => ?_
    split
    · exact spends_ok _ rfl _
    · exact spends_err _ _
  exact this.mono ⟨Nat.le_refl _, Nat.le_refl _, by omega, Nat.le_refl _, Nat.le_refl _⟩

def budgetKind (cfg : Cfg) (k : Kind) : Budget :=
  ⟨memoryKind k, aheadKind cfg k, minKind k, rateKind k, callsKind k⟩
def budgetField (cfg : Cfg) (f : Field) : Budget :=
  ⟨memoryField f, aheadField cfg f, minField f, rateField f, callsField f⟩
def budgetAlts (cfg : Cfg) (alts : List Alt) : Budget :=
  ⟨memoryAlts alts, aheadAlts cfg alts, minAlts alts, rateAlts alts, callsAlts alts⟩
def budgetFields (cfg : Cfg) (fs : List Field) : Budget :=
  ⟨memoryFields fs, aheadFields cfg fs, minFields fs, rateFields fs, callsFields fs⟩

mutual
theorem spends_readKind (cfg : Cfg) : (k : Kind) → saneKind k = true → solidKind k = true → ∀ env,
    Spends (budgetKind cfg k) (readKind cfg env k)
  | .num t w, _, _, env => by
      rw [readKind]; simp only [budgetKind, memoryKind, aheadKind, minKind, rateKind, callsKind]
      exact spends_readNum _ _ _
  | .fbuf e n, _, _, env => by
      rw [readKind]; simp only [budgetKind, memoryKind, aheadKind, minKind, rateKind, callsKind]
      exact spends_readFixedBuf _ _ _
  | .fstr n, _, _, env => by
      rw [readKind]; simp only [budgetKind, memoryKind, aheadKind, minKind, rateKind, callsKind]
      exact spends_readFixedStr _
  | .vec e len b, hs, _, env => by
      simp only [saneKind, decide_eq_true_eq] at hs
      rw [readKind]; simp only [budgetKind, memoryKind, aheadKind, minKind, rateKind, callsKind]
      exact spends_after (spends_lift _ rfl _) fun n => spends_readVec cfg e hs _ n
  | .record fs, hs, ho, env => by
      rw [saneKind] at hs
      rw [solidKind] at ho
      rw [readKind]; simp only [budgetKind, memoryKind, aheadKind, minKind, rateKind, callsKind]
      exact spends_mapOk (spends_mapErr (spends_readFields cfg fs hs ho _))
  | .arrRec fs n, hs, ho, env => by
      rw [saneKind] at hs
      rw [solidKind] at ho
      rw [readKind]; simp only [budgetKind, memoryKind, aheadKind, minKind, rateKind, callsKind]
      exact spends_mapOk (spends_repeatE (spends_mapOk (spends_mapErr (spends_readFields cfg fs hs ho _))) n)
  | .vecRec fs len b sz, hs, ho, env => by
      simp only [saneKind, Bool.and_eq_true, decide_eq_true_eq] at hs
      simp only [solidKind, Bool.and_eq_true, decide_eq_true_eq] at ho
      rw [readKind]; simp only [budgetKind, memoryKind, aheadKind, minKind, rateKind, callsKind]
      refine spends_after (spends_lift _ rfl _) fun n => ?_
      unfold checkedByteCount
      split
      · exact spends_err _ _
      · rename_i bc hbc
        split at hbc
        · cases hbc
        · rename_i hle
          have hcap : n * sz ≤ ceilingOf cfg b := (Nat.le_div_iff_mul_le hs.1).1 (by omega)
          have h1 : Spends ⟨memoryFields fs, aheadFields cfg fs, minFields fs, rateFields fs, callsFields fs⟩
              (((readFields cfg (dfltEnv fs) fs).untag).mapOk Val.seq) :=
            spends_mapOk (spends_mapErr (spends_readFields cfg fs hs.2 ho.2 _))
          have h2 := spends_mapOk (g := Val.seq) (spends_repeatE_solid h1 ho.1 n)
          refine (spends_resize (fun _ => h2) sz ?_ hcap).mono
            ⟨Nat.le_refl _, Nat.le_refl _, Nat.zero_le _, Nat.le_refl _, Nat.le_refl _⟩
          rw [Nat.mul_comm n sz]
          exact Nat.mul_le_mul_left sz (Nat.le_mul_of_pos_right n ho.1)
  termination_by structural k => k
theorem spends_readField (cfg : Cfg) : (f : Field) → saneField f = true → solidField f = true → ∀ env,
    Spends (budgetField cfg f) (readField cfg env f)
  | .plain id k c, hs, ho, env => by
      rw [saneField] at hs
      rw [solidField] at ho
      rw [readField]; simp only [budgetField, memoryField, aheadField, minField, rateField, callsField]
      exact spends_readKind cfg k hs ho env
  | .maybe id k p, hs, ho, env => by
      rw [saneField] at hs
      rw [solidField] at ho
      rw [readField]; simp only [budgetField, memoryField, aheadField, minField, rateField, callsField]
      refine spends_after (spends_lift _ rfl _) fun b => ?_
      split
      · exact (spends_mapOk (spends_readKind cfg k hs ho env)).mono
          ⟨Nat.le_refl _, Nat.le_refl _, Nat.zero_le _, Nat.le_refl _, Nat.le_refl _⟩
      · exact spends_ok _ rfl _
  | .union id d alts c, hs, ho, env => by
      simp only [saneField, Bool.and_eq_true, decide_eq_true_eq] at hs
      rw [solidField] at ho
      rw [readField]; simp only [budgetField, memoryField, aheadField, minField, rateField, callsField]
      cases hd : d.eval env with
      | error w => exact spends_stuck _ _
      | ok o =>
        refine (?_ : Spends _ (RdE.andThen (RdE.ok o) _))
        cases o with
        | none => exact spends_err _ _
        | some i =>
          have hi := Deducer.eval_lt env d i hd
          exact spends_mapOk (spends_readAlts cfg alts hs.2 ho env i (by omega))
  termination_by structural f => f
theorem spends_readAlts (cfg : Cfg) : (alts : List Alt) → saneAlts alts = true → solidAlts alts = true →
    ∀ env i, i < alts.length → Spends (budgetAlts cfg alts) (readAlts cfg env alts i)
  | [], _, _, env, i, hi => by simp at hi
  | .mk k c :: alts, hs, ho, env, 0, hi => by
      simp only [saneAlts, Bool.and_eq_true] at hs
      simp only [solidAlts, Bool.and_eq_true] at ho
      rw [readAlts]
      have := spends_readKind cfg k hs.1 ho.1 env
      refine (spends_then this fun v => spends_mapOk (spends_checked _ rfl c v)).mono ?_
      exact ⟨Nat.le_max_left _ _, Nat.le_max_left _ _, minAlts_cons_le k c alts, Nat.le_max_left _ _,
        Nat.le_max_left _ _⟩
  | .mk k c :: alts, hs, ho, env, i + 1, hi => by
      simp only [saneAlts, Bool.and_eq_true] at hs
      simp only [solidAlts, Bool.and_eq_true] at ho
      rw [readAlts]
      have hi' : i < alts.length := by simpa using hi
      have hne : alts ≠ [] := by rintro rfl; simp at hi'
      refine (spends_readAlts cfg alts hs.2 ho.2 env i hi').mono ?_
      exact ⟨Nat.le_max_right _ _, Nat.le_max_right _ _, minAlts_cons_le' k c alts hne, Nat.le_max_right _ _,
        Nat.le_max_right _ _⟩
  termination_by structural alts => alts
theorem spends_readFields (cfg : Cfg) : (fs : List Field) → saneFields fs = true → solidFields fs = true →
    ∀ env, Spends (budgetFields cfg fs) (readFields cfg env fs)
  | [], _, _, env => by rw [readFields]; exact spends_ok _ rfl _
  | f :: fs, hs, ho, env => by
      simp only [saneFields, Bool.and_eq_true] at hs
      simp only [solidFields, Bool.and_eq_true] at ho
      rw [readFields]
      simp only [budgetFields, memoryFields, aheadFields, minFields, rateFields, callsFields]
      refine spends_andThen (spends_mapErr (spends_then ((spends_readField cfg f hs.1 ho.1 env).mono
        ⟨Nat.le_max_left _ _, Nat.le_refl _, Nat.le_refl _, Nat.le_max_left _ _, Nat.le_refl _⟩)
          fun v => spends_checked _ rfl _ v)) fun v => ?_
      refine spends_then ((spends_readFields cfg fs hs.2 ho.2 _).mono
        ⟨Nat.le_max_right _ _, Nat.le_refl _, Nat.le_refl _, Nat.le_max_right _ _, Nat.le_refl _⟩)
          fun vs => spends_ok _ rfl _
  termination_by structural fs => fs
end

theorem delivered_list (r : Rd α) (inp : List Byte) :
    deliveredOn listIn r inp + (r.run inp).2.length = inp.length := by
  induction r generalizing inp with
  | ret a => simp [deliveredOn, Rd.run, Rd.runOn]
  | stuck w => simp [deliveredOn, Rd.run, Rd.runOn]
  | read n k ih =>
    simp only [deliveredOn, Rd.run, Rd.runOn, listIn]
    by_cases h : n ≤ inp.length
    · simp only [h, if_true]
      have := ih (some (inp.take n)) (inp.drop n)
      simp only [Rd.run, List.length_drop] at this
      simp only [List.length_take]
      have hd : deliveredOn listIn (k (some (inp.take n))) (inp.drop n) +
        ((k (some (inp.take n))).runOn listIn (inp.drop n)).2.length = inp.length - n := this
      simp only [listIn] at hd
      omega
    · simp only [h, if_false]
      exact ih none inp
  | alloc b k ih => exact ih inp

end S2S
