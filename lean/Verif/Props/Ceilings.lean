import Verif.Props.Limits
import Verif.Props.Errors
/-
C155: when `excessive_length` is reported, exactly, for every container and every length.
-/
namespace S2S.Props
open Spec Demo

/-- C11 fails for vectors of records: two records are within the ceiling, and the read fails with
`excessive_length` there because of the vector in the first of them. -/
theorem C11_fails_records :
    (structCast be64 nested).runOn listIn [2, 5, 0, 0] = (.done (.error ⟨.excessiveLength, "v"⟩), [0, 0]) ∧
    2 * 32 ≤ 128 ∧ (structCast be64 nested).allocsOn listIn [2, 5, 0, 0] = [64] :=
  ⟨by rfl, by decide, by rfl⟩

/-! ### What is within the ceiling allocates first -/

/-- The first thing done is to allocate, if that is possible. -/
def Begins (r : RdE ε α) : Prop := (∃ b k, r = Rd.alloc b k) ∨ ∃ w, r = Rd.stuck w

theorem begins_andThen {r : RdE ε α} (f : α → RdE ε β) (h : Begins r) : Begins (r.andThen f) := by
  rcases h with ⟨b, k, rfl⟩ | ⟨w, rfl⟩
  · exact .inl ⟨b, k.bind _, rfl⟩
  · exact .inr ⟨w, rfl⟩

theorem begins_mapErr {r : RdE ε α} (f : ε → δ) (h : Begins r) : Begins (r.mapErr f) := by
  rcases h with ⟨b, k, rfl⟩ | ⟨w, rfl⟩
  · exact .inl ⟨b, k.bind _, rfl⟩
  · exact .inr ⟨w, rfl⟩

theorem begins_resize (cfg : Cfg) (n : Nat) (k : RdE ε α) : Begins (resize cfg n k) := by
  unfold resize
  split
  · exact .inr ⟨_, rfl⟩
  · exact .inl ⟨_, _, rfl⟩

theorem begins_kind (cfg : Cfg) (env : Env) (k : Kind) (len : LenSpec) (b : Option Nat)
    (sz n : Nat) (hk : Container k len b sz) (hsz : 0 < sz) (hn : len.eval cfg env = .ok n)
    (h : n * sz ≤ b.getD cfg.defaultMax) : Begins (readKind cfg env k) := by
  have hc : checkedByteCount cfg sz (ceilingOf cfg b) n = .ok (n * sz % cfg.szMod) := by
    unfold checkedByteCount
    rw [if_neg]
    have : n ≤ ceilingOf cfg b / sz := (Nat.le_div_iff_mul_le hsz).mpr h
    omega
  cases hk with
  | vec =>
    rw [readKind, hn]
    show Begins (readVec cfg _ _ n)
    rw [readVec, hc]
    exact begins_resize _ _ _
  | vecRec =>
    rw [readKind, hn]
    show Begins (match checkedByteCount cfg sz (ceilingOf cfg b) n with
      | .error r => RdE.err r
      | .ok _ => resize cfg (n * sz) _)
    rw [hc]
    exact begins_resize _ _ _

theorem begins_field (cfg : Cfg) (env : Env) (f : Field) (k : Kind)
    (hsel : Selects env f k) (h : Begins (readKind cfg env k)) : Begins (readField cfg env f) := by
  cases hsel with
  | plain => rw [readField]; exact h
  | maybe hp =>
    rw [readField, hp]
    exact begins_andThen (r := readKind cfg env k) _ h
  | @union id d alts c i k c' hd ha =>
    rw [readField, hd]
    have : Begins (readAlts cfg env alts i) := by
      clear hd
      induction alts generalizing i with
      | nil => simp at ha
      | cons a alts ih =>
        cases i with
        | zero =>
          simp only [List.getElem?_cons_zero, Option.some.injEq] at ha
          subst ha
          rw [readAlts]
          exact begins_andThen _ h
        | succ i =>
          obtain ⟨k2, c2⟩ := a
          rw [readAlts]
          exact ih (by simpa using ha)
    exact begins_andThen (r := readAlts cfg env alts i) _ this

/-- C155. The fields before `f` were read, and `f` (itself, the payload of an engaged optional, or
the selected alternative) is a container of `n` elements of `sz` bytes, records or not. Exactly if
the mathematical product exceeds the ceiling the cast fails with `excessive_length` at `f` without
an allocation for `f`; and then the stream was not asked for anything either. -/
theorem C155_at_the_door (cfg : Cfg) (pre post : List Field) (f : Field)
    (hwf : WellFormed (pre ++ f :: post)) (S : InStream) (s s1 : S.State) (vs : List Val)
    (h1 : (structCast cfg pre).runOn S s = (.done (.ok vs), s1))
    (k : Kind) (len : LenSpec) (b : Option Nat) (sz n : Nat)
    (hsel : Selects (envOf pre vs) f k) (hk : Container k len b sz) (hsz : 0 < sz)
    (hn : len.eval cfg (envOf pre vs) = .ok n) :
    (b.getD cfg.defaultMax < n * sz ↔
      (∃ s', (structCast cfg (pre ++ f :: post)).runOn S s =
        (.done (.error ⟨.excessiveLength, f.id⟩), s')) ∧
      (structCast cfg (pre ++ f :: post)).allocsOn S s = (structCast cfg pre).allocsOn S s) ∧
    (b.getD cfg.defaultMax < n * sz →
      (structCast cfg (pre ++ f :: post)).runOn S s =
        (.done (.error ⟨.excessiveLength, f.id⟩), s1) ∧
      (structCast cfg (pre ++ f :: post)).callsOn S s = (structCast cfg pre).callsOn S s) := by
  have over := fun h => C11_over_ceiling cfg pre post f hwf S s s1 vs h1 k len b sz n hsel hk hsz hn h
  refine ⟨⟨fun h => ⟨⟨s1, (over h).1⟩, (over h).2.1⟩, ?_⟩, fun h => ⟨(over h).1, (over h).2.2⟩⟩
  rintro ⟨⟨s', hr⟩, ha⟩
  apply Nat.lt_of_not_le
  intro hle
  have hb : Begins (readRest cfg pre (f :: post) vs) := by
    rw [readRest, readFields_cons]
    exact begins_andThen _ (begins_andThen _ (begins_mapErr _ (begins_andThen _
      (begins_field cfg _ f k hsel (begins_kind cfg _ k len b sz n hk hsz hn hle)))))
  rw [runOn_append cfg pre _ hwf S s s1 vs h1] at hr
  rw [allocsOn_append cfg pre _ hwf S s s1 vs h1] at ha
  rcases hb with ⟨n, r, hb⟩ | ⟨w, hb⟩
  · rw [hb] at ha
    simp [Rd.allocsOn] at ha
  · rw [hb] at hr
    simp [Rd.runOn] at hr

/-- Two records of 32 bytes under 128, and five under 128. -/
example : (structCast be64 nested).runOn listIn [5, 1] = (.done (.error ⟨.excessiveLength, "v"⟩), [1]) :=
  ((C155_at_the_door be64 (nested.take 1) [] (nested[1]) (by decide) listIn [5, 1] [1] [.int 5] (by rfl)
    _ _ _ _ 5 .plain .vecRec (by decide) (by rfl)).2 (by decide)).1

/-! ### Inside -/

theorem runOn_record (cfg : Cfg) (S : InStream) (fs : List Field) (s : S.State) :
    Rd.runOn S (((readFields cfg (dfltEnv fs) fs).untag).mapOk Val.seq) s =
      match (structCast cfg fs).runOn S s with
      | (.done (.ok vs), s') => (.done (.ok (.seq vs)), s')
      | (.done (.error e), s') => (.done (.error e.reason), s')
      | (.stuck w, s') => (.stuck w, s') := by
  rw [RdE.mapOk, RdE.runOn_andThen, RdE.untag, RdE.runOn_mapErr]
  unfold structCast
  cases Rd.runOn S (readFields cfg (dfltEnv fs) fs) s with
  | mk o s2 =>
    cases o with
    | stuck w => rfl
    | done a => cases a <;> rfl

theorem repeat_error_inv (cfg : Cfg) (S : InStream) (fs : List Field) (r : Reason) (s' : S.State) :
    (n : Nat) → (s : S.State) →
    (repeatE (((readFields cfg (dfltEnv fs) fs).untag).mapOk .seq) n).runOn S s = (.done (.error r), s') →
    ∃ i s1 e, i < n ∧ ReadsMany cfg S fs i s s1 ∧
      (structCast cfg fs).runOn S s1 = (.done (.error e), s') ∧ e.reason = r
  | 0, s, h => by
      rw [repeatE] at h
      cases h
  | n + 1, s, h => by
      rw [repeatE, RdE.runOn_andThen, runOn_record] at h
      cases ho : (structCast cfg fs).runOn S s with
      | mk o s2 =>
        rw [ho] at h
        cases o with
        | stuck w => cases h
        | done a =>
          cases a with
          | error e =>
            simp only [Prod.mk.injEq, Outcome.done.injEq, Except.error.injEq] at h
            obtain ⟨h, rfl⟩ := h
            exact ⟨0, s, e, by omega, .zero s, ho, h⟩
          | ok vs =>
            simp only at h
            rw [RdE.runOn_andThen] at h
            have : (repeatE (((readFields cfg (dfltEnv fs) fs).untag).mapOk .seq) n).runOn S s2 =
                (.done (.error r), s') := by
              split at h
              · cases h
              · rename_i heq
                rw [heq, h]
              · cases h
            obtain ⟨i, s3, e, hi, h2, h3, h4⟩ := repeat_error_inv cfg S fs r s' n s2 this
            exact ⟨i + 1, s3, e, by omega, .succ ho h2, h3, h4⟩

theorem andThen_error_inv {S : InStream} {r : RdE ε α} {f : α → RdE ε β} {s s' : S.State} {e : ε}
    (h : (r.andThen f).runOn S s = (.done (.error e), s')) :
    r.runOn S s = (.done (.error e), s') ∨
    ∃ a s2, r.runOn S s = (.done (.ok a), s2) ∧ (f a).runOn S s2 = (.done (.error e), s') := by
  rw [RdE.runOn_andThen] at h
  rcases hr : Rd.runOn S r s with ⟨(_ | _) | _, s2⟩ <;> rw [hr] at h
  · left
    cases h
    rfl
  · exact .inr ⟨_, s2, rfl, h⟩
  · cases h

theorem mapOk_error_inv {S : InStream} {r : RdE ε α} {g : α → β} {s s' : S.State} {e : ε}
    (h : (r.mapOk g).runOn S s = (.done (.error e), s')) : r.runOn S s = (.done (.error e), s') := by
  rcases andThen_error_inv h with h | ⟨a, s2, _, h⟩
  · exact h
  · cases h

theorem checked_reason {S : InStream} {c : Constraint} {v : Val} {s s' : S.State} {r : Reason}
    (h : (RdE.checked c v).runOn S s = (.done (.error r), s')) : r = .validationFailure := by
  unfold RdE.checked at h
  rcases hc : c.check v with w | b
  · rw [hc] at h; cases h
  · rw [hc] at h
    cases b <;> cases h
    rfl

/-- A field that fails otherwise than by a constraint fails because the kind it selects does. -/
theorem selects_error (cfg : Cfg) (env : Env) (f : Field) (k : Kind) (hsel : Selects env f k)
    (S : InStream) (s s' : S.State) (r : Reason) (hr : r ≠ .validationFailure)
    (h : (readField cfg env f).runOn S s = (.done (.error r), s')) :
    (readKind cfg env k).runOn S s = (.done (.error r), s') := by
  cases hsel with
  | plain => rw [readField] at h; exact h
  | maybe hp => rw [readField, hp] at h; exact mapOk_error_inv (r := readKind cfg env k) h
  | @union id d alts c i k c' hd ha =>
    rw [readField, hd] at h
    have h' := mapOk_error_inv (r := readAlts cfg env alts i) h
    clear h hd
    induction alts generalizing i with
    | nil => simp at ha
    | cons a alts ih =>
      cases i with
      | zero =>
        simp only [List.getElem?_cons_zero, Option.some.injEq] at ha
        subst ha
        rw [readAlts] at h'
        rcases andThen_error_inv h' with h' | ⟨v, s2, _, h'⟩
        · exact h'
        · exact absurd (checked_reason (mapOk_error_inv h')) hr
      | succ i =>
        obtain ⟨k2, c2⟩ := a
        rw [readAlts] at h'
        exact ih (by simpa using ha) h'

/-- C155. A vector of records within its ceiling: `excessive_length` is reported there exactly if a
record in it is refused with `excessive_length`, those before it having been read. -/
theorem C155_inside (cfg : Cfg) (pre : List Field) (f : Field)
    (hwf : WellFormed (pre ++ [f])) (S : InStream) (s s1 s' : S.State) (vs : List Val)
    (h1 : (structCast cfg pre).runOn S s = (.done (.ok vs), s1))
    (gs : List Field) (len : LenSpec) (b : Option Nat) (sz n : Nat)
    (hsel : Selects (envOf pre vs) f (.vecRec gs len b sz)) (hsz : 0 < sz)
    (hn : len.eval cfg (envOf pre vs) = .ok n) (hle : n * sz ≤ b.getD cfg.defaultMax) :
    (structCast cfg (pre ++ [f])).runOn S s = (.done (.error ⟨.excessiveLength, f.id⟩), s') ↔
      RecordFails cfg S (envOf pre vs) (.vecRec gs len b sz) s1 .excessiveLength s' := by
  constructor
  · intro h
    rw [runOn_append cfg pre _ hwf S s s1 vs h1, readRest, readFields] at h
    have hf : (readField cfg (envOf pre vs) f).runOn S s1 = (.done (.error .excessiveLength), s') := by
      have h := mapOk_error_inv (r := RdE.andThen _ _) h
      rcases andThen_error_inv h with h | ⟨v, s2, _, h⟩
      · rw [RdE.tag, RdE.runOn_mapErr] at h
        rcases hr : Rd.runOn S ((readField cfg (envOf pre vs) f).andThen fun v =>
            RdE.checked f.constraint v) s1 with ⟨(e | v) | w, s2⟩ <;> rw [hr] at h
        · have : e = .excessiveLength ∧ s2 = s' := by
            cases h
            exact ⟨rfl, rfl⟩
          obtain ⟨rfl, rfl⟩ := this
          rcases andThen_error_inv hr with h | ⟨v, s3, _, h⟩
          · exact h
          · cases checked_reason h
        · cases h
        · cases h
      · rw [readFields] at h
        cases h
    have hk := selects_error cfg _ f _ hsel S s1 s' _ (by decide) hf
    have hc : checkedByteCount cfg sz (ceilingOf cfg b) n = .ok (n * sz % cfg.szMod) := by
      unfold checkedByteCount
      rw [if_neg]
      have : n ≤ ceilingOf cfg b / sz := (Nat.le_div_iff_mul_le hsz).mpr hle
      omega
    rw [readKind, hn] at hk
    change Rd.runOn S (match checkedByteCount cfg sz (ceilingOf cfg b) n with
      | .error r => RdE.err r
      | .ok _ => resize cfg (n * sz) _) s1 = _ at hk
    rw [hc] at hk
    simp only [resize] at hk
    split at hk
    · cases hk
    · change Rd.runOn S (RdE.mapOk _ _) s1 = _ at hk
      obtain ⟨i, s2, e, hi, h2, h3, h4⟩ := repeat_error_inv cfg S gs _ s' n s1 (mapOk_error_inv hk)
      rw [← h4]
      exact .vector hn hle (by omega) hsz hi h2 h3
  · intro h
    exact C10_read_nested cfg pre [] f hwf S s s1 s' vs h1 _ hsel _ h

/-- The second of two records is refused within, the first having been read. -/
example : RecordFails be64 listIn (envOf (nested.take 1) [.int 2])
    (.vecRec [.plain "m" (.num u8 1) .none,
      .plain "w" (.vec (.scalar u32) (.fromField "m") (some 16)) .none] (.fromField "n") (some 128) 32)
    [1, 0, 0, 0, 7, 5, 0] .excessiveLength [0] :=
  (C155_inside be64 (nested.take 1) (nested[1]) (by decide) listIn [2, 1, 0, 0, 0, 7, 5, 0]
    [1, 0, 0, 0, 7, 5, 0] [0] [.int 2] (by rfl) _ _ _ _ 2 .plain (by decide) (by rfl) (by decide)).mp (by rfl)

/-! ### Negative lengths -/

/-- C155. A length field that was read as a negative number `x`, of any width: the container it
sizes is refused at the outset exactly if `x` modulo the range of `size_t` counts too many elements,
and is so whenever the length is no wider than `size_t` and the ceiling below half of that range. -/
theorem C155_negative (cfg : Cfg) (pre post : List Field) (f : Field)
    (hwf : WellFormed (pre ++ f :: post)) (S : InStream) (s s1 : S.State) (vs : List Val)
    (h1 : (structCast cfg pre).runOn S s = (.done (.ok vs), s1))
    (k : Kind) (id : String) (b : Option Nat) (sz : Nat) (x : Int)
    (hsel : Selects (envOf pre vs) f k) (hk : Container k (.fromField id) b sz) (hsz : 0 < sz)
    (hid : envOf pre vs id = some (.int x)) :
    (((b.getD cfg.defaultMax : Nat) : Int) < x % ((256 ^ cfg.szBytes : Nat) : Int) * sz ↔
      (∃ s', (structCast cfg (pre ++ f :: post)).runOn S s =
        (.done (.error ⟨.excessiveLength, f.id⟩), s')) ∧
      (structCast cfg (pre ++ f :: post)).allocsOn S s = (structCast cfg pre).allocsOn S s) ∧
    (∀ bytes, (ScalarTy.int bytes true).InRange x → x < 0 → bytes ≤ cfg.szBytes →
      b.getD cfg.defaultMax < 256 ^ cfg.szBytes / 2 →
      ((b.getD cfg.defaultMax : Nat) : Int) < x % ((256 ^ cfg.szBytes : Nat) : Int) * sz) := by
  have hpos : 0 < 256 ^ cfg.szBytes := Nat.pow_pos (by decide)
  have hx : x % ((256 ^ cfg.szBytes : Nat) : Int) = (cfg.toSz x : Nat) := by
    unfold Cfg.toSz residue
    change _ = ((x % ((256 ^ cfg.szBytes : Nat) : Int)).toNat : Int)
    have := Int.emod_nonneg x (b := ((256 ^ cfg.szBytes : Nat) : Int)) (by omega)
    omega
  rw [hx, ← Int.natCast_mul, Int.ofNat_lt]
  constructor
  · exact (C155_at_the_door cfg pre post f hwf S s s1 vs h1 k (.fromField id) b sz (cfg.toSz x) hsel hk
      hsz (by simp only [LenSpec.eval, hid])).1
  · intro bytes hr hneg hb hc
    have : 256 ^ cfg.szBytes / 2 ≤ cfg.toSz x := toSz_negative cfg bytes x hb hr hneg
    exact Nat.lt_of_lt_of_le hc (Nat.le_trans this (Nat.le_mul_of_pos_right _ hsz))

/-- `1 - 2^32` on a 32-bit platform counts one element, and is let through. -/
example :
    ¬ ((((none : Option Nat).getD be64.defaultMax : Nat) : Int) <
      (1 - 2 ^ 32) % ((256 ^ 4 : Nat) : Int) * ((1 : Nat) : Int)) := by decide

end S2S.Props
