import Verif.Lemmas.Append
import Verif.Props.Reading
import Verif.Spec.Select
import Verif.Spec.Demo
/-
C11-C13, C36: ceilings on wire-driven allocation.
-/
namespace S2S.Props
open Spec Demo

/-- A variable-size container: its length, declared bound and element size. -/
inductive Container : Kind → LenSpec → Option Nat → Nat → Prop
  | vec {e len b} : Container (.vec e len b) len b e.size
  | vecRec {fs len b sz} : Container (.vecRec fs len b sz) len b sz

theorem checked_over (cfg : Cfg) (sz c n : Nat) (hsz : 0 < sz) (h : c < n * sz) :
    checkedByteCount cfg sz c n = .error .excessiveLength := by
  unfold checkedByteCount
  rw [if_pos]
  exact (Nat.div_lt_iff_lt_mul hsz).mpr h

theorem readKind_over (cfg : Cfg) (env : Env) (k : Kind) (len : LenSpec) (b : Option Nat)
    (sz n : Nat) (hk : Container k len b sz) (hsz : 0 < sz) (hn : len.eval cfg env = .ok n)
    (h : b.getD cfg.defaultMax < n * sz) : readKind cfg env k = RdE.err .excessiveLength := by
  cases hk with
  | vec =>
    rw [readKind, hn]
    show readVec cfg _ _ n = _
    rw [readVec, ceilingOf, checked_over cfg _ _ n hsz h]
  | vecRec =>
    rw [readKind, hn]
    show (match checkedByteCount cfg sz (ceilingOf cfg b) n with
      | .error r => RdE.err r
      | .ok _ => _) = _
    rw [ceilingOf, checked_over cfg _ _ n hsz h]

/-- Selecting a kind that can only fail makes the field fail the same way. -/
theorem readField_err (cfg : Cfg) (env : Env) (f : Field) (k : Kind) (r : Reason)
    (hsel : Selects env f k) (h : readKind cfg env k = RdE.err r) :
    readField cfg env f = RdE.err r := by
  cases hsel with
  | plain => rw [readField, h]
  | maybe hp => rw [readField, hp, h]; rfl
  | @union id d alts c i k c' hd ha =>
    rw [readField, hd]
    have : readAlts cfg env alts i = RdE.err r := by
      clear hd
      induction alts generalizing i with
      | nil => simp at ha
      | cons a alts ih =>
        cases i with
        | zero =>
          simp only [List.getElem?_cons_zero, Option.some.injEq] at ha
          subst ha
          rw [readAlts, h]
          rfl
        | succ i =>
          obtain ⟨k2, c2⟩ := a
          rw [readAlts]
          exact ih (by simpa using ha)
    show RdE.mapOk _ _ = _
    rw [this]
    rfl

/-- C11. The fields before `f` were read, and `f` (itself, the payload of an engaged
optional, or the selected alternative) is a container of `n` elements of `sz` bytes
whose mathematical product exceeds the ceiling: the cast fails with
`excessive_length` at `f`, leaving the stream as the fields before left it, with no
read and no allocation made for `f`. -/
theorem C11_over_ceiling (cfg : Cfg) (pre post : List Field) (f : Field)
    (hwf : WellFormed (pre ++ f :: post)) (S : InStream) (s s1 : S.State) (vs : List Val)
    (h1 : (structCast cfg pre).runOn S s = (.done (.ok vs), s1))
    (k : Kind) (len : LenSpec) (b : Option Nat) (sz n : Nat)
    (hsel : Selects (envOf pre vs) f k) (hk : Container k len b sz) (hsz : 0 < sz)
    (hn : len.eval cfg (envOf pre vs) = .ok n) (h : b.getD cfg.defaultMax < n * sz) :
    (structCast cfg (pre ++ f :: post)).runOn S s = (.done (.error ⟨.excessiveLength, f.id⟩), s1) ∧
    (structCast cfg (pre ++ f :: post)).allocsOn S s = (structCast cfg pre).allocsOn S s ∧
    (structCast cfg (pre ++ f :: post)).callsOn S s = (structCast cfg pre).callsOn S s := by
  have hf := readField_err cfg _ f k _ hsel (readKind_over cfg _ k len b sz n hk hsz hn h)
  have : readRest cfg pre (f :: post) vs = RdE.err ⟨.excessiveLength, f.id⟩ := by
    rw [readRest, readFields, hf]
    rfl
  rw [runOn_append cfg pre _ hwf S s s1 vs h1, allocsOn_append cfg pre _ hwf S s s1 vs h1,
    callsOn_append cfg pre _ hwf S s s1 vs h1, this]
  simp [RdE.err, Rd.runOn, Rd.allocsOn, Rd.callsOn]

/-- Errors that are not `excessive_length`. -/
abbrev Modest (r : RdE Reason α) : Prop :=
  RdE.AllE Anything (fun e => e ≠ .excessiveLength) Anything Anything r

theorem modest_andThen {r : RdE Reason α} {f : α → RdE Reason β} (hr : Modest r)
    (hf : ∀ a, Modest (f a)) : Modest (r.andThen f) := RdE.all_andThen hr fun a _ => hf a

theorem modest_lift (o : Except Stuck α) : Modest (RdE.lift o) := by cases o <;> trivial
theorem modest_value (o : Option α) : Modest (RdE.value o) := by cases o <;> trivial

theorem modest_native (a b : Nat) : Modest (readNativeImpl a b) := by
  unfold readNativeImpl
  split
  · trivial
  · exact ⟨(by decide : Reason.bufferExhaustion ≠ .excessiveLength), fun q _ => trivial⟩

theorem modest_checked (c : Constraint) (v : Val) : Modest (RdE.checked c v) := by
  refine modest_andThen (modest_lift _) fun b => ?_
  split
  · trivial
  · show Reason.validationFailure ≠ _
    decide

theorem modest_repeatE {r : RdE Reason Val} (h : Modest r) (n : Nat) : Modest (repeatE r n) := by
  induction n with
  | zero => trivial
  | succ n ih => exact modest_andThen h fun _ => modest_andThen ih fun _ => trivial

theorem modest_vec (cfg : Cfg) (env : Env) (e : ElemTy) (len : LenSpec) (b : Option Nat) (n : Nat)
    (hsz : 0 < e.size) (hn : len.eval cfg env = .ok n) (h : n * e.size ≤ b.getD cfg.defaultMax) :
    Modest (readKind cfg env (.vec e len b)) := by
  rw [readKind, hn]
  show Modest (readVec cfg e (ceilingOf cfg b) n)
  unfold readVec checkedByteCount
  rw [if_neg (by
    have : n ≤ ceilingOf cfg b / e.size := (Nat.le_div_iff_mul_le hsz).mpr h
    omega)]
  simp only [resize]
  split
  · trivial
  · refine ⟨trivial, ?_⟩
    split
    · exact modest_andThen (modest_repeatE (modest_andThen (modest_native _ _)
        fun _ => modest_value _) _) fun _ => trivial
    · exact modest_andThen (modest_native _ _) fun _ =>
        modest_andThen (modest_value _) fun _ => trivial

theorem modest_field (cfg : Cfg) (env : Env) (f : Field) (k : Kind)
    (hsel : Selects env f k) (h : Modest (readKind cfg env k)) : Modest (readField cfg env f) := by
  cases hsel with
  | plain => rw [readField]; exact h
  | maybe hp => rw [readField, hp]; exact RdE.all_mapOk h fun _ _ => trivial
  | @union id d alts c i k c' hd ha =>
    rw [readField, hd]
    have : Modest (readAlts cfg env alts i) := by
      clear hd
      induction alts generalizing i with
      | nil => simp at ha
      | cons a alts ih =>
        cases i with
        | zero =>
          simp only [List.getElem?_cons_zero, Option.some.injEq] at ha
          subst ha
          rw [readAlts]
          exact modest_andThen h fun _ => RdE.all_mapOk (modest_checked _ _) fun _ _ => trivial
        | succ i =>
          obtain ⟨k2, c2⟩ := a
          rw [readAlts]
          exact ih (by simpa using ha)
    exact RdE.all_mapOk this fun _ _ => trivial

/-- C11. For vectors and strings of scalars or fixed arrays: once the fields before
have been read, the field fails with `excessive_length` if and only if the
mathematical product exceeds the ceiling, on any stream. -/
theorem C11_iff_partial (cfg : Cfg) (pre : List Field) (f : Field)
    (hwf : WellFormed (pre ++ [f])) (S : InStream) (s s1 : S.State) (vs : List Val)
    (h1 : (structCast cfg pre).runOn S s = (.done (.ok vs), s1))
    (e : ElemTy) (len : LenSpec) (b : Option Nat) (n : Nat)
    (hsel : Selects (envOf pre vs) f (.vec e len b)) (hsz : 0 < e.size)
    (hn : len.eval cfg (envOf pre vs) = .ok n) :
    (∃ s', (structCast cfg (pre ++ [f])).runOn S s = (.done (.error ⟨.excessiveLength, f.id⟩), s')) ↔
      b.getD cfg.defaultMax < n * e.size := by
  constructor
  · rintro ⟨s', h⟩
    apply Nat.lt_of_not_le
    intro hle
    have hm := modest_field cfg _ f _ hsel (modest_vec cfg _ e len b n hsz hn hle)
    rw [runOn_append cfg pre _ hwf S s s1 vs h1, readRest, RdE.runOn_andThen, readFields_cons,
      RdE.runOn_andThen] at h
    have hs : RdE.AllE Anything (fun e => e.reason ≠ .excessiveLength) Anything Anything
        (fieldStep cfg (envOf pre vs) f) :=
      RdE.all_mapErr (modest_andThen hm fun _ => modest_checked _ _) fun _ h => h
    have := Rd.runOn_all S hs s1
    split at h
    · rename_i heq
      split at heq
      · rename_i v s2 _
        rw [readFields] at heq
        cases heq
        cases h
      · cases heq
      · cases heq
    · rename_i heq
      split at heq
      · rw [readFields] at heq
        cases heq
      · rename_i heq'
        rw [heq'] at this
        cases heq
        cases h
        exact this rfl
      · cases heq
    · cases h
  · intro h
    exact ⟨s1, (C11_over_ceiling cfg pre [] f hwf S s s1 vs h1 _ len b e.size n hsel .vec hsz hn h).1⟩

/-- 33 elements of two bytes under 64 bytes: refused before the vector is touched. -/
example : (structCast be64 packet).runOn listIn [0, 0, 0x12, 0x34, 0, 33, 7, 1, 2] =
      (.done (.error ⟨.excessiveLength, "data"⟩), [1, 2]) ∧
    (structCast be64 packet).allocsOn listIn [0, 0, 0x12, 0x34, 0, 33, 7, 1, 2] = [] ∧
    (structCast be64 packet).callsOn listIn [0, 0, 0x12, 0x34, 0, 33, 7, 1, 2] = [4, 2, 1] :=
  C11_over_ceiling be64 (packet.take 3) (packet.drop 4) (packet[3]) (by decide) listIn _
    [1, 2] [.int 0x1234, .int 33, .int 7] (by rfl) _ _ _ _ 33 .plain .vec (by decide) (by rfl)
    (by decide)

/-- A length whose product wraps around `size_t`: 2^63 elements of two bytes. -/
def wide : List Field :=
  [.plain "n" (.num u64 8) .none, .plain "v" (.vec (.scalar u16) (.fromField "n") none) .none]

example : (structCast be64 wide).runOn listIn [0x80, 0, 0, 0, 0, 0, 0, 0, 5] =
    (.done (.error ⟨.excessiveLength, "v"⟩), [5]) :=
  (C11_over_ceiling be64 (wide.take 1) [] (wide[1]) (by decide) listIn _ [5]
    [.int 0x8000000000000000] (by rfl) _ _ _ _ 0x8000000000000000 .plain .vec (by decide) (by rfl)
    (by decide)).1

/-! ## C12 -/

/-- C12. On any stream and any input, every allocation made while reading, at any
nesting level and whether or not the cast succeeds, is within the ceiling of one of
the containers of the schema. -/
theorem C12_allocation_bounded (cfg : Cfg) (fs : List Field) (S : InStream) (s : S.State) :
    ∀ bytes ∈ (structCast cfg fs).allocsOn S s, ∃ c ∈ ceilingsFields cfg fs, bytes ≤ c :=
  Rd.allocsOn_all S (tame_readFields cfg fs (dfltEnv fs)) s

/-- A packet: the vector of at most 64 bytes is the only container. -/
example (S : InStream) (s : S.State) : ∀ bytes ∈ (structCast be64 packet).allocsOn S s, bytes ≤ 64 := by
  intro bytes h
  obtain ⟨c, hc, hb⟩ := C12_allocation_bounded be64 packet S s bytes h
  have : ceilingsFields be64 packet = [64] := by decide +kernel
  rw [this, List.mem_singleton] at hc
  exact hc ▸ hb

/-- C12, field by field: what is allocated for a field is within a ceiling of that very
field. -/
theorem C12_per_field (cfg : Cfg) (pre : List Field) (f : Field) (hwf : WellFormed (pre ++ [f]))
    (S : InStream) (s s1 : S.State) (vs : List Val)
    (h1 : (structCast cfg pre).runOn S s = (.done (.ok vs), s1)) :
    ∃ own, (structCast cfg (pre ++ [f])).allocsOn S s = (structCast cfg pre).allocsOn S s ++ own ∧
      ∀ bytes ∈ own, ∃ c ∈ ceilingsField cfg f, bytes ≤ c := by
  refine ⟨_, allocsOn_append cfg pre [f] hwf S s s1 vs h1, ?_⟩
  have h2 : TameList cfg [f] (readRest cfg pre [f] vs) :=
    RdE.all_andThen (tame_readFields cfg [f] (envOf pre vs)) fun _ _ => trivial
  have := Rd.allocsOn_all S h2 s1
  simpa only [Within, ceilingsFields, List.append_nil] using this

/-- A vector of records with vectors inside: the read breaks off, two allocations were
made, each within its own ceiling. -/
def nested : List Field :=
  [.plain "n" (.num u8 1) .none,
   .plain "v" (.vecRec [.plain "m" (.num u8 1) .none,
      .plain "w" (.vec (.scalar u32) (.fromField "m") (some 16)) .none] (.fromField "n") (some 128) 32)
     .none]

example : (structCast be64 nested).allocsOn listIn [2, 1, 0, 0, 0, 1, 5] = [64, 4] ∧
    ceilingsFields be64 nested = [128, 16] ∧
    ((structCast be64 nested).runOn listIn [2, 1, 0, 0, 0, 1, 5]).1 =
      .done (.error ⟨.excessiveLength, "v"⟩) := by
  refine ⟨?_, ?_, ?_⟩ <;> rfl

/-! ## C13 -/

mutual
/-- Every variable-size container declares its `max_bytes`. -/
def boundedKind : Kind → Bool
  | .vec _ _ b => b.isSome
  | .record fs => boundedFields fs
  | .arrRec fs _ => boundedFields fs
  | .vecRec fs _ b _ => b.isSome && boundedFields fs
  | _ => true
def boundedField : Field → Bool
  | .plain _ k _ => boundedKind k
  | .maybe _ k _ => boundedKind k
  | .union _ _ alts _ => boundedAlts alts
def boundedAlts : List Alt → Bool
  | [] => true
  | .mk k _ :: alts => boundedKind k && boundedAlts alts
def boundedFields : List Field → Bool
  | [] => true
  | f :: fs => boundedField f && boundedFields fs
end

theorem ceiling_default (cfg : Cfg) (m : Nat) (b : Option Nat) (h : b.isSome = true) :
    ceilingOf { cfg with defaultMax := m } b = ceilingOf cfg b := by
  cases b with
  | none => cases h
  | some b => rfl

mutual
theorem default_kind (cfg : Cfg) (m : Nat) : (k : Kind) → boundedKind k = true → ∀ env,
    readKind { cfg with defaultMax := m } env k = readKind cfg env k
  | .num t w, _, env => by rw [readKind, readKind]; rfl
  | .fbuf e n, _, env => by rw [readKind, readKind]; rfl
  | .fstr n, _, env => by rw [readKind, readKind]
  | .vec e len b, h, env => by
      rw [readKind, readKind, ceiling_default cfg m b (by simpa [boundedKind] using h)]
      rfl
  | .record fs, h, env => by
      rw [readKind, readKind, default_fields cfg m fs (by simpa [boundedKind] using h)]
  | .arrRec fs n, h, env => by
      rw [readKind, readKind, default_fields cfg m fs (by simpa [boundedKind] using h)]
  | .vecRec fs len b sz, h, env => by
      simp only [boundedKind, Bool.and_eq_true] at h
      rw [readKind, readKind, default_fields cfg m fs h.2, ceiling_default cfg m b h.1]
      rfl
theorem default_field (cfg : Cfg) (m : Nat) : (f : Field) → boundedField f = true → ∀ env,
    readField { cfg with defaultMax := m } env f = readField cfg env f
  | .plain id k c, h, env => by
      rw [readField, readField, default_kind cfg m k (by simpa [boundedField] using h)]
  | .maybe id k p, h, env => by
      rw [readField, readField, default_kind cfg m k (by simpa [boundedField] using h)]
  | .union id d alts c, h, env => by
      rw [readField, readField]
      simp only [fun i => default_alts cfg m alts (by simpa [boundedField] using h) env i]
theorem default_alts (cfg : Cfg) (m : Nat) : (alts : List Alt) → boundedAlts alts = true →
    ∀ env i, readAlts { cfg with defaultMax := m } env alts i = readAlts cfg env alts i
  | [], _, env, i => by rw [readAlts, readAlts]
  | .mk k c :: alts, h, env, 0 => by
      simp only [boundedAlts, Bool.and_eq_true] at h
      rw [readAlts, readAlts, default_kind cfg m k h.1]
  | .mk k c :: alts, h, env, i + 1 => by
      simp only [boundedAlts, Bool.and_eq_true] at h
      rw [readAlts, readAlts]
      exact default_alts cfg m alts h.2 env i
theorem default_fields (cfg : Cfg) (m : Nat) : (fs : List Field) → boundedFields fs = true →
    ∀ env, readFields { cfg with defaultMax := m } env fs = readFields cfg env fs
  | [], _, env => by rw [readFields, readFields]
  | f :: fs, h, env => by
      simp only [boundedFields, Bool.and_eq_true] at h
      rw [readFields, readFields, default_field cfg m f h.1]
      simp only [fun env => default_fields cfg m fs h.2 env]
end

/-- C13. If every variable-size container declares `max_bytes`, the cast does not depend
on `S2S_DEFAULT_MAX_BYTES`: on any stream, same result, same reads, same
allocations. -/
theorem C13_declared_bound_independent (cfg : Cfg) (m : Nat) (fs : List Field)
    (h : boundedFields fs = true) :
    structCast { cfg with defaultMax := m } fs = structCast cfg fs :=
  default_fields cfg m fs h _

mutual
theorem fits_mono_kind (cfg : Cfg) (m : Nat) (hm : cfg.defaultMax ≤ m) : (k : Kind) → ∀ v,
    FitsKind cfg k v → FitsKind { cfg with defaultMax := m } k v
  | .num t w, v, h => by cases v <;> simp_all only [FitsKind]
  | .fbuf e n, v, h => by cases v <;> simp only [FitsKind] at h ⊢; exact h
  | .fstr n, v, h => by cases v <;> simp only [FitsKind] at h ⊢; exact h
  | .vec e len b, v, h => by
      cases v with
      | seq vs =>
        simp only [FitsKind] at h ⊢
        refine ⟨⟨?_, h.1.2⟩, h.2⟩
        have := h.1.1
        cases b <;> simp only [Option.getD] at this ⊢ <;> omega
      | _ => simp only [FitsKind] at h
  | .record fs, v, h => by
      cases v with
      | seq vs =>
        simp only [FitsKind] at h ⊢
        exact fits_mono_fields cfg m hm fs vs h
      | _ => simp only [FitsKind] at h
  | .arrRec fs n, v, h => by
      cases v with
      | seq vs =>
        simp only [FitsKind] at h ⊢
        refine ⟨h.1, fun v hv => ?_⟩
        obtain ⟨ws, rfl, hw⟩ := h.2 v hv
        exact ⟨ws, rfl, fits_mono_fields cfg m hm fs ws hw⟩
      | _ => simp only [FitsKind] at h
  | .vecRec fs len b sz, v, h => by
      cases v with
      | seq vs =>
        simp only [FitsKind] at h ⊢
        refine ⟨⟨?_, h.1.2⟩, fun v hv => ?_⟩
        · have := h.1.1
          cases b <;> simp only [Option.getD] at this ⊢ <;> omega
        · obtain ⟨ws, rfl, hw⟩ := h.2 v hv
          exact ⟨ws, rfl, fits_mono_fields cfg m hm fs ws hw⟩
      | _ => simp only [FitsKind] at h
theorem fits_mono_field (cfg : Cfg) (m : Nat) (hm : cfg.defaultMax ≤ m) : (f : Field) → ∀ v,
    FitsField cfg f v → FitsField { cfg with defaultMax := m } f v
  | .plain id k c, v, h => by
      simp only [FitsField] at h ⊢
      exact fits_mono_kind cfg m hm k v h
  | .maybe id k p, v, h => by
      cases v <;> simp only [FitsField] at h ⊢
      exact fits_mono_kind cfg m hm k _ h
  | .union id d alts c, v, h => by
      cases v <;> simp only [FitsField] at h ⊢
      exact fits_mono_alts cfg m hm alts _ _ h
theorem fits_mono_alts (cfg : Cfg) (m : Nat) (hm : cfg.defaultMax ≤ m) : (alts : List Alt) → ∀ i v,
    FitsAlts cfg alts i v → FitsAlts { cfg with defaultMax := m } alts i v
  | [], i, v, h => by simp only [FitsAlts] at h
  | .mk k c :: alts, 0, v, h => by
      simp only [FitsAlts] at h ⊢
      exact fits_mono_kind cfg m hm k v h
  | .mk k c :: alts, i + 1, v, h => by
      simp only [FitsAlts] at h ⊢
      exact fits_mono_alts cfg m hm alts i v h
theorem fits_mono_fields (cfg : Cfg) (m : Nat) (hm : cfg.defaultMax ≤ m) : (fs : List Field) →
    ∀ vs, FitsFields cfg fs vs → FitsFields { cfg with defaultMax := m } fs vs
  | [], vs, h => by cases vs <;> simp_all only [FitsFields]
  | f :: fs, vs, h => by
      cases vs with
      | nil => simp only [FitsFields] at h
      | cons v vs =>
        simp only [FitsFields] at h ⊢
        exact ⟨fits_mono_field cfg m hm f v h.1, fits_mono_fields cfg m hm fs vs h.2⟩
end

mutual
theorem shaped_default_kind (cfg : Cfg) (m : Nat) (env : Env) : (k : Kind) → ∀ v,
    ShapedKind cfg env k v → ShapedKind { cfg with defaultMax := m } env k v
  | .num t w, v, h => by simp only [ShapedKind]
  | .fbuf e n, v, h => by simp only [ShapedKind]
  | .fstr n, v, h => by simp only [ShapedKind]
  | .vec e len b, v, h => by
      cases v <;> simp only [ShapedKind] at h ⊢
      exact h
  | .record fs, v, h => by
      cases v <;> simp only [ShapedKind] at h ⊢
      exact shaped_default_fields cfg m _ fs _ h
  | .arrRec fs n, v, h => by
      cases v <;> simp only [ShapedKind] at h ⊢
      intro v hv
      obtain ⟨ws, rfl, hw⟩ := h v hv
      exact ⟨ws, rfl, shaped_default_fields cfg m _ fs ws hw⟩
  | .vecRec fs len b sz, v, h => by
      cases v <;> simp only [ShapedKind] at h ⊢
      refine ⟨h.1, fun v hv => ?_⟩
      obtain ⟨ws, rfl, hw⟩ := h.2 v hv
      exact ⟨ws, rfl, shaped_default_fields cfg m _ fs ws hw⟩
theorem shaped_default_field (cfg : Cfg) (m : Nat) (env : Env) : (f : Field) → ∀ v,
    ShapedField cfg env f v → ShapedField { cfg with defaultMax := m } env f v
  | .plain id k c, v, h => by
      simp only [ShapedField] at h ⊢
      exact shaped_default_kind cfg m env k v h
  | .maybe id k p, v, h => by
      cases v <;> simp only [ShapedField] at h ⊢
      · exact h
      · exact ⟨h.1, shaped_default_kind cfg m env k _ h.2⟩
  | .union id d alts c, v, h => by
      cases v <;> simp only [ShapedField] at h ⊢
      exact ⟨h.1, shaped_default_alts cfg m env alts _ _ h.2⟩
theorem shaped_default_alts (cfg : Cfg) (m : Nat) (env : Env) : (alts : List Alt) → ∀ i v,
    ShapedAlts cfg env alts i v → ShapedAlts { cfg with defaultMax := m } env alts i v
  | [], i, v, h => by simp only [ShapedAlts]
  | .mk k c :: alts, 0, v, h => by
      simp only [ShapedAlts] at h ⊢
      exact shaped_default_kind cfg m env k v h
  | .mk k c :: alts, i + 1, v, h => by
      simp only [ShapedAlts] at h ⊢
      exact shaped_default_alts cfg m env alts i v h
theorem shaped_default_fields (cfg : Cfg) (m : Nat) (env : Env) : (fs : List Field) → ∀ vs,
    ShapedFields cfg env fs vs → ShapedFields { cfg with defaultMax := m } env fs vs
  | [], vs, h => by simp only [ShapedFields]
  | f :: fs, vs, h => by
      cases vs with
      | nil => simp only [ShapedFields]
      | cons v vs =>
        simp only [ShapedFields] at h ⊢
        exact ⟨shaped_default_field cfg m env f v h.1, shaped_default_fields cfg m env fs vs h.2⟩
end

/-- C13. Raising the default never turns a success into anything else: same struct, same
bytes consumed. -/
theorem C13_raising_default_keeps_success (cfg : Cfg) (m : Nat) (hm : cfg.defaultMax ≤ m)
    (fs : List Field) (hwf : WellFormed fs) (inp rest : List Byte) (vs : List Val)
    (h : (structCast cfg fs).run inp = (.done (.ok vs), rest)) :
    (structCast { cfg with defaultMax := m } fs).run inp = (.done (.ok vs), rest) := by
  obtain ⟨⟨h1, h2, h3⟩, rfl⟩ := (read_iff cfg fs hwf inp rest vs).mp h
  refine (read_iff _ fs hwf _ rest vs).mpr ⟨⟨fits_mono_fields cfg m hm fs vs h1, h2, ?_⟩, rfl⟩
  exact shaped_default_fields cfg m _ fs vs h3

example (m : Nat) : structCast { be64 with defaultMax := m } packet = structCast be64 packet :=
  C13_declared_bound_independent be64 m packet (by decide)

/-- The default matters for a container that declares nothing: refused under a default of
one byte, read under every default of at least two. -/
example (m : Nat) (hm : 2 ≤ m) :
    ((structCast { be64 with defaultMax := 1 } wide).run [0, 0, 0, 0, 0, 0, 0, 1, 0xab, 0xcd]).1 =
      .done (.error ⟨.excessiveLength, "v"⟩) ∧
    (structCast { be64 with defaultMax := m } wide).run [0, 0, 0, 0, 0, 0, 0, 1, 0xab, 0xcd] =
      (.done (.ok [.int 1, .seq [.int 0xabcd]]), []) :=
  ⟨by rfl, C13_raising_default_keeps_success { be64 with defaultMax := 2 } m hm wide (by decide)
    _ _ _ (by rfl)⟩

/-! ## C36 -/

theorem toSz_negative (cfg : Cfg) (b : Nat) (x : Int) (hb : b ≤ cfg.szBytes)
    (hx : (ScalarTy.int b true).InRange x) (hneg : x < 0) : cfg.szMod / 2 ≤ cfg.toSz x := by
  have hle : 256 ^ b ≤ cfg.szMod := Nat.pow_le_pow_right (by decide) hb
  have hx1 : -((256 ^ b : Nat) : Int) ≤ 2 * x := hx.1
  unfold Cfg.toSz residue
  change cfg.szMod / 2 ≤ (x % (cfg.szMod : Nat)).toNat
  have hpos : 0 < cfg.szMod := Nat.pow_pos (by decide)
  have : x % (cfg.szMod : Int) = x + cfg.szMod := by
    rw [← Int.add_emod_right, Int.emod_eq_of_lt] <;> omega
  rw [this]
  omega

/-- C36. A signed length field no wider than `size_t` that was read as a negative number:
the container it sizes is refused with `excessive_length` before anything is allocated
or read for it, whenever its ceiling is below half the range of `size_t`. -/
theorem C36_negative_length_partial (cfg : Cfg) (pre post : List Field) (f : Field)
    (hwf : WellFormed (pre ++ f :: post)) (S : InStream) (s s1 : S.State) (vs : List Val)
    (h1 : (structCast cfg pre).runOn S s = (.done (.ok vs), s1))
    (k : Kind) (id : String) (b : Option Nat) (sz bytes : Nat) (x : Int)
    (hsel : Selects (envOf pre vs) f k) (hk : Container k (.fromField id) b sz) (hsz : 0 < sz)
    (hid : envOf pre vs id = some (.int x)) (hx : (ScalarTy.int bytes true).InRange x)
    (hneg : x < 0) (hbytes : bytes ≤ cfg.szBytes) (hc : b.getD cfg.defaultMax < cfg.szMod / 2) :
    (structCast cfg (pre ++ f :: post)).runOn S s = (.done (.error ⟨.excessiveLength, f.id⟩), s1) ∧
    (structCast cfg (pre ++ f :: post)).allocsOn S s = (structCast cfg pre).allocsOn S s ∧
    (structCast cfg (pre ++ f :: post)).callsOn S s = (structCast cfg pre).callsOn S s := by
  refine C11_over_ceiling cfg pre post f hwf S s s1 vs h1 k (.fromField id) b sz (cfg.toSz x) hsel hk
    hsz (by simp only [LenSpec.eval, hid]) ?_
  have := toSz_negative cfg bytes x hbytes hx hneg
  calc b.getD cfg.defaultMax < cfg.szMod / 2 := hc
    _ ≤ cfg.toSz x := this
    _ ≤ cfg.toSz x * sz := Nat.le_mul_of_pos_right _ hsz

def signedLen : List Field :=
  [.plain "n" (.num i16 2) .none, .plain "v" (.vec (.scalar u8) (.fromField "n") none) .none]

example : (structCast be64 signedLen).runOn listIn [0xff, 0xff, 7] =
    (.done (.error ⟨.excessiveLength, "v"⟩), [7]) :=
  (C36_negative_length_partial be64 (signedLen.take 1) [] (signedLen[1]) (by decide) listIn _ [7] [.int (-1)]
    (by rfl) _ "n" none 1 2 (-1) .plain .vec (by decide) (by rfl) (by decide) (by decide) (by decide)
    (by decide)).1

/-- Why the width matters: on a 32-bit platform a 64-bit length of `1 - 2^32` is taken for
one element. -/
theorem C36_fails_wider :
    (structCast { be64 with szBytes := 4 }
      [.plain "n" (.num i64 8) .none, .plain "v" (.vec (.scalar u8) (.fromField "n") none) .none]).run
        [0xff, 0xff, 0xff, 0xff, 0, 0, 0, 1, 7] =
      (.done (.ok [.int (1 - 2 ^ 32), .seq [.int 7]]), []) := by rfl

end S2S.Props
