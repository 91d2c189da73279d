import Verif.Spec.Platform
import Verif.Lemmas.Refused
import Verif.Lemmas.Made
/-
What is the same on every platform, and what is left to the ceilings.
-/
namespace S2S
open Spec RdE

/-! ### Sizes of records: nothing else changes -/

section Measured
variable (s : List Field → Nat)

theorem measuredField_id (f : Field) : (measuredField s f).id = f.id := by
  cases f <;> rfl

theorem measured_envOf : ∀ fs vs, envOf (measured s fs) vs = envOf fs vs
  | [], _ => by simp only [measured]
  | _ :: _, [] => by simp only [measured, envOf]
  | _ :: fs, _ :: vs => by simp only [measured, envOf, measuredField_id, measured_envOf fs vs]

theorem measured_lens (k : Kind) : (measuredKind s k).lenSpec? = k.lenSpec? := by
  cases k <;> rfl

theorem measured_kindDeps (k : Kind) : kindDeps (measuredKind s k) = kindDeps k := by
  cases k <;> rfl

theorem measured_altDeps : ∀ alts : List Alt,
    ((measuredAlts s alts).flatMap fun a => kindDeps a.kind) = alts.flatMap fun a => kindDeps a.kind
  | [] => rfl
  | .mk k c :: alts => by
      simp only [measuredAlts, List.flatMap_cons, measured_kindDeps, measured_altDeps alts]

theorem measured_altLens : ∀ alts : List Alt,
    ((measuredAlts s alts).flatMap fun a => a.kind.lenSpec?.toList) =
      alts.flatMap fun a => a.kind.lenSpec?.toList
  | [] => rfl
  | .mk k c :: alts => by
      simp only [measuredAlts, List.flatMap_cons, measured_lens, measured_altLens alts]

theorem measured_fieldDeps (f : Field) : fieldDeps (measuredField s f) = fieldDeps f := by
  cases f <;> simp only [measuredField, fieldDeps, measured_kindDeps, measured_altDeps]

theorem measured_fieldLens (f : Field) : fieldLens (measuredField s f) = fieldLens f := by
  cases f <;> simp only [measuredField, fieldLens, measured_lens, measured_altLens]

theorem measured_altsLength : ∀ alts : List Alt, (measuredAlts s alts).length = alts.length
  | [] => rfl
  | .mk _ _ :: alts => by simp only [measuredAlts, List.length_cons, measured_altsLength alts]

theorem measured_mem {g : Field} : ∀ {fs : List Field}, g ∈ measured s fs → ∃ f ∈ fs, g = measuredField s f
  | [], h => by simp [measured] at h
  | f :: fs, h => by
      simp only [measured, List.mem_cons] at h
      rcases h with rfl | h
      · exact ⟨f, by simp, rfl⟩
      · obtain ⟨f', hf, rfl⟩ := measured_mem h
        exact ⟨f', by simp [hf], rfl⟩

mutual
theorem measured_wireKind (o : Endian) : ∀ k v, wireKind o (measuredKind s k) v = wireKind o k v
  | .num _ _, _ => by rw [measuredKind]
  | .fbuf _ _, _ => by rw [measuredKind]
  | .fstr _, _ => by rw [measuredKind]
  | .vec _ _ _, _ => by rw [measuredKind]
  | .record fs, v => by
      cases v <;> simp only [measuredKind, wireKind, measured_wireFields o fs]
  | .arrRec fs n, v => by
      cases v <;> simp only [measuredKind, wireKind, measured_wireFields o fs]
  | .vecRec fs len b sz, v => by
      cases v <;> simp only [measuredKind, wireKind, measured_wireFields o fs]
theorem measured_wireField (o : Endian) : ∀ f v, wireField o (measuredField s f) v = wireField o f v
  | .plain _ k _, _ => by simp only [measuredField, wireField, measured_wireKind o k]
  | .maybe id k p, v => by
      cases v <;> simp only [measuredField, wireField, measured_wireKind o k]
  | .union id d alts c, v => by
      cases v <;> simp only [measuredField, wireField, measured_wireAlts o alts]
theorem measured_wireAlts (o : Endian) : ∀ alts i v,
    wireAlts o (measuredAlts s alts) i v = wireAlts o alts i v
  | [], _, _ => by rw [measuredAlts]
  | .mk k _ :: _, 0, _ => by simp only [measuredAlts, wireAlts, measured_wireKind o k]
  | .mk _ _ :: alts, _ + 1, _ => by simp only [measuredAlts, wireAlts, measured_wireAlts o alts]
theorem measured_wireFields (o : Endian) : ∀ fs vs, wireFields o (measured s fs) vs = wireFields o fs vs
  | [], _ => by rw [measured]
  | _ :: _, [] => by simp only [measured, wireFields]
  | f :: fs, v :: vs => by
      simp only [measured, wireFields, measured_wireField o f, measured_wireFields o fs]
end

mutual
theorem measured_meansKind (o : Endian) (env : Env) : ∀ k v,
    MeansKind o env (measuredKind s k) v ↔ MeansKind o env k v
  | .num _ _, _ => by rw [measuredKind]
  | .fbuf _ _, _ => by rw [measuredKind]
  | .fstr _, _ => by rw [measuredKind]
  | .vec _ _ _, _ => by rw [measuredKind]
  | .record fs, v => by
      cases v <;> simp only [measuredKind, MeansKind, measured_meansFields o _ fs, measured_envOf]
  | .arrRec fs n, v => by
      cases v <;> simp only [measuredKind, MeansKind, measured_meansFields o _ fs, measured_envOf]
  | .vecRec fs len b sz, v => by
      cases v <;> simp only [measuredKind, MeansKind, measured_meansFields o _ fs, measured_envOf]
theorem measured_meansField (o : Endian) (env : Env) : ∀ f v,
    MeansField o env (measuredField s f) v ↔ MeansField o env f v
  | .plain _ k _, _ => by simp only [measuredField, MeansField, measured_meansKind o env k]
  | .maybe id k p, v => by
      cases v <;> simp only [measuredField, MeansField, measured_meansKind o env k]
  | .union id d alts c, v => by
      cases v <;> simp only [measuredField, MeansField, measured_meansAlts o env alts]
theorem measured_meansAlts (o : Endian) (env : Env) : ∀ alts i v,
    MeansAlts o env (measuredAlts s alts) i v ↔ MeansAlts o env alts i v
  | [], _, _ => by rw [measuredAlts]
  | .mk k _ :: _, 0, _ => by simp only [measuredAlts, MeansAlts, measured_meansKind o env k]
  | .mk _ _ :: alts, _ + 1, _ => by simp only [measuredAlts, MeansAlts, measured_meansAlts o env alts]
theorem measured_meansFields (o : Endian) (env : Env) : ∀ fs vs,
    MeansFields o env (measured s fs) vs ↔ MeansFields o env fs vs
  | [], _ => by rw [measured]
  | _ :: _, [] => by simp only [measured, MeansFields]
  | f :: fs, v :: vs => by
      simp only [measured, MeansFields, measured_meansField o env f, measured_meansFields o env fs]
end

theorem measured_means (o : Endian) (fs : List Field) (vs : List Val) :
    Means o (measured s fs) vs ↔ Means o fs vs := by
  unfold Means
  rw [measured_envOf, measured_meansFields]

mutual
theorem measured_saneKind (hs : ∀ fs, 0 < s fs) : ∀ k, saneKind k = true → saneKind (measuredKind s k) = true
  | .num _ _, h => h
  | .fbuf _ _, h => h
  | .fstr _, h => h
  | .vec _ _ _, h => h
  | .record fs, h => measured_saneFields hs fs h
  | .arrRec fs _, h => measured_saneFields hs fs h
  | .vecRec fs len b sz, h => by
      simp only [saneKind, measuredKind, Bool.and_eq_true, decide_eq_true_eq] at h ⊢
      exact ⟨hs fs, measured_saneFields hs fs h.2⟩
theorem measured_saneField (hs : ∀ fs, 0 < s fs) : ∀ f, saneField f = true → saneField (measuredField s f) = true
  | .plain _ k _, h => measured_saneKind hs k h
  | .maybe _ k _, h => measured_saneKind hs k h
  | .union id d alts c, h => by
      simp only [saneField, measuredField, Bool.and_eq_true, measured_altsLength] at h ⊢
      exact ⟨h.1, measured_saneAlts hs alts h.2⟩
theorem measured_saneAlts (hs : ∀ fs, 0 < s fs) : ∀ alts, saneAlts alts = true → saneAlts (measuredAlts s alts) = true
  | [], h => h
  | .mk k c :: alts, h => by
      simp only [saneAlts, measuredAlts, Bool.and_eq_true] at h ⊢
      exact ⟨measured_saneKind hs k h.1, measured_saneAlts hs alts h.2⟩
theorem measured_saneFields (hs : ∀ fs, 0 < s fs) : ∀ fs, saneFields fs = true → saneFields (measured s fs) = true
  | [], h => h
  | f :: fs, h => by
      simp only [saneFields, measured, Bool.and_eq_true] at h ⊢
      exact ⟨measured_saneField hs f h.1, measured_saneFields hs fs h.2⟩
end

mutual
theorem measured_uniqueKind : ∀ k, uniqueKind (measuredKind s k) = uniqueKind k
  | .num _ _ => rfl
  | .fbuf _ _ => rfl
  | .fstr _ => rfl
  | .vec _ _ _ => rfl
  | .record fs => measured_uniqueFields fs _
  | .arrRec fs _ => measured_uniqueFields fs _
  | .vecRec fs _ _ _ => measured_uniqueFields fs _
theorem measured_uniqueField : ∀ f, uniqueField (measuredField s f) = uniqueField f
  | .plain _ k _ => measured_uniqueKind k
  | .maybe _ k _ => measured_uniqueKind k
  | .union _ _ alts _ => measured_uniqueAlts alts
theorem measured_uniqueAlts : ∀ alts, uniqueAlts (measuredAlts s alts) = uniqueAlts alts
  | [] => rfl
  | .mk k _ :: alts => by simp only [uniqueAlts, measuredAlts, measured_uniqueKind k, measured_uniqueAlts alts]
theorem measured_uniqueFields : ∀ fs seen, uniqueFields seen (measured s fs) = uniqueFields seen fs
  | [], _ => rfl
  | f :: fs, seen => by
      simp only [uniqueFields, measured, measuredField_id, measured_uniqueField f, measured_uniqueFields fs]
end

mutual
theorem measured_earlierKind : ∀ k, earlierKind (measuredKind s k) = earlierKind k
  | .num _ _ => rfl
  | .fbuf _ _ => rfl
  | .fstr _ => rfl
  | .vec _ _ _ => rfl
  | .record fs => measured_earlierFields fs _
  | .arrRec fs _ => measured_earlierFields fs _
  | .vecRec fs _ _ _ => measured_earlierFields fs _
theorem measured_earlierField : ∀ f, earlierField (measuredField s f) = earlierField f
  | .plain _ k _ => measured_earlierKind k
  | .maybe _ k _ => measured_earlierKind k
  | .union _ _ alts _ => measured_earlierAlts alts
theorem measured_earlierAlts : ∀ alts, earlierAlts (measuredAlts s alts) = earlierAlts alts
  | [] => rfl
  | .mk k _ :: alts => by simp only [earlierAlts, measuredAlts, measured_earlierKind k, measured_earlierAlts alts]
theorem measured_earlierFields : ∀ fs seen, earlierFields seen (measured s fs) = earlierFields seen fs
  | [], _ => rfl
  | f :: fs, seen => by
      simp only [earlierFields, measured, measuredField_id, measured_fieldDeps, measured_earlierField f,
        measured_earlierFields fs]
end

theorem measured_wf (hs : ∀ fs, 0 < s fs) {fs : List Field} (h : WellFormed fs) :
    WellFormed (measured s fs) :=
  ⟨measured_saneFields s hs fs h.1, by rw [measured_uniqueFields]; exact h.2.1,
    by rw [measured_earlierFields]; exact h.2.2⟩

theorem measured_smallLens {b : Nat} {fs : List Field} (h : SmallLens b fs) :
    SmallLens b (measured s fs) := by
  intro f hf len hl
  obtain ⟨f', hf', rfl⟩ := measured_mem s hf
  rw [measured_fieldLens] at hl
  have := h f' hf' len hl
  cases len with
  | computed c => exact this
  | fromField id =>
    intro g hg hid
    obtain ⟨g', hg', rfl⟩ := measured_mem s hg
    rw [measuredField_id] at hid
    have := this g' hg' hid
    cases g' with
    | plain i k c =>
      cases k with
      | num t w => exact this
      | _ => exact this.elim
    | _ => exact this.elim

mutual
theorem measured_everyKind {b : Nat} : ∀ k, EveryKind (SmallLens b) k → EveryKind (SmallLens b) (measuredKind s k)
  | .num _ _, h => h
  | .fbuf _ _, h => h
  | .fstr _, h => h
  | .vec _ _ _, h => h
  | .record fs, h => ⟨measured_smallLens s h.1, measured_everyFields fs h.2⟩
  | .arrRec fs _, h => ⟨measured_smallLens s h.1, measured_everyFields fs h.2⟩
  | .vecRec fs _ _ _, h => ⟨measured_smallLens s h.1, measured_everyFields fs h.2⟩
theorem measured_everyField {b : Nat} : ∀ f, EveryField (SmallLens b) f → EveryField (SmallLens b) (measuredField s f)
  | .plain _ k _, h => measured_everyKind k h
  | .maybe _ k _, h => measured_everyKind k h
  | .union _ _ alts _, h => measured_everyAlts alts h
theorem measured_everyAlts {b : Nat} : ∀ alts, EveryAlts (SmallLens b) alts → EveryAlts (SmallLens b) (measuredAlts s alts)
  | [], h => h
  | .mk k _ :: alts, h => ⟨measured_everyKind k h.1, measured_everyAlts alts h.2⟩
theorem measured_everyFields {b : Nat} : ∀ fs, EveryFields (SmallLens b) fs → EveryFields (SmallLens b) (measured s fs)
  | [], h => h
  | f :: fs, h => ⟨measured_everyField f h.1, measured_everyFields fs h.2⟩
end

theorem measured_everywhere {b : Nat} {fs : List Field} (h : Everywhere (SmallLens b) fs) :
    Everywhere (SmallLens b) (measured s fs) := ⟨measured_smallLens s h.1, measured_everyFields s fs h.2⟩

mutual
theorem measured_ceilingsKind (cfg : Cfg) : ∀ k, ceilingsKind cfg (measuredKind s k) = ceilingsKind cfg k
  | .num _ _ => rfl
  | .fbuf _ _ => rfl
  | .fstr _ => rfl
  | .vec _ _ _ => rfl
  | .record fs => measured_ceilings cfg fs
  | .arrRec fs _ => measured_ceilings cfg fs
  | .vecRec fs _ _ _ => by simp only [measuredKind, ceilingsKind, measured_ceilings cfg fs]
theorem measured_ceilingsField (cfg : Cfg) : ∀ f, ceilingsField cfg (measuredField s f) = ceilingsField cfg f
  | .plain _ k _ => measured_ceilingsKind cfg k
  | .maybe _ k _ => measured_ceilingsKind cfg k
  | .union _ _ alts _ => measured_ceilingsAlts cfg alts
theorem measured_ceilingsAlts (cfg : Cfg) : ∀ alts, ceilingsAlts cfg (measuredAlts s alts) = ceilingsAlts cfg alts
  | [] => rfl
  | .mk k c :: alts => by
      simp only [ceilingsAlts, measuredAlts, measured_ceilingsKind cfg k, measured_ceilingsAlts cfg alts]
theorem measured_ceilings (cfg : Cfg) : ∀ fs, ceilingsFields cfg (measured s fs) = ceilingsFields cfg fs
  | [] => rfl
  | f :: fs => by
      simp only [ceilingsFields, measured, measured_ceilingsField cfg f, measured_ceilings cfg fs]
end

end Measured

/-! ### Lengths -/

/-- The number a length comes from. -/
def lenValue (env : Env) : LenSpec → Except Stuck Int
  | .fromField id => match env id with
      | some (.int x) => .ok x
      | _ => .error .illTyped
  | .computed c => c.eval env

theorem lenEval_ok {cfg : Cfg} {env : Env} {len : LenSpec} {n : Nat} :
    len.eval cfg env = .ok n ↔ ∃ x, lenValue env len = .ok x ∧ cfg.toSz x = n := by
  cases len with
  | fromField id =>
    simp only [LenSpec.eval, lenValue]
    rcases env id with _ | (_ | _ | _ | _ | _) <;> simp
  | computed c =>
    simp only [LenSpec.eval, lenValue]
    cases c.eval env <;> simp

theorem saysLen_iff {env : Env} {len : LenSpec} {n : Nat} :
    SaysLen env len n ↔ lenValue env len = .ok n := by
  cases len with
  | fromField id =>
    simp only [SaysLen, lenValue]
    constructor
    · intro h; rw [h]
    · intro h
      split at h
      · rename_i x hx; cases h; exact hx
      · cases h
  | computed c =>
    simp only [SaysLen, lenValue, Calc.eval]
    cases env.getAll c.ids with
    | none => simp
    | some vs => simp

/-- The number a length comes from is of a type of at most `b` bytes. -/
def SmallLen (b : Nat) (env : Env) (len : LenSpec) : Prop := ∀ x, lenValue env len = .ok x → OfBytes b x

theorem toSz_small {cfg : Cfg} {x : Int} (h0 : 0 ≤ x) (h : x < (cfg.szMod : Nat)) : cfg.toSz x = x.toNat := by
  unfold Cfg.toSz residue
  rw [Int.emod_eq_of_lt h0 (by exact h)]

theorem toSz_exact {cfg : Cfg} {x : Int} (h : OfBytes cfg.szBytes x) (hp : cfg.toSz x ≤ cfg.ptrdiffMax) :
    x = cfg.toSz x := by
  obtain ⟨h1, h2⟩ := h
  unfold Cfg.ptrdiffMax Cfg.szMod at hp
  unfold Cfg.toSz residue at *
  generalize 256 ^ cfg.szBytes = M at *
  by_cases h0 : 0 ≤ x
  · rw [Int.emod_eq_of_lt h0 h2]; omega
  · have hx : x % (M : Int) = x + M := by
      rw [← Int.add_emod_right, Int.emod_eq_of_lt (by omega) (by omega)]
    rw [hx] at hp
    omega

theorem count_le {bound : Option Nat} {cfg : Cfg} {size n : Nat} (hs : 0 < size)
    (h : StorageFits cfg bound size n) : n ≤ cfg.ptrdiffMax :=
  Nat.le_trans (Nat.le_mul_of_pos_right n hs) h.2

/-- The library's length and the number itself. -/
theorem len_says {cfg : Cfg} {env : Env} {len : LenSpec} {bound : Option Nat} {size n : Nat} (hs : 0 < size)
    (hst : StorageFits cfg bound size n) (hsm : SmallLen cfg.szBytes env len)
    (h : len.eval cfg env = .ok n) : SaysLen env len n := by
  obtain ⟨x, hx, rfl⟩ := lenEval_ok.1 h
  rw [saysLen_iff, hx, ← toSz_exact (hsm x hx) (count_le hs hst)]

theorem says_len {cfg : Cfg} {env : Env} {len : LenSpec} {n : Nat} (hn : n < cfg.szMod)
    (h : SaysLen env len n) : len.eval cfg env = .ok n := by
  rw [saysLen_iff] at h
  refine lenEval_ok.2 ⟨n, h, ?_⟩
  rw [toSz_small (by omega) (by omega)]
  omega

theorem says_len_small {cfg : Cfg} {env : Env} {len : LenSpec} {n : Nat}
    (hsm : SmallLen cfg.szBytes env len) (h : SaysLen env len n) : len.eval cfg env = .ok n := by
  refine says_len ?_ h
  have := (hsm n (saysLen_iff.1 h)).2
  unfold Cfg.szMod
  omega


theorem ofBytes_of_inRange {t : ScalarTy} {b : Nat} {x : Int} (h : t.InRange x) (hb : t.size ≤ b)
    : OfBytes b x := by
  have hp : 256 ^ t.size ≤ 256 ^ b := Nat.pow_le_pow_right (by decide) hb
  unfold OfBytes
  cases t with
  | int m sg =>
    simp only [ScalarTy.size] at hp
    cases sg <;> simp only [ScalarTy.InRange] at h <;> omega
  | _ =>
    simp only [ScalarTy.InRange] at h
    simp only [ScalarTy.size] at hp
    omega

/-- A value `f v` was found under the name of a field of the list. -/
theorem envOf_found : ∀ {fs : List Field} {vs : List Val} {i : String} {u : Val},
    envOf fs vs i = some u → ∃ f, (f, u) ∈ fs.zip vs ∧ f.id = i
  | [], _, _, _, h => by simp [envOf, Env.empty] at h
  | _ :: _, [], _, _, h => by simp [envOf, Env.empty] at h
  | f :: fs, v :: vs, i, u, h => by
      simp only [envOf, Env.set] at h
      split at h
      · rename_i hi
        cases h
        exact ⟨f, by simp, hi.symm⟩
      · obtain ⟨g, hg, hid⟩ := envOf_found h
        exact ⟨g, by simp [hg], hid⟩

/-- In a struct whose numbers are in range the lengths are numbers of small types. -/
theorem smallLens {b : Nat} {fs : List Field} {vs : List Val} (h : SmallLens b fs)
    (hr : ∀ id t w c x, (Field.plain id (.num t w) c, Val.int x) ∈ fs.zip vs → t.InRange x) :
    ∀ f ∈ fs, ∀ len ∈ fieldLens f, SmallLen b (envOf fs vs) len := by
  intro f hf len hl x hx
  have := h f hf len hl
  cases len with
  | fromField id =>
    simp only [lenValue] at hx
    split at hx
    · rename_i y hy
      cases hx
      obtain ⟨g, hg, hid⟩ := envOf_found hy
      have := this g (List.of_mem_zip hg).1 hid
      cases g with
      | plain i k c =>
        cases k with
        | num t w => exact ofBytes_of_inRange (hr _ _ _ _ _ hg) this
        | _ => exact this.elim
      | _ => exact this.elim
    · cases hx
  | computed c =>
    simp only [lenValue, Calc.eval] at hx
    split at hx
    · cases hx; exact this _
    · cases hx

theorem fits_inRange {cfg : Cfg} : ∀ {fs : List Field} {vs : List Val}, FitsFields cfg fs vs →
    ∀ id t w c x, (Field.plain id (.num t w) c, Val.int x) ∈ fs.zip vs → t.InRange x
  | [], _, _, _, _, _, _, _, hm => by simp at hm
  | _ :: _, [], _, _, _, _, _, _, hm => by simp at hm
  | f :: fs, v :: vs, h, id, t, w, c, x, hm => by
      simp only [FitsFields] at h
      simp only [List.zip_cons_cons, List.mem_cons, Prod.mk.injEq] at hm
      rcases hm with ⟨rfl, rfl⟩ | hm
      · simp only [FitsField, FitsKind] at h
        exact h.1.1
      · exact fits_inRange h.2 id t w c x hm

theorem means_inRange {o : Endian} {env : Env} : ∀ {fs : List Field} {vs : List Val}, MeansFields o env fs vs →
    ∀ id t w c x, (Field.plain id (.num t w) c, Val.int x) ∈ fs.zip vs → t.InRange x
  | [], _, _, _, _, _, _, _, hm => by simp at hm
  | _ :: _, [], _, _, _, _, _, _, hm => by simp at hm
  | f :: fs, v :: vs, h, id, t, w, c, x, hm => by
      simp only [MeansFields] at h
      simp only [List.zip_cons_cons, List.mem_cons, Prod.mk.injEq] at hm
      rcases hm with ⟨rfl, rfl⟩ | hm
      · simp only [MeansField, MeansKind] at h
        exact h.1.1.1
      · exact means_inRange h.2 id t w c x hm

/-! ### Valid is: one of the schema, and within the ceilings -/

mutual
theorem kind_means (cfg : Cfg) : ∀ (k : Kind) (env : Env) (v : Val), saneKind k = true →
    EveryKind (SmallLens cfg.szBytes) k → (∀ len ∈ k.lenSpec?.toList, SmallLen cfg.szBytes env len) →
    FitsKind cfg k v → OkKind k v → ShapedKind cfg env k v →
    MeansKind cfg.wire env k v ∧ StoredKind cfg k v
  | .num t w, env, v, _, _, _, h1, _, _ => by
      cases v <;> simp only [FitsKind] at h1
      simp only [MeansKind, StoredKind]; exact ⟨h1, trivial⟩
  | .fbuf e n, env, v, _, _, _, h1, _, _ => by
      cases v <;> simp only [FitsKind] at h1
      simp only [MeansKind, StoredKind]; exact ⟨h1, trivial⟩
  | .fstr n, env, v, _, _, _, h1, _, _ => by
      cases v <;> simp only [FitsKind] at h1
      simp only [MeansKind, StoredKind]; exact ⟨h1, trivial⟩
  | .vec e len b, env, v, hs, _, hsm, h1, _, h3 => by
      cases v <;> simp only [FitsKind] at h1
      simp only [ShapedKind] at h3
      simp only [MeansKind, StoredKind]
      simp only [saneKind, decide_eq_true_eq] at hs
      exact ⟨⟨len_says hs h1.1 (hsm len (by simp [Kind.lenSpec?])) h3, h1.2⟩, h1.1⟩
  | .record fs, env, v, hs, hev, _, h1, h2, h3 => by
      cases v <;> simp only [FitsKind] at h1
      simp only [OkKind] at h2
      simp only [ShapedKind] at h3
      simp only [MeansKind, StoredKind]
      exact fields_mean cfg fs _ _ hs hev.2 (smallLens hev.1 (fits_inRange h1)) h1 h2 h3
  | .arrRec fs n, env, v, hs, hev, _, h1, h2, h3 => by
      cases v <;> simp only [FitsKind] at h1
      simp only [OkKind] at h2
      simp only [ShapedKind] at h3
      simp only [MeansKind, StoredKind]
      have key : ∀ ws, FitsFields cfg fs ws → OkFields fs ws → ShapedFields cfg (envOf fs ws) fs ws → _ :=
        fun ws a b c => fields_mean cfg fs _ ws hs hev.2 (smallLens hev.1 (fits_inRange a)) a b c
      refine ⟨⟨h1.1, fun u hu => ?_⟩, fun ws hw => ?_⟩
      · obtain ⟨ws, rfl, a⟩ := h1.2 u hu
        obtain ⟨_, hws, b⟩ := h2 _ hu
        cases hws
        obtain ⟨_, hws, c⟩ := h3 _ hu
        cases hws
        exact ⟨ws, rfl, (key ws a b c).1⟩
      · obtain ⟨_, hws, a⟩ := h1.2 _ hw
        cases hws
        obtain ⟨_, hws, b⟩ := h2 _ hw
        cases hws
        obtain ⟨_, hws, c⟩ := h3 _ hw
        cases hws
        exact (key ws a b c).2
  | .vecRec fs len b sz, env, v, hs, hev, hsm, h1, h2, h3 => by
      cases v <;> simp only [FitsKind] at h1
      simp only [OkKind] at h2
      simp only [ShapedKind] at h3
      simp only [MeansKind, StoredKind]
      simp only [saneKind, Bool.and_eq_true, decide_eq_true_eq] at hs
      have key : ∀ ws, FitsFields cfg fs ws → OkFields fs ws → ShapedFields cfg (envOf fs ws) fs ws → _ :=
        fun ws a b c => fields_mean cfg fs _ ws hs.2 hev.2 (smallLens hev.1 (fits_inRange a)) a b c
      refine ⟨⟨len_says hs.1 h1.1 (hsm len (by simp [Kind.lenSpec?])) h3.1, fun u hu => ?_⟩, h1.1, fun ws hw => ?_⟩
      · obtain ⟨ws, rfl, a⟩ := h1.2 u hu
        obtain ⟨_, hws, b⟩ := h2 _ hu
        cases hws
        obtain ⟨_, hws, c⟩ := h3.2 _ hu
        cases hws
        exact ⟨ws, rfl, (key ws a b c).1⟩
      · obtain ⟨_, hws, a⟩ := h1.2 _ hw
        cases hws
        obtain ⟨_, hws, b⟩ := h2 _ hw
        cases hws
        obtain ⟨_, hws, c⟩ := h3.2 _ hw
        cases hws
        exact (key ws a b c).2
termination_by structural k => k
theorem field_means (cfg : Cfg) : ∀ (f : Field) (env : Env) (v : Val), saneField f = true →
    EveryField (SmallLens cfg.szBytes) f → (∀ len ∈ fieldLens f, SmallLen cfg.szBytes env len) →
    FitsField cfg f v → OkField f v → ShapedField cfg env f v →
    MeansField cfg.wire env f v ∧ StoredField cfg f v
  | .plain id k c, env, v, hs, hev, hsm, h1, h2, h3 => by
      simp only [FitsField] at h1
      simp only [OkField] at h2
      simp only [ShapedField] at h3
      simp only [MeansField, StoredField]
      obtain ⟨a, b⟩ := kind_means cfg k env v hs hev hsm h1 h2.1 h3
      exact ⟨⟨a, h2.2⟩, b⟩
  | .maybe id k p, env, v, hs, hev, hsm, h1, h2, h3 => by
      cases v <;> simp only [FitsField] at h1
      · simp only [ShapedField] at h3
        simp only [MeansField, StoredField]
        exact ⟨h3, trivial⟩
      · simp only [OkField] at h2
        simp only [ShapedField] at h3
        simp only [MeansField, StoredField]
        obtain ⟨a, b⟩ := kind_means cfg k env _ hs hev hsm h1 h2 h3.2
        exact ⟨⟨h3.1, a⟩, b⟩
  | .union id d alts c, env, v, hs, hev, hsm, h1, h2, h3 => by
      cases v <;> simp only [FitsField] at h1
      simp only [OkField] at h2
      simp only [ShapedField] at h3
      simp only [MeansField, StoredField]
      simp only [saneField, Bool.and_eq_true] at hs
      obtain ⟨a, b⟩ := alts_mean cfg alts env _ _ hs.2 hev hsm h1 h2.1 h3.2
      exact ⟨⟨h3.1, a, h2.2⟩, b⟩
termination_by structural f => f
theorem alts_mean (cfg : Cfg) : ∀ (alts : List Alt) (env : Env) (i : Nat) (v : Val), saneAlts alts = true →
    EveryAlts (SmallLens cfg.szBytes) alts →
    (∀ len ∈ alts.flatMap fun a => a.kind.lenSpec?.toList, SmallLen cfg.szBytes env len) →
    FitsAlts cfg alts i v → OkAlts alts i v → ShapedAlts cfg env alts i v →
    MeansAlts cfg.wire env alts i v ∧ StoredAlts cfg alts i v
  | [], env, i, v, _, _, _, h1, _, _ => by simp only [FitsAlts] at h1
  | .mk k c :: alts, env, 0, v, hs, hev, hsm, h1, h2, h3 => by
      simp only [FitsAlts] at h1
      simp only [OkAlts] at h2
      simp only [ShapedAlts] at h3
      simp only [saneAlts, Bool.and_eq_true] at hs
      simp only [MeansAlts, StoredAlts]
      obtain ⟨a, b⟩ := kind_means cfg k env v hs.1 hev.1
        (fun len hl => hsm len (by rw [List.flatMap_cons]; exact List.mem_append_left _ hl)) h1 h2.1 h3
      exact ⟨⟨a, h2.2⟩, b⟩
  | .mk k c :: alts, env, i + 1, v, hs, hev, hsm, h1, h2, h3 => by
      simp only [FitsAlts] at h1
      simp only [OkAlts] at h2
      simp only [ShapedAlts] at h3
      simp only [saneAlts, Bool.and_eq_true] at hs
      simp only [MeansAlts, StoredAlts]
      exact alts_mean cfg alts env i v hs.2 hev.2
        (fun len hl => hsm len (by rw [List.flatMap_cons]; exact List.mem_append_right _ hl)) h1 h2 h3
termination_by structural alts => alts
theorem fields_mean (cfg : Cfg) : ∀ (fs : List Field) (env : Env) (vs : List Val), saneFields fs = true →
    EveryFields (SmallLens cfg.szBytes) fs →
    (∀ f ∈ fs, ∀ len ∈ fieldLens f, SmallLen cfg.szBytes env len) →
    FitsFields cfg fs vs → OkFields fs vs → ShapedFields cfg env fs vs →
    MeansFields cfg.wire env fs vs ∧ Stored cfg fs vs
  | [], env, vs, _, _, _, h1, _, _ => by
      cases vs <;> simp only [FitsFields] at h1
      simp only [MeansFields, Stored]; exact ⟨trivial, trivial⟩
  | f :: fs, env, vs, hs, hev, hsm, h1, h2, h3 => by
      cases vs <;> simp only [FitsFields] at h1
      simp only [OkFields] at h2
      simp only [ShapedFields] at h3
      simp only [saneFields, Bool.and_eq_true] at hs
      simp only [MeansFields, Stored]
      obtain ⟨a, b⟩ := field_means cfg f env _ hs.1 hev.1 (hsm f (by simp)) h1.1 h2.1 h3.1
      obtain ⟨c, d⟩ := fields_mean cfg fs env _ hs.2 hev.2 (fun g hg => hsm g (by simp [hg])) h1.2 h2.2 h3.2
      exact ⟨⟨a, c⟩, b, d⟩
termination_by structural fs => fs
end

mutual
theorem means_kind (cfg : Cfg) : ∀ (k : Kind) (env : Env) (v : Val), saneKind k = true →
    MeansKind cfg.wire env k v → StoredKind cfg k v →
    FitsKind cfg k v ∧ OkKind k v ∧ ShapedKind cfg env k v
  | .num t w, env, v, _, h1, _ => by
      cases v <;> simp only [MeansKind] at h1
      simp only [FitsKind, OkKind, ShapedKind]; exact ⟨h1, trivial, trivial⟩
  | .fbuf e n, env, v, _, h1, _ => by
      cases v <;> simp only [MeansKind] at h1
      simp only [FitsKind, OkKind, ShapedKind]; exact ⟨h1, trivial, trivial⟩
  | .fstr n, env, v, _, h1, _ => by
      cases v <;> simp only [MeansKind] at h1
      simp only [FitsKind, OkKind, ShapedKind]; exact ⟨h1, trivial, trivial⟩
  | .vec e len b, env, v, hs, h1, h2 => by
      cases v <;> simp only [MeansKind] at h1
      simp only [StoredKind] at h2
      simp only [FitsKind, OkKind, ShapedKind]
      simp only [saneKind, decide_eq_true_eq] at hs
      exact ⟨⟨h2, h1.2⟩, trivial, says_len (ptrdiff_lt cfg _ (count_le hs h2)) h1.1⟩
  | .record fs, env, v, hs, h1, h2 => by
      cases v <;> simp only [MeansKind] at h1
      simp only [StoredKind] at h2
      simp only [FitsKind, OkKind, ShapedKind]
      exact mean_fields cfg fs _ _ hs h1 h2
  | .arrRec fs n, env, v, hs, h1, h2 => by
      cases v <;> simp only [MeansKind] at h1
      simp only [StoredKind] at h2
      simp only [FitsKind, OkKind, ShapedKind]
      refine ⟨⟨h1.1, fun u hu => ?_⟩, fun u hu => ?_, fun u hu => ?_⟩ <;>
        obtain ⟨ws, rfl, a⟩ := h1.2 u hu <;>
        obtain ⟨b, c, d⟩ := mean_fields cfg fs _ ws hs a (h2 ws hu)
      · exact ⟨ws, rfl, b⟩
      · exact ⟨ws, rfl, c⟩
      · exact ⟨ws, rfl, d⟩
  | .vecRec fs len b sz, env, v, hs, h1, h2 => by
      cases v <;> simp only [MeansKind] at h1
      simp only [StoredKind] at h2
      simp only [FitsKind, OkKind, ShapedKind]
      simp only [saneKind, Bool.and_eq_true, decide_eq_true_eq] at hs
      refine ⟨⟨h2.1, fun u hu => ?_⟩, fun u hu => ?_,
        says_len (ptrdiff_lt cfg _ (count_le hs.1 h2.1)) h1.1, fun u hu => ?_⟩ <;>
        obtain ⟨ws, rfl, a⟩ := h1.2 u hu <;>
        obtain ⟨b, c, d⟩ := mean_fields cfg fs _ ws hs.2 a (h2.2 ws hu)
      · exact ⟨ws, rfl, b⟩
      · exact ⟨ws, rfl, c⟩
      · exact ⟨ws, rfl, d⟩
termination_by structural k => k
theorem means_field (cfg : Cfg) : ∀ (f : Field) (env : Env) (v : Val), saneField f = true →
    MeansField cfg.wire env f v → StoredField cfg f v →
    FitsField cfg f v ∧ OkField f v ∧ ShapedField cfg env f v
  | .plain id k c, env, v, hs, h1, h2 => by
      simp only [MeansField] at h1
      simp only [StoredField] at h2
      simp only [FitsField, OkField, ShapedField]
      obtain ⟨a, b, d⟩ := means_kind cfg k env v hs h1.1 h2
      exact ⟨a, ⟨b, h1.2⟩, d⟩
  | .maybe id k p, env, v, hs, h1, h2 => by
      cases v <;> simp only [MeansField] at h1
      · simp only [FitsField, OkField, ShapedField]
        exact ⟨trivial, trivial, h1⟩
      · simp only [StoredField] at h2
        simp only [FitsField, OkField, ShapedField]
        obtain ⟨a, b, d⟩ := means_kind cfg k env _ hs h1.2 h2
        exact ⟨a, b, h1.1, d⟩
  | .union id d alts c, env, v, hs, h1, h2 => by
      cases v <;> simp only [MeansField] at h1
      simp only [StoredField] at h2
      simp only [FitsField, OkField, ShapedField]
      simp only [saneField, Bool.and_eq_true] at hs
      obtain ⟨x, y, z⟩ := mean_alts cfg alts env _ _ hs.2 h1.2.1 h2
      exact ⟨x, ⟨y, h1.2.2⟩, h1.1, z⟩
termination_by structural f => f
theorem mean_alts (cfg : Cfg) : ∀ (alts : List Alt) (env : Env) (i : Nat) (v : Val), saneAlts alts = true →
    MeansAlts cfg.wire env alts i v → StoredAlts cfg alts i v →
    FitsAlts cfg alts i v ∧ OkAlts alts i v ∧ ShapedAlts cfg env alts i v
  | [], env, i, v, _, h1, _ => by simp only [MeansAlts] at h1
  | .mk k c :: alts, env, 0, v, hs, h1, h2 => by
      simp only [MeansAlts] at h1
      simp only [StoredAlts] at h2
      simp only [saneAlts, Bool.and_eq_true] at hs
      simp only [FitsAlts, OkAlts, ShapedAlts]
      obtain ⟨a, b, d⟩ := means_kind cfg k env v hs.1 h1.1 h2
      exact ⟨a, ⟨b, h1.2⟩, d⟩
  | .mk k c :: alts, env, i + 1, v, hs, h1, h2 => by
      simp only [MeansAlts] at h1
      simp only [StoredAlts] at h2
      simp only [saneAlts, Bool.and_eq_true] at hs
      simp only [FitsAlts, OkAlts, ShapedAlts]
      exact mean_alts cfg alts env i v hs.2 h1 h2
termination_by structural alts => alts
theorem mean_fields (cfg : Cfg) : ∀ (fs : List Field) (env : Env) (vs : List Val), saneFields fs = true →
    MeansFields cfg.wire env fs vs → Stored cfg fs vs →
    FitsFields cfg fs vs ∧ OkFields fs vs ∧ ShapedFields cfg env fs vs
  | [], env, vs, _, h1, _ => by
      cases vs <;> simp only [MeansFields] at h1
      simp only [FitsFields, OkFields, ShapedFields]; exact ⟨trivial, trivial, trivial⟩
  | f :: fs, env, vs, hs, h1, h2 => by
      cases vs <;> simp only [MeansFields] at h1
      simp only [Stored] at h2
      simp only [saneFields, Bool.and_eq_true] at hs
      simp only [FitsFields, OkFields, ShapedFields]
      obtain ⟨a, b, c⟩ := means_field cfg f env _ hs.1 h1.1 h2.1
      obtain ⟨a', b', c'⟩ := mean_fields cfg fs env _ hs.2 h1.2 h2.2
      exact ⟨⟨a, a'⟩, ⟨b, b'⟩, c, c'⟩
termination_by structural fs => fs
end

mutual
theorem fits_storedKind (cfg : Cfg) : ∀ (k : Kind) (v : Val), FitsKind cfg k v → StoredKind cfg k v
  | .num t w, v, _ => by cases v <;> simp only [StoredKind]
  | .fbuf e n, v, _ => by cases v <;> simp only [StoredKind]
  | .fstr n, v, _ => by cases v <;> simp only [StoredKind]
  | .vec e len b, v, h => by
      cases v <;> simp only [FitsKind] at h
      simp only [StoredKind]; exact h.1
  | .record fs, v, h => by
      cases v <;> simp only [FitsKind] at h
      simp only [StoredKind]; exact fits_stored cfg fs _ h
  | .arrRec fs n, v, h => by
      cases v <;> simp only [FitsKind] at h
      simp only [StoredKind]
      intro ws hw
      obtain ⟨_, e, h⟩ := h.2 _ hw
      cases e
      exact fits_stored cfg fs _ h
  | .vecRec fs len b sz, v, h => by
      cases v <;> simp only [FitsKind] at h
      simp only [StoredKind]
      refine ⟨h.1, fun ws hw => ?_⟩
      obtain ⟨_, e, h⟩ := h.2 _ hw
      cases e
      exact fits_stored cfg fs _ h
termination_by structural k => k
theorem fits_storedField (cfg : Cfg) : ∀ (f : Field) (v : Val), FitsField cfg f v → StoredField cfg f v
  | .plain id k c, v, h => by
      simp only [FitsField] at h
      simp only [StoredField]; exact fits_storedKind cfg k v h
  | .maybe id k p, v, h => by
      cases v <;> simp only [FitsField] at h <;> simp only [StoredField]
      exact fits_storedKind cfg k _ h
  | .union id d alts c, v, h => by
      cases v <;> simp only [FitsField] at h
      simp only [StoredField]; exact fits_storedAlts cfg alts _ _ h
termination_by structural f => f
theorem fits_storedAlts (cfg : Cfg) : ∀ (alts : List Alt) (i : Nat) (v : Val),
    FitsAlts cfg alts i v → StoredAlts cfg alts i v
  | [], i, v, _ => by simp only [StoredAlts]
  | .mk k c :: alts, 0, v, h => by
      simp only [FitsAlts] at h
      simp only [StoredAlts]; exact fits_storedKind cfg k v h
  | .mk k c :: alts, i + 1, v, h => by
      simp only [FitsAlts] at h
      simp only [StoredAlts]; exact fits_storedAlts cfg alts i v h
termination_by structural alts => alts
theorem fits_stored (cfg : Cfg) : ∀ (fs : List Field) (vs : List Val), FitsFields cfg fs vs → Stored cfg fs vs
  | [], vs, _ => by simp only [Stored]
  | f :: fs, vs, h => by
      cases vs <;> simp only [FitsFields] at h
      simp only [Stored]; exact ⟨fits_storedField cfg f _ h.1, fits_stored cfg fs _ h.2⟩
termination_by structural fs => fs
end

/-- **Validity, split** into what is the same everywhere and what the platform decides. -/
theorem valid_iff_means (cfg : Cfg) {fs : List Field} (hwf : WellFormed fs)
    (hsm : Everywhere (SmallLens cfg.szBytes) fs) (vs : List Val) :
    Valid cfg fs vs ↔ Means cfg.wire fs vs ∧ Stored cfg fs vs := by
  constructor
  · rintro ⟨h1, h2, h3⟩
    exact fields_mean cfg fs _ vs hwf.1 hsm.2 (smallLens hsm.1 (fits_inRange h1)) h1 h2 h3
  · rintro ⟨h1, h2⟩
    exact mean_fields cfg fs _ vs hwf.1 h1 h2

/-! ### Beyond the ceilings -/

theorem saysLen_congr {len : LenSpec} {env env' : Env} (h : Agree (lenDeps len) env env') (n : Nat) :
    SaysLen env len n ↔ SaysLen env' len n := by
  cases len with
  | fromField id => simp only [SaysLen, h id (by simp [lenDeps])]
  | computed c => simp only [SaysLen, getAll_congr (show Agree c.ids env env' from h)]

theorem meansKind_congr {o : Endian} {env env' : Env} (k : Kind) (h : Agree (kindDeps k) env env') (v : Val) :
    MeansKind o env k v ↔ MeansKind o env' k v := by
  cases k with
  | vec e len b => cases v <;> simp only [MeansKind, saysLen_congr (show Agree (lenDeps len) env env' from h)]
  | vecRec fs len b sz => cases v <;> simp only [MeansKind, saysLen_congr (show Agree (lenDeps len) env env' from h)]
  | _ => cases v <;> simp only [MeansKind]

theorem meansAlts_congr {o : Endian} {env env' : Env} : ∀ (alts : List Alt) (i : Nat)
    (_ : Agree (alts.flatMap fun a => kindDeps a.kind) env env') (v : Val),
    MeansAlts o env alts i v ↔ MeansAlts o env' alts i v
  | [], i, h, v => by simp only [MeansAlts]
  | .mk k c :: alts, 0, h, v => by
      simp only [MeansAlts, meansKind_congr k (h.mono fun i hi => by
        rw [List.flatMap_cons]; exact List.mem_append_left _ hi) v]
  | .mk k c :: alts, i + 1, h, v => by
      simp only [MeansAlts]
      exact meansAlts_congr alts i (h.mono fun i hi => by
        rw [List.flatMap_cons]; exact List.mem_append_right _ hi) v

theorem meansField_congr {o : Endian} {env env' : Env} (f : Field) (h : Agree (fieldDeps f) env env') (v : Val) :
    MeansField o env f v ↔ MeansField o env' f v := by
  cases f with
  | plain id k c => simp only [MeansField, meansKind_congr k (show Agree (kindDeps k) env env' from h) v]
  | maybe id k p =>
    have h1 : Agree (kindDeps k) env env' := h.mono (by simp +contextual [fieldDeps])
    have h2 : Agree p.ids env env' := h.mono (by simp +contextual [fieldDeps])
    cases v <;> simp only [MeansField, Pred.eval_congr h2, meansKind_congr k h1]
  | union id d alts c =>
    have h1 : Agree (deducerDeps d) env env' := h.mono (by simp +contextual [fieldDeps])
    have h2 : Agree (alts.flatMap fun a => kindDeps a.kind) env env' :=
      h.mono (fun i hi => by rw [fieldDeps]; exact List.mem_append_right _ hi)
    cases v <;> simp only [MeansField, Deducer.eval_congr h1, meansAlts_congr alts _ h2]

theorem smallLen_congr {b : Nat} {len : LenSpec} {env env' : Env} (h : Agree (lenDeps len) env env')
    (hs : SmallLen b env len) : SmallLen b env' len := by
  intro x hx
  refine hs x ?_
  rw [← hx]
  cases len with
  | fromField id => simp only [lenValue, h id (by simp [lenDeps])]
  | computed c => simp only [lenValue, Calc.eval_congr h]

theorem lenDeps_kind {k : Kind} {len : LenSpec} (h : len ∈ k.lenSpec?.toList) :
    ∀ i ∈ lenDeps len, i ∈ kindDeps k := by
  cases k <;> simp only [Kind.lenSpec?, Option.toList, List.mem_singleton, List.not_mem_nil] at h
  all_goals (subst h; exact fun i hi => hi)

theorem lenDeps_field {f : Field} {len : LenSpec} (h : len ∈ fieldLens f) :
    ∀ i ∈ lenDeps len, i ∈ fieldDeps f := by
  intro i hi
  cases f with
  | plain id k c => exact lenDeps_kind h i hi
  | maybe id k p => exact List.mem_append_left _ (lenDeps_kind h i hi)
  | union id d alts c =>
    simp only [fieldLens, List.mem_flatMap] at h
    obtain ⟨a, ha, hl⟩ := h
    exact List.mem_append_right _ (List.mem_flatMap.2 ⟨a, ha, lenDeps_kind hl i hi⟩)

/-- The first of a list that does not satisfy `P`. -/
theorem first_not {P : α → Prop} : ∀ {l : List α}, ¬ (∀ a ∈ l, P a) →
    ∃ l1 a l2, l = l1 ++ a :: l2 ∧ (∀ b ∈ l1, P b) ∧ ¬ P a
  | [], h => by simp at h
  | a :: l, h => by
      by_cases ha : P a
      · obtain ⟨l1, b, l2, rfl, h1, h2⟩ := first_not (l := l) (fun hl => h (by simpa using ⟨ha, hl⟩))
        exact ⟨a :: l1, b, l2, rfl, by simpa using ⟨ha, h1⟩, h2⟩
      · exact ⟨[], a, l, rfl, by simp, ha⟩

theorem storage_or {cfg : Cfg} {b : Option Nat} {size n : Nat} (hc : b.getD cfg.defaultMax ≤ cfg.ptrdiffMax)
    (h : ¬ StorageFits cfg b size n) : b.getD cfg.defaultMax < n * size := by
  unfold StorageFits at h
  omega

/-- Records, one of them beyond a ceiling. -/
theorem recs_excess {cfg : Cfg} {fs : List Field} (hwf : WellFormed fs) {vs : List Val}
    (hm : ∀ v ∈ vs, ∃ ws, v = .seq ws ∧ MeansFields cfg.wire (envOf fs ws) fs ws)
    (hst : ¬ ∀ ws, .seq ws ∈ vs → Stored cfg fs ws)
    (hfs : ∀ ws, MeansFields cfg.wire (envOf fs ws) fs ws → ¬ Stored cfg fs ws → ∀ rest : List Byte,
      ∃ id, FieldsRefused cfg [] [] fs (wireFields cfg.wire fs ws ++ rest) .excessiveLength id)
    (rest : List Byte) :
    NextRecord (Valid cfg fs) (wire cfg fs)
      (fun tail => ∃ id, FieldsRefused cfg [] [] fs tail .excessiveLength id) vs.length
      (vs.flatMap (recordBytes fun ws => wireFields cfg.wire fs ws) ++ rest) := by
  have : ¬ ∀ v ∈ vs, ∃ ws, v = .seq ws ∧ Stored cfg fs ws := by
    intro h
    refine hst fun ws hw => ?_
    obtain ⟨_, hws, h⟩ := h _ hw
    cases hws; exact h
  obtain ⟨l1, v, l2, rfl, h1, h2⟩ := first_not this
  obtain ⟨ws, rfl, hmw⟩ := hm v (by simp)
  have hnst : ¬ Stored cfg fs ws := fun h => h2 ⟨ws, rfl, h⟩
  refine ⟨l1, wireFields cfg.wire fs ws ++ (l2.flatMap (recordBytes fun ws => wireFields cfg.wire fs ws) ++ rest),
    ?_, by simp, fun u hu => ?_, hfs ws hmw hnst _⟩
  · rw [List.flatMap_append, List.flatMap_cons, List.append_assoc, List.append_assoc]
    rfl
  · obtain ⟨us, rfl, hs⟩ := h1 u hu
    obtain ⟨_, hus, hmu⟩ := hm (.seq us) (by simp [hu])
    cases hus
    exact ⟨us, rfl, mean_fields cfg fs _ us hwf.1 hmu hs⟩

mutual
theorem kind_excess (cfg : Cfg) : ∀ (k : Kind) (env : Env) (v : Val), saneKind k = true → uniqueKind k = true →
    earlierKind k = true → EveryKind (SmallLens cfg.szBytes) k →
    (∀ c ∈ ceilingsKind cfg k, c ≤ cfg.ptrdiffMax) →
    (∀ len ∈ k.lenSpec?.toList, SmallLen cfg.szBytes env len) →
    MeansKind cfg.wire env k v → ¬ StoredKind cfg k v → ∀ rest : List Byte,
    KindRefused cfg env k (wireKind cfg.wire k v ++ rest) .excessiveLength
  | .num t w, env, v, _, _, _, _, _, _, h1, h2, rest => by cases v <;> simp [StoredKind] at h2
  | .fbuf e n, env, v, _, _, _, _, _, _, h1, h2, rest => by cases v <;> simp [StoredKind] at h2
  | .fstr n, env, v, _, _, _, _, _, _, h1, h2, rest => by cases v <;> simp [StoredKind] at h2
  | .vec e len b, env, v, hs, _, _, _, hc, hsm, h1, h2, rest => by
      cases v <;> simp only [MeansKind] at h1
      simp only [StoredKind] at h2
      simp only [KindRefused]
      exact ⟨_, says_len_small (hsm len (by simp [Kind.lenSpec?])) h1.1,
        .inl ⟨storage_or (hc _ (by simp [ceilingsKind])) h2, trivial⟩⟩
  | .record fs, env, v, hs, hu, he, hev, hc, _, h1, h2, rest => by
      cases v <;> simp only [MeansKind] at h1
      simp only [StoredKind] at h2
      simp only [KindRefused, wireKind]
      exact fields_excess cfg fs [] [] _ hs rfl hu he hev.2 hc (smallLens hev.1 (means_inRange h1)) h1 h2 rest
  | .arrRec fs n, env, v, hs, hu, he, hev, hc, _, h1, h2, rest => by
      cases v <;> simp only [MeansKind] at h1
      simp only [StoredKind] at h2
      simp only [KindRefused, wireKind]
      obtain ⟨rfl, h1⟩ := h1
      exact recs_excess ⟨hs, hu, he⟩ h1 h2 (fun ws a b rest =>
        fields_excess cfg fs [] [] ws hs rfl hu he hev.2 hc (smallLens hev.1 (means_inRange a)) a b rest) rest
  | .vecRec fs len b sz, env, v, hs, hu, he, hev, hc, hsm, h1, h2, rest => by
      cases v <;> simp only [MeansKind] at h1
      rename_i vs
      simp only [StoredKind] at h2
      simp only [KindRefused, wireKind]
      simp only [saneKind, Bool.and_eq_true, decide_eq_true_eq] at hs
      refine ⟨_, says_len_small (hsm len (by simp [Kind.lenSpec?])) h1.1, ?_⟩
      by_cases hst : StorageFits cfg b sz vs.length
      · refine .inr ⟨hst, recs_excess ⟨hs.2, hu, he⟩ h1.2 (fun h => h2 ⟨hst, h⟩) (fun ws a b rest =>
          fields_excess cfg fs [] [] ws hs.2 rfl hu he hev.2 (fun c h => hc c (by simp [ceilingsKind, h]))
            (smallLens hev.1 (means_inRange a)) a b rest) rest⟩
      · exact .inl ⟨storage_or (hc _ (by simp [ceilingsKind])) hst, trivial⟩
termination_by structural k => k
theorem field_excess (cfg : Cfg) : ∀ (f : Field) (env : Env) (v : Val), saneField f = true → uniqueField f = true →
    earlierField f = true → EveryField (SmallLens cfg.szBytes) f →
    (∀ c ∈ ceilingsField cfg f, c ≤ cfg.ptrdiffMax) →
    (∀ len ∈ fieldLens f, SmallLen cfg.szBytes env len) →
    MeansField cfg.wire env f v → ¬ StoredField cfg f v → ∀ rest : List Byte,
    FieldRefused cfg env f (wireField cfg.wire f v ++ rest) .excessiveLength
  | .plain id k c, env, v, hs, hu, he, hev, hc, hsm, h1, h2, rest => by
      simp only [MeansField] at h1
      simp only [StoredField] at h2
      simp only [FieldRefused, wireField]
      exact .inl (kind_excess cfg k env v hs hu he hev hc hsm h1.1 h2 rest)
  | .maybe id k p, env, v, hs, hu, he, hev, hc, hsm, h1, h2, rest => by
      cases v <;> simp only [MeansField] at h1 <;> simp only [StoredField] at h2
      · exact absurd trivial h2
      · simp only [FieldRefused, wireField]
        exact ⟨h1.1, kind_excess cfg k env _ hs hu he hev hc hsm h1.2 h2 rest⟩
  | .union id d alts c, env, v, hs, hu, he, hev, hc, hsm, h1, h2, rest => by
      cases v <;> simp only [MeansField] at h1
      simp only [StoredField] at h2
      simp only [FieldRefused, wireField]
      simp only [saneField, Bool.and_eq_true] at hs
      exact .inr ⟨_, h1.1, .inl (alts_excess cfg alts env _ _ hs.2 hu he hev hc hsm h1.2.1 h2 rest)⟩
termination_by structural f => f
theorem alts_excess (cfg : Cfg) : ∀ (alts : List Alt) (env : Env) (i : Nat) (v : Val), saneAlts alts = true →
    uniqueAlts alts = true → earlierAlts alts = true → EveryAlts (SmallLens cfg.szBytes) alts →
    (∀ c ∈ ceilingsAlts cfg alts, c ≤ cfg.ptrdiffMax) →
    (∀ len ∈ alts.flatMap fun a => a.kind.lenSpec?.toList, SmallLen cfg.szBytes env len) →
    MeansAlts cfg.wire env alts i v → ¬ StoredAlts cfg alts i v → ∀ rest : List Byte,
    AltsRefused cfg env alts i (wireAlts cfg.wire alts i v ++ rest) .excessiveLength
  | [], env, i, v, _, _, _, _, _, _, h1, _, _ => by simp only [MeansAlts] at h1
  | .mk k c :: alts, env, 0, v, hs, hu, he, hev, hc, hsm, h1, h2, rest => by
      simp only [MeansAlts] at h1
      simp only [StoredAlts] at h2
      simp only [saneAlts, uniqueAlts, earlierAlts, Bool.and_eq_true] at hs hu he
      simp only [AltsRefused, wireAlts]
      exact .inl (kind_excess cfg k env v hs.1 hu.1 he.1 hev.1 (fun c h => hc c (by simp [ceilingsAlts, h]))
        (fun len hl => hsm len (by rw [List.flatMap_cons]; exact List.mem_append_left _ hl)) h1.1 h2 rest)
  | .mk k c :: alts, env, i + 1, v, hs, hu, he, hev, hc, hsm, h1, h2, rest => by
      simp only [MeansAlts] at h1
      simp only [StoredAlts] at h2
      simp only [saneAlts, uniqueAlts, earlierAlts, Bool.and_eq_true] at hs hu he
      simp only [AltsRefused, wireAlts]
      exact alts_excess cfg alts env i v hs.2 hu.2 he.2 hev.2 (fun c h => hc c (by simp [ceilingsAlts, h]))
        (fun len hl => hsm len (by rw [List.flatMap_cons]; exact List.mem_append_right _ hl)) h1 h2 rest
termination_by structural alts => alts
/-- `pre` and `us`: the fields before, and their values. -/
theorem fields_excess (cfg : Cfg) : ∀ (fs : List Field) (pre : List Field) (us vs : List Val),
    saneFields fs = true → us.length = pre.length → uniqueFields (pre.map Field.id) fs = true →
    earlierFields (pre.map Field.id) fs = true → EveryFields (SmallLens cfg.szBytes) fs →
    (∀ c ∈ ceilingsFields cfg fs, c ≤ cfg.ptrdiffMax) →
    (∀ f ∈ fs, ∀ len ∈ fieldLens f, SmallLen cfg.szBytes (envOf (pre ++ fs) (us ++ vs)) len) →
    MeansFields cfg.wire (envOf (pre ++ fs) (us ++ vs)) fs vs → ¬ Stored cfg fs vs → ∀ rest : List Byte,
    ∃ id, FieldsRefused cfg pre us fs (wireFields cfg.wire fs vs ++ rest) .excessiveLength id
  | [], pre, us, vs, _, _, _, _, _, _, _, h1, h2, _ => by
      cases vs <;> simp [Stored] at h2
  | f :: fs, pre, us, vs, hs, hl, hu, he, hev, hc, hsm, h1, h2, rest => by
      cases vs <;> simp only [MeansFields] at h1
      rename_i v vs
      simp only [Stored] at h2
      have hmap : pre.map Field.id ++ [f.id] = (pre ++ [f]).map Field.id := by simp
      simp only [saneFields, uniqueFields, earlierFields, Bool.and_eq_true, List.all_eq_true, hmap] at hs hu he
      simp only [FieldsRefused, wireFields, List.append_assoc]
      have hag : Agree (fieldDeps f) (envOf (pre ++ f :: fs) (us ++ v :: vs)) (envOf pre us) := fun i hi =>
        (envOf_append_agree pre (f :: fs) us (v :: vs) hl i (by simpa using he.1.1 i hi)).symm
      have hmf := (meansField_congr f hag v).1 h1.1
      by_cases hst : StoredField cfg f v
      · obtain ⟨id, h⟩ := fields_excess cfg fs (pre ++ [f]) (us ++ [v]) vs hs.2 (by simp [hl]) hu.2 he.2 hev.2
          (fun c h => hc c (by simp [ceilingsFields, h]))
          (fun g hg len hlen => by
            rw [List.append_assoc, List.append_assoc]
            exact hsm g (by simp [hg]) len hlen)
          (by rw [List.append_assoc, List.append_assoc]; exact h1.2) (fun h => h2 ⟨hst, h⟩) rest
        exact ⟨id, .inr ⟨v, _, rfl, means_field cfg f _ v hs.1 hmf hst, h⟩⟩
      · exact ⟨f.id, .inl ⟨rfl, field_excess cfg f _ v hs.1 hu.1.2 he.1.2 hev.1
          (fun c h => hc c (by simp [ceilingsFields, h]))
          (fun len hlen => smallLen_congr (hag.mono (lenDeps_field hlen)) (hsm f (by simp) len hlen))
          hmf hst _⟩⟩
termination_by structural fs => fs
end

/-- A struct of the schema that is beyond a ceiling is refused for it. -/
theorem means_excess (cfg : Cfg) {fs : List Field} (hwf : WellFormed fs)
    (hsm : Everywhere (SmallLens cfg.szBytes) fs) (hc : ∀ c ∈ ceilingsFields cfg fs, c ≤ cfg.ptrdiffMax)
    {vs : List Val} (h : Means cfg.wire fs vs) (hn : ¬ Stored cfg fs vs) (rest : List Byte) :
    ∃ id, Refused cfg fs (wire cfg fs vs ++ rest) .excessiveLength id := by
  obtain ⟨id, h⟩ := fields_excess cfg fs [] [] vs hwf.1 rfl hwf.2.1 hwf.2.2 hsm.2 hc
    (smallLens hsm.1 (means_inRange h)) h hn rest
  exact ⟨id, (refused_iff_fields cfg fs hwf _ _ _).1 h⟩

end S2S
