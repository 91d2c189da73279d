import Verif.Spec.Asked
import Verif.Lemmas.Platform
import Verif.Lemmas.Group
import Verif.Lemmas.SettleIdem
import Verif.Lemmas.Wellformed
import Verif.Lemmas.ReadDefined
import Verif.Lemmas.Made
/-
Schemas with their lengths and discriminants asked for instead of taken.
-/
namespace S2S
open Spec

/-! ### What stays -/

theorem asking_map (fs : List Field) : asking fs = fs.map askingField := by
  induction fs with
  | nil => rfl
  | cons f fs ih => rw [asking, ih]; rfl

theorem askingAlts_map (alts : List Alt) : askingAlts alts = alts.map fun a => .mk (askingKind a.kind) a.constraint := by
  induction alts with
  | nil => rfl
  | cons a alts ih => obtain ⟨k, c⟩ := a; rw [askingAlts, ih]; rfl

@[simp] theorem askingField_id (f : Field) : (askingField f).id = f.id := by cases f <;> rfl

@[simp] theorem askingField_constraint (f : Field) : (askingField f).constraint = f.constraint := by cases f <;> rfl

theorem asking_ids (fs : List Field) : (asking fs).map Field.id = fs.map Field.id := by
  rw [asking_map, List.map_map]
  exact List.map_congr_left fun f _ => askingField_id f

@[simp] theorem lenDeps_asked (l : LenSpec) : lenDeps (askingLen l) = lenDeps l := by cases l <;> rfl

@[simp] theorem kindDeps_asked (k : Kind) : kindDeps (askingKind k) = kindDeps k := by
  cases k <;> simp [askingKind, kindDeps]

@[simp] theorem deducerDeps_asked (d : Deducer) : deducerDeps (askingGuide d) = deducerDeps d := by cases d <;> rfl

@[simp] theorem arity_asked (d : Deducer) : arity (askingGuide d) = arity d := by cases d <;> rfl

@[simp] theorem fieldDeps_asked (f : Field) : fieldDeps (askingField f) = fieldDeps f := by
  cases f with
  | plain id k c => simp [askingField, fieldDeps]
  | maybe id k p => simp [askingField, fieldDeps]
  | union id d alts c =>
    simp only [askingField, fieldDeps, deducerDeps_asked, askingAlts_map, List.flatMap_map]
    congr 1
    simp [Alt.kind]

@[simp] theorem constOf_asked (k : Kind) (c : Constraint) : constOf (askingKind k) c = constOf k c := by
  cases k <;> cases c <;> simp [askingKind, constOf]

theorem typedConst_asked (k : Kind) (c : Constraint) : typedConst (askingKind k) c = typedConst k c := by
  cases k <;> cases c <;> simp [askingKind, typedConst]

theorem lenTarget_asked (k : Kind) : (askingKind k).lenTarget? = none := by
  cases k with
  | vec e len b => cases len <;> rfl
  | vecRec fs len b sz => cases len <;> simp [askingKind, askingLen, Kind.lenTarget?, Kind.lenSpec?]
  | _ => simp [askingKind, Kind.lenTarget?, Kind.lenSpec?]

/-- Nothing is left for the library to fill in but constants. -/
theorem isSlot_asked (fs : List Field) (id : String) : isSlot (asking fs) id = false := by
  rw [isSlot, asking_map, List.any_map, List.any_eq_false]
  intro f _
  cases f with
  | plain i k c => simp [askingField, lenTarget_asked]
  | maybe i k p => simp [askingField]
  | union i d alts c => cases d <;> simp [askingField, askingGuide]

mutual
theorem saneKind_asked : ∀ k, saneKind (askingKind k) = saneKind k
  | .num _ _ => rfl
  | .fbuf _ _ => rfl
  | .fstr _ => rfl
  | .vec _ _ _ => by simp only [askingKind, saneKind]
  | .record fs => by simp only [askingKind, saneKind, saneFields_asked fs]
  | .arrRec fs _ => by simp only [askingKind, saneKind, saneFields_asked fs]
  | .vecRec fs _ _ _ => by simp only [askingKind, saneKind, saneFields_asked fs]
theorem saneField_asked : ∀ f, saneField (askingField f) = saneField f
  | .plain _ k _ => by simp only [askingField, saneField, saneKind_asked k]
  | .maybe _ k _ => by simp only [askingField, saneField, saneKind_asked k]
  | .union _ d alts _ => by
      simp only [askingField, saneField, saneAlts_asked alts, arity_asked]
      rw [askingAlts_map, List.length_map]
theorem saneAlts_asked : ∀ alts, saneAlts (askingAlts alts) = saneAlts alts
  | [] => rfl
  | .mk k _ :: alts => by simp only [askingAlts, saneAlts, saneKind_asked k, saneAlts_asked alts]
theorem saneFields_asked : ∀ fs, saneFields (asking fs) = saneFields fs
  | [] => rfl
  | f :: fs => by simp only [asking, saneFields, saneField_asked f, saneFields_asked fs]
end

mutual
theorem uniqueKind_asked : ∀ k, uniqueKind (askingKind k) = uniqueKind k
  | .num _ _ => rfl
  | .fbuf _ _ => rfl
  | .fstr _ => rfl
  | .vec _ _ _ => rfl
  | .record fs => by simp only [askingKind, uniqueKind, uniqueFields_asked fs]
  | .arrRec fs _ => by simp only [askingKind, uniqueKind, uniqueFields_asked fs]
  | .vecRec fs _ _ _ => by simp only [askingKind, uniqueKind, uniqueFields_asked fs]
theorem uniqueField_asked : ∀ f, uniqueField (askingField f) = uniqueField f
  | .plain _ k _ => by simp only [askingField, uniqueField, uniqueKind_asked k]
  | .maybe _ k _ => by simp only [askingField, uniqueField, uniqueKind_asked k]
  | .union _ _ alts _ => by simp only [askingField, uniqueField, uniqueAlts_asked alts]
theorem uniqueAlts_asked : ∀ alts, uniqueAlts (askingAlts alts) = uniqueAlts alts
  | [] => rfl
  | .mk k _ :: alts => by simp only [askingAlts, uniqueAlts, uniqueKind_asked k, uniqueAlts_asked alts]
theorem uniqueFields_asked : ∀ fs seen, uniqueFields seen (asking fs) = uniqueFields seen fs
  | [], _ => rfl
  | f :: fs, seen => by
      simp only [asking, uniqueFields, uniqueField_asked f, uniqueFields_asked fs, askingField_id]
end

mutual
theorem earlierKind_asked : ∀ k, earlierKind (askingKind k) = earlierKind k
  | .num _ _ => rfl
  | .fbuf _ _ => rfl
  | .fstr _ => rfl
  | .vec _ _ _ => rfl
  | .record fs => by simp only [askingKind, earlierKind, earlierFields_asked fs]
  | .arrRec fs _ => by simp only [askingKind, earlierKind, earlierFields_asked fs]
  | .vecRec fs _ _ _ => by simp only [askingKind, earlierKind, earlierFields_asked fs]
theorem earlierField_asked : ∀ f, earlierField (askingField f) = earlierField f
  | .plain _ k _ => by simp only [askingField, earlierField, earlierKind_asked k]
  | .maybe _ k _ => by simp only [askingField, earlierField, earlierKind_asked k]
  | .union _ _ alts _ => by simp only [askingField, earlierField, earlierAlts_asked alts]
theorem earlierAlts_asked : ∀ alts, earlierAlts (askingAlts alts) = earlierAlts alts
  | [] => rfl
  | .mk k _ :: alts => by simp only [askingAlts, earlierAlts, earlierKind_asked k, earlierAlts_asked alts]
theorem earlierFields_asked : ∀ fs seen, earlierFields seen (asking fs) = earlierFields seen fs
  | [], _ => rfl
  | f :: fs, seen => by
      simp only [asking, earlierFields, earlierField_asked f, earlierFields_asked fs, askingField_id, fieldDeps_asked]
end

theorem wellFormed_asked (fs : List Field) : WellFormed (asking fs) ↔ WellFormed fs := by
  simp only [WellFormed, saneFields_asked, uniqueFields_asked, earlierFields_asked]

mutual
theorem wireKind_asked (o : Endian) : ∀ k v, wireKind o (askingKind k) v = wireKind o k v
  | .num _ _, v => by simp only [askingKind]
  | .fbuf _ _, v => by simp only [askingKind]
  | .fstr _, v => by simp only [askingKind]
  | .vec _ _ _, v => by cases v <;> simp only [askingKind, wireKind]
  | .record fs, v => by cases v <;> simp only [askingKind, wireKind, wireFields_asked o fs]
  | .arrRec fs _, v => by cases v <;> simp only [askingKind, wireKind, wireFields_asked o fs]
  | .vecRec fs _ _ _, v => by cases v <;> simp only [askingKind, wireKind, wireFields_asked o fs]
theorem wireField_asked (o : Endian) : ∀ f v, wireField o (askingField f) v = wireField o f v
  | .plain _ k _, v => by simp only [askingField, wireField, wireKind_asked o k]
  | .maybe _ k _, v => by cases v <;> simp only [askingField, wireField, wireKind_asked o k]
  | .union _ _ alts _, v => by cases v <;> simp only [askingField, wireField, wireAlts_asked o alts]
theorem wireAlts_asked (o : Endian) : ∀ alts i v, wireAlts o (askingAlts alts) i v = wireAlts o alts i v
  | [], _, _ => rfl
  | .mk k _ :: alts, 0, v => by simp only [askingAlts, wireAlts, wireKind_asked o k]
  | .mk k _ :: alts, i + 1, v => by simp only [askingAlts, wireAlts, wireAlts_asked o alts]
theorem wireFields_asked (o : Endian) : ∀ fs vs, wireFields o (asking fs) vs = wireFields o fs vs
  | [], _ => rfl
  | f :: fs, [] => by simp only [asking, wireFields]
  | f :: fs, v :: vs => by simp only [asking, wireFields, wireField_asked o f, wireFields_asked o fs]
end

theorem wire_asked (cfg : Cfg) (fs : List Field) (vs : List Val) : wire cfg (asking fs) vs = wire cfg fs vs :=
  wireFields_asked _ fs vs

mutual
theorem fitsKind_asked (cfg : Cfg) : ∀ k v, FitsKind cfg (askingKind k) v ↔ FitsKind cfg k v
  | .num _ _, v => by simp only [askingKind]
  | .fbuf _ _, v => by simp only [askingKind]
  | .fstr _, v => by simp only [askingKind]
  | .vec _ _ _, v => by cases v <;> simp only [askingKind, FitsKind]
  | .record fs, v => by cases v <;> simp only [askingKind, FitsKind, fitsFields_asked cfg fs]
  | .arrRec fs _, v => by cases v <;> simp only [askingKind, FitsKind, fitsFields_asked cfg fs]
  | .vecRec fs _ _ _, v => by cases v <;> simp only [askingKind, FitsKind, fitsFields_asked cfg fs]
theorem fitsField_asked (cfg : Cfg) : ∀ f v, FitsField cfg (askingField f) v ↔ FitsField cfg f v
  | .plain _ k _, v => by simp only [askingField, FitsField, fitsKind_asked cfg k]
  | .maybe _ k _, v => by cases v <;> simp only [askingField, FitsField, fitsKind_asked cfg k]
  | .union _ _ alts _, v => by cases v <;> simp only [askingField, FitsField, fitsAlts_asked cfg alts]
theorem fitsAlts_asked (cfg : Cfg) : ∀ alts i v, FitsAlts cfg (askingAlts alts) i v ↔ FitsAlts cfg alts i v
  | [], _, _ => Iff.rfl
  | .mk k _ :: alts, 0, v => by simp only [askingAlts, FitsAlts, fitsKind_asked cfg k]
  | .mk k _ :: alts, i + 1, v => by simp only [askingAlts, FitsAlts, fitsAlts_asked cfg alts]
theorem fitsFields_asked (cfg : Cfg) : ∀ fs vs, FitsFields cfg (asking fs) vs ↔ FitsFields cfg fs vs
  | [], _ => Iff.rfl
  | f :: fs, [] => by simp only [asking, FitsFields]
  | f :: fs, v :: vs => by simp only [asking, FitsFields, fitsField_asked cfg f, fitsFields_asked cfg fs]
end

mutual
theorem okKind_asked : ∀ k v, OkKind (askingKind k) v ↔ OkKind k v
  | .num _ _, v => by simp only [askingKind]
  | .fbuf _ _, v => by simp only [askingKind]
  | .fstr _, v => by simp only [askingKind]
  | .vec _ _ _, v => by cases v <;> simp only [askingKind, OkKind]
  | .record fs, v => by cases v <;> simp only [askingKind, OkKind, okFields_asked fs]
  | .arrRec fs _, v => by cases v <;> simp only [askingKind, OkKind, okFields_asked fs]
  | .vecRec fs _ _ _, v => by cases v <;> simp only [askingKind, OkKind, okFields_asked fs]
theorem okField_asked : ∀ f v, OkField (askingField f) v ↔ OkField f v
  | .plain _ k _, v => by simp only [askingField, OkField, okKind_asked k]
  | .maybe _ k _, v => by cases v <;> simp only [askingField, OkField, okKind_asked k]
  | .union _ _ alts _, v => by cases v <;> simp only [askingField, OkField, okAlts_asked alts]
theorem okAlts_asked : ∀ alts i v, OkAlts (askingAlts alts) i v ↔ OkAlts alts i v
  | [], _, _ => Iff.rfl
  | .mk k _ :: alts, 0, v => by simp only [askingAlts, OkAlts, okKind_asked k]
  | .mk k _ :: alts, i + 1, v => by simp only [askingAlts, OkAlts, okAlts_asked alts]
theorem okFields_asked : ∀ fs vs, OkFields (asking fs) vs ↔ OkFields fs vs
  | [], _ => Iff.rfl
  | f :: fs, [] => by simp only [asking, OkFields]
  | f :: fs, v :: vs => by simp only [asking, OkFields, okField_asked f, okFields_asked fs]
end

theorem envOf_asked : ∀ fs vs, envOf (asking fs) vs = envOf fs vs
  | [], _ => rfl
  | f :: fs, [] => by simp only [asking, envOf]
  | f :: fs, v :: vs => by simp only [asking, envOf, envOf_asked fs, askingField_id]

/-! ### What a length or a discriminant is -/

/-- The numbers a field refers to, as the environment has them. -/
structure Known (env : Env) (f : Field) : Prop where
  len : ∀ id ∈ lengthTargets f, ∃ x, env id = some (.int x)
  switch : match f with
    | .union _ (.matchField id t _) _ _ => ∃ x, env id = some (.int x) ∧ t.InRange x
    | _ => True

theorem askingLen_eval {cfg : Cfg} {env : Env} (l : LenSpec) (h : ∀ id, l = .fromField id → ∃ x, env id = some (.int x)) :
    (askingLen l).eval cfg env = l.eval cfg env := by
  cases l with
  | computed c => rfl
  | fromField id =>
    obtain ⟨x, hx⟩ := h id rfl
    simp [askingLen, LenSpec.eval, Calc.eval, itself, Env.getAll, hx]

theorem askingGuide_eval {env : Env} (d : Deducer)
    (h : ∀ id t ls, d = .matchField id t ls → ∃ x, env id = some (.int x) ∧ t.InRange x) :
    (askingGuide d).eval env = d.eval env := by
  cases d with
  | matchCompute c t ls => rfl
  | ladder ps => rfl
  | matchField id t ls =>
    obtain ⟨x, hx, hr⟩ := h id t ls rfl
    simp [askingGuide, Deducer.eval, Calc.eval, itself, Env.getAll, hx, ScalarTy.conv_of_inRange t x hr]

theorem lenTarget_vec {e : ElemTy} {l : LenSpec} {b : Option Nat} {env : Env}
    (h : ∀ id ∈ (Kind.vec e l b).lenTarget?.toList, ∃ x, env id = some (Val.int x)) :
    ∀ id, l = .fromField id → ∃ x, env id = some (.int x) := by
  rintro id rfl; exact h id (by simp [Kind.lenTarget?, Kind.lenSpec?])

theorem lenTarget_vecRec {fs : List Field} {l : LenSpec} {b : Option Nat} {sz : Nat} {env : Env}
    (h : ∀ id ∈ (Kind.vecRec fs l b sz).lenTarget?.toList, ∃ x, env id = some (Val.int x)) :
    ∀ id, l = .fromField id → ∃ x, env id = some (.int x) := by
  rintro id rfl; exact h id (by simp [Kind.lenTarget?, Kind.lenSpec?])

/-- The numbers of the list have values of their types. -/
def Numbered (all : List Field) (env : Env) : Prop :=
  ∀ id t w c, .plain id (.num t w) c ∈ all → ∃ x, env id = some (.int x) ∧ t.InRange x

theorem known_of {all : List Field} {env : Env} (hr : Resolves all) (hn : Numbered all env) {f : Field}
    (hf : f ∈ all) : Known env f := by
  have key : ∀ id p, HasScalar all id p → ∃ x t w, env id = some (.int x) ∧ t.InRange x ∧ p t w := by
    rintro id p ⟨g, hg, hm⟩
    cases g with
    | plain i k c =>
      cases k with
      | num t w =>
        obtain ⟨rfl, hp⟩ := hm
        obtain ⟨x, hx, hi⟩ := hn _ _ _ _ hg
        exact ⟨x, t, w, hx, hi, hp⟩
      | _ => exact hm.elim
    | _ => exact hm.elim
  obtain ⟨h1, h2⟩ := hr f hf
  refine ⟨fun id hid => ?_, ?_⟩
  · obtain ⟨x, _, _, hx, _⟩ := key id _ (h1 id hid)
    exact ⟨x, hx⟩
  · split
    · obtain ⟨x, t', _, hx, hrg, rfl⟩ := key _ _ h2
      exact ⟨x, hx, hrg⟩
    · trivial

/-- In a struct that fits, all numbers are known. -/
theorem numbered_envOf {cfg : Cfg} {fs : List Field} {vs : List Val} (hu : uniqueFields [] fs = true)
    (hf : FitsFields cfg fs vs) : Numbered fs (envOf fs vs) := by
  intro id t w c hm
  obtain ⟨v, hz⟩ := zip_of_mem (fits_length hf) hm
  have := fits_zip hf hz
  rw [FitsField] at this
  cases v <;> simp only [FitsKind] at this
  exact ⟨_, env_zip hu hz, this.1⟩

/-! ### Valid structs -/

mutual
theorem shapedKind_asked (cfg : Cfg) (env : Env) : ∀ k, uniqueKind k = true → EveryKind Resolves k →
    (∀ id ∈ k.lenTarget?.toList, ∃ x, env id = some (.int x)) → ∀ v, FitsKind cfg k v →
    (ShapedKind cfg env (askingKind k) v ↔ ShapedKind cfg env k v)
  | .num _ _, _, _, _, v, _ => by simp only [askingKind]
  | .fbuf _ _, _, _, _, v, _ => by simp only [askingKind]
  | .fstr _, _, _, _, v, _ => by simp only [askingKind]
  | .vec _ l _, _, _, hk, v, _ => by
      cases v <;> simp only [askingKind, ShapedKind, askingLen_eval l (lenTarget_vec hk)]
  | .record fs, hu, hr, _, v, hf => by
      rw [uniqueKind] at hu; rw [EveryKind] at hr
      cases v <;> simp only [askingKind, ShapedKind]
      rw [FitsKind] at hf
      rw [envOf_asked]
      exact shapedFields_asked cfg _ fs [] hu hr.2
        (fun f h => known_of hr.1 (numbered_envOf hu hf) h) _ hf
  | .arrRec fs _, hu, hr, _, v, hf => by
      rw [uniqueKind] at hu; rw [EveryKind] at hr
      cases v <;> simp only [askingKind, ShapedKind]
      rw [FitsKind] at hf
      refine forall_congr' fun v => forall_congr' fun hv => exists_congr fun ws => and_congr_right fun he => ?_
      obtain ⟨ws', h1, hws⟩ := hf.2 v hv
      rw [he] at h1; cases h1
      rw [envOf_asked]
      exact shapedFields_asked cfg _ fs [] hu hr.2
        (fun f h => known_of hr.1 (numbered_envOf hu hws) h) _ hws
  | .vecRec fs l _ _, hu, hr, hk, v, hf => by
      rw [uniqueKind] at hu; rw [EveryKind] at hr
      cases v <;> simp only [askingKind, ShapedKind, askingLen_eval l (lenTarget_vecRec hk)]
      rw [FitsKind] at hf
      refine and_congr_right fun _ => ?_
      refine forall_congr' fun v => forall_congr' fun hv => exists_congr fun ws => and_congr_right fun he => ?_
      obtain ⟨ws', h1, hws⟩ := hf.2 v hv
      rw [he] at h1; cases h1
      rw [envOf_asked]
      exact shapedFields_asked cfg _ fs [] hu hr.2
        (fun f h => known_of hr.1 (numbered_envOf hu hws) h) _ hws
theorem shapedField_asked (cfg : Cfg) (env : Env) : ∀ f, uniqueField f = true → EveryField Resolves f →
    Known env f → ∀ v, FitsField cfg f v →
    (ShapedField cfg env (askingField f) v ↔ ShapedField cfg env f v)
  | .plain _ k _, hu, hr, hk, v, hf => by
      rw [uniqueField] at hu; rw [EveryField] at hr; rw [FitsField] at hf
      simp only [askingField, ShapedField]
      exact shapedKind_asked cfg env k hu hr hk.len v hf
  | .maybe _ k _, hu, hr, hk, v, hf => by
      rw [uniqueField] at hu; rw [EveryField] at hr
      cases v <;> simp only [askingField, ShapedField]
      rw [FitsField] at hf
      exact and_congr_right fun _ => shapedKind_asked cfg env k hu hr hk.len _ hf
  | .union _ d alts _, hu, hr, hk, v, hf => by
      rw [uniqueField] at hu; rw [EveryField] at hr
      cases v <;> simp only [askingField, ShapedField]
      rw [FitsField] at hf
      rw [askingGuide_eval d (by rintro id t ls rfl; exact hk.switch)]
      exact and_congr_right fun _ => shapedAlts_asked cfg env alts hu hr hk.len _ _ hf
theorem shapedAlts_asked (cfg : Cfg) (env : Env) : ∀ alts, uniqueAlts alts = true → EveryAlts Resolves alts →
    (∀ id ∈ alts.flatMap (fun a => a.kind.lenTarget?.toList), ∃ x, env id = some (.int x)) → ∀ i v,
    FitsAlts cfg alts i v → (ShapedAlts cfg env (askingAlts alts) i v ↔ ShapedAlts cfg env alts i v)
  | [], _, _, _, _, _, _ => Iff.rfl
  | .mk k _ :: alts, hu, hr, hk, 0, v, hf => by
      simp only [uniqueAlts, Bool.and_eq_true] at hu
      rw [EveryAlts] at hr
      rw [FitsAlts] at hf
      simp only [askingAlts, ShapedAlts]
      exact shapedKind_asked cfg env k hu.1 hr.1
        (fun id h => hk id (by rw [List.flatMap_cons]; exact List.mem_append_left _ h)) v hf
  | .mk k _ :: alts, hu, hr, hk, i + 1, v, hf => by
      simp only [uniqueAlts, Bool.and_eq_true] at hu
      rw [EveryAlts] at hr
      rw [FitsAlts] at hf
      simp only [askingAlts, ShapedAlts]
      exact shapedAlts_asked cfg env alts hu.2 hr.2
        (fun id h => hk id (by rw [List.flatMap_cons]; exact List.mem_append_right _ h)) i v hf
theorem shapedFields_asked (cfg : Cfg) (env : Env) : ∀ fs seen, uniqueFields seen fs = true →
    EveryFields Resolves fs → (∀ f ∈ fs, Known env f) → ∀ vs, FitsFields cfg fs vs →
    (ShapedFields cfg env (asking fs) vs ↔ ShapedFields cfg env fs vs)
  | [], _, _, _, _, _, _ => Iff.rfl
  | f :: fs, _, _, _, _, [], _ => by simp only [asking, ShapedFields]
  | f :: fs, _, hu, hr, hk, v :: vs, hf => by
      simp only [uniqueFields, Bool.and_eq_true] at hu
      rw [EveryFields] at hr
      rw [FitsFields] at hf
      simp only [asking, ShapedFields]
      exact and_congr (shapedField_asked cfg env f hu.1.2 hr.1 (hk f (by simp)) v hf.1)
        (shapedFields_asked cfg env fs _ hu.2 hr.2 (fun g hg => hk g (by simp [hg])) vs hf.2)
end

/-- The valid structs are the same. -/
theorem valid_asked {cfg : Cfg} {fs : List Field} (hu : uniqueFields [] fs = true)
    (hr : Everywhere Resolves fs) (vs : List Val) : Valid cfg (asking fs) vs ↔ Valid cfg fs vs := by
  unfold Valid
  rw [fitsFields_asked, okFields_asked, envOf_asked]
  exact and_congr_right fun hf => and_congr_right fun _ =>
    shapedFields_asked cfg _ fs [] hu hr.2 (fun f h => known_of hr.1 (numbered_envOf hu hf) h) vs hf

/-! ### Filling -/

theorem askingKind_lenSpec (k : Kind) : (askingKind k).lenSpec? = k.lenSpec?.map askingLen := by
  cases k <;> simp [askingKind, Kind.lenSpec?]

theorem produced_asked (all : List Field) (vals : List Val) (target : String) (f : Field) (v : Val) :
    produced target f (settleField (asking all) vals (askingField f) v) = produced target f v := by
  cases f with
  | plain id k c =>
    simp only [askingField, settleField, isSlot_asked, Bool.false_eq_true, if_false, constOf_asked]
    cases hl : k.lenTarget? with
    | none =>
      have : ∀ u, produced target (.plain id k c) u = none := by
        intro u; cases u <;> simp [produced, hl]
      rw [this, this]
    | some t =>
      have hc : constOf k c = none := by
        cases k <;> first
          | (simp [Kind.lenTarget?, Kind.lenSpec?] at hl; done)
          | (cases c <;> rfl)
      rw [hc]
      have := settleKind_size (askingKind k) v
      cases hv : settleKind (askingKind k) v <;> cases v <;> rw [hv] at this <;> simp only [Val.size?] at this <;>
        simp only [produced, reduceCtorEq] at *
      rw [Option.some.inj this]
  | maybe id k p => cases v <;> simp [askingField, settleField, produced]
  | union id d alts c => cases d <;> cases v <;> simp [askingField, settleField, produced]

theorem producers_asked (all : List Field) (vals : List Val) (target : String) : ∀ fs vs,
    producers target fs (settleFields (asking all) vals (asking fs) vs) = producers target fs vs
  | [], vs => by simp [asking, settleFields, producers]
  | f :: fs, [] => by simp [asking, settleFields]
  | f :: fs, v :: vs => by
      rw [asking, settleFields, producers, producers, produced_asked, producers_asked]

theorem slotValue_asked (fs : List Field) (vs : List Val) (target : String) :
    slotValue fs (settleFields (asking fs) vs (asking fs) vs) target = slotValue fs vs target := by
  unfold slotValue
  rw [producers_asked]

theorem mapRecord_both {f g : List Val → List Val} (h : ∀ ws, f (g ws) = f ws) (vs : List Val) :
    (vs.map (mapRecord g)).map (mapRecord f) = vs.map (mapRecord f) := by
  rw [List.map_map]
  refine List.map_congr_left fun v _ => ?_
  cases v <;> simp [mapRecord, h]

mutual
theorem settleKind_asked : ∀ k v, settleKind k (settleKind (askingKind k) v) = settleKind k v
  | .num _ _, v => by cases v <;> simp [askingKind, settleKind]
  | .fbuf _ _, v => by cases v <;> simp [askingKind, settleKind]
  | .fstr _, v => by cases v <;> simp [askingKind, settleKind]
  | .vec _ _ _, v => by cases v <;> simp [askingKind, settleKind]
  | .record fs, v => by
      cases v <;> simp only [askingKind, settleKind]
      rw [settleFields_asked fs fs _ _ (slotValue_asked fs _)]
  | .arrRec fs _, v => by
      cases v <;> simp only [askingKind, settleKind]
      rw [mapRecord_both fun ws => settleFields_asked fs fs _ _ (slotValue_asked fs _) _]
  | .vecRec fs _ _ _, v => by
      cases v <;> simp only [askingKind, settleKind]
      rw [mapRecord_both fun ws => settleFields_asked fs fs _ _ (slotValue_asked fs _) _]
theorem settleField_asked : ∀ f all vals vals', (∀ id, slotValue all vals' id = slotValue all vals id) →
    ∀ v, settleField all vals' f (settleField (asking all) vals (askingField f) v) = settleField all vals f v
  | .plain id k c, all, vals, vals', hv, v => by
      simp only [askingField, settleField, hv, isSlot_asked, Bool.false_eq_true, if_false, constOf_asked]
      by_cases hs : isSlot all id = true
      · rw [if_pos hs, if_pos hs]
      · rw [if_neg hs, if_neg hs]
        cases constOf k c with
        | none => exact settleKind_asked k v
        | some u => rfl
  | .maybe id k p, all, vals, vals', hv, v => by
      cases v <;> simp only [askingField, settleField]
      rw [settleKind_asked k]
  | .union id d alts c, all, vals, vals', hv, v => by
      cases v <;> simp only [askingField, settleField]
      rw [settleAlts_asked alts]
theorem settleAlts_asked : ∀ alts i v, settleAlts alts i (settleAlts (askingAlts alts) i v) = settleAlts alts i v
  | [], i, v => by simp [askingAlts, settleAlts]
  | .mk k c :: alts, 0, v => by simp only [askingAlts, settleAlts]; exact settleKind_asked k v
  | .mk k c :: alts, i + 1, v => by simp only [askingAlts, settleAlts]; exact settleAlts_asked alts i v
theorem settleFields_asked : ∀ fs all vals vals', (∀ id, slotValue all vals' id = slotValue all vals id) →
    ∀ vs, settleFields all vals' fs (settleFields (asking all) vals (asking fs) vs) = settleFields all vals fs vs
  | [], all, vals, vals', hv, vs => by simp [asking, settleFields]
  | f :: fs, all, vals, vals', hv, [] => by simp [asking, settleFields]
  | f :: fs, all, vals, vals', hv, v :: vs => by
      simp only [asking, settleFields]
      rw [settleField_asked f all vals vals' hv, settleFields_asked fs all vals vals' hv]
end

/-- Filling after the constants are filled is filling. -/
theorem settle_asked (fs : List Field) (vs : List Val) : settle fs (settle (asking fs) vs) = settle fs vs :=
  settleFields_asked fs fs vs _ (slotValue_asked fs vs) vs

mutual
theorem storableKind_asked (cfg : Cfg) : ∀ k v, StorableKind cfg (askingKind k) v → StorableKind cfg k v
  | .num _ _, v, h => by simpa only [askingKind] using h
  | .fbuf _ _, v, h => by simpa only [askingKind] using h
  | .fstr _, v, h => by simpa only [askingKind] using h
  | .vec _ _ _, v, h => by
      rw [askingKind, StorableKind] at h
      rw [StorableKind]
      cases v <;> simp only [FitsKind] at h ⊢
      exact h
  | .record fs, v, h => by
      cases v <;> simp only [askingKind, StorableKind] at h ⊢
      exact storableFields_asked cfg fs fs _ h
  | .arrRec fs _, v, h => by
      cases v <;> simp only [askingKind, StorableKind] at h ⊢
      refine ⟨h.1, fun v hv => ?_⟩
      obtain ⟨ws, rfl, hws⟩ := h.2 v hv
      exact ⟨ws, rfl, storableFields_asked cfg fs fs _ hws⟩
  | .vecRec fs _ _ _, v, h => by
      cases v <;> simp only [askingKind, StorableKind] at h ⊢
      refine ⟨h.1, fun v hv => ?_⟩
      obtain ⟨ws, rfl, hws⟩ := h.2 v hv
      exact ⟨ws, rfl, storableFields_asked cfg fs fs _ hws⟩
theorem storableField_asked (cfg : Cfg) : ∀ f all v, StorableField cfg (asking all) (askingField f) v →
    StorableField cfg all f v
  | .plain id k c, all, v, h => by
      rw [askingField, StorableField, isSlot_asked, constOf_asked] at h
      rw [StorableField]
      rcases h with h | h | h
      · cases h
      · exact .inr (.inl h)
      · exact .inr (.inr (storableKind_asked cfg k v h))
  | .maybe id k p, all, v, h => by
      cases v <;> simp only [askingField, StorableField] at h ⊢
      exact storableKind_asked cfg k _ h
  | .union id d alts c, all, v, h => by
      cases v <;> simp only [askingField, StorableField] at h ⊢
      exact storableAlts_asked cfg alts _ _ h
theorem storableAlts_asked (cfg : Cfg) : ∀ alts i v, StorableAlts cfg (askingAlts alts) i v → StorableAlts cfg alts i v
  | [], i, v, h => by simp [askingAlts, StorableAlts] at h
  | .mk k c :: alts, 0, v, h => by
      simp only [askingAlts, StorableAlts] at h ⊢; exact storableKind_asked cfg k v h
  | .mk k c :: alts, i + 1, v, h => by
      simp only [askingAlts, StorableAlts] at h ⊢; exact storableAlts_asked cfg alts i v h
theorem storableFields_asked (cfg : Cfg) : ∀ fs all vs, StorableFields cfg (asking all) (asking fs) vs →
    StorableFields cfg all fs vs
  | [], all, vs, h => by cases vs <;> simp only [asking, StorableFields] at h ⊢
  | f :: fs, all, [], h => by simp [asking, StorableFields] at h
  | f :: fs, all, v :: vs, h => by
      simp only [asking, StorableFields] at h ⊢
      exact ⟨storableField_asked cfg f all v h.1, storableFields_asked cfg fs all vs h.2⟩
end

/-! ### Conditions at every level -/

mutual
theorem everyKind_asked {P Q : List Field → Prop} (hpq : ∀ fs, uniqueFields [] fs = true → P fs → Q (asking fs)) :
    ∀ k, uniqueKind k = true → EveryKind P k → EveryKind Q (askingKind k)
  | .num _ _, _, _ => by rw [askingKind, EveryKind]; trivial
  | .fbuf _ _, _, _ => by rw [askingKind, EveryKind]; trivial
  | .fstr _, _, _ => by rw [askingKind, EveryKind]; trivial
  | .vec _ _ _, _, _ => by rw [askingKind, EveryKind]; trivial
  | .record fs, hu, h => by
      rw [uniqueKind] at hu; rw [EveryKind] at h; rw [askingKind, EveryKind]
      exact ⟨hpq fs hu h.1, everyFields_asked hpq fs [] hu h.2⟩
  | .arrRec fs _, hu, h => by
      rw [uniqueKind] at hu; rw [EveryKind] at h; rw [askingKind, EveryKind]
      exact ⟨hpq fs hu h.1, everyFields_asked hpq fs [] hu h.2⟩
  | .vecRec fs _ _ _, hu, h => by
      rw [uniqueKind] at hu; rw [EveryKind] at h; rw [askingKind, EveryKind]
      exact ⟨hpq fs hu h.1, everyFields_asked hpq fs [] hu h.2⟩
theorem everyField_asked {P Q : List Field → Prop} (hpq : ∀ fs, uniqueFields [] fs = true → P fs → Q (asking fs)) :
    ∀ f, uniqueField f = true → EveryField P f → EveryField Q (askingField f)
  | .plain _ k _, hu, h => by
      rw [uniqueField] at hu; rw [EveryField] at h; rw [askingField, EveryField]; exact everyKind_asked hpq k hu h
  | .maybe _ k _, hu, h => by
      rw [uniqueField] at hu; rw [EveryField] at h; rw [askingField, EveryField]; exact everyKind_asked hpq k hu h
  | .union _ _ alts _, hu, h => by
      rw [uniqueField] at hu; rw [EveryField] at h; rw [askingField, EveryField]; exact everyAlts_asked hpq alts hu h
theorem everyAlts_asked {P Q : List Field → Prop} (hpq : ∀ fs, uniqueFields [] fs = true → P fs → Q (asking fs)) :
    ∀ alts, uniqueAlts alts = true → EveryAlts P alts → EveryAlts Q (askingAlts alts)
  | [], _, _ => by rw [askingAlts, EveryAlts]; trivial
  | .mk k _ :: alts, hu, h => by
      simp only [uniqueAlts, Bool.and_eq_true] at hu
      rw [EveryAlts] at h; rw [askingAlts, EveryAlts]
      exact ⟨everyKind_asked hpq k hu.1 h.1, everyAlts_asked hpq alts hu.2 h.2⟩
theorem everyFields_asked {P Q : List Field → Prop} (hpq : ∀ fs, uniqueFields [] fs = true → P fs → Q (asking fs)) :
    ∀ fs seen, uniqueFields seen fs = true → EveryFields P fs → EveryFields Q (asking fs)
  | [], _, _, _ => by rw [asking, EveryFields]; trivial
  | f :: fs, _, hu, h => by
      simp only [uniqueFields, Bool.and_eq_true] at hu
      rw [EveryFields] at h; rw [asking, EveryFields]
      exact ⟨everyField_asked hpq f hu.1.2 h.1, everyFields_asked hpq fs _ hu.2 h.2⟩
end

theorem everywhere_asked {P Q : List Field → Prop} {fs : List Field} (hu : uniqueFields [] fs = true)
    (hpq : ∀ fs, uniqueFields [] fs = true → P fs → Q (asking fs)) (h : Everywhere P fs) : Everywhere Q (asking fs) :=
  ⟨hpq fs hu h.1, everyFields_asked hpq fs [] hu h.2⟩

theorem mem_asked {fs : List Field} {g : Field} (h : g ∈ asking fs) : ∃ f ∈ fs, g = askingField f := by
  rw [asking_map] at h
  obtain ⟨f, hf, rfl⟩ := List.mem_map.1 h
  exact ⟨f, hf, rfl⟩

theorem lengthTargets_asked (f : Field) : lengthTargets (askingField f) = [] := by
  cases f with
  | plain id k c => simp [askingField, lengthTargets, lenTarget_asked]
  | maybe id k p => simp [askingField, lengthTargets, lenTarget_asked]
  | union id d alts c =>
    simp [askingField, lengthTargets, askingAlts_map, List.flatMap_map, Alt.kind, lenTarget_asked]

theorem resolves_asked (fs : List Field) : Resolves (asking fs) := by
  intro g hg
  obtain ⟨f, -, rfl⟩ := mem_asked hg
  refine ⟨fun id h => by simp [lengthTargets_asked] at h, ?_⟩
  cases f with
  | union id d alts c => cases d <;> simp [askingField, askingGuide]
  | _ => simp [askingField]

theorem goodLabels_asked (cfg : Cfg) (fs : List Field) : GoodLabels cfg (asking fs) := by
  intro g hg
  obtain ⟨f, -, rfl⟩ := mem_asked hg
  cases f with
  | union id d alts c => cases d <;> simp [askingField, askingGuide]
  | _ => simp [askingField]

theorem safeLabels_asked (cfg : Cfg) (fs : List Field) : SafeLabels cfg (asking fs) := by
  intro g hg
  obtain ⟨f, -, rfl⟩ := mem_asked hg
  cases f with
  | union id d alts c => cases d <;> simp [askingField, askingGuide]
  | _ => simp [askingField]

theorem goodConsts_asked {cfg : Cfg} {fs : List Field} (h : GoodConsts cfg fs) : GoodConsts cfg (asking fs) := by
  intro g hg
  obtain ⟨f, hf, rfl⟩ := mem_asked hg
  have := h f hf
  cases f with
  | plain id k c =>
    simp only [askingField, constOf_asked] at this ⊢
    exact fun u hu => ⟨(fitsKind_asked cfg k u).2 (this u hu).1, (this u hu).2⟩
  | _ => simp [askingField]

theorem exactConsts_asked {cfg : Cfg} {fs : List Field} (h : ExactConsts cfg fs) : ExactConsts cfg (asking fs) := by
  intro g hg
  obtain ⟨f, hf, rfl⟩ := mem_asked hg
  have := h f hf
  cases f with
  | plain id k c =>
    simp only [askingField, typedConst_asked] at this ⊢
    exact fun u hu v hv hc => this u hu v ((fitsKind_asked cfg k v).1 hv) hc
  | _ => simp [askingField]

theorem wideSlots_asked (cfg : Cfg) (fs : List Field) : WideSlots cfg (asking fs) := by
  intro g _
  split
  · intro h; rw [isSlot_asked] at h; cases h
  · trivial

theorem safeSlots_asked (cfg : Cfg) (fs : List Field) : SafeSlots cfg (asking fs) := by
  intro g _
  split
  · intro h; rw [isSlot_asked] at h; cases h
  · trivial

theorem clean_asked {fs : List Field} (h : Clean fs) : Clean (asking fs) := by
  intro g hg
  obtain ⟨f, hf, rfl⟩ := mem_asked hg
  have := h f hf
  cases f with
  | plain id k c => exact ⟨isSlot_asked _ _, by rw [constOf_asked]; exact this.2⟩
  | _ => simp [askingField]

mutual
theorem cleanKind_asked : ∀ k, EveryKind Clean k → EveryKind Clean (askingKind k)
  | .num _ _, _ => by rw [askingKind, EveryKind]; trivial
  | .fbuf _ _, _ => by rw [askingKind, EveryKind]; trivial
  | .fstr _, _ => by rw [askingKind, EveryKind]; trivial
  | .vec _ _ _, _ => by rw [askingKind, EveryKind]; trivial
  | .record fs, h => by
      rw [EveryKind] at h; rw [askingKind, EveryKind]; exact ⟨clean_asked h.1, cleanFields_asked fs h.2⟩
  | .arrRec fs _, h => by
      rw [EveryKind] at h; rw [askingKind, EveryKind]; exact ⟨clean_asked h.1, cleanFields_asked fs h.2⟩
  | .vecRec fs _ _ _, h => by
      rw [EveryKind] at h; rw [askingKind, EveryKind]; exact ⟨clean_asked h.1, cleanFields_asked fs h.2⟩
theorem cleanEvery_asked : ∀ f, EveryField Clean f → EveryField Clean (askingField f)
  | .plain _ k _, h => by rw [EveryField] at h; rw [askingField, EveryField]; exact cleanKind_asked k h
  | .maybe _ k _, h => by rw [EveryField] at h; rw [askingField, EveryField]; exact cleanKind_asked k h
  | .union _ _ alts _, h => by rw [EveryField] at h; rw [askingField, EveryField]; exact cleanAlts_asked alts h
theorem cleanAlts_asked : ∀ alts, EveryAlts Clean alts → EveryAlts Clean (askingAlts alts)
  | [], _ => by rw [askingAlts, EveryAlts]; trivial
  | .mk k _ :: alts, h => by
      rw [EveryAlts] at h; rw [askingAlts, EveryAlts]; exact ⟨cleanKind_asked k h.1, cleanAlts_asked alts h.2⟩
theorem cleanFields_asked : ∀ fs, EveryFields Clean fs → EveryFields Clean (asking fs)
  | [], _ => by rw [asking, EveryFields]; trivial
  | f :: fs, h => by
      rw [EveryFields] at h; rw [asking, EveryFields]; exact ⟨cleanEvery_asked f h.1, cleanFields_asked fs h.2⟩
end

theorem cleanField_asked {fs : List Field} {f : Field} (h : CleanField fs f) :
    CleanField (asking fs) (askingField f) := by
  refine ⟨cleanEvery_asked f h.1, ?_⟩
  have := h.2
  cases f with
  | plain id k c => exact ⟨isSlot_asked _ _, by rw [constOf_asked]; exact this.2⟩
  | _ => simp [askingField]

theorem computedIds_asked (k : Kind) :
    callableReads.computedIds (askingKind k) = callableReads.computedIds k ++ k.lenTarget?.toList := by
  unfold callableReads.computedIds Kind.lenTarget?
  rw [askingKind_lenSpec]
  cases k.lenSpec? with
  | none => rfl
  | some l => cases l <;> simp [askingLen, itself]

theorem callableReads_asked (f : Field) {id : String} (h : id ∈ callableReads (askingField f)) :
    id ∈ callableReads f ∨ id ∈ lengthTargets f ++ switchedOn f := by
  cases f with
  | plain i k c =>
    simp only [askingField, callableReads, computedIds_asked, List.mem_append] at h
    rcases h with h | h
    · exact .inl h
    · exact .inr (List.mem_append_left _ h)
  | maybe i k p =>
    simp only [askingField, callableReads, computedIds_asked, List.mem_append] at h
    rcases h with h | h | h
    · exact .inl (List.mem_append_left _ h)
    · exact .inl (List.mem_append_right _ h)
    · exact .inr (List.mem_append_left _ h)
  | union i d alts c =>
    simp only [askingField, callableReads, List.mem_append] at h
    rcases h with h | h
    · cases d with
      | matchField j t ls =>
        simp only [askingGuide, itself] at h
        exact .inr (List.mem_append_right _ h)
      | matchCompute c t ls => exact .inl (List.mem_append_left _ h)
      | ladder ps => exact .inl (List.mem_append_left _ h)
    · rw [askingAlts_map, List.flatMap_map] at h
      obtain ⟨a, ha, h⟩ := List.mem_flatMap.1 h
      simp only [Alt.kind, computedIds_asked, List.mem_append] at h
      rcases h with h | h
      · exact .inl (List.mem_append_right _ (List.mem_flatMap.2 ⟨a, ha, h⟩))
      · exact .inr (List.mem_append_left _ (List.mem_flatMap.2 ⟨a, ha, h⟩))

theorem noStale_asked {fs : List Field} (hu : uniqueFields [] fs = true) (hr : Resolves fs) (hn : NoStale fs)
    (hf : FreeNumbers fs) : NoStale (asking fs) := by
  intro g hg
  obtain ⟨f, hm, rfl⟩ := mem_asked hg
  obtain ⟨h1, h2⟩ := hn f hm
  refine ⟨fun id hid g hg he => ?_, ?_⟩
  · obtain ⟨g, hgm, rfl⟩ := mem_asked hg
    rw [askingField_id] at he
    rcases callableReads_asked f hid with h | h
    · exact cleanField_asked (h1 id h g hgm he)
    · have hsc : ∃ p, HasScalar fs id p := by
        rcases List.mem_append.1 h with h | h
        · exact ⟨_, (hr f hm).1 id h⟩
        · cases f with
          | union i d alts c =>
            cases d with
            | matchField j t ls =>
              simp only [switchedOn, List.mem_singleton] at h
              subst h
              exact ⟨_, (hr _ hm).2⟩
            | _ => simp [switchedOn] at h
          | _ => simp [switchedOn] at h
      obtain ⟨p, g', hg', hp⟩ := hsc
      cases g' with
      | plain i k c =>
        cases k with
        | num t w =>
          obtain ⟨rfl, -⟩ := hp
          obtain rfl := field_inj hu hgm hg' he
          have := hf f hm _ h _ hgm he
          refine ⟨by rw [askingField, askingKind, EveryField, EveryKind]; trivial, isSlot_asked _ _, ?_⟩
          rw [constOf_asked]; exact this
        | _ => exact hp.elim
      | _ => exact hp.elim
  · cases f with
    | plain id k c =>
      simp only [askingField] at h2 ⊢
      cases c <;> first | trivial | exact cleanKind_asked k h2
    | maybe id k p => trivial
    | union id d alts c =>
      simp only [askingField] at h2 ⊢
      refine ⟨?_, fun a ha => ?_⟩
      · cases c <;> first | trivial | exact cleanAlts_asked alts h2.1
      · rw [askingAlts_map] at ha
        obtain ⟨b, hb, rfl⟩ := List.mem_map.1 ha
        have := h2.2 b hb
        obtain ⟨k, c⟩ := b
        simp only [Alt.kind, Alt.constraint] at this ⊢
        cases c <;> first | trivial | exact cleanKind_asked k this

mutual
theorem everyKind_and {P Q : List Field → Prop} : ∀ k, EveryKind P k → EveryKind Q k → EveryKind (fun fs => P fs ∧ Q fs) k
  | .num _ _, _, _ => by rw [EveryKind]; trivial
  | .fbuf _ _, _, _ => by rw [EveryKind]; trivial
  | .fstr _, _, _ => by rw [EveryKind]; trivial
  | .vec _ _ _, _, _ => by rw [EveryKind]; trivial
  | .record fs, h, h' => by rw [EveryKind] at *; exact ⟨⟨h.1, h'.1⟩, everyFields_and fs h.2 h'.2⟩
  | .arrRec fs _, h, h' => by rw [EveryKind] at *; exact ⟨⟨h.1, h'.1⟩, everyFields_and fs h.2 h'.2⟩
  | .vecRec fs _ _ _, h, h' => by rw [EveryKind] at *; exact ⟨⟨h.1, h'.1⟩, everyFields_and fs h.2 h'.2⟩
theorem everyField_and {P Q : List Field → Prop} : ∀ f, EveryField P f → EveryField Q f → EveryField (fun fs => P fs ∧ Q fs) f
  | .plain _ k _, h, h' => by rw [EveryField] at *; exact everyKind_and k h h'
  | .maybe _ k _, h, h' => by rw [EveryField] at *; exact everyKind_and k h h'
  | .union _ _ alts _, h, h' => by rw [EveryField] at *; exact everyAlts_and alts h h'
theorem everyAlts_and {P Q : List Field → Prop} : ∀ alts, EveryAlts P alts → EveryAlts Q alts → EveryAlts (fun fs => P fs ∧ Q fs) alts
  | [], _, _ => by rw [EveryAlts]; trivial
  | .mk k _ :: alts, h, h' => by
      rw [EveryAlts] at *; exact ⟨everyKind_and k h.1 h'.1, everyAlts_and alts h.2 h'.2⟩
theorem everyFields_and {P Q : List Field → Prop} : ∀ fs, EveryFields P fs → EveryFields Q fs → EveryFields (fun fs => P fs ∧ Q fs) fs
  | [], _, _ => by rw [EveryFields]; trivial
  | f :: fs, h, h' => by
      rw [EveryFields] at *; exact ⟨everyField_and f h.1 h'.1, everyFields_and fs h.2 h'.2⟩
end

theorem everywhere_and {P Q : List Field → Prop} {fs : List Field} (h : Everywhere P fs) (h' : Everywhere Q fs) :
    Everywhere (fun fs => P fs ∧ Q fs) fs := ⟨⟨h.1, h'.1⟩, everyFields_and fs h.2 h'.2⟩

theorem selfConsistent_asked {cfg : Cfg} {fs : List Field} (h : SelfConsistent cfg fs)
    (hf : Everywhere FreeNumbers fs) : SelfConsistent cfg (asking fs) :=
  ⟨(wellFormed_asked fs).2 h.1, everywhere_asked h.1.2.1
    (fun fs hu h => ⟨resolves_asked fs, goodLabels_asked cfg fs, goodConsts_asked h.1.2.2.1,
      wideSlots_asked cfg fs, noStale_asked hu h.1.1 h.1.2.2.2.2 h.2⟩) (everywhere_and h.2 hf)⟩

theorem rewritable_asked {cfg : Cfg} {fs : List Field} (h : Rewritable cfg fs) : Rewritable cfg (asking fs) :=
  ⟨(wellFormed_asked fs).2 h.1, everywhere_asked h.1.2.1
    (fun fs _ h => ⟨resolves_asked fs, safeLabels_asked cfg fs, safeSlots_asked cfg fs,
      exactConsts_asked h.consts⟩) h.2⟩

/-! ### Reading -/

mutual
theorem kindDflt_asked : ∀ k, (askingKind k).dflt = k.dflt
  | .num _ _ => by simp only [askingKind]
  | .fbuf _ _ => by simp only [askingKind]
  | .fstr _ => by simp only [askingKind]
  | .vec _ _ _ => by simp only [askingKind, Kind.dflt]
  | .record fs => by simp only [askingKind, Kind.dflt, dflts_asked fs]
  | .arrRec fs _ => by simp only [askingKind, Kind.dflt, dflts_asked fs]
  | .vecRec fs _ _ _ => by simp only [askingKind, Kind.dflt]
theorem fieldDflt_asked : ∀ f, (askingField f).dflt = f.dflt
  | .plain _ k _ => by simp only [askingField, Field.dflt, kindDflt_asked k]
  | .maybe _ k _ => by simp only [askingField, Field.dflt]
  | .union _ _ alts _ => by simp only [askingField, Field.dflt, dfltFirst_asked alts]
theorem dfltFirst_asked : ∀ alts, Alt.dfltFirst (askingAlts alts) = Alt.dfltFirst alts
  | [] => rfl
  | .mk k _ :: alts => by simp only [askingAlts, Alt.dfltFirst, kindDflt_asked k]
theorem dflts_asked : ∀ fs, Field.dflts (asking fs) = Field.dflts fs
  | [] => rfl
  | f :: fs => by simp only [asking, Field.dflts, fieldDflt_asked f, dflts_asked fs]
end

theorem dfltEnv_asked (fs : List Field) : dfltEnv (asking fs) = dfltEnv fs := by
  rw [dfltEnv, dflts_asked, envOf_asked]; rfl

theorem numbered_dflt {fs : List Field} (hu : uniqueFields [] fs = true) : Numbered fs (dfltEnv fs) := by
  intro id t w c hm
  obtain ⟨v, hv, -⟩ := named_dflt fs (dfltEnv fs) (fun _ _ => rfl) hu _ hm
  have hz : ∀ fs : List Field, Field.plain id (.num t w) c ∈ fs →
      (Field.plain id (.num t w) c, Val.int 0) ∈ fs.zip (Field.dflts fs) := by
    intro fs hf
    induction fs with
    | nil => cases hf
    | cons g fs ih =>
      rw [Field.dflts, List.zip_cons_cons]
      rcases List.mem_cons.1 hf with rfl | hf
      · rw [Field.dflt, Kind.dflt]; exact List.mem_cons_self ..
      · exact List.mem_cons_of_mem _ (ih hf)
  exact ⟨0, env_zip hu (hz fs hm), inRange_zero t⟩

theorem byteswap_inRange (t : ScalarTy) {x : Int} (h : t.InRange x) : t.InRange (t.byteswap x) := by
  cases t with
  | int b s => exact ScalarTy.conv_inRange _ _
  | bool => exact h

theorem ofMem_inRange {o : Endian} {t : ScalarTy} {mem : List Byte} {x : Int} (h : t.ofMem o mem = some x) :
    t.InRange x := by
  cases t with
  | int b s => simp only [ScalarTy.ofMem, Option.some.injEq] at h; subst h; exact ScalarTy.conv_inRange _ _
  | bool =>
    simp only [ScalarTy.ofMem] at h
    split at h
    · split at h
      · cases h; exact .inl rfl
      · split at h
        · cases h; exact .inr rfl
        · cases h
    · cases h

/-- A number read is a value of its type. -/
theorem readNum_every (cfg : Cfg) (t : ScalarTy) (w : Nat) :
    Rd.Every (OkOf fun v => ∃ x, v = .int x ∧ t.InRange x) (readNum cfg t w) := by
  unfold readNum
  refine RdE.every_andThen (RdE.every_any _) fun mem _ => ?_
  cases h : t.ofMem cfg.host mem with
  | none => trivial
  | some x =>
    show ∃ y, _ = Val.int y ∧ _
    refine ⟨_, rfl, ?_⟩
    split
    · exact byteswap_inRange t (ofMem_inRange h)
    · exact ofMem_inRange h

theorem checked_every {c : Constraint} {v : Val} {P : Val → Prop} (h : P v) :
    Rd.Every (OkOf P) (RdE.checked c v) := by
  unfold RdE.checked
  refine RdE.every_andThen (RdE.every_any _) fun b _ => ?_
  cases b
  · trivial
  · exact h

theorem RdE.every_mapErr {P : α → Prop} {r : RdE ε α} (g : ε → ε') (h : Rd.Every (OkOf P) r) :
    Rd.Every (OkOf P) (r.mapErr g) := by
  unfold RdE.mapErr Rd.map
  refine Rd.every_bind h fun a ha => ?_
  cases a with
  | ok a => exact ha
  | error e => trivial

/-- What is known of a field once it has been read. -/
def Read (f : Field) (v : Val) : Prop :=
  match f with
  | .plain _ (.num t _) _ => ∃ x, v = .int x ∧ t.InRange x
  | _ => True

theorem readField_every (cfg : Cfg) (env : Env) (f : Field) :
    Rd.Every (OkOf (Read f)) (((readField cfg env f).andThen fun v => RdE.checked f.constraint v).tag f.id) := by
  refine RdE.every_mapErr _ ?_
  have : Rd.Every (OkOf (Read f)) (readField cfg env f) := by
    unfold Read
    split
    · rw [readField, readKind]; exact readNum_every cfg _ _
    · exact RdE.every_any _
  exact RdE.every_andThen this fun v hv => checked_every hv

theorem numbered_set {all : List Field} (hu : uniqueFields [] all = true) {env : Env} (h : Numbered all env)
    {f : Field} (hf : f ∈ all) {v : Val} (hv : Read f v) : Numbered all (env.set f.id v) := by
  intro id t w c hm
  by_cases he : id = f.id
  · obtain rfl := field_inj hu hm hf he
    obtain ⟨x, rfl, hx⟩ := hv
    exact ⟨x, by simp [Env.set, Field.id], hx⟩
  · obtain ⟨x, h1, h2⟩ := h _ _ _ _ hm
    exact ⟨x, by simp [Env.set, he, h1], h2⟩

mutual
theorem readKind_asked (cfg : Cfg) (env : Env) : ∀ k, uniqueKind k = true → EveryKind Resolves k →
    (∀ id ∈ k.lenTarget?.toList, ∃ x, env id = some (.int x)) →
    readKind cfg env (askingKind k) = readKind cfg env k
  | .num _ _, _, _, _ => by simp only [askingKind]
  | .fbuf _ _, _, _, _ => by simp only [askingKind]
  | .fstr _, _, _, _ => by simp only [askingKind]
  | .vec _ l _, _, _, hk => by simp only [askingKind, readKind, askingLen_eval l (lenTarget_vec hk)]
  | .record fs, hu, hr, _ => by
      rw [uniqueKind] at hu; rw [EveryKind] at hr
      simp only [askingKind, readKind]
      rw [dfltEnv_asked, readFields_asked cfg _ fs [] hu hr.2 fs (fun _ h => h) hu hr.1 (numbered_dflt hu)]
  | .arrRec fs _, hu, hr, _ => by
      rw [uniqueKind] at hu; rw [EveryKind] at hr
      simp only [askingKind, readKind]
      rw [dfltEnv_asked, readFields_asked cfg _ fs [] hu hr.2 fs (fun _ h => h) hu hr.1 (numbered_dflt hu)]
  | .vecRec fs l _ _, hu, hr, hk => by
      rw [uniqueKind] at hu; rw [EveryKind] at hr
      simp only [askingKind, readKind, askingLen_eval l (lenTarget_vecRec hk)]
      rw [dfltEnv_asked, readFields_asked cfg _ fs [] hu hr.2 fs (fun _ h => h) hu hr.1 (numbered_dflt hu)]
theorem readField_asked (cfg : Cfg) (env : Env) : ∀ f, uniqueField f = true → EveryField Resolves f →
    Known env f → readField cfg env (askingField f) = readField cfg env f
  | .plain _ k _, hu, hr, hk => by
      rw [uniqueField] at hu; rw [EveryField] at hr
      simp only [askingField, readField]
      exact readKind_asked cfg env k hu hr hk.len
  | .maybe _ k _, hu, hr, hk => by
      rw [uniqueField] at hu; rw [EveryField] at hr
      simp only [askingField, readField]
      rw [readKind_asked cfg env k hu hr hk.len]
  | .union _ d alts _, hu, hr, hk => by
      rw [uniqueField] at hu; rw [EveryField] at hr
      simp only [askingField, readField]
      rw [askingGuide_eval d (by rintro id t ls rfl; exact hk.switch), dfltFirst_asked]
      congr 1
      funext o
      cases o with
      | none => rfl
      | some i => simp only [readAlts_asked cfg env alts hu hr hk.len i]
theorem readAlts_asked (cfg : Cfg) (env : Env) : ∀ alts, uniqueAlts alts = true → EveryAlts Resolves alts →
    (∀ id ∈ alts.flatMap (fun a => a.kind.lenTarget?.toList), ∃ x, env id = some (.int x)) → ∀ i,
    readAlts cfg env (askingAlts alts) i = readAlts cfg env alts i
  | [], _, _, _, _ => rfl
  | .mk k _ :: alts, hu, hr, hk, 0 => by
      simp only [uniqueAlts, Bool.and_eq_true] at hu
      rw [EveryAlts] at hr
      simp only [askingAlts, readAlts]
      rw [readKind_asked cfg env k hu.1 hr.1
        (fun id h => hk id (by rw [List.flatMap_cons]; exact List.mem_append_left _ h))]
  | .mk k _ :: alts, hu, hr, hk, i + 1 => by
      simp only [uniqueAlts, Bool.and_eq_true] at hu
      rw [EveryAlts] at hr
      simp only [askingAlts, readAlts]
      exact readAlts_asked cfg env alts hu.2 hr.2
        (fun id h => hk id (by rw [List.flatMap_cons]; exact List.mem_append_right _ h)) i
theorem readFields_asked (cfg : Cfg) (env : Env) : ∀ fs seen, uniqueFields seen fs = true →
    EveryFields Resolves fs → ∀ all, (∀ f ∈ fs, f ∈ all) → uniqueFields [] all = true → Resolves all →
    Numbered all env → readFields cfg env (asking fs) = readFields cfg env fs
  | [], _, _, _, _, _, _, _, _ => rfl
  | f :: fs, _, hu, hr, all, hs, hua, hra, hn => by
      simp only [uniqueFields, Bool.and_eq_true] at hu
      rw [EveryFields] at hr
      have hf := hs f (by simp)
      simp only [asking, readFields]
      rw [readField_asked cfg env f hu.1.2 hr.1 (known_of hra hn hf), askingField_constraint, askingField_id]
      refine RdE.andThen_congr_every (readField_every cfg env f) fun v hv => ?_
      rw [readFields_asked cfg _ fs _ hu.2 hr.2 all (fun g hg => hs g (by simp [hg])) hua hra
        (numbered_set hua hn hf hv)]
end

end S2S
