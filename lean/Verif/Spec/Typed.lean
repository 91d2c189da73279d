import Verif.Spec.Rewrite
/-
Structs as C++ types them, and what a length inside an optional or a union
alternative says.
-/
namespace S2S.Spec

mutual
def TypedKind (cfg : Cfg) : Kind → Val → Prop
  | .num t _, .int x => t.InRange x
  | .fbuf e n, .seq vs => vs.length = n ∧ ∀ v ∈ vs, ElemFits e v
  | .fstr n, .seq vs => vs.length = n + 1 ∧ ∀ v ∈ vs, ElemFits (.scalar u8) v
  | .vec e _ _, .seq vs => vs.length * e.size ≤ cfg.ptrdiffMax ∧ ∀ v ∈ vs, ElemFits e v
  | .record fs, .seq vs => TypedFields cfg fs vs
  | .arrRec fs n, .seq vs => vs.length = n ∧ ∀ v ∈ vs, ∃ ws, v = .seq ws ∧ TypedFields cfg fs ws
  | .vecRec fs _ _ sz, .seq vs =>
      vs.length * sz ≤ cfg.ptrdiffMax ∧ ∀ v ∈ vs, ∃ ws, v = .seq ws ∧ TypedFields cfg fs ws
  | _, _ => False
def TypedField (cfg : Cfg) : Field → Val → Prop
  | .plain _ k _, v => TypedKind cfg k v
  | .maybe _ _ _, .absent => True
  | .maybe _ k _, .present v => TypedKind cfg k v
  | .union _ _ alts _, .var i v => TypedAlts cfg alts i v
  | _, _ => False
def TypedAlts (cfg : Cfg) : List Alt → Nat → Val → Prop
  | .mk k _ :: _, 0, v => TypedKind cfg k v
  | _ :: alts, i + 1, v => TypedAlts cfg alts i v
  | [], _, _ => False
/-- A struct as the C++ type system guarantees it: every field holds a value of its
type, a container no more than the platform can allocate. Nothing about declared
widths, ceilings, constraints, or how fields relate. -/
def TypedFields (cfg : Cfg) : List Field → List Val → Prop
  | [], [] => True
  | f :: fs, v :: vs => TypedField cfg f v ∧ TypedFields cfg fs vs
  | _, _ => False
end

abbrev Typed (cfg : Cfg) (fs : List Field) (vs : List Val) : Prop := TypedFields cfg fs vs

mutual
def decTypedKind (cfg : Cfg) : (k : Kind) → (v : Val) → Decidable (TypedKind cfg k v)
  | .num t w, v => match v with
      | .int x => decidable_of_iff (t.InRange x) (by rw [TypedKind])
      | .seq _ => .isFalse (by simp [TypedKind])
      | .absent => .isFalse (by simp [TypedKind])
      | .present _ => .isFalse (by simp [TypedKind])
      | .var _ _ => .isFalse (by simp [TypedKind])
  | .fbuf e n, v => match v with
      | .seq vs => decidable_of_iff (vs.length = n ∧ ∀ v ∈ vs, ElemFits e v) (by rw [TypedKind])
      | .int _ => .isFalse (by simp [TypedKind])
      | .absent => .isFalse (by simp [TypedKind])
      | .present _ => .isFalse (by simp [TypedKind])
      | .var _ _ => .isFalse (by simp [TypedKind])
  | .fstr n, v => match v with
      | .seq vs => decidable_of_iff (vs.length = n + 1 ∧ ∀ v ∈ vs, ElemFits (.scalar u8) v)
          (by rw [TypedKind])
      | .int _ => .isFalse (by simp [TypedKind])
      | .absent => .isFalse (by simp [TypedKind])
      | .present _ => .isFalse (by simp [TypedKind])
      | .var _ _ => .isFalse (by simp [TypedKind])
  | .vec e len b, v => match v with
      | .seq vs => decidable_of_iff
          (vs.length * e.size ≤ cfg.ptrdiffMax ∧ ∀ v ∈ vs, ElemFits e v) (by rw [TypedKind])
      | .int _ => .isFalse (by simp [TypedKind])
      | .absent => .isFalse (by simp [TypedKind])
      | .present _ => .isFalse (by simp [TypedKind])
      | .var _ _ => .isFalse (by simp [TypedKind])
  | .record fs, v => match v with
      | .seq vs => @decidable_of_iff _ (TypedFields cfg fs vs) (by rw [TypedKind])
          (decTypedFields cfg fs vs)
      | .int _ => .isFalse (by simp [TypedKind])
      | .absent => .isFalse (by simp [TypedKind])
      | .present _ => .isFalse (by simp [TypedKind])
      | .var _ _ => .isFalse (by simp [TypedKind])
  | .arrRec fs n, v => match v with
      | .seq vs => @decidable_of_iff _
          (vs.length = n ∧ ∀ v ∈ vs, ∃ ws, v = .seq ws ∧ TypedFields cfg fs ws) (by rw [TypedKind])
          (@instDecidableAnd _ _ _ (decSeqs _ (fun ws => decTypedFields cfg fs ws) vs))
      | .int _ => .isFalse (by simp [TypedKind])
      | .absent => .isFalse (by simp [TypedKind])
      | .present _ => .isFalse (by simp [TypedKind])
      | .var _ _ => .isFalse (by simp [TypedKind])
  | .vecRec fs len b sz, v => match v with
      | .seq vs => @decidable_of_iff _
          (vs.length * sz ≤ cfg.ptrdiffMax ∧
            ∀ v ∈ vs, ∃ ws, v = .seq ws ∧ TypedFields cfg fs ws) (by rw [TypedKind])
          (@instDecidableAnd _ _ _ (decSeqs _ (fun ws => decTypedFields cfg fs ws) vs))
      | .int _ => .isFalse (by simp [TypedKind])
      | .absent => .isFalse (by simp [TypedKind])
      | .present _ => .isFalse (by simp [TypedKind])
      | .var _ _ => .isFalse (by simp [TypedKind])
def decTypedField (cfg : Cfg) : (f : Field) → (v : Val) → Decidable (TypedField cfg f v)
  | .plain _ k _, v => @decidable_of_iff _ (TypedKind cfg k v) (by rw [TypedField])
      (decTypedKind cfg k v)
  | .maybe _ k _, v => match v with
      | .absent => .isTrue (by rw [TypedField]; trivial)
      | .present v => @decidable_of_iff _ (TypedKind cfg k v) (by rw [TypedField])
          (decTypedKind cfg k v)
      | .int _ => .isFalse (by simp [TypedField])
      | .seq _ => .isFalse (by simp [TypedField])
      | .var _ _ => .isFalse (by simp [TypedField])
  | .union _ _ alts _, v => match v with
      | .var i v => @decidable_of_iff _ (TypedAlts cfg alts i v) (by rw [TypedField])
          (decTypedAlts cfg alts i v)
      | .int _ => .isFalse (by simp [TypedField])
      | .seq _ => .isFalse (by simp [TypedField])
      | .absent => .isFalse (by simp [TypedField])
      | .present _ => .isFalse (by simp [TypedField])
def decTypedAlts (cfg : Cfg) : (alts : List Alt) → (i : Nat) → (v : Val) →
    Decidable (TypedAlts cfg alts i v)
  | [], _, _ => .isFalse (by simp [TypedAlts])
  | .mk k _ :: _, 0, v => @decidable_of_iff _ (TypedKind cfg k v) (by rw [TypedAlts])
      (decTypedKind cfg k v)
  | .mk _ _ :: alts, i + 1, v => @decidable_of_iff _ (TypedAlts cfg alts i v) (by rw [TypedAlts])
      (decTypedAlts cfg alts i v)
def decTypedFields (cfg : Cfg) : (fs : List Field) → (vs : List Val) →
    Decidable (TypedFields cfg fs vs)
  | [], [] => .isTrue (by rw [TypedFields]; trivial)
  | f :: fs, v :: vs => @decidable_of_iff _ (TypedField cfg f v ∧ TypedFields cfg fs vs)
      (by rw [TypedFields])
      (@instDecidableAnd _ _ (decTypedField cfg f v) (decTypedFields cfg fs vs))
  | [], _ :: _ => .isFalse (by simp [TypedFields])
  | _ :: _, [] => .isFalse (by simp [TypedFields])
end

instance (cfg : Cfg) (k : Kind) (v : Val) : Decidable (TypedKind cfg k v) := decTypedKind cfg k v
instance (cfg : Cfg) (fs : List Field) (vs : List Val) : Decidable (TypedFields cfg fs vs) :=
  decTypedFields cfg fs vs

/-! ### Lengths of containers that may not be there -/

/-- A container whose length is the field `target` is in play inside an optional or a
union and has `n` elements: the optional is engaged and its predicate holds, or the
alternative is the held one. -/
inductive ActiveLen (env : Env) (target : String) : Field → Val → Nat → Prop
  | optional {id k p us} : k.lenTarget? = some target → p.eval env = .ok true →
      ActiveLen env target (.maybe id k p) (.present (.seq us)) us.length
  | alternative {id d alts c i a us} : alts[i]? = some a → a.kind.lenTarget? = some target →
      ActiveLen env target (.union id d alts c) (.var i (.seq us)) us.length

/-! ### Schemas whose constraints fit their fields -/

/-- The constraint can be applied to values of that kind. `eq`/`neq` over a
`fixed_string` are left out: they look for a terminator that a value need not have. So are those
that may convert their argument. -/
def UsableOn (k : Kind) : Constraint → Prop
  | .none => True
  | .user _ => True
  | .cmp _ _ _ => match k with | .num _ _ => True | _ => False
  | .anyOf _ _ => match k with | .num _ _ => True | _ => False
  | .arrCmp _ _ => match k with | .fbuf _ _ => True | _ => False
  | .strCmp _ _ => False
  | .over _ _ _ => False

/-- `field_size` options ask for no more bytes than the type has. -/
def WidthOk : Kind → Prop
  | .num t w => w ≤ t.size
  | _ => True

/-- The constraint does not convert its argument to another type than an integral one. -/
def NoConversion : Constraint → Prop
  | .over _ _ _ => False
  | _ => True

/-- Constraints fit what they are attached to, constants are values of their field's
type, declared widths do not exceed types. What the library does not see to here is
`strCmp`, the conversions of `over`, and widths. -/
def WriteSafe (cfg : Cfg) (fs : List Field) : Prop :=
  ∀ f ∈ fs, match f with
    | .plain id k c => WidthOk k ∧
        match typedConst k c with
        | some v => TypedKind cfg k v ∧ (isSlot fs id = true → NoConversion c)
        | none => UsableOn k c
    | .maybe _ k _ => WidthOk k
    | .union _ _ alts c =>
        (match c with | .none => True | .user _ => True | _ => False) ∧
        ∀ a ∈ alts, WidthOk a.kind ∧ UsableOn a.kind a.constraint

instance (k : Kind) (c : Constraint) : Decidable (UsableOn k c) := by
  cases c <;> cases k <;> simp only [UsableOn] <;> infer_instance
instance (k : Kind) : Decidable (WidthOk k) := by
  cases k <;> simp only [WidthOk] <;> infer_instance
instance (c : Constraint) : Decidable (NoConversion c) := by
  cases c <;> simp only [NoConversion] <;> infer_instance
def decWriteSafeField (cfg : Cfg) (fs : List Field) (f : Field) : Decidable (match f with
    | .plain id k c => WidthOk k ∧
        match typedConst k c with
        | some v => TypedKind cfg k v ∧ (isSlot fs id = true → NoConversion c)
        | none => UsableOn k c
    | .maybe _ k _ => WidthOk k
    | .union _ _ alts c =>
        (match c with | .none => True | .user _ => True | _ => False) ∧
        ∀ a ∈ alts, WidthOk a.kind ∧ UsableOn a.kind a.constraint) := by
  cases f with
  | plain id k c =>
    simp only
    cases typedConst k c <;> infer_instance
  | maybe id k p => infer_instance
  | union id d alts c => cases c <;> infer_instance
instance (cfg : Cfg) : DecidablePred (WriteSafe cfg) := fun fs =>
  @List.decidableBAll _ _ (decWriteSafeField cfg fs) fs

/-- Constants of `eq` constraints are values of their field's type, as C++ has it. -/
def TypedConsts (cfg : Cfg) (fs : List Field) : Prop :=
  ∀ f ∈ fs, match f with
    | .plain _ k c => ∀ u ∈ typedConst k c, TypedKind cfg k u
    | _ => True

instance (cfg : Cfg) : DecidablePred (TypedConsts cfg) := fun fs => by
  unfold TypedConsts
  refine @List.decidableBAll _ _ (fun f => ?_) fs
  split <;> infer_instance

end S2S.Spec
