import Verif.Spec.Strings
import Verif.Props.Numbers
import Verif.Spec.Demo
/-
C144: strings that have to be one of several, and how they are read and written.
-/
namespace S2S.Props
open Spec Demo

theorem cstr?_eq (cs : List Int) : cstr? cs = if 0 ∈ cs then some (text cs) else none := by
  induction cs with
  | nil => rfl
  | cons c cs ih =>
    rw [cstr?, ih]
    by_cases h : c = 0
    · simp [h, text]
    · by_cases h' : 0 ∈ cs
      · simp [h, h', text]
      · simp [h, h', Ne.symm h]

theorem strCmp_check (e : Bool) (s cs : List Int) (hs : 0 ∈ s) :
    (Constraint.strCmp e s).check (.seq (cs.map .int)) =
      if 0 ∈ cs then .ok ((text cs == text s) == e) else .error .unterminated := by
  simp only [Constraint.check, chars?_map, cstr?_eq, hs, if_true]
  by_cases h : 0 ∈ cs <;> simp [h]

theorem anyString_check (ss : List (List Int)) (cs : List Int) (hne : ss ≠ []) (hs : ∀ s ∈ ss, 0 ∈ s) :
    (Compare.constraintAnyString ss).check (.seq (cs.map .int)) =
      if 0 ∈ cs then .ok (ss.any fun s => text cs == text s) else .error .unterminated := by
  simp only [Compare.constraintAnyString, Constraint.check]
  by_cases h : 0 ∈ cs
  · simp only [h, if_true]
    have : Compare.callAnyString ss (.seq (cs.map .int)) = some (ss.any fun s => text cs == text s) := by
      clear hne
      induction ss with
      | nil => rfl
      | cons s ss ih =>
        rw [Compare.callAnyString, strCmp_check true s cs (hs s (List.mem_cons_self ..)), if_pos h,
          ih fun t ht => hs t (List.mem_cons_of_mem _ ht)]
        cases ht : text cs == text s <;> simp [Except.toOption, ht]
    rw [this]
  · match ss, hne with
    | s :: ss, _ =>
      rw [Compare.callAnyString, strCmp_check true s cs (hs s (List.mem_cons_self ..)), if_neg h, if_neg h]
      rfl

/-- C144. What the constraint says of the characters of a string: it is allowed, it is not, or the
comparison runs out of the object, because there is no NUL in it. -/
theorem C144_check (r : StringRule) (hne : r.operands ≠ []) (hs : ∀ s ∈ r.operands, 0 ∈ s) (cs : List Int) :
    r.constraint.check (.seq (cs.map .int)) =
      if 0 ∈ cs then .ok (decide (r.Allows (text cs))) else .error .unterminated := by
  cases r with
  | is s =>
    rw [StringRule.constraint, strCmp_check true s cs (hs s (List.mem_cons_self ..))]
    congr 2
    rw [Bool.eq_iff_iff, decide_eq_true_iff]; simp [StringRule.Allows]
  | isNot s =>
    rw [StringRule.constraint, strCmp_check false s cs (hs s (List.mem_cons_self ..))]
    congr 2
    rw [Bool.eq_iff_iff, decide_eq_true_iff]; simp [StringRule.Allows]
  | oneOf ss =>
    rw [StringRule.constraint, anyString_check ss cs hne hs]
    congr 2
    rw [Bool.eq_iff_iff, decide_eq_true_iff]; simp [StringRule.Allows]

example : (StringRule.oneOf [[71, 69, 84, 0], [80, 85, 84, 0]]).constraint.check
    (.seq ([80, 85, 84, 0].map .int)) = .ok true :=
  (C144_check _ (by decide) (by decide) _).trans rfl

theorem zero_mem_charsOf (p : List Byte) : (0 : Int) ∈ charsOf p ↔ (0 : Byte) ∈ p := by
  simp only [charsOf, List.mem_map]
  constructor
  · rintro ⟨b, hb, h⟩
    have : b = 0 := by
      apply UInt8.toNat_inj.1
      show b.toNat = 0
      omega
    exact this ▸ hb
  · intro h; exact ⟨0, h, rfl⟩

/-- C144, reading, from any stream: of the bytes of the field those up to the first NUL decide; all
of them are the value. Without a NUL among them the behaviour is undefined. -/
theorem C144_read (cfg : Cfg) (id : String) (n : Nat) (r : StringRule) (hne : r.operands ≠ [])
    (hs : ∀ s ∈ r.operands, 0 ∈ s) (S : InStream) (s s' : S.State) (p : List Byte)
    (hp : S.read s (n + 1) = (some p, s')) :
    (structCast cfg [.plain id (.fstr n) r.constraint]).runOn S s =
      (if 0 ∉ p then .stuck .unterminated
        else if r.Allows (text (charsOf p)) then .done (.ok [.seq ((charsOf p).map .int)])
        else .done (.error ⟨.validationFailure, id⟩), s') := by
  have hc := C144_check r hne hs (charsOf p)
  have hm : (charsOf p).map Val.int = p.map fun b => .int b.toNat := by simp [charsOf]
  simp only [zero_mem_charsOf, hm] at hc
  rw [hm]
  simp only [structCast, readFields, readField, readKind, readFixedStr, readNativeImpl, RdE.runOn_andThen, RdE.tag,
    RdE.runOn_mapErr, Nat.lt_irrefl, if_false, Rd.runOn, RdE.checked, Field.constraint, hp, Nat.sub_self,
    List.replicate_zero, List.append_nil, RdE.ok, hc]
  by_cases h : 0 ∈ p
  · by_cases h' : r.Allows (text (charsOf p)) <;> simp [h, h', RdE.lift, Rd.runOn, RdE.ok, RdE.err, Field.id]
  · simp [h, RdE.lift, Rd.runOn]

example : (structCast be64 [.plain "verb" (.fstr 3) (StringRule.oneOf [[71, 69, 84, 0], [80, 85, 84, 0]]).constraint]).runOn
      listIn ([80, 85, 84, 0, 7] : List Byte) =
    (.done (.ok [.seq [.int 80, .int 85, .int 84, .int 0]]), [7]) :=
  (C144_read be64 "verb" 3 _ (by decide) (by decide) listIn _ [7] [80, 85, 84, 0] rfl).trans rfl

/-- C144, writing: a string that has to be one of several, or other than one, is looked at as it
will be when it is read, and then written with everything in it. -/
theorem C144_write (cfg : Cfg) (id : String) (n : Nat) (r : StringRule) (hne : r.operands ≠ [])
    (hs : ∀ s ∈ r.operands, 0 ∈ s) (hr : ∀ s, r ≠ .is s) (p : List Byte) (hp : p.length = n + 1) :
    (streamCast cfg [.plain id (.fstr n) r.constraint] [.seq ((charsOf p).map .int)]).run =
      if 0 ∉ p then (.stuck .unterminated, [])
        else if r.Allows (text (charsOf p)) then (.done (.ok ()), p)
        else (.done (.error ⟨.validationFailure, id⟩), []) := by
  have hc := C144_check r hne hs (charsOf p)
  simp only [zero_mem_charsOf] at hc
  have hf : frozenVal (.fstr n) r.constraint = none := by
    cases r with
    | is s => exact absurd rfl (hr s)
    | isNot s => rfl
    | oneOf ss => rfl
  have he : (writeFixedStr n ((charsOf p).map .int)).out = (.done (.ok ()), p) := by
    have h1 := emits_writeFixedStr .little n ((charsOf p).map .int) (by simp [charsOf, hp]) (by
      intro v hv
      simp only [charsOf, List.map_map, List.mem_map, Function.comp_apply] at hv
      obtain ⟨b, -, rfl⟩ := hv
      simp only [ElemFits]
      have := b.toNat_lt
      exact ⟨Int.natCast_nonneg _, by show (b.toNat : Int) < 256; omega⟩)
    have h2 : ((charsOf p).map Val.int).flatMap (wireElem .little (.scalar u8)) = p := by
      clear hc h1 hp
      induction p with
      | nil => rfl
      | cons b p ih =>
        simp only [charsOf, List.map_cons, List.flatMap_cons] at ih ⊢
        rw [ih]
        rw [wireElem_u8]; rfl
    rw [h2] at h1
    exact h1
  rw [Wr.run_eq]
  have hd : isDerived [.plain id (.fstr n) r.constraint] id = false := by
    rfl
  simp only [streamCast, writeFields, Field.id, Field.isFrozen, hf, hd, Option.isSome_none, Bool.or_self,
    Bool.false_eq_true, if_false, WrE.checked, Field.constraint, hc, WrE.tag, WrE.out_andThen, WrE.out_mapErr,
    writeField, writeKind, writeFixed, verifyThenWrite, emitFixed]
  have hh : hasConditional [.plain id (.fstr n) r.constraint] id = false := rfl
  simp only [hh, hd, hf, Bool.false_eq_true, if_false, if_true, he]
  by_cases h : 0 ∈ p
  · by_cases h' : r.Allows (text (charsOf p)) <;> simp [h, h', WrE.lift, he, WrE.err, WrE.ok, Wr.out]
  · simp [h, WrE.lift, Wr.out]

example : (streamCast be64 [.plain "verb" (.fstr 3) (StringRule.isNot [71, 69, 84, 0]).constraint]
      [.seq [.int 71, .int 0, .int 9, .int 9]]).run = (.done (.ok ()), [71, 0, 9, 9]) :=
  (C144_write be64 "verb" 3 (.isNot [71, 69, 84, 0]) (by decide) (by decide) nofun [71, 0, 9, 9] rfl).trans rfl

end S2S.Props
