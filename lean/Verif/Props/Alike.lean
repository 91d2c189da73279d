import Verif.Lemmas.Alike
import Verif.Props.Compare
import Verif.Spec.Demo
/-
C128: only what lengths, conditions, choices and constraints say matters.
-/
namespace S2S.Props
open Spec Demo Compare

/-- C128, reading: two schemas alike are the same program, so they do the same with every
stream. -/
theorem C128_read (keep : Bool) (cfg : Cfg) (fs gs : List Field) (h : AlikeFields keep cfg fs gs) :
    structCast cfg fs = structCast cfg gs := by
  rw [structCast, structCast, alike_dfltEnv h, alike_readFields h]

/-- C128, writing: if labels of switches over fields and constants are kept, so are the
writers. -/
theorem C128_write (cfg : Cfg) (fs gs : List Field) (h : AlikeFields true cfg fs gs) (vs : List Val) :
    streamCast cfg fs vs = streamCast cfg gs vs :=
  alike_writeFields h h vs vs

/-- C128, switches over computed values: at whatever level, a switch over a computed integer may
be replaced by the ladder of the comparisons with its labels. -/
theorem C128_switch (cfg : Cfg) (id : String) (comp : Calc) (t : ScalarTy)
    (labels : List (ScalarTy × Int)) (hne : labels ≠ []) (alts alts' : List Alt) (c : Constraint)
    (ha : AlikeAlts true cfg alts alts') :
    AlikeField true cfg (.union id (.matchCompute comp t labels) alts c)
      (.union id (switchOn comp.ids (fun vs => t.conv (comp.fn vs))
        (labels.map fun l x => labelMatches t x l)) alts' c) :=
  .union (alike_switchOn true comp t labels hne) ha fun _ => rfl

/-- C128, switches over values of any type: the alternative selected is the first whose label is
equal to the value, and there is none exactly if no label is. -/
theorem C128_selects {α : Type} (ids : List String) (fn : List Val → α) (eqs : List (α → Bool))
    (env : Env) (vs : List Val) (h : env.getAll ids = some vs) :
    (∀ i, (switchOn ids fn eqs).eval env = .ok (some i) ↔ FirstEqual (fn vs) eqs i) ∧
    ((switchOn ids fn eqs).eval env = .ok none ↔ ∀ e ∈ eqs, e (fn vs) = false) :=
  ⟨fun i => switchOn_eval ids fn eqs h (some i), switchOn_eval ids fn eqs h none⟩

mutual
/-- A schema is alike itself. -/
theorem alikeKind_refl (keep : Bool) (cfg : Cfg) : ∀ k, AlikeKind keep cfg k k
  | .num _ _ => .num
  | .fbuf _ _ => .fbuf
  | .fstr _ => .fstr
  | .vec _ _ _ => .vec (fun _ => rfl) rfl
  | .record fs => .record (alikeFields_refl keep cfg fs)
  | .arrRec fs _ => .arrRec (alikeFields_refl keep cfg fs)
  | .vecRec fs _ _ _ => .vecRec (alikeFields_refl keep cfg fs) (fun _ => rfl) rfl
theorem alikeField_refl (keep : Bool) (cfg : Cfg) : ∀ f, AlikeField keep cfg f f
  | .plain _ k _ => .plain (alikeKind_refl keep cfg k) (fun _ => rfl) fun _ => rfl
  | .maybe _ k _ => .maybe (alikeKind_refl keep cfg k) fun _ => rfl
  | .union _ _ alts _ => .union ⟨fun _ => rfl, fun _ _ _ _ _ => rfl⟩ (alikeAlts_refl keep cfg alts) fun _ => rfl
theorem alikeAlts_refl (keep : Bool) (cfg : Cfg) : ∀ as, AlikeAlts keep cfg as as
  | [] => .nil
  | .mk k _ :: as => .cons (alikeKind_refl keep cfg k) (fun _ => rfl) (alikeAlts_refl keep cfg as)
theorem alikeFields_refl (keep : Bool) (cfg : Cfg) : ∀ fs, AlikeFields keep cfg fs fs
  | [] => .nil
  | f :: fs => .cons (alikeField_refl keep cfg f) (alikeFields_refl keep cfg fs)
end

/-- `a`, `b`: u8; `s`: `a * b` characters, if there are more than one; `u`: by `a + b`, a u8 or
a u16. -/
def areaSchema : List Field :=
  [.plain "a" (.num u8 1) (.cmp .lt u8 16), .plain "b" (.num u8 1) .none,
   .maybe "s" (.vec (.scalar u8) (.computed ⟨["a", "b"], fun | [.int a, .int b] => a * b | _ => 0⟩) none)
     ⟨["a", "b"], fun | [.int a, .int b] => a * b > 1 | _ => false⟩,
   .union "u" (.matchCompute ⟨["a", "b"], fun | [.int a, .int b] => a + b | _ => 0⟩ i32 [(i32, 3), (u8, 5)])
     [.mk (.num u8 1) .none, .mk (.num u16 2) .none] .none]

/-- The same with the arguments exchanged, another spelling of the constraint, and a ladder. -/
def areaSchema' : List Field :=
  [.plain "a" (.num u8 1) (.cmp .le u8 15), .plain "b" (.num u8 1) .none,
   .maybe "s" (.vec (.scalar u8) (.computed ⟨["b", "a"], fun | [.int b, .int a] => a * b | _ => 0⟩)
       (some (16 * 1024 * 1024)))
     ⟨["b", "a"], fun | [.int b, .int a] => ¬ a * b ≤ 1 | _ => false⟩,
   .union "u" (switchOn ["a", "b"] (fun vs => i32.conv ((fun | [.int a, .int b] => a + b | _ => 0 : List Val → Int) vs))
       ([(i32, 3), (u8, 5)].map fun l x => labelMatches i32 x l))
     [.mk (.num u8 1) .none, .mk (.num u16 2) .none] .none]

theorem swapped_eval (fn : List Val → Int) (fn' : List Val → Int) (a b : String)
    (h : ∀ x y, fn [x, y] = fn' [y, x]) (env : Env) :
    Calc.eval ⟨[a, b], fn⟩ env = Calc.eval ⟨[b, a], fn'⟩ env := by
  simp only [Calc.eval, Env.getAll]
  cases env a <;> cases env b <;> simp [h]

theorem swapped_pred (fn : List Val → Bool) (fn' : List Val → Bool) (a b : String)
    (h : ∀ x y, fn [x, y] = fn' [y, x]) (env : Env) :
    Pred.eval ⟨[a, b], fn⟩ env = Pred.eval ⟨[b, a], fn'⟩ env := by
  simp only [Pred.eval, Env.getAll]
  cases env a <;> cases env b <;> simp [h]

theorem area_alike : AlikeFields true be64 areaSchema areaSchema' := by
  refine .cons (.plain .num ?_ fun _ => rfl) (.cons (alikeField_refl _ _ _) (.cons (.maybe (.vec ?_ rfl) ?_)
    (.cons (C128_switch be64 "u" _ i32 _ (by simp) _ _ .none (alikeAlts_refl _ _ _)) .nil)))
  · intro v
    cases v with
    | int x => simp only [Constraint.check, CmpOp.holds, Except.ok.injEq, decide_eq_decide]; omega
    | _ => rfl
  · intro env
    simp only [LenSpec.eval]
    have h := swapped_eval (fun | [.int a, .int b] => a * b | _ => 0)
      (fun | [.int b, .int a] => a * b | _ => 0) "a" "b" (fun x y => by cases x <;> cases y <;> rfl) env
    rw [h]
  · refine swapped_pred _ _ "a" "b" (fun x y => ?_)
    cases x <;> cases y <;> first | rfl | (simp only [decide_eq_decide]; omega)

/-- They read and write alike. -/
example (S : InStream) (s : S.State) :
    (structCast be64 areaSchema).runOn S s = (structCast be64 areaSchema').runOn S s := by
  rw [C128_read true be64 _ _ area_alike]
example : (structCast be64 areaSchema).run [1, 2, 7, 8, 9] =
    (.done (.ok [.int 1, .int 2, .present (.seq [.int 7, .int 8]), .var 0 (.int 9)]), []) := by decide +kernel
example (vs : List Val) : (streamCast be64 areaSchema vs).run = (streamCast be64 areaSchema' vs).run := by
  rw [C128_write be64 _ _ area_alike]

/-- A switch over a computed `double`: half the field, with the labels 1.5 and 2.0. The value 3 is
read as the first alternative. -/
example : (switchOn ["a"] (fun | [.int a] => Real.fin (a * (one / 2)) | _ => .nan)
      [fun x => x.cmp (real 8 0x3ff8000000000000) == some .eq,
       fun x => x.cmp (real 8 0x4000000000000000) == some .eq]).eval
      (Env.empty.set "a" (.int 3)) = .ok (some 0) := by
  rw [(C128_selects _ _ _ _ [.int 3] rfl).1]
  exact ⟨⟨_, rfl, by decide +kernel⟩, fun j e hj => by omega⟩

/-- Constants have to be kept for writing: these constraints say the same, but a field that must
be 7 is written without being looked at. -/
theorem C128_fails_constant :
    AlikeFields false be64 [.plain "v" (.num u8 1) (.cmp .eq u8 7)] [.plain "v" (.num u8 1) (.anyOf u8 [7])] ∧
    (streamCast be64 [.plain "v" (.num u8 1) (.cmp .eq u8 7)] [.int 0]).run = (.done (.ok ()), [7]) ∧
    (streamCast be64 [.plain "v" (.num u8 1) (.anyOf u8 [7])] [.int 0]).run =
      (.done (.error ⟨.validationFailure, "v"⟩), []) := by
  refine ⟨.cons (.plain .num (fun v => ?_) nofun) .nil, rfl, rfl⟩
  cases v <;> simp [Constraint.check, CmpOp.holds]

def twinAlts : List Alt := [.mk (.num u8 1) .none, .mk (.num i8 1) .none, .mk (.num u16 2) .none]
def twinLabels (third : Int) : List Field :=
  [.plain "t" (.num u8 1) .none,
   .union "u" (.matchField "t" u8 [(i32, 7), (i32, 8), (i32, third)]) twinAlts .none]

/-- So have labels: with a label twice, which `variance` refuses (C76), the second is never read,
but it is what is written. -/
theorem C128_fails_labels :
    AlikeFields false be64 (twinLabels 7) (twinLabels 8) ∧
    (streamCast be64 (twinLabels 7) [.int 0, .var 2 (.int 1)]).run = (.done (.ok ()), [7, 0, 1]) ∧
    (streamCast be64 (twinLabels 8) [.int 0, .var 2 (.int 1)]).run = (.done (.ok ()), [8, 0, 1]) := by
  refine ⟨.cons (alikeField_refl _ _ _) (.cons (.union ⟨fun env => ?_, nofun⟩ (alikeAlts_refl _ _ _) fun _ => rfl)
    .nil), by decide +kernel, by decide +kernel⟩
  have h : ∀ x, switchIdx u8 x [(i32, 7), (i32, 8), (i32, 7)] = switchIdx u8 x [(i32, 7), (i32, 8), (i32, 8)] := by
    intro x
    simp only [switchIdx]
    cases labelMatches u8 x (i32, 7) <;> cases labelMatches u8 x (i32, 8) <;> rfl
  simp only [Deducer.eval, h]

example : AlikeField true be64
    (.union "u" (.matchCompute ⟨["a"], fun _ => 1⟩ u8 [(i32, 1), (i32, 2)]) [.mk (.num u8 1) .none, .mk (.num u16 2) .none] .none)
    (.union "u" (switchOn ["a"] (fun _ => u8.conv 1) ([(i32, 1), (i32, 2)].map fun l x => labelMatches u8 x l))
      [.mk (.num u8 1) .none, .mk (.num u16 2) .none] .none) :=
  C128_switch be64 "u" ⟨["a"], fun _ => 1⟩ u8 _ (by decide) _ _ .none (alikeAlts_refl true be64 _)

end S2S.Props
