import Verif.Lemmas.Hollow
import Verif.Lemmas.Made
import Verif.Lemmas.WriteTree
import Verif.Spec.Demo
/-
C122: variants without a value.
-/
namespace S2S.Props
open Spec Demo

/-- C122. A struct in which a variant has no value, at the top or inside records,
optionals, alternatives and containers of records, is not written: on no stream does the
cast succeed. -/
theorem C122_never_sent (cfg : Cfg) (fs : List Field) (vs : List Val) (hh : HollowFields fs vs)
    (S : OutStream) (s s' : S.State) :
    (streamCast cfg fs vs).runOn S s ≠ (.done (.ok ()), s') := by
  intro h
  rcases Wr.runOn_cases S (wshort_streamCast cfg fs vs) s with
    ⟨s1, -, h1⟩ | ⟨a, _, _, _, s1, hP, -, -, -, h1⟩
  · rw [h] at h1
    refine hollow_fields cfg fs ⟨fs, vs⟩ vs (Wr.out (streamCast cfg fs vs)).2 hh ?_
    exact Prod.ext (Prod.mk.inj h1).1.symm rfl
  · rw [h] at h1
    cases h1
    obtain ⟨e, he, -⟩ := hP

/-- C122. No read gives such a struct. -/
theorem C122_never_read (cfg : Cfg) (fs : List Field) (hwf : WellFormed fs) (S : InStream)
    (s s' : S.State) (vs : List Val) (h : (structCast cfg fs).runOn S s = (.done (.ok vs), s')) :
    ¬ HollowFields fs vs :=
  whole_fields cfg fs vs (typedFields_of_fits cfg fs vs (parsed_valid hwf ⟨S, s, s', h⟩).1)

/-- C122. A union that goes down a ladder or computes its choice, and has no value: if the
fields before it are written, the cast reports the union, for `type_deduction_failure` if
nothing is chosen and for `validation_failure` if something is, and the union has put
nothing out. -/
theorem C122_chosen (cfg : Cfg) (pre post : List Field) (vpre vpost : List Val) (id : String)
    (d : Deducer) (alts : List Alt) (c : Constraint) (i : Nat) (x : Val) (p : List Byte)
    (hd : ∀ m t ls, d ≠ .matchField m t ls) (ha : arity d = alts.length) (hi : alts.length ≤ i)
    (hl : vpre.length = pre.length) (r : Option Nat)
    (he : d.eval (envOf (pre ++ .union id d alts c :: post) (vpre ++ .var i x :: vpost)) = .ok r)
    (hc : Holds c (.var i x))
    (hp : (writeFields cfg ⟨pre ++ .union id d alts c :: post, vpre ++ .var i x :: vpost⟩ pre
      vpre).run = (.done (.ok ()), p)) :
    (streamCast cfg (pre ++ .union id d alts c :: post) (vpre ++ .var i x :: vpost)).run =
      (.done (.error ⟨if r = none then .typeDeductionFailure else .validationFailure, id⟩), p) := by
  generalize hfs : pre ++ .union id d alts c :: post = fs at *
  generalize hvs : vpre ++ .var i x :: vpost = vs at *
  rw [Wr.run_eq] at hp ⊢
  have hf : Wr.out (writeField cfg ⟨fs, vs⟩ (.union id d alts c) (.var i x)) =
      (.done (.error (if r = none then .typeDeductionFailure else .validationFailure)), []) := by
    have key : Wr.out ((WrE.lift (d.eval (WCtx.env ⟨fs, vs⟩))).andThen fun
        | none => WrE.err .typeDeductionFailure
        | some j => if j ≠ i then WrE.err .validationFailure
            else writeAlts cfg ⟨fs, vs⟩ id alts i x : WrE Reason Unit) =
        (.done (.error (if r = none then .typeDeductionFailure else .validationFailure)), []) := by
      rw [WCtx.env, he, lift_ok_andThen]
      cases r with
      | none => rfl
      | some j =>
        have := deducer_lt hd he
        simp only
        rw [if_pos (by omega)]
        rfl
    cases d with
    | matchField m t ls => exact absurd rfl (hd m t ls)
    | matchCompute comp t ls => simp only [writeField]; exact key
    | ladder ps => simp only [writeField]; exact key
  have hs : Wr.out (writeStep cfg ⟨fs, vs⟩ (.union id d alts c) (.var i x)) =
      (.done (.error ⟨if r = none then .typeDeductionFailure else .validationFailure, id⟩), []) := by
    have h2 : writeStep cfg ⟨fs, vs⟩ (.union id d alts c) (.var i x) =
        (writeField cfg ⟨fs, vs⟩ (.union id d alts c) (.var i x)).tag id := by
      unfold writeStep
      rw [checked_holds (c := (Field.union id d alts c).constraint) hc]
      simp only [ite_self]
      rfl
    rw [h2, WrE.tag, WrE.out_mapErr, hf]
  unfold streamCast
  rw [← hfs, ← hvs, writeFields_append _ _ _ _ _ _ hl, hfs, hvs, WrE.out_andThen, hp]
  simp only
  rw [writeFields_cons, WrE.out_andThen, hs]
  simp

/-- C122. A union that switches on a field, and has no value: if the fields before that one
are written, the cast then looks for the label of no alternative, behind the end of the
labels: the behaviour is undefined. -/
theorem C122_switch_undefined (cfg : Cfg) (pre post : List Field) (vpre vpost : List Val)
    (m id : String) (t t' : ScalarTy) (w : Nat) (c c' : Constraint) (v x : Val)
    (ls : List (ScalarTy × Int)) (alts : List Alt) (i : Nat) (p : List Byte)
    (hl : vpre.length = pre.length) (hi : ls.length ≤ i)
    (hm : (Field.union id (.matchField m t' ls) alts c', Val.var i x) ∈
      (pre ++ .plain m (.num t w) c :: post).zip (vpre ++ v :: vpost))
    (hp : (writeFields cfg ⟨pre ++ .plain m (.num t w) c :: post, vpre ++ v :: vpost⟩ pre
      vpre).run = (.done (.ok ()), p)) :
    ∃ u, (streamCast cfg (pre ++ .plain m (.num t w) c :: post) (vpre ++ v :: vpost)).run =
      (.stuck u, p) := by
  generalize hfs : pre ++ .plain m (.num t w) c :: post = fs at *
  generalize hvs : vpre ++ v :: vpost = vs at *
  rw [Wr.run_eq] at hp ⊢
  have hslot : isSlot fs m = true := by
    rw [isSlot, List.any_eq_true]
    exact ⟨_, (List.of_mem_zip hm).1, by simp⟩
  obtain ⟨u, hu⟩ := deriveScan_hollow (cfg := cfg) hi fs vs hm {}
  refine ⟨u, ?_⟩
  unfold streamCast
  rw [← hfs, ← hvs, writeFields_append _ _ _ _ _ _ hl, hfs, hvs, WrE.out_andThen, hp]
  simp only
  have h3 : Wr.out (WrE.tag m (Wr.stuck u : WrE Reason Unit)) = (.stuck u, []) := rfl
  rw [writeFields_cons, WrE.out_andThen, slotStep hslot, deriveValue, hu, lift_error_andThen, h3]
  simp

/-! Concrete cases: a number, or a vector of bytes under it, chosen by a predicate or by a
label. An assignment of a vector has thrown. -/

def laddered : List Field :=
  [.plain "n" (.num u8 1) .none,
   .union "u" (.ladder [⟨["n"], fun vs => vs == [.int 1]⟩, ⟨["n"], fun vs => vs == [.int 2]⟩])
     [.mk (.num u16 2) .none, .mk (.vec (.scalar u8) (.fromField "n") none) .none] .none]

def switched : List Field :=
  [.plain "a" (.num u8 1) .none, .plain "t" (.num u8 1) .none,
   .union "u" (.matchField "t" u8 [(i32, 4), (i32, 5)]) [.mk (.num u16 2) .none, .mk (.num u8 1) .none] .none]

def npos : Nat := 2 ^ 64 - 1

example : (streamCast le64 laddered [.int 1, .var npos .absent]).run =
    (.done (.error ⟨.validationFailure, "u"⟩), [1]) :=
  C122_chosen le64 (laddered.take 1) [] [.int 1] [] "u" _ _ .none npos .absent [1]
    (by intro m t ls; nofun) rfl (by decide) rfl (some 0) rfl rfl rfl
example : (streamCast le64 laddered [.int 3, .var npos .absent]).run =
    (.done (.error ⟨.typeDeductionFailure, "u"⟩), [3]) :=
  C122_chosen le64 (laddered.take 1) [] [.int 3] [] "u" _ _ .none npos .absent [3]
    (by intro m t ls; nofun) rfl (by decide) rfl none rfl rfl rfl
-- the label of no alternative
example : ∃ u, (streamCast le64 switched [.int 9, .int 4, .var npos .absent]).run = (.stuck u, [9]) :=
  C122_switch_undefined le64 (switched.take 1) (switched.drop 2) [.int 9] [.var npos .absent] "t" "u"
    u8 u8 1 .none .none (.int 4) .absent [(i32, 4), (i32, 5)] _ npos [9] rfl (by decide)
    (.tail _ (.tail _ (.head _))) rfl
example : (streamCast le64 switched [.int 9, .int 4, .var npos .absent]).run =
    (.stuck .outOfBounds, [9]) := by rfl
example : (streamCast le64 switched [.int 9, .int 4, .var 1 (.int 7)]).run =
    (.done (.ok ()), [9, 5, 7]) := by rfl
-- in the second of two records
example (S : OutStream) (s s' : S.State) := C122_never_sent le64
  [.plain "rs" (.arrRec laddered 2) .none]
  [.seq [.seq [.int 1, .var 0 (.int 5)], .seq [.int 1, .var npos .absent]]]
  (by
    simp only [HollowFields, HollowField, HollowKind]
    refine .inl ⟨[.int 1, .var npos .absent], by simp, ?_⟩
    simp only [HollowFields, HollowField, laddered]
    exact .inr (.inl (.inl (by decide)))) S s s'

example (S : InStream) (s s' : S.State) :
    (structCast le64 laddered).runOn S s ≠ (.done (.ok [.int 1, .var npos .absent]), s') := fun h =>
  C122_never_read le64 laddered (by decide) S s s' _ h (by
    simp only [HollowFields, HollowField, laddered]
    exact .inr (.inl (.inl (by decide))))

end S2S.Props
