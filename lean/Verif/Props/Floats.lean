import Verif.Props.Decl
import Verif.Props.Order
/-
C81: floating-point alternatives and elements.
-/
namespace S2S.Props
open Spec Demo

/-- The floating-point type a type is made of: itself, or the elements of buffers of it. -/
def madeOfFloat : Decl.Ty → Option Nat
  | .float n => some n
  | .array e _ => madeOfFloat e
  | .carray e _ => madeOfFloat e
  | .vector e => madeOfFloat e
  | _ => none

theorem elabElem_float {t : Decl.Ty} {n : Nat} (h : madeOfFloat t = some n) :
    ∀ e : ElemTy, Decl.elabElem t = some e → baseTy e = Decl.bitsOf n := by
  induction t using madeOfFloat.induct with
  | case1 m =>
    intro e he
    cases h
    cases he
    rfl
  | case2 t m ih =>
    intro e he
    rw [Decl.elabElem] at he
    split at he
    · cases he
    · rw [Option.map_eq_some_iff] at he
      obtain ⟨x, hx, rfl⟩ := he
      exact ih h x hx
  | case3 t m ih =>
    intro e he
    rw [Decl.elabElem] at he
    split at he
    · cases he
    · rw [Option.map_eq_some_iff] at he
      obtain ⟨x, hx, rfl⟩ := he
      exact ih h x hx
  | case4 t ih =>
    intro e he
    cases he
  | case5 t h1 h2 h3 h4 =>
    cases t <;> first | (cases h; done) | skip
    · exact absurd rfl (h1 _)
    · exact absurd rfl (h2 _ _)
    · exact absurd rfl (h3 _ _)
    · exact absurd rfl (h4 _)

theorem elabKind_float {I : Decl.Impl} {t : Decl.Ty} {s : Decl.Size} {b : Option Nat} {k : Kind} {n : Nat}
    (h : madeOfFloat t = some n) (hk : Decl.elabKind I t s b = some k) {u : Val} {τ : ScalarTy} {xs : List Int}
    (hm : MadeOf k u τ xs) : τ = Decl.bitsOf n := by
  cases t with
  | float m =>
    cases s with
    | bytes w => rw [Decl.elabKind] at hk; cases h; cases hk; cases hm; rfl
    | _ => rw [Decl.elabKind] at hk <;> cases hk
  | array e m =>
    have hn : ∀ ds, e = .fieldList ds → False := fun ds he => by subst he; cases h
    cases s with
    | bytes w =>
      rw [Decl.elabKind] at hk
      · split at hk
        · rw [Option.map_eq_some_iff] at hk
          obtain ⟨x, hx, rfl⟩ := hk
          cases hm
          exact elabElem_float (t := e) h _ hx
        · cases hk
      · exact hn
    | _ => rw [Decl.elabKind] at hk <;> first | (cases hk; done) | simp_all
  | carray e m =>
    cases s with
    | bytes w =>
      rw [Decl.elabKind] at hk
      split at hk
      · rw [Option.map_eq_some_iff] at hk
        obtain ⟨x, hx, rfl⟩ := hk
        cases hm
        exact elabElem_float (t := e) h _ hx
      · cases hk
    | _ => rw [Decl.elabKind] at hk <;> first | (cases hk; done) | simp_all
  | vector e =>
    have hn : ∀ ds, e = .fieldList ds → False := fun ds he => by subst he; cases h
    cases s with
    | var l =>
      rw [Decl.elabKind] at hk
      · rw [Option.map_eq_some_iff] at hk
        obtain ⟨x, hx, rfl⟩ := hk
        cases hm
        exact elabElem_float (t := e) h _ hx
      · exact hn
    | _ => rw [Decl.elabKind] at hk <;> first | (cases hk; done) | simp_all
  | int t => cases h
  | fixedString m => cases h
  | string => cases h
  | fieldList ds => cases h
  | other m => cases h

theorem each_mem {o : Endian} {n : Nat} {xs : List Int} {r : List Byte} (h : EachInOrder o n xs r) :
    r = xs.flatMap ((Decl.bitsOf n).toMem o) := by
  refine each_unique h ?_
  clear h
  induction xs with
  | nil => exact each_nil o n
  | cons x xs ih =>
    rw [List.flatMap_cons]
    refine each_append (xs := [x]) (each_one ?_) ih
    have := inOrder_wireScalar o n x
    rw [wireScalar_eq o n n x (Nat.le_refl n), List.take_of_length_le (by simp)] at this
    exact this

theorem of_not_foreign {cfg : Cfg} (h : cfg.foreign = false) : cfg.wire = cfg.host := by
  rw [Cfg.foreign, decide_eq_false_iff_not, Classical.not_not] at h
  exact h.symm

/-- C81. A list of declarations that can be cast in the host's byte order, in either
direction and with either kind of stream, can be cast in the foreign order exactly if there
is no floating-point type in it, at any depth. -/
theorem C81_foreign (w k : Bool) (ds : List Decl.Decl) (h : Decl.inst ⟨false, w, k⟩ ds = true) :
    Decl.inst ⟨true, w, k⟩ ds = !Decl.floatDecls ds := by
  rw [Decl.inst_eq] at h ⊢
  simp only [Bool.and_eq_true] at h
  obtain ⟨⟨⟨h0, ⟨-, h2⟩, h3⟩, h4⟩, h5⟩ := h
  have h4 : Decl.switches (fun c i => Decl.guideOk ⟨true, w, k⟩ c (.matchField i)) ds ds = true := h4
  have h5 : Decl.sizes (fun b c t s => Decl.sizeOk ⟨true, w, k⟩ b c t s) ds = true := h5
  simp only [h0, h3, h4, h5, Bool.true_and, Bool.and_true]
  cases w <;> cases k <;> simp_all

/-- C81, reading in the host's byte order: a floating-point value, or a buffer of them, in
full width; itself, or in an optional or a union. The memory of the objects is what stood
on the stream at that place, byte for byte. -/
theorem C81_read (cfg : Cfg) (hh : cfg.foreign = false) (pre post : List Field) (f : Field)
    (vpre vpost : List Val) (v : Val) (hwf : WellFormed (pre ++ f :: post)) (hl : vpre.length = pre.length)
    (I : Decl.Impl) (ty : Decl.Ty) (sz : Decl.Size) (b : Option Nat) (n : Nat)
    (hty : madeOfFloat ty = some n) {k : Kind} (hk : Decl.elabKind I ty sz b = some k)
    {u : Val} {τ : ScalarTy} {xs : List Int} (hp : Payload f v k u) (hm : MadeOf k u τ xs)
    (inp rest : List Byte)
    (h : (structCast cfg (pre ++ f :: post)).run inp = (.done (.ok (vpre ++ v :: vpost)), rest)) :
    ∃ q s, inp = q ++ (xs.flatMap ((Decl.bitsOf n).toMem cfg.host) ++ s) ∧
      (structCast cfg pre).run inp =
        (.done (.ok vpre), xs.flatMap ((Decl.bitsOf n).toMem cfg.host) ++ s) ∧
      (structCast cfg (pre ++ [f])).run inp = (.done (.ok (vpre ++ [v])), s) := by
  have hw : cfg.wire = cfg.host := of_not_foreign hh
  obtain rfl := elabKind_float hty hk hm
  obtain ⟨q, r, s, h1, h2, h3, h4⟩ := C25_read cfg pre post f vpre vpost v hwf hl hp hm inp rest h
  obtain rfl := each_mem h4
  rw [hw] at h1 h2
  exact ⟨q, s, h1, h2, h3⟩

/-- C81, writing: what is emitted is the memory of the objects, byte for byte. -/
theorem C81_write (cfg : Cfg) (hh : cfg.foreign = false) (pre post : List Field) (f : Field)
    (vpre vpost : List Val) (v : Val) (hwf : WellFormed (pre ++ f :: post))
    (hres : Resolves (pre ++ f :: post)) (hl : vpre.length = pre.length)
    (ht : Typed cfg (pre ++ f :: post) (vpre ++ v :: vpost))
    (hf : ∀ id k c, f = .plain id k c → k.isFixed = true →
      isSlot (pre ++ f :: post) id = false ∧ typedConst k c = none)
    (I : Decl.Impl) (ty : Decl.Ty) (sz : Decl.Size) (b : Option Nat) (n : Nat)
    (hty : madeOfFloat ty = some n) {k : Kind} (hk : Decl.elabKind I ty sz b = some k)
    {u : Val} {τ : ScalarTy} {xs : List Int} (hp : Payload f v k u) (hm : MadeOf k u τ xs) (p : List Byte)
    (h : (streamCast cfg (pre ++ f :: post) (vpre ++ v :: vpost)).run = (.done (.ok ()), p)) :
    ∃ q s, p = q ++ (xs.flatMap ((Decl.bitsOf n).toMem cfg.host) ++ s) ∧
      Puts cfg (pre ++ f :: post) (vpre ++ v :: vpost) pre vpre q ∧
      Puts cfg (pre ++ f :: post) (vpre ++ v :: vpost) post vpost s := by
  have hw : cfg.wire = cfg.host := of_not_foreign hh
  obtain rfl := elabKind_float hty hk hm
  obtain ⟨q, r, s, h1, h2, h3, h4⟩ := C25_write cfg pre post f vpre vpost v hwf hres hl ht hf hp hm p h
  obtain rfl := each_mem h4
  rw [hw] at h1
  exact ⟨q, s, h1, h2, h3⟩

/-- C81. Every byte string of the size of the type is the memory of exactly one value of
the model: NaNs, signed zeros and their payloads are told apart. -/
theorem C81_bits (host : Endian) (mem : List Byte) :
    ∃ x, (Decl.bitsOf mem.length).InRange x ∧ (Decl.bitsOf mem.length).toMem host x = mem ∧
      ∀ y, (Decl.bitsOf mem.length).InRange y → (Decl.bitsOf mem.length).toMem host y = mem → y = x := by
  have hb := leNat_lt (host.order mem)
  rw [Endian.order_length] at hb
  have hr : (Decl.bitsOf mem.length).InRange (leNat (host.order mem)) :=
    ⟨Int.natCast_nonneg _, by exact_mod_cast hb⟩
  have hm : (Decl.bitsOf mem.length).toMem host (leNat (host.order mem)) = mem := by
    have h1 : (Decl.bitsOf mem.length).size = mem.length := rfl
    have h2 := leBytes_leNat (host.order mem)
    rw [Endian.order_length] at h2
    rw [ScalarTy.toMem, h1, residue_ofNat, Nat.mod_eq_of_lt hb, h2, Endian.order_order]
  refine ⟨_, hr, hm, fun y hy hy' => ScalarTy.residue_inj _ _ _ hy hr ?_⟩
  have h3 := congrArg host.order (hy'.trans hm.symm)
  rw [ScalarTy.toMem, ScalarTy.toMem, Endian.order_order, Endian.order_order] at h3
  have h4 := congrArg leNat h3
  rw [leNat_leBytes, leNat_leBytes, Nat.mod_eq_of_lt (residue_lt _ _), Nat.mod_eq_of_lt (residue_lt _ _)] at h4
  exact h4

/-! ### Examples -/

/-- The union of /repo/test/schema/union_read.cpp 436-460: an `int` or a `float`, after the
tag. -/
def numberDecls : List Decl.Decl :=
  [.field "tag" (.int u32) (.bytes 4) .none none,
   .union "c" (.matchField "tag")
     [.mk (.label i32 1) (.int u32) (.bytes 4) .none none,
      .mk (.label i32 2) (.float 4) (.bytes 4) .none none] .none]

def number : List Field :=
  [.plain "tag" (.num u32 4) .none,
   .union "c" (.matchField "tag" u32 [(i32, 1), (i32, 2)])
     [.mk (.num u32 4) .none, .mk (.num (.int 4 false) 4) .none] .none]

example : Decl.elabList impl64 numberDecls = some number := by rfl
example : Decl.inst ⟨false, true, false⟩ numberDecls = true := by rfl
example : Decl.inst ⟨true, true, false⟩ numberDecls = false := by rw [C81_foreign]; all_goals rfl
example : Decl.inst ⟨true, true, true⟩ packetDecls = true := by rw [C81_foreign]; all_goals rfl

/-- 3.14f is `c3 f5 48 40` on a little-endian machine. -/
example :=
  C81_read le64 rfl (number.take 1) [] (number[1]) [.int 2] [] (.var 1 (.int 0x4048f5c3)) (by decide) rfl
    impl64 (.float 4) (.bytes 4) none 4 rfl (k := .num (Decl.bitsOf 4) 4) rfl (.union rfl) .num
    [2, 0, 0, 0, 0xc3, 0xf5, 0x48, 0x40, 9] [9] (by rfl)
example :=
  C81_write le64 rfl (number.take 1) [] (number[1]) [.int 0] [] (.var 1 (.int 0x4048f5c3)) (by decide)
    (by decide +kernel) rfl (by decide +kernel) (by intro _ _ _ h; cases h)
    impl64 (.float 4) (.bytes 4) none 4 rfl (k := .num (Decl.bitsOf 4) 4) rfl (.union rfl) .num
    [2, 0, 0, 0, 0xc3, 0xf5, 0x48, 0x40] (by rfl)
/-- A NaN with a payload. -/
example := C81_bits .little [1, 0, 0xa0, 0x7f]

end S2S.Props
