import Verif.Props.Inside
/-
What nobody looks at may have any type of the same bytes.
-/
namespace S2S.Props
open Spec Demo

/-- C152. Whatever the stream, a type of the same bytes reads the same, up to how the bytes are seen. -/
theorem C152_read (cfg : Cfg) (S : InStream) (env : Env) (k k' : Kind) (g : Val → Val) (ok : Val → Prop)
    (h : LeafKind cfg k k' g ok) (s : S.State) :
    (readKind cfg env k').runOn S s =
      match (readKind cfg env k).runOn S s with
      | (.done (.ok v), s') => (.done (.ok (g v)), s')
      | (.done (.error e), s') => (.done (.error e), s')
      | (.stuck w, s') => (.stuck w, s') := by
  rw [h.read S env s, runOn_mapOk]
  rcases Rd.runOn S (readKind cfg env k) s with ⟨(_ | _) | _, s'⟩ <;> rfl

theorem swap_at (cfg : Cfg) (S : InStream) (T : OutStream) (pick : String → Bool) {f f' : Field} {g : Val → Val}
    {ok : Val → Prop} (h : SwapField cfg S T pick f f' g ok) (post : List Field) : ∀ pre : List Field, ∃ gs oks,
    SwapFields cfg S T pick (pre ++ f :: post) (pre ++ f' :: post) gs oks ∧
    (∀ vs, gs vs = vs.modify pre.length g) ∧
    ∀ vs, (∀ v, vs[pre.length]? = some v → ok v) → oks vs
  | [] => by
      have hp : ∀ fs : List Field, ∃ gs oks, SwapFields cfg S T pick fs fs gs oks ∧ (∀ vs, gs vs = vs) ∧ ∀ vs, oks vs := by
        intro fs
        induction fs with
        | nil => exact ⟨_, _, .nil, fun _ => rfl, fun _ => trivial⟩
        | cons f fs ih =>
          obtain ⟨gs, oks, h, h1, h2⟩ := ih
          refine ⟨_, _, .cons (.kept f) h, fun vs => ?_, fun vs => ?_⟩
          · cases vs with
            | nil => rfl
            | cons v vs => simp [onEach, h1]
          · cases vs with
            | nil => trivial
            | cons v vs => exact ⟨trivial, h2 vs⟩
      obtain ⟨gs, oks, h', h1, h2⟩ := hp post
      refine ⟨_, _, .cons h h', fun vs => ?_, fun vs hv => ?_⟩
      · cases vs with
        | nil => rfl
        | cons v vs => simp [onEach, h1]
      · cases vs with
        | nil => trivial
        | cons v vs => exact ⟨hv v (by simp), h2 vs⟩
  | p :: pre => by
      obtain ⟨gs, oks, h', h1, h2⟩ := swap_at cfg S T pick h post pre
      refine ⟨_, _, .cons (.kept p) h', fun vs => ?_, fun vs hv => ?_⟩
      · cases vs with
        | nil => rfl
        | cons v vs => simp [onEach, h1]
      · cases vs with
        | nil => trivial
        | cons v vs => exact ⟨trivial, h2 vs fun w hw => hv w (by simpa using hw)⟩

/-- C152. In a list too: a member without a constraint that nobody looks at may have the other type. The
other members are read as before, and what is wrong is wrong in the same field. -/
theorem C152_member (cfg : Cfg) (S : InStream) (k k' : Kind) (g : Val → Val) (ok : Val → Prop)
    (h : LeafKind cfg k k' g ok) (i : String) (pre post : List Field)
    (hu : Unread (fun j => j == i) (pre ++ .plain i k .none :: post)) (s : S.State) :
    (structCast cfg (pre ++ .plain i k' .none :: post)).runOn S s =
      match (structCast cfg (pre ++ .plain i k .none :: post)).runOn S s with
      | (.done (.ok vs), s') => (.done (.ok (vs.modify pre.length g)), s')
      | (.done (.error e), s') => (.done (.error e), s')
      | (.stuck w, s') => (.stuck w, s') := by
  have hz : ∀ k, frozenVal k .none = none := fun k => by cases k <;> rfl
  obtain ⟨gs, oks, hs, hg, _⟩ := swap_at cfg S listOut (fun j => j == i)
    (.plain (by simp) (.leaf h) (hz k) (hz k') fun _ => rfl : SwapField cfg S listOut (fun j => j == i) (.plain i k .none) _ g ok)
    post pre
  rw [C150_read cfg S listOut _ _ _ gs oks hs hu s]
  simp only [hg]
  rcases Rd.runOn S (structCast cfg (pre ++ .plain i k .none :: post)) s with ⟨(_ | _) | _, s'⟩ <;> rfl

/-- C152. Whatever the stream, it writes the same. -/
theorem C152_write (cfg : Cfg) (T : OutStream) (k k' : Kind) (g : Val → Val) (ok : Val → Prop)
    (h : LeafKind cfg k k' g ok) (i : String) (pre post : List Field)
    (hu : Unread (fun j => j == i) (pre ++ .plain i k .none :: post)) (vs : List Val)
    (hv : ∀ v, vs[pre.length]? = some v → ok v) (s : T.State) :
    (streamCast cfg (pre ++ .plain i k' .none :: post) (vs.modify pre.length g)).runOn T s =
      (streamCast cfg (pre ++ .plain i k .none :: post) vs).runOn T s := by
  have hz : ∀ k, frozenVal k .none = none := fun k => by cases k <;> rfl
  obtain ⟨gs, oks, hs, hg, hok⟩ := swap_at cfg listIn T (fun j => j == i)
    (.plain (by simp) (.leaf h) (hz k) (hz k') fun _ => rfl : SwapField cfg listIn T (fun j => j == i) (.plain i k .none) _ g ok)
    post pre
  rw [← hg vs]
  exact C150_write cfg listIn T _ _ _ gs oks hs hu vs (hok vs hv) s

/-- C152. An optional may hold the other type. -/
theorem C152_optional (cfg : Cfg) (S : InStream) (T : OutStream) (k k' : Kind) (g : Val → Val) (ok : Val → Prop)
    (h : LeafKind cfg k k' g ok) (i : String) (p : Pred) (pre post : List Field)
    (hu : Unread (fun j => j == i) (pre ++ .maybe i k p :: post)) :
    StandsFor cfg S T (pre ++ .maybe i k p :: post) (pre ++ .maybe i k' p :: post)
      (fun vs => vs.modify pre.length (onPresent g))
      fun vs => ∀ w, vs[pre.length]? = some (.present w) → ok w := by
  obtain ⟨gs, oks, hs, hg, hok⟩ := swap_at cfg S T (fun j => j == i)
    (.maybe (by simp) (.leaf h) : SwapField cfg S T (fun j => j == i) (.maybe i k p) _ (onPresent g) _) post pre
  have h1 := C150_deep cfg S T _ _ _ gs oks hs hu
  have he : gs = fun vs => vs.modify pre.length (onPresent g) := funext hg
  subst he
  exact { read := h1.read, write := fun vs hv s => h1.write vs (hok vs fun v e w hw => hv w (by rw [e, hw])) s }

/-- C152. An alternative of a union, with the switch and the constraints as they are, may have the other
type. -/
theorem C152_alternative (cfg : Cfg) (S : InStream) (T : OutStream) (k k' : Kind) (g : Val → Val) (ok : Val → Prop)
    (h : LeafKind cfg k k' g ok) (as as' : List Alt) (i : String) (d : Deducer) (pre post : List Field)
    (hn : arity d = (as ++ .mk k .none :: as').length)
    (hu : Unread (fun j => j == i) (pre ++ .union i d (as ++ .mk k .none :: as') .none :: post)) : ∃ φ ok',
    StandsFor cfg S T (pre ++ .union i d (as ++ .mk k .none :: as') .none :: post)
      (pre ++ .union i d (as ++ .mk k' .none :: as') .none :: post) φ ok' ∧
    (∀ vs, φ vs = vs.modify pre.length (onHeld fun j v => if j = as.length then g v else v)) ∧
    ∀ vs, (∀ w, vs[pre.length]? = some (.var as.length w) → ok w) → ok' vs := by
  have ha : ∀ as : List Alt, ∃ gs oks, SwapAlts cfg S T (as ++ .mk k .none :: as') (as ++ .mk k' .none :: as') gs oks ∧
      (∀ j v, gs j v = if j = as.length then g v else v) ∧
      ∀ j v, (j = as.length → ok v) → oks j v := by
    intro as
    have hp : ∀ as : List Alt, ∃ gs oks, SwapAlts cfg S T as as gs oks ∧ (∀ j v, gs j v = v) ∧ ∀ j v, oks j v := by
      intro as
      induction as with
      | nil => exact ⟨_, _, .nil, fun _ _ => rfl, fun _ _ => trivial⟩
      | cons a as ih =>
        obtain ⟨gs, oks, h, h1, h2⟩ := ih
        cases a with
        | mk k c =>
          refine ⟨_, _, .cons (.same k) (fun _ => rfl) h, fun j v => ?_, fun j v => ?_⟩
          · cases j <;> simp [perIndex, h1]
          · cases j with
            | zero => trivial
            | succ j => exact h2 j v
    induction as with
    | nil =>
      obtain ⟨gs, oks, h', h1, h2⟩ := hp as'
      refine ⟨_, _, .cons (.leaf h) (fun _ => rfl) h', fun j v => ?_, fun j v hv => ?_⟩
      · cases j <;> simp [perIndex, h1]
      · cases j with
        | zero => exact hv rfl
        | succ j => exact h2 j v
    | cons a as ih =>
      obtain ⟨gs, oks, h', h1, h2⟩ := ih
      cases a with
      | mk k c =>
        refine ⟨_, _, .cons (.same k) (fun _ => rfl) h', fun j v => ?_, fun j v hv => ?_⟩
        · cases j <;> simp [perIndex, h1]
        · cases j with
          | zero => trivial
          | succ j => exact h2 j v fun e => hv (by simp [e])
  obtain ⟨ga, oa, ha, hga, hoa⟩ := ha as
  obtain ⟨gs, oks, hs, hg, hok⟩ := swap_at cfg S T (fun j => j == i)
    (.union (by simp) ha hn fun _ => rfl : SwapField cfg S T (fun j => j == i) (.union i d _ .none) _ (onHeld ga) _) post pre
  refine ⟨gs, oks, C150_deep cfg S T _ _ _ gs oks hs hu, fun vs => ?_, fun vs hv => ?_⟩
  · rw [hg vs]
    congr 2
    funext j v
    exact hga j v
  · exact hok vs fun v e j w hw => hoa j w fun ej => hv w (by rw [e, hw, ej])

/-- C152. Seen signed and seen unsigned are numbers of these types, equal up to a multiple of the number
of values, and each comes back from the other. -/
theorem C152_cast (b : Nat) (s u : Bool) (x : Int) (hx : (ScalarTy.int b u).InRange x) :
    (ScalarTy.int b s).InRange (signInt s (.int b u) x) ∧
    (∃ q : Int, signInt s (.int b u) x = x + q * (256 ^ b : Nat)) ∧
    signInt u (.int b s) (signInt s (.int b u) x) = x := by
  refine ⟨ScalarTy.conv_inRange _ _, ?_, ?_⟩
  · have h := residue_conv b s x
    have h1 : ((ScalarTy.int b s).conv x) % ((256 ^ b : Nat) : Int) = x % ((256 ^ b : Nat) : Int) := by
      rw [← residue_cast, ← residue_cast, h]
    refine ⟨((ScalarTy.int b s).conv x - x) / ((256 ^ b : Nat) : Int), ?_⟩
    have h2 : ((256 ^ b : Nat) : Int) ∣ (ScalarTy.int b s).conv x - x := Int.dvd_of_emod_eq_zero (by
      rw [Int.sub_emod, h1]; simp)
    rw [Int.ediv_mul_cancel h2]
    simp only [signInt]
    omega
  · simp only [signInt]
    rw [conv_sign, ScalarTy.conv_of_inRange _ _ hx]

/-- A reading: how many, a signed offset, the samples, a name of up to three characters. -/
def gauge : List Field :=
  [.plain "n" (.num u8 1) .none, .plain "offset" (.num i16 2) .none,
   .plain "samples" (.vec (.arr (.scalar i16) 2) (.fromField "n") none) .none, .plain "name" (.fstr 3) .none]

/-- The samples unsigned: the same input, the same rest. -/
example : (structCast be64 [.plain "n" (.num u8 1) .none, .plain "offset" (.num i16 2) .none,
      .plain "samples" (.vec (.arr (.scalar u16) 2) (.fromField "n") none) .none, .plain "name" (.fstr 3) .none]).runOn listIn
      [1, 255, 254, 255, 255, 0, 7, 97, 98, 99, 0, 5] =
    (.done (.ok [.int 1, .int (-2), .seq [.seq [.int 65535, .int 7]], .seq [.int 97, .int 98, .int 99, .int 0]]), [5]) :=
  (C152_member be64 listIn _ _ _ _ (.signs false (.vec (.arr (.scalar i16) 2) (.fromField "n") none)) "samples"
    (gauge.take 2) (gauge.drop 3) (by unfold Unread; decide +kernel) _).trans rfl

/-- The offset as an array of this one number. -/
example (n v w : Val) : (streamCast be64 [.plain "n" (.num u8 1) .none, .plain "offset" (.fbuf (.scalar i16) 1) .none,
      .plain "samples" (.vec (.arr (.scalar i16) 2) (.fromField "n") none) .none, .plain "name" (.fstr 3) .none]
      [n, .seq [.int (-2)], v, w]).run = (streamCast be64 gauge [n, .int (-2), v, w]).run :=
  C152_write be64 listOut _ _ _ _ (.one i16) "offset" (gauge.take 1) (gauge.drop 2)
    (by unfold Unread; decide +kernel) [n, .int (-2), v, w] (fun x e => by cases e; exact ⟨-2, rfl⟩) []

example (env : Env) : (readKind be64 env (.num u16 2)).runOn listIn [255, 254, 1] = (.done (.ok (.int 65534)), [1]) :=
  (C152_read be64 listIn env _ _ _ _ (.signs false (.num i16 2)) _).trans rfl

/-- An optional name as an array of characters, in the order of the host. -/
example (S : InStream) (T : OutStream) (p : Pred) (hp : p.ids = []) :
    ∃ ok, StandsFor le64 S T [.maybe "name" (.fstr 3) p] [.maybe "name" (.fbuf (.scalar u8) 4) p]
      (fun vs => vs.modify 0 (onPresent id)) ok :=
  ⟨_, C152_optional le64 S T _ _ _ _ (.chars 3 rfl) "name" p [] [] (by
    intro f hf i hi
    simp only [List.nil_append, List.mem_singleton] at hf
    subst hf
    simp [fieldDeps, kindDeps, hp] at hi)⟩

/-- The second alternative of a union, a matrix, as a flat array. -/
example (S : InStream) (T : OutStream) : ∃ φ ok, StandsFor be64 S T
    ([.plain "kind" (.num u8 1) .none] ++ .union "body" (.matchField "kind" u8 [(u8, 0), (u8, 1)])
      ([.mk (.num u8 1) .none] ++ .mk (.fbuf (.arr (.scalar u16) 2) 2) .none :: []) .none :: [])
    ([.plain "kind" (.num u8 1) .none] ++ .union "body" (.matchField "kind" u8 [(u8, 0), (u8, 1)])
      ([.mk (.num u8 1) .none] ++ .mk (.fbuf (.scalar u16) 4) .none :: []) .none :: []) φ ok := by
  obtain ⟨φ, ok, h, _⟩ := C152_alternative be64 S T _ _ _ _ (.flat (.fbuf (.arr (.scalar u16) 2) 2))
    [.mk (.num u8 1) .none] [] "body" (.matchField "kind" u8 [(u8, 0), (u8, 1)]) [.plain "kind" (.num u8 1) .none] []
    rfl (by unfold Unread; decide +kernel)
  exact ⟨φ, ok, h⟩

example : (∃ q : Int, (65534 : Int) = -2 + q * (256 ^ 2 : Nat)) ∧ signInt true (.int 2 false) 65534 = -2 := by
  have h := C152_cast 2 false true (-2) (by decide)
  rw [show signInt false (.int 2 true) (-2) = 65534 by decide] at h
  exact h.2

set_option maxRecDepth 8000 in
/-- C152. Where it is looked at it does matter: a length of 128 in a signed byte is one beyond
any bound. -/
theorem C152_fails_looked : ∃ (k k' : Kind) (g : Val → Val) (ok : Val → Prop) (post : List Field) (inp : List Byte) (v : Val),
    LeafKind be64 k k' g ok ∧
    (structCast be64 (.plain "n" k .none :: post)).runOn listIn inp = (.done (.ok [.int 128, v]), []) ∧
    (structCast be64 (.plain "n" k' .none :: post)).runOn listIn inp =
      (.done (.error ⟨.excessiveLength, "data"⟩), inp.drop 1) :=
  ⟨_, _, _, _, [.plain "data" (.vec (.scalar u8) (.fromField "n") none) .none], 128 :: List.replicate 128 7,
    .seq (List.replicate 128 (.int 7)), .signs true (.num u8 1), by rfl, by rfl⟩

/-- A stream that only counts the calls. -/
def callCounter : OutStream where
  State := Nat
  write n _ := (true, n + 1)

/-- C152. In foreign order a `fixed_string` is written by one call and an array of characters by as many
as it has. -/
theorem C152_fails_foreign : ∃ vs : List Val,
    (streamCast be64 [.plain "s" (.fstr 1) .none] vs).runOn callCounter (0 : Nat) = (.done (.ok ()), (1 : Nat)) ∧
    (streamCast be64 [.plain "s" (.fbuf (.scalar u8) 2) .none] vs).runOn callCounter (0 : Nat) =
      (.done (.ok ()), (2 : Nat)) :=
  ⟨[.seq [.int 97, .int 0]], by rfl, by rfl⟩

/-- C152. In foreign order two bytes of a `uint32_t` are not what two bytes of a `uint16_t` are. -/
theorem C152_fails_width (env : Env) :
    (readKind be64 env (.num u16 2)).runOn listIn [0, 1] = (.done (.ok (.int 1)), []) ∧
    (readKind be64 env (.num u32 2)).runOn listIn [0, 1] = (.done (.ok (.int 65536)), []) :=
  ⟨by rfl, by rfl⟩

end S2S.Props
