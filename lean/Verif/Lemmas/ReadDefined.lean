import Verif.Lemmas.TwinRead
import Verif.Lemmas.Derive
import Verif.Lemmas.WriteFields
import Verif.Spec.Hazard
/-
Where reading can leave defined behaviour.
-/
namespace S2S
open Spec

/-- All results in `Q`, all undefined behaviour in `ws`. -/
abbrev Leaves (Q : α → Prop) (ws : List Stuck) (r : RdE ε α) : Prop :=
  RdE.AllE Q Anything Anything (· ∈ ws) r

theorem Leaves.mono {Q Q' : α → Prop} {ws ws' : List Stuck} {r : RdE ε α} (h : Leaves Q ws r)
    (hQ : ∀ a, Q a → Q' a) (hw : ∀ w ∈ ws, w ∈ ws') : Leaves Q' ws' r := by
  refine Rd.All.mono h ?_ (fun _ h => h) hw
  rintro (e | a) h
  · trivial
  · exact hQ a h

theorem leaves_andThen {Q : α → Prop} {Q' : β → Prop} {ws : List Stuck} {r : RdE ε α} {f : α → RdE ε β}
    (hr : Leaves Q ws r) (hf : ∀ a, Q a → Leaves Q' ws (f a)) : Leaves Q' ws (r.andThen f) :=
  RdE.all_andThen hr hf

theorem leaves_mapErr {Q : α → Prop} {ws : List Stuck} {r : RdE ε α} {g : ε → ε'}
    (hr : Leaves Q ws r) : Leaves Q ws (r.mapErr g) := RdE.all_mapErr hr fun _ _ => trivial

theorem leaves_mapOk {Q : α → Prop} {Q' : β → Prop} {ws : List Stuck} {r : RdE ε α} {g : α → β}
    (hr : Leaves Q ws r) (hg : ∀ a, Q a → Q' (g a)) : Leaves Q' ws (r.mapOk g) := RdE.all_mapOk hr hg

theorem leaves_lift {Q : α → Prop} {ws : List Stuck} {o : Except Stuck α} (h : ∃ a, o = .ok a ∧ Q a) :
    Leaves Q ws (RdE.lift o : RdE ε α) := by
  obtain ⟨a, rfl, h⟩ := h
  exact h

theorem leaves_native (size n : Nat) :
    Leaves (fun m : List Byte => m.length = size) (if size < n then [.outOfBounds] else [])
      (readNativeImpl size n) := by
  unfold readNativeImpl
  by_cases h : size < n
  · rw [if_pos h, if_pos h]; exact List.mem_singleton.2 rfl
  · rw [if_neg h, if_neg h]
    refine ⟨trivial, fun q hq => ?_⟩
    show (q ++ List.replicate (size - n) 0).length = size
    simp [hq]
    omega

theorem leaves_native' (size : Nat) :
    Leaves (fun m : List Byte => m.length = size) [] (readNativeImpl size size) := by
  have := leaves_native size size
  rwa [if_neg (Nat.lt_irrefl _)] at this

theorem leaves_value {Q : α → Prop} {ws : List Stuck} {o : Option α} (h : (∃ a, o = some a) ∨ .invalidValue ∈ ws)
    (hQ : ∀ a, o = some a → Q a) : Leaves Q ws (RdE.value o : RdE ε α) := by
  cases o with
  | some a => exact hQ a rfl
  | none =>
    rcases h with ⟨a, h⟩ | h
    · cases h
    · exact h

/-- Numbers are numbers, strings have characters. -/
def Formed (k : Kind) (v : Val) : Prop :=
  (∀ t w, k = .num t w → ∃ x, v = .int x) ∧
  (∀ n, k = .fstr n → ∃ vs cs, v = .seq vs ∧ Val.chars? vs = some cs)

theorem leaves_readNum (cfg : Cfg) (t : ScalarTy) (w : Nat) :
    Leaves (Formed (.num t w)) (hazardsKind cfg (.num t w)) (readNum cfg t w) := by
  rw [hazardsKind]
  refine leaves_andThen ((leaves_native t.size w).mono (fun _ h => h) fun x hx =>
    List.mem_append_right _ hx) fun m hm => ?_
  refine leaves_andThen (Q := Anything) (leaves_value ?_ fun _ _ => trivial) fun x _ => ?_
  · cases t with
    | bool => exact .inr (by simp [hazardsTy])
    | int b s => exact .inl ⟨_, rfl⟩
  · exact ⟨fun _ _ _ => ⟨_, rfl⟩, fun n h => by cases h⟩

theorem leaves_readFixedBuf (cfg : Cfg) (e : ElemTy) (n : Nat) :
    Leaves (Formed (.fbuf e n)) (hazardsKind cfg (.fbuf e n)) (readFixedBuf cfg e n) := by
  rw [hazardsKind]
  refine leaves_andThen ((leaves_native' _).mono (fun _ h => h) fun x hx => by cases hx) fun m hm => ?_
  refine leaves_andThen (Q := Anything) (leaves_value ?_ fun _ _ => trivial) fun x _ => ?_
  · by_cases hb : baseTy e = .bool
    · exact .inr (by simp [hazardsTy, hb])
    · exact .inl (decodeN_total (fun m hm => ofMem_total cfg.host e hb m hm) n m hm)
  · exact ⟨fun _ _ h => (by cases h), fun n h => by cases h⟩

theorem chars_bytes (m : List Byte) : ∃ cs, Val.chars? (m.map fun b => .int b.toNat) = some cs := by
  induction m with
  | nil => exact ⟨[], rfl⟩
  | cons b m ih =>
    obtain ⟨cs, h⟩ := ih
    exact ⟨(b.toNat : Int) :: cs, by simp only [List.map_cons, Val.chars?, h, Option.map_some]⟩

theorem leaves_readFixedStr (cfg : Cfg) (n : Nat) :
    Leaves (Formed (.fstr n)) (hazardsKind cfg (.fstr n)) (readFixedStr n) := by
  rw [hazardsKind]
  refine leaves_andThen (leaves_native' _) fun m hm => ?_
  obtain ⟨cs, h⟩ := chars_bytes m
  exact ⟨fun _ _ h => (by cases h), fun _ _ => ⟨_, cs, rfl, h⟩⟩

theorem leaves_repeatE {Q : Val → Prop} {ws : List Stuck} {r : RdE ε Val} (h : Leaves Q ws r) (n : Nat) :
    Leaves (fun vs => ∀ v ∈ vs, Q v) ws (repeatE r n) := by
  induction n with
  | zero => intro v hv; cases hv
  | succ n ih =>
    refine leaves_andThen h fun v hv => leaves_andThen ih fun vs hvs => ?_
    intro u hu
    rcases List.mem_cons.1 hu with rfl | hu
    · exact hv
    · exact hvs u hu

theorem leaves_resize {Q : α → Prop} {ws : List Stuck} {cfg : Cfg} {b : Option Nat} {n sz m : Nat}
    {k : RdE ε α} (hc : checkedByteCount cfg sz (ceilingOf cfg b) n = .ok m)
    (hw : ∀ w ∈ hazardsBound cfg b, w ∈ ws) (h : n * sz ≤ cfg.ptrdiffMax → Leaves Q ws k) :
    Leaves Q ws (resize cfg (n * sz) k) := by
  unfold resize
  have := checkedByteCount_le _ _ _ _ _ hc
  split
  · rename_i hp
    refine hw _ ?_
    unfold hazardsBound
    rw [if_pos (by unfold ceilingOf at this; omega)]
    exact List.mem_singleton.2 rfl
  · exact ⟨trivial, h (by omega)⟩

theorem leaves_readVec (cfg : Cfg) (e : ElemTy) (len : LenSpec) (b : Option Nat) (n : Nat) :
    Leaves (Formed (.vec e len b)) (hazardsKind cfg (.vec e len b)) (readVec cfg e (ceilingOf cfg b) n) := by
  rw [hazardsKind]
  have hform : ∀ v, Formed (.vec e len b) v :=
    fun v => ⟨fun _ _ h => (by cases h), fun _ h => by cases h⟩
  have hval : ∀ m : List Byte, m.length = e.size →
      (∃ v, e.ofMem cfg.host m = some v) ∨ Stuck.invalidValue ∈ hazardsTy (baseTy e) ++ hazardsBound cfg b := by
    intro m hm
    by_cases hb : baseTy e = .bool
    · exact .inr (by simp [hazardsTy, hb])
    · exact .inl (ofMem_total cfg.host e hb m hm)
  unfold readVec
  split
  · trivial
  · rename_i m hc
    refine leaves_resize hc (fun w hw => List.mem_append_right _ hw) fun hp => ?_
    split
    · refine leaves_andThen (leaves_repeatE (Q := Anything) (leaves_andThen
        ((leaves_native' _).mono (fun _ h => h) fun x hx => by cases hx) fun m hm =>
          leaves_value (hval m hm) fun _ _ => trivial) n) fun vs _ => hform _
    · have hm : m = n * e.size := by
        unfold checkedByteCount at hc
        split at hc
        · cases hc
        · cases hc; exact Nat.mod_eq_of_lt (ptrdiff_lt cfg _ hp)
      subst hm
      refine leaves_andThen ((leaves_native' _).mono (fun _ h => h) fun x hx => by cases hx) fun m hm => ?_
      refine leaves_andThen (Q := Anything) (leaves_value ?_ fun _ _ => trivial) fun x _ => hform _
      by_cases hb : baseTy e = .bool
      · exact .inr (by simp [hazardsTy, hb])
      · exact .inl (decodeN_total (fun m hm => ofMem_total cfg.host e hb m hm) n m hm)

theorem leaves_checked {ws : List Stuck} {k : Kind} {c : Constraint} {v : Val} (hc : Callable k c)
    (hv : Formed k v) (hw : ∀ w ∈ hazardsConstraint c, w ∈ ws) :
    Leaves (fun u => u = v) ws (RdE.checked c v) := by
  unfold RdE.checked
  refine leaves_andThen (Q := Anything) ?_ fun b _ => ?_
  · have key : (∃ b, c.check v = .ok b) ∨ ∃ w, c.check v = .error w ∧ w ∈ ws := by
      cases c with
      | none => exact .inl ⟨_, rfl⟩
      | user f => exact .inl ⟨_, rfl⟩
      | arrCmp e u => exact .inl ⟨_, rfl⟩
      | cmp op t x =>
        cases k <;> simp only [Callable] at hc
        obtain ⟨y, rfl⟩ := hv.1 _ _ rfl
        exact .inl ⟨_, rfl⟩
      | anyOf t xs =>
        cases k <;> simp only [Callable] at hc
        obtain ⟨y, rfl⟩ := hv.1 _ _ rfl
        exact .inl ⟨_, rfl⟩
      | strCmp e s =>
        cases k <;> simp only [Callable] at hc
        obtain ⟨vs, cs, rfl, hcs⟩ := hv.2 _ rfl
        simp only [Constraint.check, hcs]
        cases cstr? cs <;> cases cstr? s <;> first
          | exact .inl ⟨_, rfl⟩
          | exact .inr ⟨_, rfl, hw _ (List.mem_singleton.2 rfl)⟩
      | over u w f =>
        simp only [Constraint.check]
        cases f v <;> first
          | exact .inl ⟨_, rfl⟩
          | exact .inr ⟨_, rfl, hw _ (List.mem_singleton.2 rfl)⟩
    rcases key with ⟨b, h⟩ | ⟨w, h, hm⟩
    · rw [h]; trivial
    · rw [h]; exact hm
  · split
    · rfl
    · trivial

/-! ### Names -/

/-- Every field of the list has a value, numbers a number. -/
def Named (fs : List Field) (env : Env) : Prop :=
  ∀ f ∈ fs, ∃ v, env f.id = some v ∧ ∀ id t w c, f = .plain id (.num t w) c → ∃ x, v = .int x

theorem named_getAll {fs : List Field} {env : Env} (h : Named fs env) (ids : List String)
    (hi : ∀ i ∈ ids, ∃ f ∈ fs, f.id = i) : ∃ vs, env.getAll ids = some vs := by
  induction ids with
  | nil => exact ⟨[], rfl⟩
  | cons i is ih =>
    obtain ⟨f, hf, rfl⟩ := hi i (by simp)
    obtain ⟨v, hv, -⟩ := h f hf
    obtain ⟨vs, hvs⟩ := ih fun j hj => hi j (by simp [hj])
    exact ⟨v :: vs, by simp only [Env.getAll, hv, hvs]⟩

theorem named_int {fs : List Field} {env : Env} (h : Named fs env) {id : String}
    {p : ScalarTy → Nat → Prop} (hs : HasScalar fs id p) : ∃ x, env id = some (.int x) := by
  obtain ⟨f, hf, hm⟩ := hs
  obtain ⟨v, hv, hi⟩ := h f hf
  cases f with
  | plain i k c =>
    cases k <;> simp only at hm
    obtain ⟨x, rfl⟩ := hi _ _ _ _ rfl
    rw [← hm.1]
    exact ⟨x, hv⟩
  | _ => exact hm.elim

theorem named_set {fs : List Field} (hu : uniqueFields [] fs = true) {env : Env} (h : Named fs env)
    {f : Field} (hf : f ∈ fs) {v : Val}
    (hv : ∀ id t w c, f = .plain id (.num t w) c → ∃ x, v = .int x) : Named fs (env.set f.id v) := by
  intro g hg
  by_cases he : g.id = f.id
  · obtain rfl := field_inj hu hg hf he
    exact ⟨v, by simp [Env.set], hv⟩
  · obtain ⟨u, h1, h2⟩ := h g hg
    exact ⟨u, by simp [Env.set, he, h1], h2⟩

theorem named_dflt (fs : List Field) : ∀ env : Env, (∀ f ∈ fs, env f.id = (dfltEnv fs) f.id) →
    uniqueFields [] fs = true → Named fs env := by
  intro env he hu f hf
  refine ⟨f.dflt, ?_, ?_⟩
  · rw [he f hf]
    refine env_zip hu ?_
    clear he hu
    induction fs with
    | nil => cases hf
    | cons g fs ih =>
      rw [Field.dflts, List.zip_cons_cons]
      rcases List.mem_cons.1 hf with rfl | hf
      · exact List.mem_cons_self ..
      · exact List.mem_cons_of_mem _ (ih hf)
  · rintro id t w c rfl
    exact ⟨0, by rw [Field.dflt, Kind.dflt]⟩

theorem lenEval_named {cfg : Cfg} {fs : List Field} {env : Env} (h : Named fs env) {len : LenSpec}
    (hd : ∀ i ∈ lenDeps len, ∃ f ∈ fs, f.id = i)
    (hr : ∀ id, len = .fromField id → HasScalar fs id fun _ _ => True) :
    ∃ n, len.eval cfg env = .ok n := by
  cases len with
  | fromField id =>
    obtain ⟨x, hx⟩ := named_int h (hr id rfl)
    exact ⟨cfg.toSz x, by simp only [LenSpec.eval, hx]⟩
  | computed c =>
    obtain ⟨vs, hvs⟩ := named_getAll h c.ids hd
    exact ⟨cfg.toSz (c.fn vs), by simp only [LenSpec.eval, Calc.eval, hvs]⟩

theorem ladder_named {fs : List Field} {env : Env} (h : Named fs env) (ps : List Pred)
    (hd : ∀ i ∈ ps.flatMap Pred.ids, ∃ f ∈ fs, f.id = i) : ∃ o, ladderIdx env ps = .ok o := by
  induction ps with
  | nil => exact ⟨_, rfl⟩
  | cons p ps ih =>
    obtain ⟨vs, hvs⟩ := named_getAll h p.ids fun i hi => hd i (by simp [hi])
    obtain ⟨o, ho⟩ := ih fun i hi => hd i (by
      rw [List.flatMap_cons]; exact List.mem_append_right _ hi)
    simp only [ladderIdx, Pred.eval, hvs, ho]
    cases p.fn vs <;> exact ⟨_, rfl⟩

/-- What a list asks of the level it is on. -/
def Placed (all : List Field) (f : Field) : Prop :=
  (∀ i ∈ fieldDeps f, ∃ g ∈ all, g.id = i) ∧
  (∀ id ∈ lengthTargets f, HasScalar all id fun _ _ => True) ∧
  (match f with
    | .union _ (.matchField id t _) _ _ => HasScalar all id fun t' _ => t' = t
    | _ => True) ∧
  match f with
    | .plain _ k c => Callable k c
    | .maybe _ _ _ => True
    | .union _ _ alts c =>
        (match c with | .none => True | .user _ => True | _ => False) ∧
        ∀ a ∈ alts, Callable a.kind a.constraint

abbrev DefinedList (fs : List Field) : Prop := Resolves fs ∧ CallableAll fs

theorem placed_of {fs : List Field} (he : earlierFields [] fs = true) (h : DefinedList fs) :
    ∀ f ∈ fs, Placed fs f := by
  intro f hf
  refine ⟨fun i hi => ?_, (h.1 f hf).1, (h.1 f hf).2, h.2 f hf⟩
  rcases earlier_mem he hf hi with h | h
  · cases h
  · obtain ⟨g, hg, rfl⟩ := List.mem_map.1 h
    exact ⟨g, hg, rfl⟩

theorem len_placed {all : List Field} {k : Kind} {len : LenSpec} (hk : k.lenSpec? = some len)
    (hd : ∀ i ∈ kindDeps k, ∃ g ∈ all, g.id = i)
    (ht : ∀ id ∈ k.lenTarget?, HasScalar all id fun _ _ => True) {cfg : Cfg} {env : Env}
    (h : Named all env) : ∃ n, len.eval cfg env = .ok n := by
  refine lenEval_named h (fun i hi => hd i ?_) fun id hl => ht id ?_
  · cases k <;> simp only [Kind.lenSpec?, reduceCtorEq, Option.some.injEq] at hk <;> subst hk <;> exact hi
  · subst hl
    simp only [Kind.lenTarget?, hk, Option.mem_def]

theorem formed_any {k : Kind} (h : k.isFixed = false) (v : Val) : Formed k v := by
  constructor
  · rintro t w rfl; cases h
  · rintro n rfl; cases h

theorem formed_field {f : Field} {v : Val} {id : String} {k : Kind} {c : Constraint}
    (h : f = .plain id k c) (hv : Formed k v) :
    ∀ id t w c, f = .plain id (.num t w) c → ∃ x, v = .int x := by
  rintro id' t w c' h'
  subst h
  cases h'
  exact hv.1 _ _ rfl

/-- What a field holds after it was read. -/
def FormedField : Field → Val → Prop
  | .plain _ k _, v => Formed k v
  | _, _ => True

theorem record_leaves {cfg : Cfg} {gs : List Field} {ws : List Stuck} {Q : Val → Prop} (hQ : ∀ v, Q v)
    (h : Leaves Anything ws (readFields cfg (dfltEnv gs) gs)) :
    Leaves Q ws (((readFields cfg (dfltEnv gs) gs).untag).mapOk .seq) :=
  leaves_mapOk (leaves_mapErr h) fun _ _ => hQ _

theorem leaves_field_checked {cfg : Cfg} {all : List Field} {f : Field} {v : Val} (hpl : Placed all f)
    (hv : FormedField f v) :
    Leaves (FormedField f) (hazardsField cfg f) (RdE.checked f.constraint v) := by
  cases f with
  | plain id k c =>
    refine (leaves_checked hpl.2.2.2 hv (ws := hazardsField cfg (.plain id k c)) ?_).mono
      (fun u hu => by rw [hu]; exact hv) fun w hw => hw
    intro w hw
    rw [hazardsField]
    exact List.mem_append_right _ hw
  | maybe id k p => exact True.intro
  | union id d alts c =>
    have hc := hpl.2.2.2.1
    cases c <;> simp only at hc
    · exact True.intro
    · rename_i g
      show Leaves _ _ (RdE.checked (.user g) v)
      simp only [RdE.checked, Constraint.check, RdE.lift]
      refine leaves_andThen (Q := Anything) trivial fun b _ => ?_
      split <;> trivial

theorem formed_of_field {f : Field} {v : Val} (hv : FormedField f v) :
    ∀ id t w c, f = .plain id (.num t w) c → ∃ x, v = .int x := by
  cases f with
  | plain id k c => exact formed_field rfl hv
  | maybe id k p => intro _ _ _ _ h; cases h
  | union id d alts c => intro _ _ _ _ h; cases h

mutual
theorem leaves_readKind (cfg : Cfg) : (k : Kind) → uniqueKind k = true → earlierKind k = true →
    EveryKind DefinedList k → ∀ (all : List Field) (env : Env), Named all env →
    (∀ i ∈ kindDeps k, ∃ g ∈ all, g.id = i) →
    (∀ id ∈ k.lenTarget?, HasScalar all id fun _ _ => True) →
    Leaves (Formed k) (hazardsKind cfg k) (readKind cfg env k)
  | .num t w, _, _, _, all, env, _, _, _ => by rw [readKind]; exact leaves_readNum cfg t w
  | .fbuf e n, _, _, _, all, env, _, _, _ => by rw [readKind]; exact leaves_readFixedBuf cfg e n
  | .fstr n, _, _, _, all, env, _, _, _ => by rw [readKind]; exact leaves_readFixedStr cfg n
  | .vec e len b, _, _, _, all, env, hn, hd, ht => by
      rw [readKind]
      obtain ⟨n, hl⟩ := len_placed (len := len) (cfg := cfg) rfl hd ht hn
      rw [hl]
      exact leaves_readVec cfg e len b n
  | .record gs, hu, he, hev, all, env, hn, hd, ht => by
      rw [uniqueKind] at hu
      rw [earlierKind] at he
      rw [EveryKind] at hev
      rw [readKind, hazardsKind]
      exact record_leaves (formed_any rfl) (leaves_readFields cfg gs [] hu [] he hev.2 gs hu
        (placed_of he hev.1) (fun _ h => h) _ (named_dflt gs _ (fun _ _ => rfl) hu))
  | .arrRec gs n, hu, he, hev, all, env, hn, hd, ht => by
      rw [uniqueKind] at hu
      rw [earlierKind] at he
      rw [EveryKind] at hev
      rw [readKind, hazardsKind]
      exact leaves_mapOk (leaves_repeatE (record_leaves (Q := Anything) (fun _ => trivial)
        (leaves_readFields cfg gs [] hu [] he hev.2 gs hu
        (placed_of he hev.1) (fun _ h => h) _ (named_dflt gs _ (fun _ _ => rfl) hu))) n)
        fun _ _ => formed_any rfl _
  | .vecRec gs len b sz, hu, he, hev, all, env, hn, hd, ht => by
      rw [uniqueKind] at hu
      rw [earlierKind] at he
      rw [EveryKind] at hev
      rw [readKind, hazardsKind]
      obtain ⟨n, hl⟩ := len_placed (len := len) (cfg := cfg) rfl hd ht hn
      rw [hl]
      refine leaves_andThen (Q := fun m => m = n) (leaves_lift ⟨n, rfl, rfl⟩) ?_
      intro n' hn'
      subst hn'
      cases hc : checkedByteCount cfg sz (ceilingOf cfg b) n' with
      | error r => trivial
      | ok m =>
        refine leaves_resize hc (fun w hw => List.mem_append_left _ hw) fun _ => ?_
        exact leaves_mapOk (leaves_repeatE (record_leaves (Q := Anything) (fun _ => trivial)
          ((leaves_readFields cfg gs [] hu [] he hev.2 gs hu
          (placed_of he hev.1) (fun _ h => h) _ (named_dflt gs _ (fun _ _ => rfl) hu)).mono
            (fun _ h => h) fun w hw => List.mem_append_right _ hw)) _)
          fun _ _ => formed_any rfl _
termination_by structural k => k
theorem leaves_readField (cfg : Cfg) : (f : Field) → uniqueField f = true → earlierField f = true →
    EveryField DefinedList f → ∀ (all : List Field) (env : Env), Named all env → Placed all f →
    Leaves (FormedField f) (hazardsField cfg f) (readField cfg env f)
  | .plain id k c, hu, he, hev, all, env, hn, hp => by
      rw [uniqueField] at hu
      rw [earlierField] at he
      rw [EveryField] at hev
      rw [readField, hazardsField]
      exact (leaves_readKind cfg k hu he hev all env hn hp.1
        fun id hid => hp.2.1 id (Option.mem_toList.2 hid)).mono (fun _ h => h)
        fun w hw => List.mem_append_left _ hw
  | .maybe id k p, hu, he, hev, all, env, hn, hp => by
      rw [uniqueField] at hu
      rw [earlierField] at he
      rw [EveryField] at hev
      rw [readField, hazardsField]
      obtain ⟨vs, hvs⟩ := named_getAll hn p.ids fun i hi => hp.1 i (List.mem_append_right _ hi)
      refine leaves_andThen (Q := Anything) (leaves_lift ⟨p.fn vs, ?_, trivial⟩) fun b _ => ?_
      · simp only [Pred.eval, hvs]
      · split
        · exact leaves_mapOk (leaves_readKind cfg k hu he hev all env hn
            (fun i hi => hp.1 i (List.mem_append_left _ hi))
            fun id hid => hp.2.1 id (Option.mem_toList.2 hid)) fun _ _ => trivial
        · trivial
  | .union id d alts c, hu, he, hev, all, env, hn, hp => by
      rw [uniqueField] at hu
      rw [earlierField] at he
      rw [EveryField] at hev
      rw [readField, hazardsField]
      have hdd : ∀ i ∈ deducerDeps d, ∃ g ∈ all, g.id = i :=
        fun i hi => hp.1 i (List.mem_append_left _ hi)
      have hd : ∃ o, d.eval env = .ok o := by
        cases d with
        | matchField id t ls =>
          obtain ⟨x, hx⟩ := named_int hn hp.2.2.1
          exact ⟨_, by simp only [Deducer.eval, hx]; rfl⟩
        | matchCompute comp t ls =>
          obtain ⟨vs, hvs⟩ := named_getAll hn comp.ids hdd
          exact ⟨_, by simp only [Deducer.eval, Calc.eval, hvs]; rfl⟩
        | ladder ps => exact ladder_named hn ps hdd
      obtain ⟨o, ho⟩ := hd
      rw [ho]
      cases o with
      | none => trivial
      | some i =>
        refine leaves_mapOk (Q := Anything) (leaves_readAlts cfg alts hu he hev all env hn
          (fun a ha i hi => hp.1 i (List.mem_append_right _ (List.mem_flatMap.2 ⟨a, ha, hi⟩)))
          (fun a ha id hid => hp.2.1 id (List.mem_flatMap.2 ⟨a, ha, Option.mem_toList.2 hid⟩))
          hp.2.2.2.2 i) fun _ _ => trivial
termination_by structural f => f
theorem leaves_readAlts (cfg : Cfg) : (alts : List Alt) → uniqueAlts alts = true →
    earlierAlts alts = true → EveryAlts DefinedList alts → ∀ (all : List Field) (env : Env),
    Named all env → (∀ a ∈ alts, ∀ i ∈ kindDeps a.kind, ∃ g ∈ all, g.id = i) →
    (∀ a ∈ alts, ∀ id ∈ a.kind.lenTarget?, HasScalar all id fun _ _ => True) →
    (∀ a ∈ alts, Callable a.kind a.constraint) → ∀ i,
    Leaves Anything (hazardsAlts cfg alts) (readAlts cfg env alts i)
  | [], _, _, _, all, env, _, _, _, _, i => by rw [readAlts]; trivial
  | .mk k c :: alts, hu, he, hev, all, env, hn, hd, ht, hc, 0 => by
      rw [uniqueAlts, Bool.and_eq_true] at hu
      rw [earlierAlts, Bool.and_eq_true] at he
      rw [EveryAlts] at hev
      rw [readAlts, hazardsAlts]
      refine leaves_andThen ((leaves_readKind cfg k hu.1 he.1 hev.1 all env hn
        (hd (.mk k c) (by simp)) (ht (.mk k c) (by simp))).mono (fun _ h => h)
        fun w hw => List.mem_append_left _ (List.mem_append_left _ hw)) fun v hv => ?_
      exact leaves_mapOk (leaves_checked (hc (.mk k c) (by simp)) hv
        fun w hw => List.mem_append_left _ (List.mem_append_right _ hw)) fun _ _ => trivial
  | .mk k c :: alts, hu, he, hev, all, env, hn, hd, ht, hc, i + 1 => by
      rw [uniqueAlts, Bool.and_eq_true] at hu
      rw [earlierAlts, Bool.and_eq_true] at he
      rw [EveryAlts] at hev
      rw [readAlts, hazardsAlts]
      exact (leaves_readAlts cfg alts hu.2 he.2 hev.2 all env hn
        (fun a ha => hd a (by simp [ha])) (fun a ha => ht a (by simp [ha]))
        (fun a ha => hc a (by simp [ha])) i).mono (fun _ h => h)
        fun w hw => List.mem_append_right _ hw
termination_by structural alts => alts
theorem leaves_readFields (cfg : Cfg) : (fs : List Field) → ∀ seen, uniqueFields seen fs = true →
    ∀ seen', earlierFields seen' fs = true → EveryFields DefinedList fs →
    ∀ (all : List Field), uniqueFields [] all = true → (∀ f ∈ all, Placed all f) →
    (∀ f ∈ fs, f ∈ all) → ∀ (env : Env), Named all env →
    Leaves Anything (hazardsFields cfg fs) (readFields cfg env fs)
  | [], _, _, _, _, _, all, _, _, _, env, _ => by rw [readFields]; trivial
  | f :: fs, seen, hu, seen', he, hev, all, hua, hp, hsub, env, hn => by
      rw [uniqueFields, Bool.and_eq_true, Bool.and_eq_true] at hu
      rw [earlierFields, Bool.and_eq_true, Bool.and_eq_true] at he
      rw [EveryFields] at hev
      rw [readFields, hazardsFields]
      have hf := hsub f (by simp)
      have hpl := hp f hf
      refine leaves_andThen (Q := FormedField f) ?_ fun v hv => ?_
      · refine leaves_mapErr ?_
        refine leaves_andThen ((leaves_readField cfg f hu.1.2 he.1.2 hev.1 all env hn hpl).mono
          (fun _ h => h) fun w hw => List.mem_append_left _ hw) fun v hv => ?_
        exact (leaves_field_checked hpl hv).mono (fun _ h => h) fun w hw => List.mem_append_left _ hw
      · have hset : Named all (env.set f.id v) := by
          exact named_set hua hn hf (formed_of_field hv)
        exact leaves_andThen ((leaves_readFields cfg fs _ hu.2 _ he.2 hev.2 all hua hp
          (fun g hg => hsub g (by simp [hg])) _ hset).mono (fun _ h => h)
          fun w hw => List.mem_append_right _ hw) fun _ _ => trivial
termination_by structural fs => fs
end

theorem leaves_structCast {cfg : Cfg} {fs : List Field} (hwf : WellFormed fs)
    (h : Everywhere DefinedList fs) :
    Leaves Anything (hazardsFields cfg fs) (structCast cfg fs) :=
  leaves_readFields cfg fs [] hwf.2.1 [] hwf.2.2 h.2 fs hwf.2.1 (placed_of hwf.2.2 h.1)
    (fun _ h => h) _ (named_dflt fs _ (fun _ _ => rfl) hwf.2.1)

end S2S
