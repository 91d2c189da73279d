import Verif.Lemmas.Fields
import Verif.Lemmas.WriteTree
import Verif.Lemmas.ReadFull
import Verif.Spec.Demo
import Verif.Spec.Select
/-
C09, C10, C14: which error is reported.
-/
namespace S2S.Props
open Spec Demo

/-! ## C09 -/

/-- C09. If the cast fails, on whatever stream, then `failed_at` is the id of a field
`f` of the list; the fields before `f` were read: the cast of just those succeeds, its
result is valid and what the stream delivered for it is its encoding; and the cast of
the list that stops at `f` fails in the same way leaving the stream in the same state,
so that nothing after the failing operation of `f` was asked for. -/
theorem C09_first_failing_field (cfg : Cfg) (fs : List Field) (hwf : WellFormed fs) (S : InStream)
    (s s' : S.State) (e : CastError)
    (h : (structCast cfg fs).runOn S s = (.done (.error e), s')) :
    ∃ pre f post vs s1, fs = pre ++ f :: post ∧ e.failedAt = f.id ∧
      (structCast cfg pre).runOn S s = (.done (.ok vs), s1) ∧
      Valid cfg pre vs ∧ Delivered S s (wire cfg pre vs) s1 ∧
      (structCast cfg (pre ++ [f])).runOn S s = (.done (.error e), s') := by
  obtain ⟨pre, f, post, vs, s1, rfl, h1, h2, h3⟩ := (readFields_error_iff cfg fs _ S s s' e).mp h
  rw [structCast_prefix cfg _ pre (f :: post) hwf] at h2
  rw [structCast_prefix cfg _ (pre ++ [f]) post (by simpa using hwf)] at h3
  refine ⟨pre, f, post, vs, s1, rfl, h1, h2, ?_, ?_, h3⟩
  all_goals
    rcases Rd.runOn_cases S (short_structCast cfg pre) s with
      ⟨p, o, s2, hp, hd, he⟩ | ⟨a, p, s1, n, s2, hP, hd, hn, he⟩
    · rw [h2] at he
      cases he
      obtain ⟨h4, rfl⟩ := (structCast_gives_iff cfg pre (wf_prefix hwf) p vs).mp hp
      assumption
    · rw [h2] at he
      cases he
      exact hP.elim

/-- C09, the other way round: if the fields before `f` can be read and the list that
stops at `f` cannot, the whole cast fails in that way: the fields after `f` play no
role. -/
theorem C09_first_failure_decides (cfg : Cfg) (pre post : List Field) (f : Field)
    (hwf : WellFormed (pre ++ f :: post)) (S : InStream) (s s1 s' : S.State) (vs : List Val)
    (e : CastError)
    (h1 : (structCast cfg pre).runOn S s = (.done (.ok vs), s1))
    (h2 : (structCast cfg (pre ++ [f])).runOn S s = (.done (.error e), s')) :
    e.failedAt = f.id ∧ (structCast cfg (pre ++ f :: post)).runOn S s = (.done (.error e), s') := by
  have hwf' : WellFormed ((pre ++ [f]) ++ post) := by simpa using hwf
  rw [← structCast_prefix cfg (dfltEnv (pre ++ f :: post)) pre (f :: post) hwf] at h1
  rw [← structCast_prefix cfg (dfltEnv (pre ++ f :: post)) (pre ++ [f]) post hwf'] at h2
  have hid : e.failedAt = f.id := by
    obtain ⟨pre', f', post', vs', s2, he, h3, h4, h5⟩ :=
      (readFields_error_iff cfg _ _ S s s' e).mp h2
    rcases List.eq_nil_or_concat post' with rfl | ⟨p', b, rfl⟩
    · have := List.append_inj' he rfl
      simp only [List.cons.injEq, and_true] at this
      rw [h3, this.2]
    · have he' : pre = pre' ++ f' :: p' := by
        have : pre ++ [f] = (pre' ++ f' :: p') ++ [b] := by simpa using he
        exact (List.append_inj' this rfl).1
      have := (readFields_error_iff cfg pre _ S s s' e).mpr
        ⟨pre', f', p', vs', s2, he', h3, h4, h5⟩
      rw [this] at h1
      cases h1
  exact ⟨hid, (readFields_error_iff cfg _ _ S s s' e).mpr
    ⟨pre, f, post, vs, s1, rfl, hid, h1, h2⟩⟩

/-- The union's discriminant matches no case: the three fields before it are reported
as read. -/
example : ∃ pre f post vs s1, packet = pre ++ f :: post ∧ "body" = f.id ∧
      (structCast be64 pre).runOn listIn [0, 0, 0x12, 0x34, 0, 0, 9, 0xff] = (.done (.ok vs), s1) ∧
      Valid be64 pre vs ∧
      Delivered listIn [0, 0, 0x12, 0x34, 0, 0, 9, 0xff] (wire be64 pre vs) s1 ∧
      (structCast be64 (pre ++ [f])).runOn listIn [0, 0, 0x12, 0x34, 0, 0, 9, 0xff] =
        (.done (.error ⟨.typeDeductionFailure, "body"⟩), [0xff]) :=
  C09_first_failing_field be64 packet (by decide) listIn _ [0xff]
    ⟨.typeDeductionFailure, "body"⟩ (by rfl)

/-! ## C10 -/

/-- `n` reads of a record one after the other, all successful. -/
inductive ReadsMany (cfg : Cfg) (S : InStream) (fs : List Field) : Nat → S.State → S.State → Prop
  | zero (s) : ReadsMany cfg S fs 0 s s
  | succ {n s s1 s2 vs} : (structCast cfg fs).runOn S s = (.done (.ok vs), s1) →
      ReadsMany cfg S fs n s1 s2 → ReadsMany cfg S fs (n + 1) s s2

/-- Reading a kind made of records fails because a record inside fails: with which
reason, leaving which state. `env`: the values of the siblings. -/
inductive RecordFails (cfg : Cfg) (S : InStream) (env : Env) :
    Kind → S.State → Reason → S.State → Prop
  | record {fs s e s'} : (structCast cfg fs).runOn S s = (.done (.error e), s') →
      RecordFails cfg S env (.record fs) s e.reason s'
  | array {fs n i s s1 e s'} : i < n → ReadsMany cfg S fs i s s1 →
      (structCast cfg fs).runOn S s1 = (.done (.error e), s') →
      RecordFails cfg S env (.arrRec fs n) s e.reason s'
  | vector {fs len b sz n i s s1 e s'} : len.eval cfg env = .ok n →
      n * sz ≤ b.getD cfg.defaultMax → n * sz ≤ cfg.ptrdiffMax → 0 < sz →
      i < n → ReadsMany cfg S fs i s s1 →
      (structCast cfg fs).runOn S s1 = (.done (.error e), s') →
      RecordFails cfg S env (.vecRec fs len b sz) s e.reason s'

theorem repeat_record_error (cfg : Cfg) (S : InStream) (fs : List Field) (n i : Nat)
    (s s1 s' : S.State) (e : CastError) (hi : i < n) (h1 : ReadsMany cfg S fs i s s1)
    (h2 : (structCast cfg fs).runOn S s1 = (.done (.error e), s')) :
    (repeatE (((readFields cfg (dfltEnv fs) fs).untag).mapOk .seq) n).runOn S s =
      (.done (.error e.reason), s') := by
  have h0 : ∀ s, Rd.runOn S (((readFields cfg (dfltEnv fs) fs).untag).mapOk Val.seq) s =
      match (structCast cfg fs).runOn S s with
      | (.done (.ok vs), s') => (.done (.ok (.seq vs)), s')
      | (.done (.error e), s') => (.done (.error e.reason), s')
      | (.stuck w, s') => (.stuck w, s') := by
    intro s
    rw [RdE.mapOk, RdE.runOn_andThen, RdE.untag, RdE.runOn_mapErr]
    unfold structCast
    cases Rd.runOn S (readFields cfg (dfltEnv fs) fs) s with
    | mk o s2 =>
      cases o with
      | stuck w => rfl
      | done a => cases a <;> rfl
  induction h1 generalizing n with
  | zero s =>
    obtain ⟨n, rfl⟩ : ∃ m, n = m + 1 := ⟨n - 1, by omega⟩
    rw [repeatE, RdE.runOn_andThen, h0, h2]
  | @succ i s s2 s3 vs h3 h4 ih =>
    obtain ⟨n, rfl⟩ : ∃ m, n = m + 1 := ⟨n - 1, by omega⟩
    rw [repeatE, RdE.runOn_andThen, h0, h3]
    simp only
    rw [RdE.runOn_andThen, ih n (by omega) h2]

theorem recordFails_readKind (cfg : Cfg) (S : InStream) (env : Env) (k : Kind) (s s' : S.State)
    (r : Reason) (h : RecordFails cfg S env k s r s') :
    (readKind cfg env k).runOn S s = (.done (.error r), s') := by
  cases h with
  | @record fs s e s' h =>
    rw [readKind, RdE.mapOk, RdE.runOn_andThen, RdE.untag, RdE.runOn_mapErr]
    unfold structCast at h
    rw [h]
  | @array fs n i s s1 e s' hi h1 h2 =>
    rw [readKind, RdE.mapOk, RdE.runOn_andThen, repeat_record_error cfg S fs n i s s1 s' e hi h1 h2]
  | @vector fs len b sz n i s s1 e s' hl hb hp hsz hi h1 h2 =>
    rw [readKind, hl]
    have hc : checkedByteCount cfg sz (ceilingOf cfg b) n = .ok (n * sz % cfg.szMod) := by
      unfold checkedByteCount
      rw [if_neg]
      have : n ≤ ceilingOf cfg b / sz := (Nat.le_div_iff_mul_le hsz).mpr hb
      omega
    show Rd.runOn S (RdE.andThen (RdE.ok n) _) s = _
    rw [RdE.runOn_andThen]
    show Rd.runOn S (match checkedByteCount cfg sz (ceilingOf cfg b) n with
      | .error r => RdE.err r
      | .ok _ => resize cfg (n * sz) _) s = _
    rw [hc]
    simp only [resize]
    rw [if_neg (by omega)]
    show Rd.runOn S (RdE.mapOk _ _) s = _
    rw [RdE.mapOk, RdE.runOn_andThen, repeat_record_error cfg S fs n i s s1 s' e hi h1 h2]

theorem recordFails_readField (cfg : Cfg) (S : InStream) (env : Env) (f : Field) (k : Kind)
    (s s' : S.State) (r : Reason) (hsel : Selects env f k) (h : RecordFails cfg S env k s r s') :
    (readField cfg env f).runOn S s = (.done (.error r), s') := by
  have hk := recordFails_readKind cfg S env k s s' r h
  cases hsel with
  | plain => rw [readField, hk]
  | @maybe id k p hp =>
    rw [readField, hp]
    show Rd.runOn S (RdE.mapOk _ _) s = _
    rw [RdE.mapOk, RdE.runOn_andThen, hk]
  | @union id d alts c i k c' hd ha =>
    rw [readField, hd]
    show Rd.runOn S (RdE.mapOk _ _) s = _
    have : Rd.runOn S (readAlts cfg env alts i) s = (.done (.error r), s') := by
      clear hd
      induction alts generalizing i with
      | nil => simp at ha
      | cons a alts ih =>
        cases i with
        | zero =>
          simp only [List.getElem?_cons_zero, Option.some.injEq] at ha
          subst ha
          rw [readAlts, RdE.runOn_andThen, hk]
        | succ i =>
          obtain ⟨k2, c2⟩ := a
          rw [readAlts]
          exact ih (by simpa using ha)
    rw [RdE.mapOk, RdE.runOn_andThen, this]

/-- C10, reads. The fields before `f` were read; then a record inside `f` (a nested
record, an element of an array or vector of records; `f` itself, the payload of an
engaged optional, or the selected alternative of a union) fails with some reason. The
cast fails with that reason, naming `f`. -/
theorem C10_read_nested (cfg : Cfg) (pre post : List Field) (f : Field)
    (hwf : WellFormed (pre ++ f :: post)) (S : InStream) (s s1 s' : S.State) (vs : List Val)
    (h1 : (structCast cfg pre).runOn S s = (.done (.ok vs), s1))
    (k : Kind) (hsel : Selects (envOf pre vs) f k)
    (r : Reason) (h2 : RecordFails cfg S (envOf pre vs) k s1 r s') :
    (structCast cfg (pre ++ f :: post)).runOn S s = (.done (.error ⟨r, f.id⟩), s') := by
  refine (C09_first_failure_decides cfg pre post f hwf S s s1 s' vs ⟨r, f.id⟩ h1 ?_).2
  have hwf2 : WellFormed (pre ++ [f]) := wf_prefix (post := post) (by simpa using hwf)
  have hu := hwf.2.1
  have he := hwf2.2.2
  -- fields already read, then the field at hand
  have key : ∀ (pre : List Field) (seen : List String) (env : Env) (s : S.State) (vs : List Val),
      uniqueFields seen (pre ++ f :: post) = true → earlierFields seen (pre ++ [f]) = true →
      (readFields cfg env pre).runOn S s = (.done (.ok vs), s1) →
      ∀ E : Env, (∀ i ∈ seen, env i = E i) → Maps E pre vs →
      Selects E f k → RecordFails cfg S E k s1 r s' →
      (readFields cfg env (pre ++ [f])).runOn S s = (.done (.error ⟨r, f.id⟩), s') := by
    intro pre
    induction pre with
    | nil =>
      intro seen env s vs hu he hr E hE hM hsel hf
      rw [readFields] at hr
      cases hr
      simp only [List.nil_append, earlierFields, Bool.and_eq_true, List.all_eq_true] at he
      rw [List.nil_append, readFields_cons, RdE.runOn_andThen, fieldStep, RdE.tag,
        RdE.runOn_mapErr, RdE.runOn_andThen,
        readField_congr cfg f (env := env) (env' := E) (fun i hi => hE i (by simpa using he.1.1 i hi)),
        recordFails_readField cfg S E f k s1 s' r hsel hf]
    | cons g pre ih =>
      intro seen env s vs hu he hr E hE hM hsel hf
      rw [readFields_cons, RdE.runOn_andThen] at hr
      rw [List.cons_append, readFields_cons, RdE.runOn_andThen]
      simp only [List.cons_append, uniqueFields, earlierFields, Bool.and_eq_true] at hu he
      split at hr
      · rename_i v s2 hg
        rw [RdE.runOn_andThen] at hr
        split at hr
        · rename_i ws s3 hr'
          simp only [RdE.ok, Rd.runOn, Prod.mk.injEq, Outcome.done.injEq, Except.ok.injEq] at hr
          obtain ⟨rfl, rfl⟩ := hr
          rw [RdE.runOn_andThen, ih (seen ++ [g.id]) _ s2 ws hu.2 he.2 hr' E ?_ hM.2 hsel hf]
          intro i hi
          simp only [Env.set]
          split
          · rename_i h'; subst h'; exact hM.1.symm
          · rw [List.mem_append, List.mem_singleton] at hi
            rcases hi with hi | hi
            · exact hE i hi
            · contradiction
        · cases hr
        · cases hr
      · cases hr
      · cases hr
  have h1' : (readFields cfg (dfltEnv (pre ++ [f])) pre).runOn S s = (.done (.ok vs), s1) := by
    rw [structCast_prefix cfg _ pre (f :: post) hwf]
    exact h1
  have hup : uniqueFields [] pre = true := (wf_prefix hwf).2.1
  exact key pre [] _ s vs hu he h1' (envOf pre vs) (by simp) (maps_envOf [] pre vs hup) hsel h2

/-- A list wrapped in records named by the given ids, outermost first. -/
def nest : List String → List Field → List Field
  | [], fs => fs
  | i :: is, fs => [.plain i (.record (nest is fs)) .none]

/-- A struct wrapped the same way. -/
def nestVal : List String → List Val → List Val
  | [], vs => vs
  | _ :: is, vs => [.seq (nestVal is vs)]

/-- C10, reads, any depth: whatever the list `fs` reports surfaces with its reason
unchanged and the name of the outermost record. -/
theorem C10_read_any_depth (cfg : Cfg) (id : String) (ids : List String) (fs : List Field)
    (S : InStream) (s s' : S.State) (e : CastError)
    (h : (structCast cfg fs).runOn S s = (.done (.error e), s')) :
    (structCast cfg (nest (id :: ids) fs)).runOn S s = (.done (.error ⟨e.reason, id⟩), s') := by
  have step : ∀ (id : String) (gs : List Field) (e : CastError),
      (structCast cfg gs).runOn S s = (.done (.error e), s') →
      (structCast cfg [.plain id (.record gs) .none]).runOn S s =
        (.done (.error ⟨e.reason, id⟩), s') := by
    intro id gs e h
    have := recordFails_readField cfg S (dfltEnv [.plain id (.record gs) .none])
      (.plain id (.record gs) .none) (.record gs) s s' e.reason .plain (.record h)
    unfold structCast
    rw [readFields_cons, RdE.runOn_andThen, fieldStep, RdE.tag, RdE.runOn_mapErr, RdE.runOn_andThen,
      this]
    rfl
  induction ids generalizing id with
  | nil => exact step id fs e h
  | cons i is ih => exact step id _ ⟨e.reason, i⟩ (ih i)

/-- A wrong magic number inside a record inside the second element of a vector of
records inside the alternative of a union: reported as such, named after the union. -/
def deepInner : List Field := [.plain "m" (.num u8 1) (.cmp .eq i32 7)]
def deepList : List Field :=
  [.plain "n" (.num u8 1) .none, .plain "t" (.num u8 1) .none,
   .union "u" (.matchField "t" u8 [(i32, 1)])
     [.mk (.vecRec [.plain "r" (.record deepInner) .none] (.fromField "n") none 8) .none] .none]

example : (structCast be64 (deepList ++ [])).runOn listIn [3, 1, 7, 8, 7] =
    (.done (.error ⟨.validationFailure, "u"⟩), [7]) := by
  refine C10_read_nested be64 (deepList.take 2) [] (deepList[2]) (by decide) listIn
    [3, 1, 7, 8, 7] [7, 8, 7] [7] [.int 3, .int 1] (by rfl) _
    (.union (i := 0) (c' := .none) rfl rfl) .validationFailure ?_
  exact .vector (n := 3) (i := 1) (e := ⟨.validationFailure, "r"⟩) (by rfl) (by decide) (by decide)
    (by decide) (by decide) (.succ (s1 := [8, 7]) (vs := [.seq [.int 7]]) (by rfl) (.zero _)) (by rfl)

example : (structCast be64 (nest ["a", "b", "c"] deepInner)).runOn listIn [9, 1] =
    (.done (.error ⟨.validationFailure, "a"⟩), [1]) :=
  C10_read_any_depth be64 "a" ["b", "c"] deepInner listIn [9, 1] [1] ⟨.validationFailure, "m"⟩ (by rfl)

/-! ### C10 for writes -/

/-- `n` writes of records one after the other, all successful. -/
inductive WritesMany (cfg : Cfg) (S : OutStream) (fs : List Field) :
    List Val → S.State → S.State → Prop
  | nil (s) : WritesMany cfg S fs [] s s
  | cons {ws vs s s1 s2} : (streamCast cfg fs ws).runOn S s = (.done (.ok ()), s1) →
      WritesMany cfg S fs vs s1 s2 → WritesMany cfg S fs (.seq ws :: vs) s s2

/-- Writing a value of a kind made of records fails because a record inside fails.
`env`: the stored values of the siblings. -/
inductive RecordFailsW (cfg : Cfg) (S : OutStream) (env : Env) :
    Kind → Val → S.State → Reason → S.State → Prop
  | record {fs ws s e s'} : (streamCast cfg fs ws).runOn S s = (.done (.error e), s') →
      RecordFailsW cfg S env (.record fs) (.seq ws) s e.reason s'
  | array {fs good bad rest s s1 e s'} : WritesMany cfg S fs good s s1 →
      (streamCast cfg fs bad).runOn S s1 = (.done (.error e), s') →
      RecordFailsW cfg S env (.arrRec fs (good ++ .seq bad :: rest).length)
        (.seq (good ++ .seq bad :: rest)) s e.reason s'
  | vector {fs len b sz good bad rest s s1 e s'} :
      (∀ c, len = .computed c → len.eval cfg env = .ok (good ++ .seq bad :: rest).length) →
      WritesMany cfg S fs good s s1 →
      (streamCast cfg fs bad).runOn S s1 = (.done (.error e), s') →
      RecordFailsW cfg S env (.vecRec fs len b sz) (.seq (good ++ .seq bad :: rest)) s e.reason s'

theorem writeRecs_error (cfg : Cfg) (S : OutStream) (fs : List Field) (good : List Val)
    (bad : List Val) (rest : List Val) (s s1 s' : S.State) (e : CastError)
    (h1 : WritesMany cfg S fs good s s1)
    (h2 : (streamCast cfg fs bad).runOn S s1 = (.done (.error e), s')) :
    (writeRecs (fun ws => writeFields cfg ⟨fs, ws⟩ fs ws) (good ++ .seq bad :: rest)).runOn S s =
      (.done (.error e.reason), s') := by
  induction h1 with
  | nil s =>
    rw [List.nil_append, writeRecs, WrE.runOn_andThen, WrE.untag, WrE.runOn_mapErr]
    unfold streamCast at h2
    rw [h2]
  | cons h3 h4 ih =>
    rw [List.cons_append, writeRecs, WrE.runOn_andThen, WrE.untag, WrE.runOn_mapErr]
    unfold streamCast at h3
    rw [h3]
    exact ih h2

theorem recordFails_writeKind (cfg : Cfg) (S : OutStream) (ctx : WCtx) (m : Bool) (id : String)
    (c : Constraint) (k : Kind) (v : Val) (s s' : S.State) (r : Reason)
    (h : RecordFailsW cfg S ctx.env k v s r s') :
    (writeKind cfg ctx m id c k v).runOn S s = (.done (.error r), s') := by
  cases h with
  | record h =>
    rw [writeKind, WrE.untag, WrE.runOn_mapErr]
    unfold streamCast at h
    rw [h]
  | array h1 h2 =>
    rw [writeKind, if_neg (by simp)]
    exact writeRecs_error cfg S _ _ _ _ s _ s' _ h1 h2
  | @vector fs len b sz good bad rest s s1 e s' hl h1 h2 =>
    rw [writeKind]
    have := writeRecs_error cfg S _ _ _ rest s _ s' _ h1 h2
    cases len with
    | fromField id => exact this
    | computed c =>
      rw [verifyComputed, hl c rfl]
      show Wr.runOn S (if _ ≠ _ then _ else _) s = _
      rw [if_neg (by simp)]
      exact this

theorem recordFails_writeAlts (cfg : Cfg) (S : OutStream) (ctx : WCtx) (id : String)
    (alts : List Alt) (i : Nat) (k : Kind) (c : Constraint) (w : Val) (s s' : S.State) (r : Reason)
    (ha : alts[i]? = some (.mk k c)) (hc : Holds c w)
    (h : RecordFailsW cfg S ctx.env k w s r s') :
    (writeAlts cfg ctx id alts i w).runOn S s = (.done (.error r), s') := by
  induction alts generalizing i with
  | nil => simp at ha
  | cons a alts ih =>
    cases i with
    | zero =>
      simp only [List.getElem?_cons_zero, Option.some.injEq] at ha
      subst ha
      rw [writeAlts, WrE.checked, hc]
      exact recordFails_writeKind cfg S ctx false id c k w s s' r h
    | succ i =>
      obtain ⟨k2, c2⟩ := a
      rw [writeAlts]
      exact ih i (by simpa using ha)

theorem recordFails_writeField (cfg : Cfg) (S : OutStream) (ctx : WCtx) (f : Field) (v : Val)
    (k : Kind) (w : Val) (s s' : S.State) (r : Reason) (hsel : SelectsW ctx.env f v k w)
    (h : RecordFailsW cfg S ctx.env k w s r s') :
    (writeField cfg ctx f v).runOn S s = (.done (.error r), s') := by
  cases hsel with
  | plain => 
    simp only [writeField]
    exact recordFails_writeKind cfg S ctx _ _ _ k _ s s' r h
  | maybe hp =>
    simp only [writeField, hp]
    exact recordFails_writeKind cfg S ctx _ _ _ k _ s s' r h
  | switch ha hc =>
    simp only [writeField]
    exact recordFails_writeAlts cfg S ctx _ _ _ k _ w s s' r ha hc h
  | @union id d alts c i v k c' hd he ha hc =>
    cases d with
    | matchField f t ls => exact absurd rfl (hd f t ls)
    | matchCompute comp t ls =>
      simp only [writeField, he]
      show Wr.runOn S (if _ ≠ _ then _ else _) s = _
      rw [if_neg (by simp)]
      exact recordFails_writeAlts cfg S ctx _ _ _ k _ w s s' r ha hc h
    | ladder ps =>
      simp only [writeField, he]
      show Wr.runOn S (if _ ≠ _ then _ else _) s = _
      rw [if_neg (by simp)]
      exact recordFails_writeAlts cfg S ctx _ _ _ k _ w s s' r ha hc h

/-- C10, writes. The fields before `f` were written; then a record inside `f` (a nested
record, an element of an array or vector of records; `f` itself, the payload of an
engaged optional, or the held alternative of a union) fails with some reason, for
instance because the stream refuses. The cast fails with that reason, naming `f`. -/
theorem C10_write_nested (cfg : Cfg) (pre post : List Field) (f : Field) (vs ws : List Val) (v : Val)
    (hlen : vs.length = pre.length) (S : OutStream) (s s1 s' : S.State)
    (h1 : (writeFields cfg ⟨pre ++ f :: post, vs ++ v :: ws⟩ pre vs).runOn S s = (.done (.ok ()), s1))
    (hc : Holds f.constraint v)
    (k : Kind) (w : Val) (hsel : SelectsW (envOf (pre ++ f :: post) (vs ++ v :: ws)) f v k w)
    (r : Reason) (h2 : RecordFailsW cfg S (envOf (pre ++ f :: post) (vs ++ v :: ws)) k w s1 r s') :
    (streamCast cfg (pre ++ f :: post) (vs ++ v :: ws)).runOn S s =
      (.done (.error ⟨r, f.id⟩), s') := by
  unfold streamCast
  generalize hctx : (⟨pre ++ f :: post, vs ++ v :: ws⟩ : WCtx) = ctx at h1 ⊢
  have hf : (writeField cfg ctx f v).runOn S s1 = (.done (.error r), s') := by
    subst hctx
    exact recordFails_writeField cfg S _ f v k w s1 s' r hsel h2
  clear hctx hsel h2
  induction pre generalizing vs s with
  | nil =>
    obtain rfl : vs = [] := by simpa using hlen
    simp only [writeFields] at h1
    cases h1
    have hg : (if isDerived ctx.fs f.id || f.isFrozen then writeField cfg ctx f v
        else WrE.checked f.constraint v (writeField cfg ctx f v)) = writeField cfg ctx f v := by
      split
      · rfl
      · rw [WrE.checked, hc]
        rfl
    simp only [List.nil_append, writeFields]
    rw [hg, WrE.runOn_andThen, WrE.tag, WrE.runOn_mapErr, hf]
  | cons g pre ih =>
    cases vs with
    | nil => simp at hlen
    | cons u vs =>
      simp only [List.cons_append, writeFields] at h1 ⊢
      rw [WrE.runOn_andThen] at h1 ⊢
      split at h1
      · exact ih vs (by simpa using hlen) _ h1
      · cases h1
      · cases h1

/-- C10, writes, any depth. -/
theorem C10_write_any_depth (cfg : Cfg) (id : String) (ids : List String) (fs : List Field)
    (vs : List Val) (S : OutStream) (s s' : S.State) (e : CastError)
    (h : (streamCast cfg fs vs).runOn S s = (.done (.error e), s')) :
    (streamCast cfg (nest (id :: ids) fs) (nestVal (id :: ids) vs)).runOn S s =
      (.done (.error ⟨e.reason, id⟩), s') := by
  have step : ∀ (id : String) (gs : List Field) (us : List Val) (e : CastError),
      (streamCast cfg gs us).runOn S s = (.done (.error e), s') →
      (streamCast cfg [.plain id (.record gs) .none] [.seq us]).runOn S s =
        (.done (.error ⟨e.reason, id⟩), s') := by
    intro id gs us e h
    exact C10_write_nested cfg [] [] (.plain id (.record gs) .none) [] [] (.seq us) rfl S s s s'
      rfl rfl _ _ .plain e.reason (.record h)
  induction ids generalizing id with
  | nil => exact step id fs vs e h
  | cons i is ih => exact step id _ _ ⟨e.reason, i⟩ (ih i)

/-- The second record of an array breaks its constraint: the array is named. -/
example : (streamCast be64 [.plain "h" (.num u8 1) .none,
      .plain "a" (.arrRec [.plain "m" (.num u8 1) (.cmp .lt u8 9)] 3) .none]
    [.int 5, .seq [.seq [.int 1], .seq [.int 10], .seq [.int 2]]]).runOn listOut [] =
    (.done (.error ⟨.validationFailure, "a"⟩), [5, 1]) :=
  C10_write_nested be64 [.plain "h" (.num u8 1) .none] []
    (.plain "a" (.arrRec [.plain "m" (.num u8 1) (.cmp .lt u8 9)] 3) .none) [.int 5] []
    (.seq [.seq [.int 1], .seq [.int 10], .seq [.int 2]]) rfl listOut [] [5] [5, 1] (by rfl) rfl
    _ _ .plain _
    (.array (good := [.seq [.int 1]]) (bad := [.int 10]) (rest := [.seq [.int 2]])
      (e := ⟨.validationFailure, "m"⟩) (.cons (s1 := [5, 1]) (by rfl) (.nil _)) (by rfl))

example : (streamCast be64 (nest ["a", "b", "c"] [.plain "m" (.num u8 1) (.cmp .lt u8 9)])
      (nestVal ["a", "b", "c"] [.int 10])).runOn memstreamOut (7, [], false) =
    (.done (.error ⟨.validationFailure, "a"⟩), (7, [], false)) :=
  C10_write_any_depth be64 "a" ["b", "c"] _ [.int 10] memstreamOut _ _ ⟨.validationFailure, "m"⟩
    (by rfl)

/-! ## C14 -/

/-- C14, reads. On any stream: the field named is one of the list; the reason is never
`found_contradicting_length`; it is `type_deduction_failure` only for a field that is or
contains a union, and `excessive_length` only for one that is or contains a
variable-size container. -/
theorem C14_read_reasons (cfg : Cfg) (fs : List Field) (S : InStream) (s s' : S.State)
    (e : CastError) (h : (structCast cfg fs).runOn S s = (.done (.error e), s')) :
    e.reason ≠ .foundContradictingLength ∧
    ∃ f ∈ fs, e.failedAt = f.id ∧
      (e.reason = .typeDeductionFailure → unionInField f = true) ∧
      (e.reason = .excessiveLength → ceilingsField cfg f ≠ []) := by
  have := Rd.runOn_all S (tame_readFields cfg fs (dfltEnv fs)) s
  unfold structCast at h
  rw [h] at this
  obtain ⟨f, hf, h1, h2, h3, h4⟩ := this
  exact ⟨h2, f, hf, h1.symm, h3, h4⟩

/-- A packet that cannot be deduced fails in its union. -/
example (S : InStream) (s s' : S.State) (e : CastError) (h : (structCast be64 packet).runOn S s = (.done (.error e), s'))
    (he : e.reason = .typeDeductionFailure) : e.failedAt = "body" := by
  obtain ⟨-, f, hf, hid, hu, -⟩ := C14_read_reasons be64 packet S s s' e h
  have : ∀ f ∈ packet, unionInField f = true → f.id = "body" := by decide +kernel
  rw [hid]
  exact this f hf (hu he)

/-- C14, reads: exhaustion is reported only if the stream failed a read. -/
theorem C14_read_exhaustion (cfg : Cfg) (fs : List Field) (S : InStream)
    (s s' : S.State) (e : CastError)
    (h : (structCast cfg fs).runOn S s = (.done (.error e), s'))
    (he : e.reason = .bufferExhaustion) :
    ∃ p s1 n, Delivered S s p s1 ∧ S.read s1 n = (none, s') := by
  rcases Rd.runOn_cases S (short_structCast cfg fs) s with
    ⟨p, o, s2, hp, hd, hr⟩ | ⟨a, p, s1, n, s2, hP, hd, hn, hr⟩
  · rw [h] at hr
    cases hr
    exact absurd he (Rd.full_path (full_readFields cfg fs _) hp)
  · rw [h] at hr
    cases hr
    exact ⟨p, s1, n, hd, hn⟩

/-- C14, writes. On any stream: the field named is one of the list; the reason is never
`excessive_length`; `buffer_exhaustion` is reported only if the stream refused a write;
`type_deduction_failure` only for a field that is or contains a union. -/
theorem C14_write_reasons (cfg : Cfg) (fs : List Field) (vs : List Val) (S : OutStream)
    (s s' : S.State) (e : CastError)
    (h : (streamCast cfg fs vs).runOn S s = (.done (.error e), s')) :
    e.reason ≠ .excessiveLength ∧
    (e.reason = .bufferExhaustion → ∃ p s1 bs, Accepted S s p s1 ∧ S.write s1 bs = (false, s')) ∧
    (e.reason = .typeDeductionFailure → ∃ f ∈ fs, e.failedAt = f.id ∧ unionInField f = true) := by
  rcases Wr.runOn_cases S (wshort_streamCast cfg fs vs) s with
    ⟨s1, hacc, hr⟩ | ⟨a, p, bs, s1, s2, hP, hp, hacc, hw, hr⟩
  · rw [h, Prod.mk.injEq] at hr
    have := fine_writeFields cfg fs ⟨fs, vs⟩ vs e (Wr.out (streamCast cfg fs vs)).2
      (Prod.ext hr.1.symm rfl)
    obtain ⟨f, hf, h1, h2, h3, h4⟩ := this
    exact ⟨h2, fun he => absurd he h3, fun he => ⟨f, hf, h1.symm, h4 he⟩⟩
  · rw [h] at hr
    cases hr
    have hP : e.reason = .bufferExhaustion := hP
    exact ⟨by simp [hP], fun _ => ⟨p, s1, bs, hacc, hw⟩, by simp [hP]⟩

/-- All five reasons occur. -/
example : ((structCast be64 packet).run [0, 0, 0x12, 0x34, 0, 0, 9]).1 =
      .done (.error ⟨.typeDeductionFailure, "body"⟩) ∧
    ((structCast be64 packet).run [0, 0, 0x12, 0x34, 1, 0, 7]).1 =
      .done (.error ⟨.excessiveLength, "data"⟩) ∧
    ((structCast be64 packet).run [0, 0, 0x12, 0x34, 0, 1, 7, 0]).1 =
      .done (.error ⟨.bufferExhaustion, "data"⟩) ∧
    ((structCast be64 packet).run [9, 9, 9, 9]).1 =
      .done (.error ⟨.validationFailure, "magic"⟩) ∧
    ((streamCast be64 [.plain "n" (.num u8 1) .none,
        .plain "a" (.vec (.scalar u8) (.fromField "n") none) .none,
        .plain "b" (.vec (.scalar u8) (.fromField "n") none) .none]
      [.int 0, .seq [.int 1], .seq []]).run).1 =
      .done (.error ⟨.foundContradictingLength, "n"⟩) := by
  refine ⟨?_, ?_, ?_, ?_, ?_⟩ <;> rfl

/-- The hypotheses are met: a memstream with three bytes of room. -/
example : ∃ p s1 bs, Accepted memstreamOut (3, [], false) p s1 ∧
    memstreamOut.write s1 bs = (false, (0, [0, 0, 0x12], true)) :=
  (C14_write_reasons be64 packet packetVal memstreamOut (3, [], false) (0, [0, 0, 0x12], true)
    ⟨.bufferExhaustion, "magic"⟩ (by rfl)).2.1 rfl

example : ∃ p s1 n, Delivered memstreamIn ([0, 0, 0x12, 0x34, 0], false) p s1 ∧
    memstreamIn.read s1 n = (none, ([], true)) :=
  C14_read_exhaustion be64 packet memstreamIn ([0, 0, 0x12, 0x34, 0], false) ([], true)
    ⟨.bufferExhaustion, "len"⟩ (by rfl) rfl

end S2S.Props
