import Verif.Lemmas.Group
import Verif.Lemmas.Part
import Verif.Props.Evolution
/-
C133: lists cut in two. C134: runs of fields taken into a record.
-/
namespace S2S.Props
open Spec Demo

theorem earlier_names {seen : List String} {fs : List Field} (h : earlierFields seen fs = true) {f : Field}
    (hf : f ∈ fs) {i : String} (hi : i ∈ fieldDeps f) : i ∈ seen ∨ i ∈ fs.map Field.id := by
  induction fs generalizing seen with
  | nil => cases hf
  | cons g fs ih =>
    simp only [earlierFields, Bool.and_eq_true, List.all_eq_true] at h
    rcases List.mem_cons.1 hf with rfl | hf
    · exact .inl (by simpa using h.1.1 i hi)
    · rcases ih h.2 hf with h | h
      · rw [List.mem_append, List.mem_singleton] at h
        exact h.imp (fun h => h) fun h => by simp [h]
      · exact .inr (by simp [h])

theorem names_apart {pre post : List Field} (h : uniqueFields [] (pre ++ post) = true) {i : String}
    (hi : i ∈ pre.map Field.id) : i ∉ post.map Field.id := by
  intro hp
  obtain ⟨f, hf, rfl⟩ := List.mem_map.1 hp
  exact unique_disjoint [] pre post h f hf hi

/-! ## C133 -/

/-- C133, reading: of a list whose last fields do not refer to the others, the read is that of
the others and then that of the last ones, as casts of their own. -/
theorem C133_read (cfg : Cfg) (pre post : List Field) (hwf : WellFormed (pre ++ post)) (hp : WellFormed post) :
    structCast cfg (pre ++ post) = (structCast cfg pre).andThen fun us =>
      (structCast cfg post).andThen fun ws => RdE.ok (us ++ ws) := by
  rw [structCast_append cfg pre post hwf]
  congr 1; funext us
  rw [structCast, readFields_congr cfg post [] hp.2.2 (by simp [Agree])]

/-- Names and letters behind their lengths. -/
def firstPart : List Field :=
  [.plain "n" (.num u8 1) .none, .plain "name" (.vec (.scalar u8) (.fromField "n") (some 20)) .none]

def secondPart : List Field :=
  [.plain "k" (.num u8 1) (.cmp .lt i32 9), .plain "text" (.vec (.scalar u16) (.fromField "k") (some 40)) .none]

/-- One cast of the whole list is two casts, one after the other, on the same stream. -/
example (S : InStream) (s s1 s2 : S.State) (us ws : List Val)
    (h1 : (structCast be64 firstPart).runOn S s = (.done (.ok us), s1))
    (h2 : (structCast be64 secondPart).runOn S s1 = (.done (.ok ws), s2)) :
    (structCast be64 (firstPart ++ secondPart)).runOn S s = (.done (.ok (us ++ ws)), s2) := by
  rw [C133_read be64 firstPart secondPart (by decide) (by decide), RdE.runOn_andThen, h1]
  simp only [RdE.runOn_andThen, h2]
  rfl

/-- C133, writing: the same for writes. -/
theorem C133_write (cfg : Cfg) (pre post : List Field) (hwf : WellFormed (pre ++ post)) (hp : WellFormed post)
    (us ws : List Val) (hu : us.length = pre.length) (hw : ws.length = post.length) :
    streamCast cfg (pre ++ post) (us ++ ws) =
      (streamCast cfg pre us).andThen fun _ => streamCast cfg post ws := by
  rw [streamCast, writeFields_append _ _ _ _ _ _ hu]
  have d1 : ∀ f ∈ pre, ∀ i ∈ fieldDeps f, i ∈ pre.map Field.id := fun f hf i hi =>
    (earlier_names (wf_prefix hwf).2.2 hf hi).resolve_left (by simp)
  have d2 : ∀ f ∈ post, ∀ i ∈ fieldDeps f, i ∈ post.map Field.id := fun f hf i hi =>
    (earlier_names hp.2.2 hf hi).resolve_left (by simp)
  have h1 := sameTo_drop cfg pre post [] us ws [] hu hw pre
    (fun f hf g hg hd => names_apart hwf.2.1 (List.mem_map.2 ⟨f, hf, rfl⟩) (d2 g hg _ hd))
    (fun f hf i hi => names_apart hwf.2.1 (d1 f hf i hi))
    (fun f hf g hg => .inr fun i hi => names_apart hwf.2.1 (d1 g (by simpa using hg) i hi))
  have h2 := sameTo_drop cfg [] pre post [] us ws rfl hu post
    (fun f hf g hg hd => names_apart hwf.2.1 (d1 g hg _ hd) (List.mem_map.2 ⟨f, hf, rfl⟩))
    (fun f hf i hi hm => names_apart hwf.2.1 hm (d2 f hf i hi))
    (fun f hf g hg => .inr fun i hi hm => names_apart hwf.2.1 hm (d2 g (by simpa using hg) i hi))
  simp only [List.append_nil, List.nil_append] at h1 h2
  rw [h1.fields fun f hf => hf, h2.fields fun f hf => hf]
  rfl

/-- The second cast fails: the first part has been sent. -/
example : (streamCast be64 (firstPart ++ secondPart)
      ([.int 0, .seq [.int 65]] ++ [.int 0, .seq (List.replicate 9 (.int 1))])).run =
    (.done (.error ⟨.validationFailure, "k"⟩), [1, 65]) := by
  rw [C133_write be64 firstPart secondPart (by decide) (by decide) _ _ rfl rfl]
  rfl

/-! ## C134 -/

theorem earlier_without {fs : List Field} {id : String} (hu : Unseen fs id) {seen seen' : List String}
    (hs : ∀ i ∈ seen, i = id ∨ i ∈ seen') (h : earlierFields seen fs = true) : earlierFields seen' fs = true := by
  induction fs generalizing seen seen' with
  | nil => rfl
  | cons f fs ih =>
    simp only [earlierFields, Bool.and_eq_true, List.all_eq_true] at h ⊢
    refine ⟨⟨fun i hi => ?_, h.1.2⟩, ih (fun g hg => hu g (by simp [hg])) ?_ h.2⟩
    · have h1 : i ∈ seen := by simpa using h.1.1 i hi
      rcases hs i h1 with rfl | h2
      · exact absurd hi (hu f (by simp))
      · simpa using h2
    · intro i hi
      rw [List.mem_append] at hi ⊢
      rcases hi with hi | hi
      · exact (hs i hi).imp (fun h => h) .inl
      · exact .inr (.inr hi)

theorem regroup_eq (us ms ws : List Val) (n m : Nat) (hu : us.length = n) (hm : ms.length = m) :
    regroup n m (us ++ (ms ++ ws)) = us ++ .seq ms :: ws := by
  subst hu hm
  simp [regroup, List.drop_append]

/-- The list a run of fields is taken from, and the list with the record, are both accepted, and
nothing after the record refers to it. -/
structure Groups (pre mid post : List Field) (id : String) : Prop where
  record : WellFormed (pre ++ .plain id (.record mid) .none :: post)
  flat : WellFormed (pre ++ (mid ++ post))
  unseen : Unseen post id

namespace Groups
variable {pre mid post : List Field} {id : String}

theorem inner (h : Groups pre mid post id) : WellFormed mid := by
  have h1 := (wellFormed_everywhere h.record).2
  have h2 := every_mem h1 (List.mem_append.2 (.inr (List.mem_cons_self ..)))
  simp only [EveryField, EveryKind] at h2
  exact h2.1

theorem after (h : Groups pre mid post id) : earlierFields (pre.map Field.id) post = true := by
  have h1 := earlier_suffix (pre ++ [.plain id (.record mid) .none]) post [] (by
    simpa using h.record.2.2)
  refine earlier_without h.unseen (fun i hi => ?_) h1
  simp only [List.nil_append, List.map_append, List.mem_append, List.map_cons, List.map_nil, List.mem_singleton,
    Field.id] at hi
  exact hi.symm

theorem deps_pre (h : Groups pre mid post id) {f : Field} (hf : f ∈ pre) {i : String} (hi : i ∈ fieldDeps f) :
    i ∈ pre.map Field.id :=
  (earlier_names (wf_prefix h.flat).2.2 hf hi).resolve_left (by simp)

theorem deps_mid (h : Groups pre mid post id) {f : Field} (hf : f ∈ mid) {i : String} (hi : i ∈ fieldDeps f) :
    i ∈ mid.map Field.id :=
  (earlier_names h.inner.2.2 hf hi).resolve_left (by simp)

theorem deps_post (h : Groups pre mid post id) {f : Field} (hf : f ∈ post) {i : String} (hi : i ∈ fieldDeps f) :
    i ∈ pre.map Field.id ∨ i ∈ post.map Field.id :=
  earlier_names h.after hf hi

theorem pre_mid (h : Groups pre mid post id) {i : String} (hi : i ∈ pre.map Field.id) : i ∉ mid.map Field.id :=
  fun hm => names_apart h.flat.2.1 hi (by simp only [List.map_append, List.mem_append]; exact .inl hm)

theorem mid_post (h : Groups pre mid post id) {i : String} (hi : i ∈ mid.map Field.id) : i ∉ post.map Field.id := by
  have h1 : uniqueFields [] ((pre ++ mid) ++ post) = true := by simpa using h.flat.2.1
  exact names_apart h1 (by simp only [List.map_append, List.mem_append]; exact .inr hi)

end Groups

/-- C134, reading: taking a run of fields into a record changes nothing about a read but that
their values are together, and errors in them are reported at the record; where nothing after
the record refers to it, and both lists are accepted. -/
theorem C134_read (cfg : Cfg) (pre mid post : List Field) (id : String)
    (h : Groups pre mid post id) :
    structCast cfg (pre ++ .plain id (.record mid) .none :: post) =
      ((structCast cfg (pre ++ (mid ++ post))).mapErr (relabel mid id)).mapOk
        (regroup pre.length mid.length) := by
  have hpre : ∀ env, (readFields cfg env pre).mapErr (relabel mid id) = readFields cfg env pre := fun env => by
    rw [readFields_names cfg pre env (h := fun e => e) fun f hf r => by
      rw [relabel, if_neg (h.pre_mid (List.mem_map.2 ⟨f, hf, rfl⟩))]]
    exact RdE.mapErr_self _ fun _ => rfl
  have hpost : ∀ env, (readFields cfg env post).mapErr (relabel mid id) = readFields cfg env post := fun env => by
    rw [readFields_names cfg post env (h := fun e => e) fun f hf r => by
      rw [relabel, if_neg fun hm => h.mid_post hm (List.mem_map.2 ⟨f, hf, rfl⟩)]]
    exact RdE.mapErr_self _ fun _ => rfl
  have hmid : ∀ env, (readFields cfg env mid).mapErr (relabel mid id) =
      (readFields cfg env mid).mapErr fun e => ⟨e.reason, id⟩ := fun env =>
    readFields_names cfg mid env fun f hf r => by
      rw [relabel, if_pos (List.mem_map.2 ⟨f, hf, rfl⟩)]
  rw [structCast_append cfg pre _ h.record, structCast_append cfg pre _ h.flat, RdE.mapErr_andThen, structCast,
    hpre, RdE.mapOk, RdE.andThen_assoc]
  refine RdE.andThen_congr_every (readFields_every cfg pre _) fun us hus => ?_
  rw [readFields_append, RdE.andThen_assoc, RdE.mapErr_andThen, RdE.andThen_assoc, hmid,
    readFields_congr cfg mid [] h.inner.2.2 (env' := dfltEnv mid) (by simp [Agree]), readFields, RdE.andThen_assoc]
  have hrec : ∀ env : Env, (((readField cfg env (.plain id (.record mid) .none)).andThen fun v =>
      RdE.checked (Field.plain id (.record mid) .none).constraint v).tag
        (Field.plain id (.record mid) .none).id) =
      ((readFields cfg (dfltEnv mid) mid).mapErr fun e => (⟨e.reason, id⟩ : CastError)).andThen fun ms =>
        RdE.ok (.seq ms) := fun env => by
    rw [readField, readKind]
    have : (fun v => RdE.checked (Field.plain id (.record mid) .none).constraint v) = RdE.ok := by
      funext v; rfl
    rw [this, RdE.andThen_ok, RdE.tag, RdE.mapOk, RdE.mapErr_andThen, RdE.untag, RdE.mapErr_mapErr]
    rfl
  rw [hrec, RdE.andThen_assoc]
  have hlen : Rd.Every (OkOf fun ms : List Val => ms.length = mid.length)
      ((readFields cfg (dfltEnv mid) mid).mapErr fun e => (⟨e.reason, id⟩ : CastError)) := by
    refine Rd.every_bind (readFields_every cfg mid _) fun a ha => ?_
    cases a with
    | ok a => exact ha
    | error e => trivial
  refine RdE.andThen_congr_every hlen fun ms hms => ?_
  rw [RdE.ok_andThen, RdE.andThen_assoc, RdE.mapErr_andThen, RdE.mapErr_andThen, RdE.andThen_assoc, hpost,
    RdE.andThen_assoc]
  have henv : ∀ (env env' : Env) (v : Val), Agree (pre.map Field.id)
      (Env.set (setAll env pre us) (Field.plain id (.record mid) .none).id v)
      (setAll (setAll env' pre us) mid ms) := fun env env' v i hi => by
    have hne : i ≠ id := by
      rintro rfl
      exact names_apart h.record.2.1 hi (by simp [Field.id])
    rw [setAll_of_not_mem _ _ _ _ (h.pre_mid hi)]
    simp only [Env.set, Field.id, hne, if_false]
    rw [setAll_agree [] pre us env (wf_prefix h.flat).2.1 hus i hi,
      setAll_agree [] pre us env' (wf_prefix h.flat).2.1 hus i hi]
  rw [readFields_congr cfg post _ h.after (henv _ _ _)]
  congr 1; funext ws
  show RdE.ok (us ++ .seq ms :: ws) = RdE.ok (regroup pre.length mid.length (us ++ (ms ++ ws)))
  rw [regroup_eq us ms ws _ _ hus hms]

/-- A record to be put around the middle. -/
theorem midGroups : Groups [.plain "a" (.num u8 1) .none] secondPart [.maybe "z" (.num u8 1)
    ⟨["a"], fun vs => vs == [.int 1]⟩] "r" where
  record := by decide
  flat := by decide
  unseen := by decide

/-- On every stream, what was read before is read as before, with the two values together. -/
example (S : InStream) (s s' : S.State) (v w z : Val)
    (h : (structCast be64 ([.plain "a" (.num u8 1) .none] ++ (secondPart ++ [.maybe "z" (.num u8 1)
      ⟨["a"], fun vs => vs == [.int 1]⟩]))).runOn S s = (.done (.ok [.int 1, v, w, z]), s')) :
    (structCast be64 ([.plain "a" (.num u8 1) .none] ++ .plain "r" (.record secondPart) .none ::
      [.maybe "z" (.num u8 1) ⟨["a"], fun vs => vs == [.int 1]⟩])).runOn S s =
      (.done (.ok [.int 1, .seq [v, w], z]), s') := by
  rw [C134_read be64 _ _ _ _ midGroups]
  rw [RdE.mapOk, RdE.runOn_andThen, RdE.runOn_mapErr, h]
  rfl

/-- C134, writing: the same for writes. -/
theorem C134_write (cfg : Cfg) (pre mid post : List Field) (id : String)
    (h : Groups pre mid post id) (vs : List Val) (hl : vs.length = (pre ++ (mid ++ post)).length) :
    streamCast cfg (pre ++ .plain id (.record mid) .none :: post) (regroup pre.length mid.length vs) =
      (streamCast cfg (pre ++ (mid ++ post)) vs).mapErr (relabel mid id) := by
  obtain ⟨us, ms, ws, rfl, hus, hms, hws⟩ : ∃ us ms ws, vs = us ++ (ms ++ ws) ∧ us.length = pre.length ∧
      ms.length = mid.length ∧ ws.length = post.length := by
    simp only [List.length_append] at hl
    refine ⟨vs.take pre.length, (vs.drop pre.length).take mid.length, (vs.drop pre.length).drop mid.length,
      by rw [List.take_append_drop, List.take_append_drop], ?_, ?_, ?_⟩ <;> simp <;> omega
  rw [regroup_eq us ms ws _ _ hus hms, streamCast, streamCast, writeFields_append _ _ _ _ _ _ hus,
    writeFields_append _ _ _ _ _ _ hus, writeFields_append _ _ _ _ _ _ hms, WrE.mapErr_andThen]
  have hpre : ∀ ctx, (writeFields cfg ctx pre us).mapErr (relabel mid id) = writeFields cfg ctx pre us :=
    fun ctx => by
      rw [writeFields_names cfg ctx pre us (h := fun e => e) fun f hf r => by
        rw [relabel, if_neg (h.pre_mid (List.mem_map.2 ⟨f, hf, rfl⟩))]]
      exact WrE.mapErr_self _ fun _ => rfl
  have hpost : ∀ ctx, (writeFields cfg ctx post ws).mapErr (relabel mid id) = writeFields cfg ctx post ws :=
    fun ctx => by
      rw [writeFields_names cfg ctx post ws (h := fun e => e) fun f hf r => by
        rw [relabel, if_neg fun hm => h.mid_post hm (List.mem_map.2 ⟨f, hf, rfl⟩)]]
      exact WrE.mapErr_self _ fun _ => rfl
  have hmid : ∀ ctx, (writeFields cfg ctx mid ms).mapErr (relabel mid id) =
      (writeFields cfg ctx mid ms).mapErr fun e => ⟨e.reason, id⟩ := fun ctx =>
    writeFields_names cfg ctx mid ms fun f hf r => by
      rw [relabel, if_pos (List.mem_map.2 ⟨f, hf, rfl⟩)]
  have hdeps : ∀ f ∈ pre ++ post, ∀ i ∈ fieldDeps f, i ∈ pre.map Field.id ∨ i ∈ post.map Field.id :=
    fun f hf i hi => by
      rcases List.mem_append.1 hf with hf | hf
      · exact .inl (h.deps_pre hf hi)
      · exact h.deps_post hf hi
  have hnid : ∀ f ∈ pre ++ post, ∀ i ∈ fieldDeps f, i ≠ id := fun f hf i hi => by
    rcases List.mem_append.1 hf with hf | hf
    · rintro rfl
      exact names_apart h.record.2.1 (h.deps_pre hf hi) (by simp [Field.id])
    · rintro rfl
      exact h.unseen f hf hi
  have hnmid : ∀ f ∈ pre ++ post, ∀ i ∈ fieldDeps f, i ∉ mid.map Field.id := fun f hf i hi hm =>
    (hdeps f hf i hi).elim (fun hp => h.pre_mid hp hm) (h.mid_post hm)
  have hG := sameTo_drop cfg pre [.plain id (.record mid) .none] post us [.seq ms] ws hus rfl (pre ++ post)
    (fun f _ g hg => by rw [List.mem_singleton.1 hg]; simp [fieldDeps, kindDeps])
    (fun f hf i hi => by simpa [Field.id] using hnid f hf i hi)
    (fun f _ g hg => .inr fun i hi => by simpa [Field.id] using hnid g hg i hi)
  have hF := sameTo_drop cfg pre mid post us ms ws hus hms (pre ++ post)
    (fun f hf g hg hd => by
      rcases List.mem_append.1 hf with hf | hf
      · exact h.pre_mid (List.mem_map.2 ⟨f, hf, rfl⟩) (h.deps_mid hg hd)
      · exact h.mid_post (h.deps_mid hg hd) (List.mem_map.2 ⟨f, hf, rfl⟩))
    hnmid (fun f _ g hg => .inr (hnmid g hg))
  simp only [List.cons_append, List.nil_append] at hG
  have hpp : ∀ f ∈ pre, f ∈ pre ++ post := fun f hf => List.mem_append.2 (.inl hf)
  have hqq : ∀ f ∈ post, f ∈ pre ++ post := fun f hf => List.mem_append.2 (.inr hf)
  rw [hG.fields hpp, hF.fields hpp, hpre]
  congr 1; funext _
  rw [WrE.mapErr_andThen, hpost, hF.fields hqq, writeFields, hG.fields hqq, hmid]
  congr 1
  have h1 := sameTo_drop cfg [] pre (mid ++ post) [] us (ms ++ ws) rfl hus mid
    (fun f hf g hg hd => h.pre_mid (h.deps_pre hg hd) (List.mem_map.2 ⟨f, hf, rfl⟩))
    (fun f hf i hi hp => h.pre_mid hp (h.deps_mid hf hi))
    (fun f hf g hg => by
      simp only [List.nil_append] at hg
      rcases List.mem_append.1 hg with hg | hg
      · exact .inr fun i hi hp => h.pre_mid hp (h.deps_mid hg hi)
      · exact .inl fun hd => hnmid g (hqq g hg) _ hd (List.mem_map.2 ⟨f, hf, rfl⟩))
  have h2 := sameTo_drop cfg mid post [] ms ws [] hms hws mid
    (fun f hf g hg hd => hnmid g (hqq g hg) _ hd (List.mem_map.2 ⟨f, hf, rfl⟩))
    (fun f hf i hi => h.mid_post (h.deps_mid hf hi))
    (fun f hf g hg => .inr fun i hi => h.mid_post (h.deps_mid (by simpa using hg) hi))
  simp only [List.nil_append, List.append_nil] at h1 h2
  rw [h1.fields fun f hf => hf, h2.fields fun f hf => hf, WrE.tag]
  have hstep : ∀ ctx : WCtx, (if (isDerived ctx.fs (Field.plain id (.record mid) .none).id ||
        (Field.plain id (.record mid) .none).isFrozen) = true
      then writeField cfg ctx (.plain id (.record mid) .none) (.seq ms)
      else WrE.checked (Field.plain id (.record mid) .none).constraint (.seq ms)
        (writeField cfg ctx (.plain id (.record mid) .none) (.seq ms))) =
      (writeFields cfg ⟨mid, ms⟩ mid ms).untag := fun ctx => by
    have hw : writeField cfg ctx (.plain id (.record mid) .none) (.seq ms) =
        (writeFields cfg ⟨mid, ms⟩ mid ms).untag := by rw [writeField, writeKind]
    rw [hw]
    split <;> rfl
  rw [hstep, WrE.untag, WrE.mapErr_mapErr]
  rfl

/-- Written: a number that is rejected is reported at the record. -/
example : (streamCast be64 ([.plain "a" (.num u8 1) .none] ++ .plain "r" (.record secondPart) .none ::
      [.maybe "z" (.num u8 1) ⟨["a"], fun vs => vs == [.int 1]⟩])
      [.int 0, .seq [.int 0, .seq (List.replicate 9 (.int 1))], .absent]).run =
    (.done (.error ⟨.validationFailure, "r"⟩), [0]) := by
  have h := C134_write be64 _ _ _ _ midGroups [.int 0, .int 0, .seq (List.replicate 9 (.int 1)), .absent] rfl
  exact (congrArg Wr.run h).trans rfl

/-- What refers to a field of the run by its name refers to the record if that takes the name:
both lists are accepted, and read differently. -/
theorem C134_fails_seen : ∃ (mid post : List Field) (id : String),
    WellFormed (.plain id (.record mid) .none :: post) ∧ WellFormed (mid ++ post) ∧
    structCast be64 (.plain id (.record mid) .none :: post) ≠
      ((structCast be64 (mid ++ post)).mapErr (relabel mid id)).mapOk (regroup 0 mid.length) := by
  refine ⟨[.plain "x" (.num u8 1) .none],
    [.maybe "o" (.num u8 1) ⟨["x"], fun vs => vs == [.int 1]⟩], "x", by decide, by decide, fun h => ?_⟩
  have := congrArg (fun r => Rd.run r [1, 2]) h
  exact absurd this (by
    show (Outcome.done (Except.ok [Val.seq [.int 1], .absent]), ([2] : List Byte)) ≠
      ((.done (.ok [.seq [.int 1], .present (.int 2)]), []) : Outcome (Except CastError (List Val)) × List Byte)
    simp)

end S2S.Props
